import Verif.Proofs.FtdcKinds
import Verif.Proofs.FtdcLayout
import Verif.Proofs.FtdcRuns
import Verif.Spec.FtdcMetadata

/- Lemmas for C93. -/

namespace Birch.Proofs.Ftdc
open Birch Model Model.Ftdc Spec Proofs

/-! ### reading -/

theorem meta_not_chunk {f : Fields} (h : MetaDoc f) : ¬ ChunkDoc f := by
  rintro ⟨t, ht, h1⟩
  obtain ⟨t', ht', h0⟩ := h
  rw [ht] at ht'; cases ht'
  cases t <;> simp_all [IsZero, IsOne]

theorem inForce_total : ∀ (file : List Fields) (md : Option Fields), ∃ ms, InForce md file ms
  | [], _ => ⟨[], .done⟩
  | f :: file, md => by
    by_cases hm : MetaDoc f
    · obtain ⟨ms, h⟩ := inForce_total file (some f); exact ⟨ms, .metadata hm h⟩
    · obtain ⟨ms, h⟩ := inForce_total file md
      by_cases hc : ChunkDoc f
      · exact ⟨_, .chunk hc h⟩
      · exact ⟨_, .other hm hc h⟩

theorem readPayload_md {fuel : Nat} {md : Option Doc} {buf : Bytes} {c : Chunk} (h : readPayload fuel md buf = .ok c) : c.metadata = md := by
  unfold readPayload at h
  obtain ⟨_, _, h⟩ := Res.bind_eq_ok.mp h
  obtain ⟨_, _, h⟩ := Res.bind_eq_ok.mp h
  dsimp only at h
  split at h
  · cases h
  · obtain ⟨_, _, h⟩ := Res.bind_eq_ok.mp h
    obtain ⟨_, _, h⟩ := Res.bind_eq_ok.mp h
    split at h
    · cases h
    · obtain ⟨⟨_, _, _⟩, _, h⟩ := Res.bind_eq_ok.mp h
      cases h; rfl

/-- the metadata of the chunks that were read, `a`, are the first ones of `b`, and all of them if reading did not fail -/
def Prefix (a : List (Option Doc)) (b : List (Option Fields)) (all : Bool) : Prop :=
  a.length ≤ b.length ∧ (all = true → a.length = b.length) ∧ ∀ (i : Nat) m f, a[i]? = some m → b[i]? = some f → RepMeta m f

theorem prefix_nil {b : List (Option Fields)} : Prefix [] b false := ⟨by simp, by simp, by simp⟩

theorem prefix_cons {a b} {m f} {all : Bool} (h : RepMeta m f) (hp : Prefix a b all) : Prefix (m :: a) (f :: b) all := by
  refine ⟨by have := hp.1; simp; omega, fun ha => by have := hp.2.1 ha; simp; omega, fun i m' f' h1 h2 => ?_⟩
  cases i with
  | zero => simp at h1 h2; subst h1 h2; exact h
  | succ i => simp at h1 h2; exact hp.2.2 i _ _ h1 h2

def Fine (r : Res Unit) : Bool := match r with | .ok _ => true | _ => false

theorem readChunks_md (unzip : Bytes → Option Bytes) (fuel : Nat) {md : Option Fields} {file : List Fields} {ms : List (Option Fields)} (hi : InForce md file ms) :
    ∀ (m : Option Doc) (docs : List Doc), RepDocs docs file → RepMeta m md →
      Prefix ((readChunks unzip fuel m docs).1.map Chunk.metadata) ms (Fine (readChunks unzip fuel m docs).2) := by
  induction hi with
  | done =>
    intro m docs hd _
    match docs, hd with
    | [], _ => exact ⟨by simp [readChunks], by simp [readChunks], by simp [readChunks]⟩
  | @metadata md f file ms hm _ ih =>
    intro m docs hd hmd
    match docs, hd with
    | doc :: docs, hd =>
      have := ih (some doc) docs hd.2 hd.1
      rw [readChunks, doc_meta hd.1 hm]
      simpa using this
  | @other md f file ms hm hc _ ih =>
    intro m docs hd hmd
    match docs, hd with
    | doc :: docs, hd =>
      have := ih m docs hd.2 hmd
      rw [readChunks, doc_other hd.1 hm hc]
      simpa using this
  | @chunk md f file ms hc _ ih =>
    intro m docs hd hmd
    match docs, hd with
    | doc :: docs, hd =>
      have := ih m docs hd.2 hmd
      rw [readChunks]
      obtain ⟨_, h⟩ | ⟨t, _, _, h⟩ | ⟨z, _, h⟩ := doc_chunk hd.1 hc unzip fuel m
      · rw [h]; exact prefix_nil
      · rw [h]; exact prefix_nil
      · rw [h]
        cases hz : unzip z with
        | none => exact prefix_nil
        | some buf =>
          dsimp only
          cases hp : readPayload fuel m buf with
          | ok c =>
            simp only [Res.bind, Option.toList, List.cons_append, List.nil_append, List.map_cons]
            rw [readPayload_md hp]
            exact prefix_cons hmd this
          | err e => exact prefix_nil
          | panic => exact prefix_nil
          | oof => exact prefix_nil

/-- the documents of a chunk in a file -/
def laidDocs (sub : Nat → Nat → Nat) (zip : Bytes → Bytes) (c : LaidChunk) : List Fields :=
  (match c.metadata with | none => [] | some m => [metaDocument c.ms m]) ++
    [chunkDocument c.ms (le32 ((chunkPayload sub c.first c.rest).length % 4294967296) ++ zip (chunkPayload sub c.first c.rest))]

theorem metaDocument_is (ms : Int) (m : Fields) : MetaDoc (metaDocument ms m) := by
  refine ⟨.int32 0, ?_, rfl⟩
  rw [show ascii "type" = [116, 121, 112, 101] by decide +kernel]
  simp [metaDocument, Fields.firstNamed]

theorem chunkDocument_is (ms : Int) (b : Bytes) : ChunkDoc (chunkDocument ms b) := by
  refine ⟨.int32 1, ?_, rfl⟩
  rw [show ascii "type" = [116, 121, 112, 101] by decide +kernel]
  simp [chunkDocument, Fields.firstNamed]

theorem laid_inForce (sub : Nat → Nat → Nat) (zip : Bytes → Bytes) : ∀ (cs : List LaidChunk) (md : Option Fields),
    InForce md (cs.flatMap (laidDocs sub zip)) (carried md cs)
  | [], _ => .done
  | c :: cs, md => by
    rw [List.flatMap_cons, carried, laidDocs]
    cases hc : c.metadata with
    | none => exact .chunk (chunkDocument_is _ _) (laid_inForce sub zip cs md)
    | some m => exact .metadata (metaDocument_is _ _) (.chunk (chunkDocument_is _ _) (laid_inForce sub zip cs _))

theorem laid_bytes (sub : Nat → Nat → Nat) (zip : Bytes → Bytes) : ∀ (cs : List LaidChunk),
    cs.flatMap (LaidChunk.bytes sub zip) = ((cs.flatMap (laidDocs sub zip)).map encDoc).flatten
  | [] => rfl
  | c :: cs => by
    rw [List.flatMap_cons, List.flatMap_cons, laid_bytes sub zip cs, List.map_append, List.flatten_append]
    congr 1
    unfold LaidChunk.bytes chunkLayout laidDocs
    cases c.metadata <;> simp

theorem laid_count (sub : Nat → Nat → Nat) (zip : Bytes → Bytes) : ∀ (cs : List LaidChunk) (md : Option Fields), (carried md cs).length = cs.length
  | [], _ => rfl
  | c :: cs, md => by simp [carried, laid_count sub zip cs]

theorem laid_docs_good {fsub : Nat → Nat → Nat} {zip : Bytes → Bytes} {c : LaidChunk} (h : c.Good fsub zip) :
    ∀ f ∈ laidDocs fsub zip c, f.WF ∧ (encDoc f).length < 2147483648 := by
  obtain ⟨h0, h1, hm, _, _, hp⟩ := h
  intro f hf
  unfold laidDocs at hf
  have hc : (chunkDocument c.ms (le32 ((chunkPayload fsub c.first c.rest).length % 4294967296) ++ zip (chunkPayload fsub c.first c.rest))).WF ∧
      (encDoc (chunkDocument c.ms (le32 ((chunkPayload fsub c.first c.rest).length % 4294967296) ++ zip (chunkPayload fsub c.first c.rest)))).length < 2147483648 := by
    constructor
    · simp [chunkDocument, Fields.WF, BVal.WF, NulFree]; omega
    · simp [chunkDocument, encDoc, Fields.enc, BVal.enc]; omega
  cases hmd : c.metadata with
  | none => rw [hmd] at hf; simp at hf; subst hf; exact hc
  | some m =>
    rw [hmd] at hf; simp at hf
    rcases hf with rfl | rfl
    · obtain ⟨w, hl⟩ := hm m hmd
      constructor
      · simp [metaDocument, Fields.WF, BVal.WF, NulFree, w]; omega
      · simp [encDoc] at hl; simp [metaDocument, encDoc, Fields.enc, BVal.enc]; omega
    · exact hc

/-! ### writing -/

theorem better_add_md {fsub : Nat → Nat → Nat} {fuel : Nat} {c c' : Better} {d : Doc} {e : Option Err} (h : c.add fsub fuel d = .ok (c', e)) : c'.metadata = c.metadata := by
  unfold Better.add at h
  split at h
  · obtain ⟨_, _, h⟩ := Res.bind_eq_ok.mp h; cases h; rfl
  · split at h
    · cases h; rfl
    · obtain ⟨_, _, h⟩ := Res.bind_eq_ok.mp h
      split at h
      · cases h; rfl
      · obtain ⟨⟨_, e'⟩, _, h⟩ := Res.bind_eq_ok.mp h
        cases e' <;> (cases h; rfl)

/-- all but the first chunk are without metadata -/
def Headed (md : Option Doc) (chunks : List Better) : Prop := ∃ k, chunks.map Better.metadata = md :: List.replicate k none

theorem headed_new (n : Nat) : Headed none [Better.new n] := ⟨0, rfl⟩

theorem headed_last {md : Option Doc} {chunks : List Better} {last last' : Better} (h : Headed md chunks) (hl : chunks.getLast? = some last)
    (he : last'.metadata = last.metadata) : Headed md (chunks.dropLast ++ [last']) := by
  obtain ⟨k, h⟩ := h
  refine ⟨k, ?_⟩
  rw [List.map_append, List.map_singleton, he, ← h]
  obtain ⟨ys, rfl⟩ := List.getLast?_eq_some_iff.mp hl
  simp

theorem headed_snoc {md : Option Doc} {chunks : List Better} {c : Better} (h : Headed md chunks) (hc : c.metadata = none) : Headed md (chunks ++ [c]) := by
  obtain ⟨k, h⟩ := h
  refine ⟨k + 1, ?_⟩
  rw [List.map_append, h, List.map_singleton, hc, List.replicate_succ']
  simp

theorem batch_add_md {fsub : Nat → Nat → Nat} {fuel : Nat} {c c' : Batch} {d : Doc} {e : Option Err} (h : c.add fsub fuel d = .ok (c', e)) :
    (∃ ch, c'.chunks = c.chunks ++ [ch] ∧ ch.metadata = none) ∨
    ∃ last last', c.chunks.getLast? = some last ∧ c'.chunks = c.chunks.dropLast ++ [last'] ∧ last'.metadata = last.metadata := by
  unfold Batch.add at h
  split at h
  · cases h
  · rename_i last hl
    split at h
    · obtain ⟨⟨ch, e'⟩, h1, h⟩ := Res.bind_eq_ok.mp h
      cases h
      exact .inl ⟨ch, rfl, better_add_md h1⟩
    · obtain ⟨⟨ch, e'⟩, h1, h⟩ := Res.bind_eq_ok.mp h
      cases h
      exact .inr ⟨last, ch, hl, rfl, better_add_md h1⟩

theorem batch_add_headed {fsub : Nat → Nat → Nat} {fuel : Nat} {c c' : Batch} {d : Doc} {e : Option Err} {md : Option Doc} (h : c.add fsub fuel d = .ok (c', e))
    (hh : Headed md c.chunks) : Headed md c'.chunks := by
  obtain ⟨ch, h1, h2⟩ | ⟨l, l', h1, h2, h3⟩ := batch_add_md h
  · rw [h1]; exact headed_snoc hh h2
  · rw [h2]; exact headed_last hh h1 h3

theorem batch_set_headed {c c' : Batch} {d : Doc} {md : Option Doc} (h : c.setMetadata d = .ok c') (hh : Headed md c.chunks) : Headed (some d) c'.chunks := by
  unfold Batch.setMetadata at h
  split at h
  · cases h
  · rename_i ch rest hc
    cases h
    obtain ⟨k, hk⟩ := hh
    rw [hc] at hk
    simp only [List.map_cons, List.cons.injEq] at hk
    exact ⟨k, by simp [Better.setMetadata, hk.2]⟩

/-- the first batch is `Headed`, the others have no metadata -/
def HeadedD (md : Option Doc) (bs : List Batch) : Prop := ∃ b rest, bs = b :: rest ∧ Headed md b.chunks ∧ ∀ x ∈ rest, Headed none x.chunks

theorem headedD_flat {md : Option Doc} {bs : List Batch} (h : HeadedD md bs) : Headed md (bs.map Batch.chunks).flatten := by
  obtain ⟨b, rest, rfl, ⟨k, hk⟩, hr⟩ := h
  have : ∃ j, (rest.map Batch.chunks).flatten.map Better.metadata = List.replicate j none := by
    clear hk
    induction rest with
    | nil => exact ⟨0, rfl⟩
    | cons x xs ih =>
      obtain ⟨j, hj⟩ := ih fun y hy => hr y (List.mem_cons_of_mem _ hy)
      obtain ⟨i, hi⟩ := hr x (by simp)
      exact ⟨i + 1 + j, by rw [List.map_cons, List.flatten_cons, List.map_append, hj, hi, ← List.replicate_succ, List.replicate_append_replicate]⟩
  obtain ⟨j, hj⟩ := this
  exact ⟨k + j, by rw [List.map_cons, List.flatten_cons, List.map_append, hk, hj, List.cons_append, List.replicate_append_replicate]⟩

theorem dynamic_add_headed {fsub : Nat → Nat → Nat} {fuel : Nat} {c c' : Ftdc.Dynamic} {d : Doc} {e : Option Err} {md : Option Doc} (h : c.add fsub fuel d = .ok (c', e))
    (hh : HeadedD md c.chunks) : HeadedD md c'.chunks := by
  obtain ⟨b, rest, hc, hb, hr⟩ := hh
  unfold Dynamic.add at h
  obtain ⟨⟨hash, n⟩, _, h⟩ := Res.bind_eq_ok.mp h
  dsimp only at h
  split at h
  · rw [hc] at h
    obtain ⟨⟨ch, e'⟩, h1, h⟩ := Res.bind_eq_ok.mp h
    cases h
    exact ⟨ch, rest, rfl, batch_add_headed h1 hb, hr⟩
  · split at h
    · cases h
    · rename_i last hl
      split at h
      · obtain ⟨⟨ch, e'⟩, h1, h⟩ := Res.bind_eq_ok.mp h
        cases h
        rw [hc] at hl ⊢
        cases rest with
        | nil =>
          simp at hl; subst hl
          exact ⟨ch, [], rfl, batch_add_headed h1 hb, by simp⟩
        | cons x xs =>
          refine ⟨b, (x :: xs).dropLast ++ [ch], by simp, hb, ?_⟩
          intro y hy
          rcases List.mem_append.mp hy with hy | hy
          · exact hr y (List.dropLast_subset _ hy)
          · simp at hy; subst hy
            refine batch_add_headed h1 (hr last ?_)
            have : (x :: xs).getLast? = some last := by simpa using hl
            exact List.mem_of_getLast? this
      · obtain ⟨⟨ch, e'⟩, h1, h⟩ := Res.bind_eq_ok.mp h
        cases h
        refine ⟨b, rest ++ [ch], by simp [hc], hb, ?_⟩
        intro y hy
        rcases List.mem_append.mp hy with hy | hy
        · exact hr y hy
        · simp at hy; subst hy
          exact batch_add_headed h1 (headed_new _)

theorem dynamic_set_headed {c c' : Ftdc.Dynamic} {d : Doc} {md : Option Doc} (h : c.setMetadata d = .ok c') (hh : HeadedD md c.chunks) : HeadedD (some d) c'.chunks := by
  obtain ⟨b, rest, hc, hb, hr⟩ := hh
  unfold Dynamic.setMetadata at h
  rw [hc] at h
  obtain ⟨ch, h1, h⟩ := Res.bind_eq_ok.mp h
  cases h
  exact ⟨ch, rest, rfl, batch_set_headed h1 hb, hr⟩

theorem flushWith_md {reset : Streaming → Streaming} (hr : ∀ c, (reset c).inner.metadata = c.inner.metadata) {zip : Bytes → Bytes} {now : Nat → Time} {fuel : Nat}
    {c c' : Streaming} {e : Option Err} (h : c.flushWith reset zip now fuel = .ok (c', e)) : c'.inner.metadata = c.inner.metadata := by
  unfold Streaming.flushWith at h
  split at h
  · cases h; rfl
  · split at h
    · split at h
      · cases h; rfl
      · split at h
        · cases h; rfl
        · cases h; exact hr _
    · cases h; rfl
    · cases h
    · cases h

theorem streaming_push_md {fsub : Nat → Nat → Nat} {fuel : Nat} {c c' : Streaming} {d : Doc} {e : Option Err} (h : c.push fsub fuel d = .ok (c', e)) :
    c'.inner.metadata = c.inner.metadata := by
  unfold Streaming.push at h
  obtain ⟨⟨i, e'⟩, h1, h⟩ := Res.bind_eq_ok.mp h
  cases e' <;> (cases h; exact better_add_md h1)

theorem streaming_add_md {fsub : Nat → Nat → Nat} {zip : Bytes → Bytes} {now : Nat → Time} {fuel : Nat} {c c' : Streaming} {d : Doc} {e : Option Err}
    (h : c.add fsub zip now fuel d = .ok (c', e)) : c'.inner.metadata = c.inner.metadata := by
  unfold Streaming.add at h
  split at h
  · obtain ⟨⟨c1, e1⟩, h1, h⟩ := Res.bind_eq_ok.mp h
    have hf := flushWith_md (reset := Streaming.reset) (fun _ => rfl) (show c.flushWith Streaming.reset zip now fuel = _ from h1)
    cases e1 with
    | some e1 => cases h; exact hf
    | none => rw [streaming_push_md h, hf]
  · exact streaming_push_md h

/-- a call at a time -/
theorem calls_inv {σ : Type} (m : Methods σ) (removes : Call → Bool) (P : Option Doc → σ → Prop) (ok : Call → Prop)
    (hstep : ∀ md c c' x, ok x → P md c → m.call c x = .ok c' → P (metadataAfter removes md [x]) c') :
    ∀ (xs : List Call) (md : Option Doc) (c c' : σ), (∀ x ∈ xs, ok x) → P md c → m.calls c xs = .ok c' → P (metadataAfter removes md xs) c'
  | [], md, c, c', _, hp, h => by cases h; exact hp
  | x :: xs, md, c, c', ho, hp, h => by
    rw [Methods.calls] at h
    obtain ⟨c1, h1, h⟩ := Res.bind_eq_ok.mp h
    have := calls_inv m removes P ok hstep xs _ c1 c' (fun y hy => ho y (List.mem_cons_of_mem _ hy)) (hstep md c c1 x (ho x (by simp)) hp h1) h
    exact this

/-! ### from the collector to the reader -/

/-- what a chunk of a collector is written as -/
theorem part_laid {fsub : Nat → Nat → Nat} (hsub : ∀ a b, a < 18446744073709551616 → b < 18446744073709551616 → fsub a b < 18446744073709551616)
    {zip : Bytes → Bytes} {n max : Nat} (hn : 2147483648 ≤ n) (hmax : max < 4294967295) {p : Part} (h : p.Ok fsub n max)
    (hp : ∀ b, Returns p.chunk.payload (.ok b) → (zip b).length ≤ 2147482000) {now : Time} (hnow : 0 ≤ now.nsec) :
    ∃ lc : LaidChunk, lc.Good fsub zip ∧ lc.ms = i64 (now.sec * 1000 + now.nsec / 1000000) ∧ RepMeta p.md lc.metadata ∧
      ∀ fuel, 10000000000 ≤ fuel → p.chunk.resolve zip now fuel = .ok (lc.bytes fsub zip) := by
  obtain ⟨md, docs, fss, chunk⟩ := p
  obtain ⟨hrun, hne, hfill, hroom, hmd⟩ := h
  dsimp only at *
  match fss, hne, hrun, hroom with
  | f0 :: fss, _, hrun, hroom =>
    have hroom' : fss.length ≤ max := by simp at hroom; exact hroom
    have hm : ∃ mfs, RepMeta md mfs ∧ ∀ f, mfs = some f → f.WF ∧ (encDoc f).length ≤ 2147483000 := by
      cases md with
      | none => exact ⟨none, trivial, nofun⟩
      | some m =>
        obtain ⟨mf, h1, h2⟩ := hmd m rfl
        exact ⟨some mf, h1, by rintro f h; cases h; exact ⟨repFields_wf h1, h2⟩⟩
    obtain ⟨mfs, hm1, hm2⟩ := hm
    have hst := filled_state hrun hfill (by simpa using hroom) hn
    have hpl : (zip (chunkPayload fsub f0 fss)).length ≤ 2147482000 := by
      match docs, hrun, hst with
      | d0 :: docs, hrun, hst =>
        obtain ⟨e1, e2, e3, e4⟩ := hst
        refine hp _ ⟨2147483648, fun m hm => ?_⟩
        have a := payload_ok e4 e3 (hrun.size f0 (by simp)) (by simp; omega) m (by have := hrun.size f0 (by simp); omega)
        rw [payload_layout hsub e4 (repDocs_wf _ _ hrun.rep) (hrun.size f0 (by simp)) (by omega)] at a
        exact a
      | [], hrun, _ => exact hrun.rep.elim
    refine ⟨⟨_, mfs, f0, fss⟩, ⟨?_, ?_, hm2, fun f hf => ⟨repDocs_wf _ _ hrun.rep f hf, hrun.size f hf, fun g hg => hrun.shape f hf g hg⟩, by dsimp only; omega, hpl⟩, rfl, hm1,
      fun fuel hfu => filled_layout hsub hrun hfill hroom' hn (by omega) hm1 (fun f hf => (hm2 f hf).2) hpl hnow fuel hfu⟩
    · dsimp only; omega
    · dsimp only; omega

theorem parts_laid {fsub : Nat → Nat → Nat} (hsub : ∀ a b, a < 18446744073709551616 → b < 18446744073709551616 → fsub a b < 18446744073709551616)
    {zip : Bytes → Bytes} {n max : Nat} (hn : 2147483648 ≤ n) (hmax : max < 4294967295) {now : Nat → Time} (hnow : ∀ i, 0 ≤ (now i).nsec) :
    ∀ (parts : List Part) (i : Nat), (∀ p ∈ parts, p.Ok fsub n max) → (∀ p ∈ parts, ∀ b, Returns p.chunk.payload (.ok b) → (zip b).length ≤ 2147482000) →
    ∃ cs : List LaidChunk, (∀ c ∈ cs, c.Good fsub zip) ∧ cs.map LaidChunk.ms = (List.range' i parts.length).map (fun i => i64 ((now i).sec * 1000 + (now i).nsec / 1000000)) ∧
      (∀ (j : Nat) p c, parts[j]? = some p → cs[j]? = some c → RepMeta p.md c.metadata) ∧ cs.length = parts.length ∧
      ∀ fuel, 10000000000 ≤ fuel → resolveChunks zip now fuel i (parts.map Part.chunk) = .ok (cs.flatMap (LaidChunk.bytes fsub zip))
  | [], _, _, _ => ⟨[], by simp, rfl, by simp, rfl, fun _ _ => rfl⟩
  | p :: parts, i, h, hp => by
    obtain ⟨c, c1, c2, c3, c4⟩ := part_laid hsub hn hmax (h p (by simp)) (hp p (by simp)) (hnow i)
    obtain ⟨cs, d1, d2, d3, d4, d5⟩ := parts_laid hsub hn hmax hnow parts (i + 1) (fun q hq => h q (List.mem_cons_of_mem _ hq)) (fun q hq => hp q (List.mem_cons_of_mem _ hq))
    refine ⟨c :: cs, ?_, ?_, ?_, by simp [d4], fun fuel hf => ?_⟩
    · intro x hx; rcases List.mem_cons.mp hx with rfl | hx
      · exact c1
      · exact d1 x hx
    · simp [List.range'_succ, c2, d2]
    · intro j q x hq hx
      cases j with
      | zero => simp at hq hx; subst hq hx; exact c3
      | succ j => simp at hq hx; exact d3 j q x hq hx
    · rw [List.map_cons, resolveChunks, c4 fuel hf, Res.bind_ok, d5 fuel hf]; rfl

theorem addAll_md {fsub : Nat → Nat → Nat} {n : Nat} : ∀ (docs : List Doc) {c c' : Better} {es : List (Option Err)}, c.addAll fsub n docs = .ok (c', es) → c'.metadata = c.metadata
  | [], _, _, _, h => by cases h; rfl
  | d :: docs, c, c', es, h => by
    rw [Better.addAll] at h
    obtain ⟨⟨c1, e⟩, h1, h⟩ := Res.bind_eq_ok.mp h
    obtain ⟨⟨c2, es'⟩, h2, h⟩ := Res.bind_eq_ok.mp h
    cases h
    rw [addAll_md docs h2, better_add_md h1]

theorem part_md {fsub : Nat → Nat → Nat} {n max : Nat} {p : Part} (h : p.Ok fsub n max) : p.chunk.metadata = p.md := by
  rw [addAll_md _ h.filled]
  cases p.md <;> rfl

theorem repFields_unique {d : Doc} {fs gs : Fields} (h : RepFields d fs) (h' : RepFields d gs) (hf : (encDoc fs).length < 2147483648)
    (hg : (encDoc gs).length < 2147483648) : fs = gs := by
  have a := docMarshal_rep 2147483648 h hf hf
  rw [docMarshal_rep 2147483648 h' hg hg] at a
  exact encDoc_inj (repFields_wf h) (repFields_wf h') hf (Res.ok.inj a).symm

theorem carried_head {m : Option Fields} : ∀ (cs : List LaidChunk), (∀ c ∈ cs, c.metadata = none) → carried m cs = List.replicate cs.length m
  | [], _ => rfl
  | c :: cs, h => by
    rw [carried, h c (by simp)]
    simp [carried_head cs fun x hx => h x (List.mem_cons_of_mem _ hx), List.replicate_succ]

end Birch.Proofs.Ftdc
