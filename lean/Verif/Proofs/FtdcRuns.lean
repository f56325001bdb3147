import Verif.Proofs.FtdcParts

/- Invariants of the batch and streaming collectors. -/

namespace Birch.Proofs.Ftdc
open Birch Model Model.Ftdc Spec

theorem blocks_snoc {α : Type} {n : Nat} (s : List α) : ∀ (segs : List (List α)), (∀ t ∈ segs, t.length = n) → 1 ≤ s.length → s.length ≤ n →
    Blocks n (segs ++ [s])
  | [], _, h1, h2 => ⟨h1, h2⟩
  | t :: segs, h, h1, h2 => by
    have := blocks_snoc s segs (fun t ht => h t (by simp [ht])) h1 h2
    cases segs with
    | nil => exact ⟨h t (by simp), this⟩
    | cons u segs => exact ⟨h t (by simp), this⟩

theorem run_mono {docs docs' : List Doc} {fss fss' : List Fields} (h : Run docs fss) (hr : RepDocs docs' fss') (hs : ∀ f ∈ fss', f ∈ fss) : Run docs' fss' :=
  ⟨hr, fun f hf => h.size f (hs f hf), fun f hf g hg => h.shape f (hs f hf) g (hs g hg)⟩

theorem addEach_append {σ : Type} (add : σ → Doc → Res (σ × Option Err)) (b : List Doc) : ∀ (a : List Doc) (c : σ),
    addEach add c (a ++ b) = (do let (c, es) ← addEach add c a; let (c, fs) ← addEach add c b; .ok (c, es ++ fs))
  | [], c => by
    simp only [List.nil_append, addEach, Res.bind_ok]
    cases h : addEach add c b <;> simp
  | d :: a, c => by
    simp only [List.cons_append, addEach]
    cases h : add c d with
    | ok r =>
      simp only [Res.bind_ok]
      rw [addEach_append add b a]
      cases h : addEach add r.1 a with
      | ok q =>
        simp only [Res.bind_ok]
        cases h : addEach add q.1 b <;> simp
      | _ => simp
    | _ => simp

/-! ### batch -/

structure BInv (fsub : Nat → Nat → Nat) (n size : Nat) (c : Batch) (parts : List Part) (p : Part) : Prop where
  max : c.maxSamples = size
  chunks : c.chunks = parts.map Part.chunk ++ [p.chunk]
  done : ∀ q ∈ parts, q.Ok fsub n size ∧ q.fss.length = size
  run : Run p.docs p.fss
  filled : Filled fsub n size p.md p.docs p.chunk
  room : p.fss.length ≤ size
  md : ∀ m, p.md = some m → ∃ mfs, RepFields m mfs ∧ (encDoc mfs).length ≤ 2147483000

theorem batch_add {fsub : Nat → Nat → Nat} {n size : Nat} {c : Batch} {parts : List Part} {p : Part} (h : BInv fsub n size c parts p) (hn : 2147483648 ≤ n)
    (hsz : 1 ≤ size) {d : Doc} {f : Fields} (hr : Run (p.docs ++ [d]) (p.fss ++ [f])) :
    ∃ c' parts' p', c.add fsub n d = .ok (c', none) ∧ BInv fsub n size c' parts' p' ∧ p'.fss ≠ [] ∧ (∀ g ∈ p'.fss, g ∈ p.fss ++ [f]) ∧
      ((parts'.map Part.docs).flatten ++ p'.docs = (parts.map Part.docs).flatten ++ p.docs ++ [d] ∧
        (∃ k, parts'.map Part.md ++ [p'.md] = parts.map Part.md ++ p.md :: List.replicate k none)) ∧
      (parts'.map Part.fss).flatten ++ p'.fss = (parts.map Part.fss).flatten ++ p.fss ++ [f] := by
  have hl : c.chunks.getLast? = some p.chunk := by rw [h.chunks]; simp
  have hi := filled_info h.run h.filled (by have := h.room; omega) hn
  have hdl := repDocs_len _ _ h.run.rep
  unfold Batch.add
  rw [hl]
  simp only
  rw [hi, h.max]
  by_cases hfull : p.fss.length ≥ size
  · rw [if_pos hfull]
    have hne : p.fss ≠ [] := by intro h0; rw [h0] at hfull; simp at hfull; omega
    have hd : Run ([] ++ [d]) ([] ++ [f]) := by
      have hrep := hr.rep
      have : RepDocs [d] [f] := repDocs_last _ _ _ _ h.run.rep hr.rep
      exact run_mono hr this (by simp)
    obtain ⟨c', h1, h2⟩ := run_add (fsub := fsub) (md := none) hd (filled_nil fsub n size none) (Nat.zero_le _) hn
    refine ⟨⟨size, c.chunks ++ [c']⟩, parts ++ [p], ⟨none, [d], [f], c'⟩, ?_, ⟨rfl, ?_, ?_, hd, h2, by simpa using hsz, nofun⟩, by simp, by simp, ⟨by simp, 1, by simp⟩, by simp⟩
    · simp only [newWith] at h1; simp only [h1, Res.bind_ok]
    · simp [h.chunks]
    · intro q hq
      rcases List.mem_append.mp hq with hq | hq
      · exact h.done q hq
      · simp only [List.mem_singleton] at hq; subst hq
        exact ⟨⟨h.run, hne, h.filled, by have := h.room; omega, h.md⟩, by have := h.room; omega⟩
  · rw [if_neg hfull]
    obtain ⟨c', h1, h2⟩ := run_add (fsub := fsub) hr h.filled (by omega) hn
    refine ⟨⟨size, c.chunks.dropLast ++ [c']⟩, parts, ⟨p.md, p.docs ++ [d], p.fss ++ [f], c'⟩, ?_, ⟨rfl, ?_, h.done, hr, h2, by simp; omega, h.md⟩, by simp, by simp, ⟨by simp, 0, by simp⟩, by simp⟩
    · simp only [h1, Res.bind_ok]
    · simp [h.chunks]
where
  repDocs_last : ∀ (a : List Doc) (fa : List Fields) (b : List Doc) (fb : List Fields), RepDocs a fa → RepDocs (a ++ b) (fa ++ fb) → RepDocs b fb
  | [], [], _, _, _, h => h
  | _ :: a, _ :: fa, b, fb, h, h' => repDocs_last a fa b fb h.2 h'.2
  | [], _ :: _, _, _, h, _ => h.elim
  | _ :: _, [], _, _, h, _ => h.elim

theorem batch_addEach {fsub : Nat → Nat → Nat} {n size : Nat} (hn : 2147483648 ≤ n) (hsz : 1 ≤ size) {all : List Doc} {fall : List Fields} (hall : Run all fall) :
    ∀ (docs : List Doc) (fss : List Fields) {c : Batch} {parts : List Part} {p : Part}, BInv fsub n size c parts p →
    (∀ f ∈ p.fss ++ fss, f ∈ fall) → RepDocs docs fss →
    ∃ c' parts' p', addEach (fun c d => c.add fsub n d) c docs = .ok (c', docs.map fun _ => none) ∧ BInv fsub n size c' parts' p' ∧
      (p.fss ≠ [] ∨ fss ≠ [] → p'.fss ≠ []) ∧
      ((parts'.map Part.docs).flatten ++ p'.docs = (parts.map Part.docs).flatten ++ p.docs ++ docs ∧
        (∃ k, parts'.map Part.md ++ [p'.md] = parts.map Part.md ++ p.md :: List.replicate k none)) ∧
      (parts'.map Part.fss).flatten ++ p'.fss = (parts.map Part.fss).flatten ++ p.fss ++ fss
  | [], [], c, parts, p, h, _, _ => ⟨c, parts, p, rfl, h, by simp, ⟨by simp, 0, by simp⟩, by simp⟩
  | d :: docs, f :: fss, c, parts, p, h, hm, hr => by
    have hrun : Run (p.docs ++ [d]) (p.fss ++ [f]) := run_mono hall (repDocs_append _ _ _ _ h.run.rep ⟨hr.1, trivial⟩) (by
      intro g hg; apply hm; simp at hg ⊢; rcases hg with hg | hg <;> simp [hg])
    obtain ⟨c1, parts1, p1, h1, h2, h3, h6, ⟨h4, k, h7⟩, h5⟩ := batch_add h hn hsz hrun
    obtain ⟨c2, parts2, p2, g1, g2, g3, ⟨g4, k', g7⟩, g5⟩ := batch_addEach hn hsz hall docs fss h2 (by
      intro g hg; rcases List.mem_append.mp hg with hg | hg
      · apply hm; have := h6 g hg; simp at this ⊢; rcases this with hg | hg <;> simp [hg]
      · exact hm g (by simp [hg])) hr.2
    refine ⟨c2, parts2, p2, ?_, g2, fun _ => g3 (.inl h3), ⟨?_, k + k', ?_⟩, ?_⟩
    · simp only [addEach, h1, Res.bind_ok, g1, List.map_cons]
    · rw [g4, h4]; simp
    · rw [g7, List.append_cons, h7]; simp [List.replicate_append_replicate]
    · rw [g5, h5]; simp
  | [], _ :: _, _, _, _, _, _, h => h.elim
  | _ :: _, [], _, _, _, _, _, h => h.elim

/-! ### streaming -/

theorem resolveChunks_append (zip : Bytes → Bytes) (now : Nat → Time) (n : Nat) (c : Better) (cs : List Better) (i : Nat) :
    resolveChunks zip now n i (cs ++ [c]) =
      (do let b ← resolveChunks zip now n i cs; let b' ← c.resolve zip (now (i + cs.length)) n; .ok (b ++ b')) := by
  induction cs generalizing i with
  | nil =>
    simp only [List.nil_append, resolveChunks, Res.bind_ok, List.length_nil, Nat.add_zero, List.append_nil]
  | cons x cs ih =>
    simp only [List.cons_append, resolveChunks, ih, List.length_cons]
    rw [show i + 1 + cs.length = i + (cs.length + 1) by omega]
    cases x.resolve zip (now i) n with
    | ok bx =>
      simp only [Res.bind_ok]
      cases resolveChunks zip now n (i + 1) cs with
      | ok br =>
        simp only [Res.bind_ok]
        cases c.resolve zip (now (i + (cs.length + 1))) n <;> simp
      | _ => simp
    | _ => simp

/-- `parts` are written, `p` is in the collector -/
structure SInv (fsub : Nat → Nat → Nat) (zip : Bytes → Bytes) (now : Nat → Time) (n max : Nat) (c : Streaming) (parts : List Part) (p : Part) : Prop where
  lim : c.maxSamples = max
  count : c.count = p.fss.length
  inner : c.inner = p.chunk
  flushes : c.flushes = parts.length
  out : resolveChunks zip now n 0 (parts.map Part.chunk) = .ok c.output.out
  done : ∀ q ∈ parts, q.Ok fsub n max
  small : ∀ q ∈ parts, ∀ b, Returns q.chunk.payload (.ok b) → (zip b).length ≤ 2147482000
  run : Run p.docs p.fss
  filled : Filled fsub n max p.md p.docs p.chunk
  room : p.fss.length ≤ max + 1
  md : ∀ m, p.md = some m → ∃ mfs, RepFields m mfs ∧ (encDoc mfs).length ≤ 2147483000

/-- the empty part -/
def Part.empty (max : Nat) (md : Option Doc) : Part := ⟨md, [], [], newWith max md⟩

theorem run_nil : Run [] [] := ⟨trivial, by simp, by simp⟩

/-- writing the samples of the collector -/
theorem stream_flush {fsub : Nat → Nat → Nat}
    (hsub : ∀ a b, a < 18446744073709551616 → b < 18446744073709551616 → fsub a b < 18446744073709551616)
    {zip : Bytes → Bytes} {unzip : Bytes → Option Bytes} (hz : ∀ b, unzip (zip b) = some b) {now : Nat → Time} {n max : Nat} (hn : 10000000000 ≤ n)
    (hmax : max < 4294967295) {c : Streaming} {parts : List Part} {p : Part} (h : SInv fsub zip now n max c parts p) (hne : p.fss ≠ [])
    (hp : ∀ b, Returns p.chunk.payload (.ok b) → (zip b).length ≤ 2147482000) (ha : AllOrNothing c.output.plan)
    (reset : Streaming → Streaming) (md : Option Doc) (hmd : md = p.md ∨ md = none)
    (hreset : ∀ c, (reset c).maxSamples = c.maxSamples ∧ (reset c).count = 0 ∧ (reset c).flushes = c.flushes ∧ (reset c).output = c.output)
    (hinner : ∀ c : Streaming, c.maxSamples = max → c.inner.metadata = p.md → c.inner.maxDeltas = max → (reset c).inner = newWith max md) :
    ∃ c' e, c.flushWith reset zip now n = .ok (c', e) ∧ (e = none → SInv fsub zip now n max c' (parts ++ [p]) (Part.empty max md)) ∧
      (e ≠ none → SInv fsub zip now n max c' parts p) ∧ AllOrNothing c'.output.plan ∧
      (c.output.plan = [] → e = none ∧ c'.output.plan = []) := by
  obtain ⟨gss, _, _, hres⟩ := run_yields hsub hz h.run hne h.filled h.room (by omega) (by have := h.room; omega) h.md hp (now c.flushes)
  have hres := (hres n hn).1
  have hinf := filled_info h.run h.filled h.room (by omega)
  have hst := filled_state h.run h.filled h.room (by omega)
  have hpos : p.fss.length ≠ 0 := by simpa using hne
  generalize (gss.map (fun g => encDoc g.1)).flatten = payload at hres
  unfold Streaming.flushWith
  rw [h.inner, hinf, if_neg hpos, hres]
  simp only
  have hdone : ∀ q ∈ parts ++ [p], q.Ok fsub n max := by
    intro q hq
    rcases List.mem_append.mp hq with hq | hq
    · exact h.done q hq
    · simp only [List.mem_singleton] at hq; subst hq
      exact ⟨h.run, hne, h.filled, h.room, h.md⟩
  have hsml : ∀ q ∈ parts ++ [p], ∀ b, Returns q.chunk.payload (.ok b) → (zip b).length ≤ 2147482000 := by
    intro q hq
    rcases List.mem_append.mp hq with hq | hq
    · exact h.small q hq
    · simp only [List.mem_singleton] at hq; subst hq; exact hp
  have hout : resolveChunks zip now n 0 ((parts ++ [p]).map Part.chunk) = .ok (c.output.out ++ payload) := by
    rw [List.map_append, List.map_cons, List.map_nil, resolveChunks_append, h.out]
    simp only [Res.bind_ok, List.length_map, Nat.zero_add]
    rw [← h.flushes, hres]; rfl
  have ok : ∀ w : Sink, w.out = c.output.out ++ payload →
      SInv fsub zip now n max (reset { c with output := w, inner := p.chunk, flushes := c.flushes + 1 }) (parts ++ [p]) (Part.empty max md) := by
    intro w hw
    obtain ⟨r1, r2, r3, r4⟩ := hreset { c with output := w, inner := p.chunk, flushes := c.flushes + 1 }
    refine ⟨r1.trans h.lim, r2, ?_, ?_, ?_, hdone, hsml, run_nil, filled_nil fsub n max md, Nat.zero_le _, ?_⟩
    · exact hinner { c with output := w, inner := p.chunk, flushes := c.flushes + 1 } h.lim hst.2.1 hst.1
    · rw [r3]; simp [h.flushes]
    · rw [r4, hout, hw]
    · intro m hm
      rcases hmd with rfl | rfl
      · exact h.md m hm
      · cases hm
  unfold Sink.write
  match hpl : c.output.plan with
  | [] =>
    simp only
    rw [if_neg (by simp)]
    refine ⟨_, none, rfl, fun _ => ok _ rfl, by simp, ?_, fun _ => ⟨rfl, ?_⟩⟩
    · rw [(hreset _).2.2.2]; simp only; intro x hx; simp at hx
    · rw [(hreset _).2.2.2]
  | none :: plan =>
    simp only
    rw [if_neg (by simp)]
    refine ⟨_, none, rfl, fun _ => ok _ rfl, by simp, ?_, by simp⟩
    rw [(hreset _).2.2.2]; intro x hx; exact ha x (by rw [hpl]; simp [hx])
  | some (k, e) :: plan =>
    have := ha (some (k, e)) (by rw [hpl]; simp)
    simp only [reduceCtorEq, false_or, Option.some.injEq, Prod.mk.injEq] at this
    obtain ⟨e', rfl, rfl⟩ := this
    simp only [List.take_zero, List.append_nil]
    refine ⟨_, some e', rfl, by simp, fun _ => ⟨h.lim, h.count, rfl, h.flushes, h.out, h.done, h.small, h.run, h.filled, h.room, h.md⟩, ?_, by simp⟩
    intro x hx; exact ha x (by rw [hpl]; simp at hx ⊢; simp [hx])

/-- a document of the same shape while there is room -/
theorem stream_push {fsub : Nat → Nat → Nat} {zip : Bytes → Bytes} {now : Nat → Time} {n max : Nat} (hn : 10000000000 ≤ n)
    {c : Streaming} {parts : List Part} {p : Part} (h : SInv fsub zip now n max c parts p) {d : Doc} {f : Fields}
    (hr : Run (p.docs ++ [d]) (p.fss ++ [f])) (hroom : p.fss.length ≤ max) :
    ∃ c' p', c.push fsub n d = .ok (c', none) ∧ SInv fsub zip now n max c' parts p' ∧ p'.md = p.md ∧ p'.docs = p.docs ++ [d] ∧
      p'.fss = p.fss ++ [f] ∧ c'.output = c.output := by
  obtain ⟨b, h1, h2⟩ := run_add (fsub := fsub) hr h.filled hroom (by omega)
  refine ⟨{ c with inner := b, count := c.count + 1 }, ⟨p.md, p.docs ++ [d], p.fss ++ [f], b⟩, ?_, ?_, rfl, rfl, rfl, rfl⟩
  · unfold Streaming.push; rw [h.inner, h1]; rfl
  · exact ⟨h.lim, by simp [h.count], rfl, h.flushes, h.out, h.done, h.small, hr, h2, by simp; omega, h.md⟩

theorem streaming_reset_ok : ∀ c : Streaming, (Streaming.reset c).maxSamples = c.maxSamples ∧ (Streaming.reset c).count = 0 ∧
    (Streaming.reset c).flushes = c.flushes ∧ (Streaming.reset c).output = c.output := fun _ => ⟨rfl, rfl, rfl, rfl⟩

theorem streaming_reset_inner {max : Nat} {md : Option Doc} : ∀ c : Streaming, c.maxSamples = max → c.inner.metadata = md → c.inner.maxDeltas = max →
    (Streaming.reset c).inner = newWith max md := by
  intro c _ h1 h2
  subst h1; subst h2
  simp only [Streaming.reset, Better.reset]
  cases h : c.inner.metadata <;> simp [newWith, Better.new, Better.setMetadata]

/-- `Add`: either the document is in, or a flush failed and nothing has changed.  A chunk is written exactly when it is full. -/
theorem stream_add {fsub : Nat → Nat → Nat}
    (hsub : ∀ a b, a < 18446744073709551616 → b < 18446744073709551616 → fsub a b < 18446744073709551616)
    {zip : Bytes → Bytes} {unzip : Bytes → Option Bytes} (hz : ∀ b, unzip (zip b) = some b) {now : Nat → Time} {n max : Nat} (hn : 10000000000 ≤ n)
    (hmax : max < 4294967295) {c : Streaming} {parts : List Part} {p : Part} (h : SInv fsub zip now n max c parts p)
    (hp : ∀ b, Returns p.chunk.payload (.ok b) → (zip b).length ≤ 2147482000) (ha : AllOrNothing c.output.plan) {d : Doc} {f : Fields}
    (hr : Run (p.docs ++ [d]) (p.fss ++ [f])) :
    ∃ c' e, c.add fsub zip now n d = .ok (c', e) ∧ AllOrNothing c'.output.plan ∧ (c.output.plan = [] → e = none ∧ c'.output.plan = []) ∧
      (e ≠ none → SInv fsub zip now n max c' parts p) ∧
      (e = none → ∃ p', p'.md = p.md ∧
        ((p.fss.length = max + 1 ∧ SInv fsub zip now n max c' (parts ++ [p]) p' ∧ p'.docs = [d] ∧ p'.fss = [f]) ∨
         (SInv fsub zip now n max c' parts p' ∧ p'.docs = p.docs ++ [d] ∧ p'.fss = p.fss ++ [f]))) := by
  unfold Streaming.add
  rw [h.lim, h.count]
  by_cases hfull : (p.fss.length : Int) - 1 ≥ max
  · rw [if_pos hfull]
    have hlen : p.fss.length = max + 1 := by have := h.room; omega
    have hne : p.fss ≠ [] := by intro h0; rw [h0] at hlen; simp at hlen
    obtain ⟨c1, e, h1, h2, h3, h4, h5⟩ := stream_flush hsub hz hn hmax h hne hp ha Streaming.reset p.md (.inl rfl) streaming_reset_ok
      streaming_reset_inner
    unfold Streaming.flush
    rw [h1]
    simp only [Res.bind_ok]
    cases e with
    | some e => exact ⟨c1, some e, rfl, h4, fun h0 => absurd (h5 h0).1 (by simp), fun _ => h3 (by simp), by simp⟩
    | none =>
      simp only
      have hd : Run ((Part.empty max p.md).docs ++ [d]) ((Part.empty max p.md).fss ++ [f]) :=
        run_mono hr (show RepDocs [d] [f] from batch_add.repDocs_last _ _ _ _ h.run.rep hr.rep) (by simp [Part.empty])
      obtain ⟨c2, p2, g1, g2, g3, g4, g5, g6⟩ := stream_push hn (h2 rfl) hd (Nat.zero_le _)
      refine ⟨c2, none, g1, by rw [g6]; exact h4, fun h0 => ⟨rfl, by rw [g6]; exact (h5 h0).2⟩, by simp, fun _ => ⟨p2, g3, .inl ⟨hlen, g2, g4, g5⟩⟩⟩
  · rw [if_neg hfull]
    obtain ⟨c2, p2, g1, g2, g3, g4, g5, g6⟩ := stream_push hn h hr (by omega)
    exact ⟨c2, none, g1, by rw [g6]; exact ha, fun h0 => ⟨rfl, by rw [g6]; exact h0⟩, by simp, fun _ => ⟨p2, g3, .inr ⟨g2, g4, g5⟩⟩⟩

theorem stream_addEach {fsub : Nat → Nat → Nat}
    (hsub : ∀ a b, a < 18446744073709551616 → b < 18446744073709551616 → fsub a b < 18446744073709551616)
    {zip : Bytes → Bytes} {unzip : Bytes → Option Bytes} (hz : ∀ b, unzip (zip b) = some b) {now : Nat → Time} {n max : Nat} (hn : 10000000000 ≤ n)
    (hmax : max < 4294967295) {all : List Doc} {fall : List Fields} (hall : Run all fall) {md : Option Doc} (hsm : SmallChunks fsub zip max md all) :
    ∀ (docs : List Doc) (fss : List Fields) {c : Streaming} {parts : List Part} {p : Part}, SInv fsub zip now n max c parts p → p.md = md →
    (∀ q ∈ parts, q.fss.length = max + 1 ∧ q.md = md) → AllOrNothing c.output.plan → (∀ f ∈ p.fss ++ fss, f ∈ fall) → (p.docs ++ docs).Sublist all → RepDocs docs fss →
    ∃ c' es parts' p', addEach (fun c d => c.add fsub zip now n d) c docs = .ok (c', es) ∧ es.length = docs.length ∧
      SInv fsub zip now n max c' parts' p' ∧ p'.md = md ∧ (∀ q ∈ parts', q.fss.length = max + 1 ∧ q.md = md) ∧ AllOrNothing c'.output.plan ∧ p'.docs.Sublist all ∧
      (c.output.plan = [] → es = docs.map (fun _ => none) ∧ c'.output.plan = []) ∧ (p'.fss = [] → p.fss = [] ∧ parts' = parts) ∧
      (parts'.map Part.fss).flatten ++ p'.fss = (parts.map Part.fss).flatten ++ p.fss ++ taken fss (es.map Option.isNone)
  | [], [], c, parts, p, h, h1, h2, h3, h4, h5, h6 =>
    ⟨c, [], parts, p, rfl, rfl, h, h1, h2, h3, by simpa using h5, by simp, by simp, by simp [taken]⟩
  | d :: docs, f :: fss, c, parts, p, h, h1, h2, h3, h4, h5, h6 => by
    have hrun : Run (p.docs ++ [d]) (p.fss ++ [f]) := run_mono hall (repDocs_append _ _ _ _ h.run.rep ⟨h6.1, trivial⟩) (by
      intro g hg; apply h4; simp at hg ⊢; rcases hg with hg | hg <;> simp [hg])
    have hps : p.docs.Sublist all := (List.sublist_append_left _ _).trans h5
    obtain ⟨c1, e, a1, a2, a3, a4, a5⟩ := stream_add hsub hz hn hmax h (hsm p.docs n p.chunk _ hps (by omega) (h1 ▸ h.filled)) h3 hrun
    have step : ∃ parts1 p1, SInv fsub zip now n max c1 parts1 p1 ∧ p1.md = md ∧ (∀ q ∈ parts1, q.fss.length = max + 1 ∧ q.md = md) ∧
        (∀ g ∈ p1.fss ++ fss, g ∈ fall) ∧ (p1.docs ++ docs).Sublist all ∧ (p1.fss = [] → p.fss = [] ∧ parts1 = parts) ∧
        (parts1.map Part.fss).flatten ++ p1.fss = (parts.map Part.fss).flatten ++ p.fss ++ (if e.isNone then [f] else []) := by
      cases e with
      | some e =>
        refine ⟨parts, p, a4 (by simp), h1, h2, ?_, ?_, by simp, by simp⟩
        · intro g hg; apply h4; simp at hg ⊢; rcases hg with hg | hg <;> simp [hg]
        · exact ((List.sublist_cons_self d docs).append_left p.docs).trans h5
      | none =>
        obtain ⟨p1, b1, b2⟩ := a5 rfl
        rcases b2 with ⟨b2, b3, b4, b5⟩ | ⟨b3, b4, b5⟩
        · refine ⟨parts ++ [p], p1, b3, b1.trans h1, ?_, ?_, ?_, by simp [b5], by simp [b5]⟩
          · intro q hq
            rcases List.mem_append.mp hq with hq | hq
            · exact h2 q hq
            · simp only [List.mem_singleton] at hq; subst hq; exact ⟨b2, h1⟩
          · intro g hg; apply h4; rw [b5] at hg; simp at hg ⊢; rcases hg with hg | hg <;> simp [hg]
          · rw [b4]; exact (List.sublist_append_right _ _).trans h5
        · refine ⟨parts, p1, b3, b1.trans h1, h2, ?_, ?_, by simp [b5], by simp [b5]⟩
          · intro g hg; apply h4; rw [b5] at hg; simpa using hg
          · rw [b4]; simpa using h5
    obtain ⟨parts1, p1, s1, s2, s3, s4, s5, s6, s7⟩ := step
    obtain ⟨c2, es, parts2, p2, g1, g2, g3, g4, g5, g6, g7, g8, g9, g10⟩ := stream_addEach hsub hz hn hmax hall hsm docs fss s1 s2 s3 a2 s4 s5 h6.2
    refine ⟨c2, e :: es, parts2, p2, ?_, by simp [g2], g3, g4, g5, g6, g7, ?_, ?_, ?_⟩
    · simp only [addEach, a1, Res.bind_ok, g1]
    · intro h0
      obtain ⟨rfl, h0⟩ := a3 h0
      obtain ⟨rfl, h0⟩ := g8 h0
      exact ⟨rfl, h0⟩
    · intro h0
      obtain ⟨x, rfl⟩ := g9 h0
      exact s6 x
    · rw [g10, s7]
      cases e <;> simp [taken]
  | [], _ :: _, _, _, _, _, _, _, _, _, _, h => h.elim
  | _ :: _, [], _, _, _, _, _, _, _, _, _, h => h.elim

/-! ### sizes -/

theorem encodeValue_length (z : Int) : (encodeValue z).length ≤ 10 :=
  put_length 9 _ (Nat.lt_trans (UInt64.toNat_lt _) (by decide))

theorem code_length : ∀ (l : List Int) (z : Nat), (code z l).length ≤ (if z = 0 then 0 else 20) + 30 * l.length
  | [], 0 => by simp [code]
  | [], z + 1 => by
    have a := encodeValue_length 0; have b := encodeValue_length z
    simp [code]; omega
  | d :: l, z => by
    have hc : code z (d :: l) = if d = 0 then code (z + 1) l
        else (if z = 0 then [] else encodeValue 0 ++ encodeValue ((z : Int) - 1)) ++ encodeValue d ++ code 0 l := by
      cases z <;> rfl
    rw [hc]
    by_cases hd : d = 0
    · rw [if_pos hd]
      have := code_length l (z + 1)
      simp only [Nat.add_one_ne_zero, if_false, List.length_cons] at this ⊢
      split <;> omega
    · rw [if_neg hd]
      have := code_length l 0
      have a := encodeValue_length 0; have b := encodeValue_length ((z : Int) - 1); have e := encodeValue_length d
      simp only [if_true, List.length_cons, List.length_append] at this ⊢
      split
      · simp; omega
      · simp only [List.length_append]; omega

theorem rows_total (deltas : List Int) (max s : Nat) : ∀ n i, (rows deltas max s n i).flatten.length = n * s
  | 0, _ => by simp [rows]
  | n + 1, i => by
    simp only [rows, List.flatten_cons, List.length_append, row_length, rows_total deltas max s n, Nat.succ_mul]; omega

theorem repDocs_sublist : ∀ {sel docs : List Doc}, sel.Sublist docs → ∀ {fss : List Fields}, RepDocs docs fss → ∃ fsel, fsel.Sublist fss ∧ RepDocs sel fsel
  | _, _, .slnil, fss, _ => ⟨[], by simp, trivial⟩
  | _, _, .cons a h, [], hr => hr.elim
  | _, _, .cons a h, f :: fss, hr => by
    obtain ⟨fsel, h1, h2⟩ := repDocs_sublist h hr.2
    exact ⟨fsel, h1.cons f, h2⟩
  | _, _, .cons_cons a h, [], hr => hr.elim
  | _, _, .cons_cons a h, f :: fss, hr => by
    obtain ⟨fsel, h1, h2⟩ := repDocs_sublist h hr.2
    exact ⟨f :: fsel, h1.cons_cons f, hr.1, h2⟩

theorem collect_mem {max : Nat} {P : Fields → Prop} : ∀ (rest kept : List Fields), (∀ f ∈ kept, P f) → (∀ f ∈ rest, P f) → ∀ f ∈ (collect max kept rest).2, P f
  | [], kept, h, _ => h
  | g :: rest, kept, h, h' => by
    simp only [collect]
    refine collect_mem rest _ ?_ (fun f hf => h' f (by simp [hf]))
    split
    · intro f hf
      rcases List.mem_append.mp hf with hf | hf
      · exact h f hf
      · simp only [List.mem_singleton] at hf; subst hf; exact h' _ (by simp)
    · exact h

/-- documents of `L` bytes make chunks of at most `L + 28 + 30 * L * max` bytes before compression -/
theorem smallChunks_of {docs : List Doc} {fss : List Fields} (hd : RepDocs docs fss) {L : Nat} (hL : ∀ fs ∈ fss, (encDoc fs).length ≤ L)
    (hL' : L < 2147483648) {max : Nat} (hmax : max < 4294967295) {zip : Bytes → Bytes}
    (hz : ∀ b, b.length ≤ L + 28 + 30 * (L * max) → (zip b).length ≤ 2147482000) (fsub : Nat → Nat → Nat) (md : Option Doc) :
    SmallChunks fsub zip max md docs := by
  intro sel n c es hsel hn hadd p ⟨N, hp⟩
  obtain ⟨fsel, hs1, hs2⟩ := repDocs_sublist hsel hd
  have hLs : ∀ fs ∈ fsel, (encDoc fs).length ≤ L := fun f hf => hL f (hs1.subset hf)
  obtain ⟨c', es', d0, h1, h2, h3, _, h4⟩ := collect_ok (fuel := n) sel fsel
    (by cases md <;> exact ⟨rfl, rfl, rfl, rfl, rfl⟩ : State fsub max md (newWith max md) none []) hs2
    (fun fs hfs => ⟨by have := hLs fs hfs; omega, by have := hLs fs hfs; omega⟩)
  rw [hadd] at h1
  cases h1
  have hk := collect_mem (max := max) (P := fun f => (encDoc f).length ≤ L) fsel [] (by simp) hLs
  have hp : c.payload (N + 2147483648) = .ok p := hp (N + 2147483648) (by omega)
  match d0, hkk : (collect max [] fsel).2, h3 with
  | none, [], ⟨_, _, h3, _⟩ =>
    unfold Better.payload at hp
    rw [h3] at hp
    simp at hp
  | some d0, f0 :: rest, ⟨e1, _, h3, h5⟩ =>
    have hf0 := hk f0 (by rw [hkk]; simp)
    have hcap := h5.cap
    have hnum := h5.num
    rw [hnum, e1] at hcap
    rw [payload_ok h5 h3 (by omega) (by omega) (N + 2147483648) (by omega)] at hp
    cases hp
    apply hz
    have hlast : c.last.length ≤ L := by
      rw [last_length h5, length_numsF]; have := countF_le f0; simp only [encDoc, wrapDoc_length] at hf0; omega
    have hc := code_length (rows c.deltas c.maxDeltas c.numSamples c.last.length 0).flatten 0
    rw [rows_total, if_pos rfl] at hc
    have hm : c.last.length * c.numSamples ≤ L * max := Nat.mul_le_mul hlast (by omega)
    simp only [payloadOf, deltaBytes, List.length_append, le32_length]
    omega

end Birch.Proofs.Ftdc
