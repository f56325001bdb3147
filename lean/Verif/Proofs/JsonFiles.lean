import Verif.Spec.JsonFiles
import Verif.Spec.JsonStream
import Verif.Proofs.FtdcBatches
import Verif.Proofs.ExtJson
import Verif.Props.JsonRead

/- From JSON lines to FTDC files (C105). -/

namespace Birch.Proofs.JsonFiles
open Birch Model Spec Proofs Model.ExtJson Model.Ftdc Model.JsonFiles Spec.JsonFiles Spec.Events Proofs.Ftdc Proofs.ExtJson Proofs.Gjson

theorem lineDoc_says {S : Gjson.Strconv} {C : Clock} {l : Bytes} {fs : Fields} (h : Says S C l fs) (hl : (encDoc fs).length < 2147483648) :
    ∃ d, RepFields d fs ∧ ∀ n, l.length ≤ n → lineDoc S C n l = .ok d := by
  obtain ⟨⟨lax, es, ht, hr⟩, hw⟩ := h
  obtain ⟨ws, h1, h2⟩ := readsFields_conv hr
  obtain ⟨d, h3, h4⟩ := buildDoc_rep fs hw (by simp only [encDoc, wrapDoc_length] at hl; omega)
  refine ⟨d, h4, fun n hn => ?_⟩
  unfold lineDoc
  rw [unmarshalDocument_obj S ht (fun hm => by cases Props.C55_minus ht hm) hn, (convElems_iff S es ws).mp h1]
  exact h2.trans h3

theorem add_max {fsub : Nat → Nat → Nat} {n : Nat} {c c' : Ftdc.Dynamic} {d : Doc} {e : Option Err} (h : c.add fsub n d = .ok (c', e)) : c'.maxSamples = c.maxSamples := by
  unfold Ftdc.Dynamic.add at h
  obtain ⟨⟨a, b⟩, _, h⟩ := Res.bind_eq_ok.mp h
  dsimp only at h
  split at h
  · split at h
    · cases h
    · obtain ⟨⟨ch, e⟩, _, h⟩ := Res.bind_eq_ok.mp h; cases h; rfl
  · split at h
    · cases h
    · split at h
      · obtain ⟨⟨ch, e⟩, _, h⟩ := Res.bind_eq_ok.mp h; cases h; rfl
      · obtain ⟨⟨ch, e⟩, _, h⟩ := Res.bind_eq_ok.mp h; cases h; rfl

theorem addEach_max {fsub : Nat → Nat → Nat} {n : Nat} : ∀ {docs : List Doc} {c c' : Ftdc.Dynamic} {es : List (Option Err)},
    addEach (fun c d => c.add fsub n d) c docs = .ok (c', es) → c'.maxSamples = c.maxSamples
  | [], _, _, _, h => by cases h; rfl
  | d :: docs, c, c', es, h => by
    simp only [addEach] at h
    obtain ⟨⟨c1, e⟩, h1, h⟩ := Res.bind_eq_ok.mp h
    obtain ⟨⟨c2, es'⟩, h2, h⟩ := Res.bind_eq_ok.mp h
    cases h
    rw [addEach_max h2, add_max h1]

theorem addEach_snoc {C : Type} {f : C → Doc → Res (C × Option Err)} {d : Doc} : ∀ {docs : List Doc} {c c1 c2 : C},
    addEach f c docs = .ok (c1, docs.map fun _ => none) → addEach f c (docs ++ [d]) = .ok (c2, (docs ++ [d]).map fun _ => none) → f c1 d = .ok (c2, none)
  | [], c, c1, c2, h1, h2 => by
    simp only [addEach, List.nil_append] at h1 h2
    cases h1
    obtain ⟨⟨c3, e⟩, h3, h2⟩ := Res.bind_eq_ok.mp h2
    simp at h2
    rw [h3, h2.1, h2.2]
  | x :: docs, c, c1, c2, h1, h2 => by
    simp only [addEach, List.cons_append] at h1 h2
    obtain ⟨⟨c3, e⟩, h3, h1⟩ := Res.bind_eq_ok.mp h1
    obtain ⟨⟨c4, es⟩, h4, h1⟩ := Res.bind_eq_ok.mp h1
    rw [h3, Res.bind_ok] at h2
    obtain ⟨⟨c5, es'⟩, h5, h2⟩ := Res.bind_eq_ok.mp h2
    simp only [Res.ok.injEq, Prod.mk.injEq, List.map_cons, List.cons.injEq] at h1 h2
    exact addEach_snoc (by rw [h4, h1.1, h1.2.2]) (by rw [h5, h2.1, h2.2.2])

theorem repDocs_split : ∀ {fa fb : List Fields} {docs : List Doc}, RepDocs docs (fa ++ fb) → ∃ a b, docs = a ++ b ∧ RepDocs a fa ∧ RepDocs b fb
  | [], _, docs, h => ⟨[], docs, rfl, trivial, h⟩
  | f :: fa, fb, [], h => h.elim
  | f :: fa, fb, d :: docs, h => by
    obtain ⟨a, b, rfl, h1, h2⟩ := repDocs_split h.2
    exact ⟨d :: a, b, rfl, ⟨h.1, h1⟩, h2⟩

theorem sumInfo_ne : ∀ {l : List (Nat × Nat)} {x : Nat × Nat}, x ∈ l → x.1 ≠ 0 → (sumInfo l).1 ≠ 0
  | (s, m) :: rest, x, h, h0 => by
    simp only [sumInfo]
    rcases List.mem_cons.mp h with rfl | h
    · dsimp only at h0; omega
    · have := sumInfo_ne h h0; omega

section
variable {fsub : Nat → Nat → Nat} (hsub : ∀ a b, a < 18446744073709551616 → b < 18446744073709551616 → fsub a b < 18446744073709551616)
  {zip : Bytes → Bytes} {unzip : Bytes → Option Bytes} (hz : ∀ b, unzip (zip b) = some b)
  {size : Nat} (h1 : 1 ≤ size) (h32 : size < 4294967295) {L : Nat} (hL : L < 2147483648)
  (hzL : ∀ b, b.length ≤ L + 28 + 30 * (L * size) → (zip b).length ≤ 2147482000)
  {n : Nat} (hn : 10000000000 ≤ n)

include hsub hz h1 h32 hL hzL hn in
/-- the collector of a session -/
theorem orderly_add {docs : List Doc} {fss : List Fields} (hr : RepDocs docs fss) (ho : Orderly fss) (hl : ∀ f ∈ fss, (encDoc f).length ≤ L)
    (hk : ∀ f ∈ fss, f.metrics.Kept) :
    ∃ c, addEach (fun c d => c.add fsub n d) (Ftdc.Dynamic.new size) docs = .ok (c, docs.map fun _ => none) ∧
      (fss ≠ [] → c.info.1 ≠ 0 ∧ ∀ now, ∃ bytes, c.resolve zip now n = .ok bytes ∧ Holds unzip bytes fss) := by
  obtain ⟨pre, rest, rfl, ha, h0, hd⟩ := ho
  cases pre with
  | nil =>
    rw [h0 rfl] at hr ⊢
    cases docs with
    | nil => exact ⟨_, rfl, fun h => absurd rfl h⟩
    | cons _ _ => exact hr.elim
  | cons f pre =>
    cases docs with
    | nil => exact hr.elim
    | cons d docs =>
      obtain ⟨dpre, drest, e1, e2, e3⟩ : ∃ dpre drest, docs = dpre ++ drest ∧ RepDocs dpre pre ∧ RepDocs drest rest := repDocs_split hr.2
      subst e1
      obtain ⟨c, parts, segs, k1, k2, k3', k4, k5, k6⟩ := dynamic_two (fsub := fsub) (n := n) (size := size) (by omega) h1 (d := d) (f := f) ⟨hr.1, e2⟩ e3
        (fun g hg => by have := hl g (by simpa using hg); omega) (fun g hg k hk => (ha g hg k hk).2)
        (fun g hg => by rw [(ha g (by simp [hg]) f (by simp)).1]) (fun g hg => hd g hg f (by simp))
      have k3 := fun q hq => (k3' q hq).1
      refine ⟨c, k1, fun _ => ⟨?_, fun now => ?_⟩⟩
      · cases parts with
        | nil =>
          have := congrArg List.length k4
          have h2 : segs = [] := by cases segs with | nil => rfl | cons _ _ => simp at this
          simp [h2] at k5
        | cons q parts =>
          have hq := k3 q (by simp)
          have hi := filled_info hq.run hq.filled hq.room (by omega)
          have hmem : q.chunk ∈ (c.chunks.map Batch.chunks).flatten := by rw [k2]; simp
          obtain ⟨l, hl', hq'⟩ := List.mem_flatten.mp hmem
          obtain ⟨b, hb, rfl⟩ := List.mem_map.mp hl'
          refine sumInfo_ne (List.mem_map_of_mem hb) (sumInfo_ne (List.mem_map_of_mem hq') ?_)
          rw [hi]
          exact fun h => hq.ne (List.length_eq_zero_iff.mp h)
      · obtain ⟨bytes, b1, b2⟩ := parts_read hsub hz (by omega) h32 now parts 0 k3
          (fun q hq b hb => smallChunks_of (k3 q hq).run.rep (L := L)
            (fun fs hfs => hl fs (by
              have : fs ∈ (parts.map Part.fss).flatten := List.mem_flatten.mpr ⟨q.fss, List.mem_map_of_mem hq, hfs⟩
              rw [k4] at this
              simpa [k5, flatten_singles] using this)) hL h32 hzL fsub q.md q.docs n q.chunk _ (List.Sublist.refl _) (by omega) (k3 q hq).filled b hb)
        refine ⟨bytes, by unfold Ftdc.Dynamic.resolve; rw [k2]; exact b1 n hn, ?_⟩
        have hfl : (parts.map Part.fss).flatten = f :: pre ++ rest := by rw [k4]; simp [k5, flatten_singles]
        rw [backChunks_kept, hfl] at b2
        · exact b2
        · intro s hs g hg
          obtain ⟨q, hq, rfl⟩ := List.mem_map.mp hs
          refine ⟨hk g (hfl ▸ List.mem_flatten.mpr ⟨_, hs, hg⟩), fun k hk' => (k3 q hq).run.shape g hg k hk'⟩

theorem orderly_take {a b : List Fields} (h : Orderly (a ++ b)) : Orderly a := by
  obtain ⟨pre, rest, e, h1, h2, h3⟩ := h
  rcases List.append_eq_append_iff.mp e with ⟨m, rfl, rfl⟩ | ⟨m, rfl, rfl⟩
  · exact ⟨a, [], by simp, fun f hf g hg => h1 f (by simp [hf]) g (by simp [hg]), fun _ => rfl, by simp⟩
  · exact ⟨pre, m, rfl, h1, fun h => by have := h2 h; simp at this; exact this.1, fun f hf => h3 f (by simp [hf])⟩

theorem pending_prefix : ∀ (xs : List (Option Fields)) (held : List Fields), ∃ g ∈ closed held xs ++ [pending held xs], ∃ r, g = held ++ r
  | [], held => ⟨held, by simp [closed, pending], [], by simp⟩
  | none :: xs, held => ⟨held, by simp [closed], [], by simp⟩
  | some f :: xs, held => by
    obtain ⟨g, h1, r, h2⟩ := pending_prefix xs (held ++ [f])
    exact ⟨g, by simpa [closed, pending] using h1, f :: r, by simp [h2]⟩

/-- what the samples of a session must be -/
def Fine (L : Nat) (g : List Fields) : Prop := Orderly g ∧ (∀ f ∈ g, (encDoc f).length ≤ L) ∧ ∀ f ∈ g, f.metrics.Kept

theorem fine_take {L : Nat} {a b : List Fields} (h : Fine L (a ++ b)) : Fine L a :=
  ⟨orderly_take h.1, fun f hf => h.2.1 f (by simp [hf]), fun f hf => h.2.2 f (by simp [hf])⟩

variable {S : Gjson.Strconv} {C : Clock} {now : Nat → Nat → Time}

include hsub hz h1 h32 hL hzL hn in
/-- a flush writes the samples that the collector got -/
theorem flushed_ok {docs : List Doc} {held : List Fields} {s : State} (hc : addEach (fun c d => c.add fsub n d) (Ftdc.Dynamic.new size) docs = .ok (s.collector, docs.map fun _ => none))
    (hr : RepDocs docs held) (hf : Fine L held) (now : Nat → Time) :
    ∃ files, flushed zip now n s = .ok (⟨Ftdc.Dynamic.new size, s.files ++ files⟩, none) ∧ Pairs (Holds unzip) files (filled [held]) := by
  obtain ⟨c, k1, k2⟩ := orderly_add hsub hz h1 h32 hL hzL hn hr hf.1 hf.2.1 hf.2.2
  rw [hc] at k1
  simp only [Res.ok.injEq, Prod.mk.injEq, and_true] at k1
  have hmax := addEach_max hc
  cases held with
  | nil =>
    cases docs with
    | cons _ _ => exact hr.elim
    | nil =>
      simp only [addEach, List.map_nil, Res.ok.injEq, Prod.mk.injEq, and_true] at hc
      refine ⟨[], ?_, trivial⟩
      unfold flushed flusher
      rw [if_pos (by rw [← hc]; rfl)]
      simp [hc]
  | cons f held =>
    obtain ⟨i1, i2⟩ := k2 (by simp)
    obtain ⟨bytes, i3, i4⟩ := i2 now
    refine ⟨[bytes], ?_, ⟨i4, trivial⟩⟩
    unfold flushed flusher
    rw [if_neg (by rw [k1]; exact i1), k1, i3]
    have : c.reset = Ftdc.Dynamic.new size := by
      unfold Ftdc.Dynamic.reset Ftdc.Dynamic.new
      rw [← k1, hmax]; rfl
    simp only [Res.bind_ok, this]

theorem pairs_append {α β : Type} {R : α → β → Prop} : ∀ {a a' : List α} {b b' : List β}, Pairs R a b → Pairs R a' b' → Pairs R (a ++ a') (b ++ b')
  | [], _, [], _, _, h => h
  | _ :: _, _, _ :: _, _, h, h' => ⟨h.1, pairs_append h.2 h'⟩
  | [], _, _ :: _, _, h, _ => h.elim
  | _ :: _, _, [], _, h, _ => h.elim

theorem filled_cons (g : List Fields) (gs : List (List Fields)) : filled (g :: gs) = filled [g] ++ filled gs := by
  unfold filled
  rw [← List.filter_append]; rfl

include hsub hz h1 h32 hL hzL hn in
theorem run_prefix (more : List Turn) : ∀ (ts : List Turn) (xs : List (Option Fields)) (held : List Fields) (docs : List Doc) (s : State), Turns S C ts xs →
    (∀ l, Turn.line l ∈ ts → l.length ≤ n) → addEach (fun c d => c.add fsub n d) (Ftdc.Dynamic.new size) docs = .ok (s.collector, docs.map fun _ => none) → RepDocs docs held →
    (∀ g ∈ closed held xs ++ [pending held xs], Fine L g) →
    ∃ files c docs', run S C fsub zip now n s (ts ++ more) = run S C fsub zip now n ⟨c, s.files ++ files⟩ more ∧
      addEach (fun c d => c.add fsub n d) (Ftdc.Dynamic.new size) docs' = .ok (c, docs'.map fun _ => none) ∧ RepDocs docs' (pending held xs) ∧
      Pairs (Holds unzip) files (filled (closed held xs))
  | [], [], held, docs, s, _, _, hc, hr, _ => ⟨[], s.collector, docs, by simp, hc, hr, trivial⟩
  | .tick :: ts, none :: xs, held, docs, s, ht, hl, hc, hr, hf => by
    obtain ⟨files, f1, f2⟩ := flushed_ok hsub hz h1 h32 hL hzL hn hc hr (hf held (by simp [closed])) (now s.files.length)
    obtain ⟨files', c, docs', k1, k2, k3, k4⟩ := run_prefix more ts xs [] [] ⟨Ftdc.Dynamic.new size, s.files ++ files⟩ ht (fun l h => hl l (by simp [h])) rfl trivial
      (fun g hg => hf g (by simp only [closed, pending, List.cons_append, List.mem_cons]; exact .inr hg))
    refine ⟨files ++ files', c, docs', ?_, k2, k3, ?_⟩
    · rw [List.cons_append, JsonFiles.run, f1]
      simpa using k1
    · rw [closed, filled_cons]
      exact pairs_append f2 k4
  | .line l :: ts, some f :: xs, held, docs, s, ht, hl, hc, hr, hf => by
    obtain ⟨g, hg, r, hgr⟩ := pending_prefix xs (held ++ [f])
    have hfine : Fine L (held ++ [f]) := fine_take (b := r) (by rw [← hgr]; exact hf g (by simpa [closed, pending] using hg))
    obtain ⟨d, d1, d2⟩ := lineDoc_says ht.1 (by have := hfine.2.1 f (by simp); omega)
    have hr' := repDocs_append _ _ _ _ hr (show RepDocs [d] [f] from ⟨d1, trivial⟩)
    obtain ⟨c1, c2, _⟩ := orderly_add hsub hz h1 h32 hL hzL hn hr' hfine.1 hfine.2.1 hfine.2.2
    have hadd : s.collector.add fsub n d = .ok (c1, none) := addEach_snoc hc c2
    obtain ⟨files, c, docs', k1, k2, k3, k4⟩ := run_prefix more ts xs (held ++ [f]) (docs ++ [d]) ⟨c1, s.files⟩ ht.2 (fun l h => hl l (by simp [h])) c2 hr'
      (fun g hg => hf g (by simpa [closed, pending] using hg))
    refine ⟨files, c, docs', ?_, k2, by simpa [pending] using k3, by simpa [closed] using k4⟩
    rw [List.cons_append, JsonFiles.run, d2 n (hl l (by simp))]
    dsimp only
    rw [hadd]
    exact k1
  | [], _ :: _, _, _, _, h, _, _, _, _ => h.elim
  | .tick :: _, [], _, _, _, h, _, _, _, _ => h.elim
  | .line _ :: _, [], _, _, _, h, _, _, _, _ => h.elim
  | .tick :: _, some _ :: _, _, _, _, h, _, _, _, _ => h.elim
  | .line _ :: _, none :: _, _, _, _, h, _, _, _, _ => h.elim

include hsub hz h1 h32 hL hzL hn in
theorem run_ok {ts : List Turn} {xs : List (Option Fields)} (ht : Turns S C ts xs) (hl : ∀ l, Turn.line l ∈ ts → l.length ≤ n) (hf : ∀ g ∈ sessions xs, Fine L g) :
    ∃ files, run S C fsub zip now n (JsonFiles.new size) ts = .ok (⟨Ftdc.Dynamic.new size, files⟩, none) ∧ Pairs (Holds unzip) files (filled (sessions xs)) := by
  obtain ⟨files, c, docs', k1, k2, k3, k4⟩ := run_prefix hsub hz h1 h32 hL hzL hn (S := S) (C := C) (now := now) [] ts xs [] [] (JsonFiles.new size) ht hl rfl trivial hf
  obtain ⟨files', f1, f2⟩ := flushed_ok (s := ⟨c, files⟩) hsub hz h1 h32 hL hzL hn k2 k3 (hf _ (by simp [sessions])) (now files.length)
  refine ⟨files ++ files', ?_, ?_⟩
  · rw [List.append_nil] at k1
    rw [k1, JsonFiles.run]
    exact f1
  · unfold sessions
    rw [show filled (closed [] xs ++ [pending [] xs]) = filled (closed [] xs) ++ filled [pending [] xs] from List.filter_append ..]
    exact pairs_append k4 f2

include hsub hz h1 h32 hL hzL hn in
/-- what comes after the turns decides what is returned -/
theorem run_then {ts : List Turn} {xs : List (Option Fields)} (ht : Turns S C ts xs) (hl : ∀ l, Turn.line l ∈ ts → l.length ≤ n) (hf : ∀ g ∈ sessions xs, Fine L g)
    (more : List Turn) : ∃ files c docs, run S C fsub zip now n (JsonFiles.new size) (ts ++ more) = run S C fsub zip now n ⟨c, files⟩ more ∧
      addEach (fun c d => c.add fsub n d) (Ftdc.Dynamic.new size) docs = .ok (c, docs.map fun _ => none) ∧ RepDocs docs (pending [] xs) ∧
      Pairs (Holds unzip) files (filled (closed [] xs)) := by
  obtain ⟨files, c, docs', k1, k2, k3, k4⟩ := run_prefix hsub hz h1 h32 hL hzL hn (S := S) (C := C) (now := now) more ts xs [] [] (JsonFiles.new size) ht hl rfl trivial hf
  exact ⟨files, c, docs', k1, k2, k3, k4⟩

include h1 hn in
theorem alike_refused {docs : List Doc} {f : Fields} {fss : List Fields} (hr : RepDocs docs (f :: fss)) (ha : ∀ g ∈ f :: fss, ∀ h ∈ f :: fss, Alike g h)
    (hl : ∀ g ∈ f :: fss, (encDoc g).length < 2147483648) (hm : (f :: fss).length % size ≠ 0) {c : Ftdc.Dynamic}
    (hc : addEach (fun c d => c.add fsub n d) (Ftdc.Dynamic.new size) docs = .ok (c, docs.map fun _ => none)) {d : Doc} {g : Fields} (hd : RepFields d g)
    (hg : (encDoc g).length < 2147483648) (hp : hashText (g.paths []).flatten = hashText (f.paths []).flatten) (hk : g.kinds ≠ f.kinds) :
    ∃ c' e, c.add fsub n d = .ok (c', some e) := by
  cases docs with
  | nil => exact hr.elim
  | cons d0 docs =>
    have hrun : Run (d0 :: docs) (f :: fss) := ⟨hr, hl, fun g hg k hk => (ha g hg k hk).2⟩
    have hr1 : Run [d0] [f] := run_mono hrun ⟨hr.1, trivial⟩ (by simp)
    have h0 : BInv fsub n size (Batch.new size) [] ⟨none, [], [], Better.new size⟩ :=
      ⟨rfl, rfl, by simp, run_nil, filled_nil fsub n size none, Nat.zero_le _, nofun⟩
    obtain ⟨b, parts1, p1, a1, a2, a3, a4, ⟨_, j, a5⟩, a6⟩ := batch_add h0 (by omega) h1 (d := d0) (f := f) hr1
    have hkey := metricKeyHash_rep n hr.1 (hl f (by simp)) (by have := hl f (by simp); omega)
    have hadd : (Ftdc.Dynamic.new size).add fsub n d0 = .ok (⟨size, [b], hashText (f.paths []).flatten⟩, none) := by
      unfold Ftdc.Dynamic.add Ftdc.Dynamic.new
      rw [hkey]
      simp only [Res.bind_ok, if_true, a1]
    obtain ⟨c1, b', parts2, p2, b1, b2, b3, b4, b5, ⟨b6, _⟩, b7⟩ := dynamic_same (fsub := fsub) (n := n) (size := size) (by omega) h1 (hashText_ne _) hrun docs fss
      (c := ⟨size, [b], hashText (f.paths []).flatten⟩) rfl rfl rfl a2 ⟨a3, md_none (by simp) a5⟩
      (by intro g hg; rcases List.mem_append.mp hg with hg | hg
          · have := a4 g hg; simp at this; simp [this]
          · simp [hg]) hr.2 (fun g hg => by rw [(ha g (by simp [hg]) f (by simp)).1])
    have hcc : c = c1 := by
      simp only [addEach, hadd, Res.bind_ok, b1, List.map_cons, Res.ok.injEq, Prod.mk.injEq, and_true] at hc
      exact hc.symm
    subst hcc
    have hall : (parts2.map Part.fss).flatten ++ p2.fss = f :: fss := by
      rw [b7, a6]; simp
    have hlen : ∀ (ps : List Part), (∀ q ∈ ps, q.fss.length = size) → (ps.map Part.fss).flatten.length = ps.length * size := by
      intro ps
      induction ps with
      | nil => simp
      | cons q ps ih =>
        intro h
        have := ih fun q hq => h q (by simp [hq])
        simp only [List.map_cons, List.flatten_cons, List.length_append, List.length_cons, this, h q (by simp), Nat.add_mul]
        omega
    have hroom : p2.fss.length < size := by
      have hx := congrArg List.length hall
      rw [List.length_append, hlen parts2 fun q hq => (b5.done q hq).2] at hx
      have hle := b5.room
      rcases Nat.lt_or_ge p2.fss.length size with h | h
      · exact h
      · have he : p2.fss.length = size := by omega
        exact absurd (by rw [← hx, he]; simp) hm
    have hmem : ∀ g ∈ p2.fss, g ∈ f :: fss := fun g hg => by rw [← hall]; simp [hg]
    obtain ⟨b3', e, k1, k2, _⟩ := state_add (filled_state b5.run b5.filled (by omega) (by omega)) hd hg (fuel := n) (by omega)
    cases e with
    | none =>
      cases hp2 : p2.fss with
      | nil => exact absurd hp2 b6
      | cons f0 rest =>
        have := (k2.mp rfl _ _ hp2).2
        have hsh := kinds_shape (ha f0 (hmem f0 (by simp [hp2])) f (by simp)).2
        exact absurd (this.trans hsh.symm) hk
    | some e =>
      refine ⟨{ c with chunks := c.chunks.dropLast ++ [{ b' with chunks := b'.chunks.dropLast ++ [b3'] }] }, e, ?_⟩
      unfold Ftdc.Dynamic.add
      rw [metricKeyHash_rep n hd hg (by omega)]
      have hc' : ¬ (c.hash = []) := by rw [b2]; exact hashText_ne _
      simp only [Res.bind_ok, hc', if_false, b4, List.getLast?_singleton]
      rw [if_pos (by rw [b2, hp])]
      have hl' : b'.chunks.getLast? = some p2.chunk := by rw [b5.chunks]; simp
      have hi := filled_info b5.run b5.filled (by omega) (by omega)
      unfold Batch.add
      rw [hl']
      dsimp only
      rw [if_neg (by rw [hi, b5.max]; omega), k1]
      rfl

theorem run_lines (more : List Turn) : ∀ {ls : List Bytes} {docs : List Doc} {s : State} {c : Ftdc.Dynamic}, Pairs (fun l d => lineDoc S C n l = .ok d) ls docs →
    addEach (fun c d => c.add fsub n d) s.collector docs = .ok (c, docs.map fun _ => none) →
    run S C fsub zip now n s (ls.map Turn.line ++ more) = run S C fsub zip now n ⟨c, s.files⟩ more
  | [], [], s, c, _, h => by
    simp only [addEach, List.map_nil, Res.ok.injEq, Prod.mk.injEq, and_true] at h
    rw [← h]; rfl
  | l :: ls, d :: docs, s, c, hp, h => by
    simp only [addEach] at h
    obtain ⟨⟨c1, e⟩, h3, h⟩ := Res.bind_eq_ok.mp h
    obtain ⟨⟨c2, es⟩, h4, h⟩ := Res.bind_eq_ok.mp h
    simp only [Res.ok.injEq, Prod.mk.injEq, List.map_cons, List.cons.injEq] at h
    obtain ⟨rfl, rfl, rfl⟩ := h
    rw [List.map_cons, List.cons_append, JsonFiles.run, hp.1]
    dsimp only
    rw [h3]
    exact run_lines (s := ⟨c1, s.files⟩) more hp.2 h4
  | [], _ :: _, _, _, h, _ => h.elim
  | _ :: _, [], _, _, h, _ => h.elim

theorem orderly_alike {g : List Fields} (h : ∀ f ∈ g, ∀ k ∈ g, Alike f k) : Orderly g := ⟨g, [], by simp, h, fun _ => rfl, by simp⟩

include hsub hz h32 hL hzL hn in
/-- a document whose keys have the checksum of the first one is added to the chunk of the second one -/
theorem renamed (h2 : 2 ≤ size) {d1 d2 d3 d3' : Doc} {f1 f2 f3 f3' : Fields} (r1 : RepFields d1 f1) (r2 : RepFields d2 f2) (r3 : RepFields d3 f3) (r3' : RepFields d3' f3')
    (l1 : (encDoc f1).length ≤ L) (l2 : (encDoc f2).length ≤ L) (l3 : (encDoc f3).length ≤ L) (l3' : (encDoc f3').length ≤ L)
    (hne : hashText (f2.paths []).flatten ≠ hashText (f1.paths []).flatten) (heq : hashText (f3.paths []).flatten = hashText (f1.paths []).flatten)
    (hs : f2.metrics.SameShape f3'.metrics) (hs' : f3'.metrics.SameShape f2.metrics) (hnum : numsF f3 = numsF f3')
    (k1 : f1.metrics.Kept) (k2 : f2.metrics.Kept) (k3 : f3'.metrics.Kept) :
    ∃ c, addEach (fun c d => c.add fsub n d) (Ftdc.Dynamic.new size) [d1, d2, d3] = .ok (c, [none, none, none]) ∧ c.info.1 ≠ 0 ∧
      ∀ now, ∃ bytes, c.resolve zip now n = .ok bytes ∧ Holds unzip bytes [f1, f2, f3'] := by
  have hr1 : Run [d1] [f1] := ⟨⟨r1, trivial⟩, by simp; omega, by simpa using shapeF_refl _⟩
  have hr2 : Run ([d2] ++ [d3']) ([f2] ++ [f3']) := ⟨⟨r2, r3', trivial⟩, by simp; omega, by
    simp only [List.cons_append, List.nil_append, List.mem_cons, List.not_mem_nil, or_false]
    rintro f (rfl | rfl) g (rfl | rfl)
    · exact shapeF_refl _
    · exact hs
    · exact hs'
    · exact shapeF_refl _⟩
  obtain ⟨b1, b2, e1, e2, e3⟩ := dynamic_back (fsub := fsub) (size := size) (n := n) (by omega) h2 r1 r2 r3 (by omega) (by omega) (by omega) hne heq
  obtain ⟨b3, e4, e5⟩ := run_add hr2 e2 (by simp; omega) (by omega)
  have href : b2.reference ≠ none := by
    have := (filled_state (run_mono (docs' := [d2]) (fss' := [f2]) hr2 ⟨r2, trivial⟩ (by simp)) e2 (by simp) (by omega)).2.2
    simp only [List.head?_cons] at this
    rw [this.2.ref]; simp
  have hsame : b2.add fsub n d3 = b2.add fsub n d3' := by
    simp only [encDoc, wrapDoc_length] at l3 l3'
    have x3 := extract_rep n r3 (by omega) (by omega)
    have x3' := extract_rep n r3' (by omega) (by omega)
    unfold Better.add
    rw [x3, x3', hnum]
    cases hr : b2.reference with
    | none => exact absurd hr href
    | some _ => rfl
  have hparts : ∀ q ∈ [(⟨none, [d1], [f1], b1⟩ : Part), ⟨none, [d2, d3'], [f2, f3'], b3⟩], q.Ok fsub n size := by
    simp only [List.mem_cons, List.not_mem_nil, or_false]
    rintro q (rfl | rfl)
    · exact ⟨hr1, by simp, e1, by simp, nofun⟩
    · exact ⟨hr2, by simp, e5, by simp; omega, nofun⟩
  refine ⟨_, e3 b3 none (hsame.trans e4), ?_, fun now => ?_⟩
  · have hi := filled_info hr1 e1 (by simp) (by omega)
    refine sumInfo_ne (x := Batch.info ⟨size, [b1]⟩) (by simp) (sumInfo_ne (x := b1.info) (by simp) ?_)
    rw [hi]; simp
  · obtain ⟨bytes, b1, b2⟩ := parts_read hsub hz (by omega) h32 now _ 0 hparts
      (fun q hq b hb => smallChunks_of (hparts q hq).run.rep (L := L)
        (fun fs hfs => by
          simp only [List.mem_cons, List.not_mem_nil, or_false] at hq
          rcases hq with rfl | rfl
          · simp only [List.mem_cons, List.not_mem_nil, or_false] at hfs; subst hfs; exact l1
          · simp only [List.mem_cons, List.not_mem_nil, or_false] at hfs; rcases hfs with rfl | rfl <;> assumption) hL h32 hzL fsub q.md q.docs n q.chunk _ (List.Sublist.refl _)
        (by omega) (hparts q hq).filled b hb)
    refine ⟨bytes, by unfold Ftdc.Dynamic.resolve; exact b1 n hn, ?_⟩
    rw [backChunks_kept] at b2
    · exact b2
    · intro s hs g hg
      obtain ⟨q, hq, rfl⟩ := List.mem_map.mp hs
      refine ⟨?_, fun k hk' => (hparts q hq).run.shape g hg k hk'⟩
      simp only [List.mem_cons, List.not_mem_nil, or_false] at hq
      rcases hq with rfl | rfl
      · simp only [List.mem_cons, List.not_mem_nil, or_false] at hg; subst hg; exact k1
      · simp only [List.mem_cons, List.not_mem_nil, or_false] at hg; rcases hg with rfl | rfl <;> assumption

/-- the samples of all files -/
theorem filled_flatten : ∀ gs : List (List Fields), (filled gs).flatten = gs.flatten
  | [] => rfl
  | [] :: gs => by rw [filled_cons]; simpa [filled] using filled_flatten gs
  | (f :: g) :: gs => by rw [filled_cons, List.flatten_append, filled_flatten gs]; simp [filled]

theorem sessions_flatten_from : ∀ (xs : List (Option Fields)) (held : List Fields), (closed held xs ++ [pending held xs]).flatten = held ++ xs.filterMap id
  | [], held => by simp [closed, pending]
  | none :: xs, held => by
    have := sessions_flatten_from xs []
    simp only [List.flatten_append, List.flatten_cons, List.flatten_nil, List.append_nil, List.nil_append] at this
    simp [closed, pending, this]
  | some f :: xs, held => by
    have := sessions_flatten_from xs (held ++ [f])
    simpa [closed, pending] using this

theorem sessions_flatten (xs : List (Option Fields)) : (filled (sessions xs)).flatten = xs.filterMap id := by
  rw [filled_flatten]
  exact (sessions_flatten_from xs []).trans (by simp)

theorem lineDoc_bad {S : Gjson.Strconv} {C : Clock} {l : Bytes} (h : ¬ ∃ es ws, JsonText.Text true l (.obj es) ∧ JsonText.ConvElems S es ws) :
    ∃ N, ∀ n, N ≤ n → lineDoc S C n l = .err .other := by
  obtain ⟨d, hd⟩ | ⟨N, hN⟩ := (Props.C55_document S l).2
  · obtain ⟨es, h1, h2⟩ := ((Props.C55_document S l).1 d).mp hd
    exact absurd ⟨es, d, h1, h2⟩ h
  · refine ⟨N, fun n hn => ?_⟩
    unfold lineDoc
    rw [show Gjson.unmarshalDocument S n l = .err .other from hN n hn]; rfl

theorem exists_bound : ∀ ts : List Turn, ∃ N, ∀ l, Turn.line l ∈ ts → l.length ≤ N
  | [] => ⟨0, by simp⟩
  | .tick :: ts => by
    obtain ⟨N, h⟩ := exists_bound ts
    exact ⟨N, fun l hl => h l (by simpa using hl)⟩
  | .line x :: ts => by
    obtain ⟨N, h⟩ := exists_bound ts
    refine ⟨N + x.length, fun l hl => ?_⟩
    rcases List.mem_cons.mp hl with hl | hl
    · cases hl; omega
    · have := h l hl; omega

end

/-! ### any schedule -/

/-- a list of pairs divided as the first parts are -/
theorem pairs_divide {α β : Type} {R : α → β → Prop} : ∀ (as : List (List α)) (bs : List β), Pairs R as.flatten bs → ∃ bss : List (List β), bss.flatten = bs ∧ Pairs (Pairs R) as bss
  | [], bs, h => by
    match bs, h with
    | [], _ => exact ⟨[], rfl, trivial⟩
  | [] :: as, bs, h => by
    obtain ⟨bss, h1, h2⟩ := pairs_divide as bs (by simpa using h)
    exact ⟨[] :: bss, by simpa using h1, trivial, h2⟩
  | (a :: l) :: as, bs, h => by
    match bs, h with
    | b :: bs, h =>
      obtain ⟨h1, h2⟩ : R a b ∧ Pairs R (l ++ as.flatten) bs := by simpa [Pairs] using h
      obtain ⟨bss, k1, k2⟩ := pairs_divide (l :: as) bs (by simpa using h2)
      match bss, k1, k2 with
      | g :: gs, k1, k2 => exact ⟨(b :: g) :: gs, by simpa using k1, ⟨h1, k2.1⟩, k2.2⟩

/-- each part of the lines, then the timer -/
def turnsOf (lss : List (List Bytes)) : List Turn := lss.flatMap fun ls => ls.map Turn.line ++ [.tick]

def saysOf (gs : List (List Fields)) : List (Option Fields) := gs.flatMap fun g => g.map some ++ [none]

theorem turnsOf_lines : ∀ lss, linesOf (turnsOf lss) = lss.flatten
  | [] => rfl
  | ls :: lss => by
    have h := turnsOf_lines lss
    simp only [turnsOf, linesOf, List.flatMap_cons, List.filterMap_append, List.flatten_cons] at *
    rw [h]
    congr 1
    simp [List.filterMap_map, Function.comp_def]

theorem turnsOf_says {S : Gjson.Strconv} {C : Clock} : ∀ {lss : List (List Bytes)} {gs : List (List Fields)}, Pairs (Pairs (Says S C)) lss gs → Turns S C (turnsOf lss) (saysOf gs)
  | [], [], _ => trivial
  | ls :: lss, g :: gs, h => by
    have ih := turnsOf_says h.2
    have : ∀ {ls : List Bytes} {g : List Fields}, Pairs (Says S C) ls g → Turns S C (ls.map Turn.line ++ [.tick] ++ turnsOf lss) (g.map some ++ [none] ++ saysOf gs) := by
      intro ls
      induction ls with
      | nil => intro g h; match g, h with | [], _ => exact ih
      | cons l ls ih => intro g h; match g, h with | f :: g, h => exact ⟨h.1, ih h.2⟩
    simpa [turnsOf, saysOf] using this h.1

theorem saysOf_sessions : ∀ gs, closed [] (saysOf gs) = gs ∧ pending [] (saysOf gs) = []
  | [] => ⟨rfl, rfl⟩
  | g :: gs => by
    have ih := saysOf_sessions gs
    have : ∀ (g held : List Fields), closed held (g.map some ++ [none] ++ saysOf gs) = (held ++ g) :: gs ∧ pending held (g.map some ++ [none] ++ saysOf gs) = [] := by
      intro g
      induction g with
      | nil => intro held; simpa [closed, pending] using ih
      | cons f g ihg => intro held; simpa [closed, pending] using ihg (held ++ [f])
    simpa [saysOf] using this g []

theorem repDocs_pairs : ∀ {ds : List Doc} {fs : List Fields}, Pairs RepFields ds fs → RepDocs ds fs
  | [], [], _ => trivial
  | _ :: _, _ :: _, h => ⟨h.1, repDocs_pairs h.2⟩

theorem parsed_says {S : Gjson.Strconv} {C : Clock} {sys : JsonStream.Sys Doc} (hp : Parses S C sys) : ∀ {ls : List Bytes} {fs : List Fields}, Pairs (Says S C) ls fs →
    (∀ f ∈ fs, (encDoc f).length < 2147483648) →
    (∀ l ∈ ls, sys.parse l ≠ none) ∧ Pairs (fun (d : Doc) (x : Bytes × Fields) => RepFields d x.2 ∧ Says S C x.1 x.2) (Spec.JsonStream.parsed sys.parse ls) (ls.zip fs)
  | [], [], _, _ => ⟨by simp, trivial⟩
  | l :: ls, f :: fs, h, hl => by
    obtain ⟨d, h1, h2⟩ := lineDoc_says h.1 (hl f (by simp))
    have hd := hp l d ⟨_, h2⟩
    obtain ⟨k1, k2⟩ := parsed_says hp h.2 fun f hf => hl f (by simp [hf])
    refine ⟨by simpa [hd] using k1, ?_⟩
    simp only [Spec.JsonStream.parsed, hd, List.zip_cons_cons]
    exact ⟨⟨h1, h.1⟩, k2⟩

theorem pairs_zip {α β : Type} {R : α → β → Prop} : ∀ {as : List α} {bs : List β}, Pairs R as bs → (as.zip bs).map Prod.fst = as ∧ (as.zip bs).map Prod.snd = bs
  | [], [], _ => ⟨rfl, rfl⟩
  | _ :: _, _ :: _, h => by simp [pairs_zip h.2]

theorem pairs_mono {α β γ δ : Type} {R : α → β → Prop} {R' : γ → δ → Prop} (f : α → γ) (g : β → δ) (h : ∀ a b, R a b → R' (f a) (g b)) :
    ∀ {as : List α} {bs : List β}, Pairs R as bs → Pairs R' (as.map f) (bs.map g)
  | [], [], _ => trivial
  | _ :: _, _ :: _, k => ⟨h _ _ k.1, pairs_mono f g h k.2⟩

theorem pairs_right {α β : Type} {R : α → β → Prop} {Q : β → Prop} (h : ∀ a b, R a b → Q b) : ∀ {as : List α} {bs : List β}, Pairs R as bs → ∀ b ∈ bs, Q b
  | [], [], _ => by simp
  | _ :: _, _ :: _, k => by
    intro b hb
    rcases List.mem_cons.mp hb with rfl | hb
    · exact h _ _ k.1
    · exact pairs_right h k.2 b hb

end Birch.Proofs.JsonFiles
