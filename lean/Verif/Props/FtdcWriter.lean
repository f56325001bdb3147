import Verif.Proofs.FtdcWriter
import Verif.Props.FtdcDynamic
import Verif.Spec.Sampled
import Verif.Proofs.WireTrunc

/- C69: the collector behind an `io.WriteCloser`.  C70: sampling. -/

namespace Birch.Props
open Birch Model Model.Ftdc Spec Proofs Proofs.Ftdc

/-- Each call of `Write` with a document returns its size and no error, `Close` returns the error of the writer's `Close`, and then everything can be read from
    the writer.  What follows the document in the same call is dropped, although it is counted: `post`.

    Missing from C69: numbers that are not kept (doubles, timestamps, early dates), documents of different shapes with the same fingerprint (C37), and what is
    after the first document of a call (`C69_rest_lost`). -/
theorem C69_written_partial {fsub : Nat → Nat → Nat}
    (hsub : ∀ a b, a < 18446744073709551616 → b < 18446744073709551616 → fsub a b < 18446744073709551616)
    {zip : Bytes → Bytes} {unzip : Bytes → Option Bytes} (hz : ∀ b, unzip (zip b) = some b)
    (l : List (Fields × Bytes)) (hne : l ≠ []) (hl : ∀ p ∈ l, p.1.WF ∧ (encDoc p.1 ++ p.2).length < 2147483648)
    (hcol : ∀ g ∈ l.map Prod.fst, ∀ h ∈ l.map Prod.fst, fingerprint g = fingerprint h → g.metrics.SameShape h.metrics) (hk : ∀ g ∈ l.map Prod.fst, g.metrics.Kept)
    {max : Nat} (h32 : max < 4294967295) (hsm : ∀ docs, RepDocs docs (l.map Prod.fst) → ∀ md, SmallChunks fsub zip max md docs) (now : Nat → Time) (closeErr : Option Err) :
    ∃ N, ∀ n, N ≤ n → ∃ w w',
      writeEach fsub zip now n (.new max ⟨[], []⟩ closeErr) (l.map fun p => encDoc p.1 ++ p.2) = .ok (w, l.map fun p => ((encDoc p.1 ++ p.2).length, none)) ∧
      w.close zip now n = .ok (w', closeErr) ∧ w'.closes = 1 ∧
      ∀ s : Stream.Source, s.left = w'.collector.base.output.out → ∃ M, ∀ m, M ≤ m → ∃ ds, readStructuredMetrics unzip m s = .ok ds ∧
        RepDocs ds ((l.map Prod.fst).map Fields.metrics) := by
  obtain ⟨docs, h1, h2, h3⟩ := read_each l hl
  match l, docs with
  | [], _ => exact absurd rfl hne
  | p :: l, [] => exact h2.elim
  | p :: l, q :: docs =>
    simp only [List.map_cons] at h2 hcol hk hsm
    obtain ⟨N, h⟩ := C37_streaming_kept_partial hsub hz h2 (fun fs hfs => by
      have : fs ∈ (p :: l).map Prod.fst := hfs
      obtain ⟨x, hx, rfl⟩ := List.mem_map.mp this
      have := (hl x hx).2
      simp at this
      omega) hcol hk h32 none (by simp) (hsm _ h2) now
    refine ⟨Nat.max N 2147483648, fun n hn => ?_⟩
    obtain ⟨c, c', a1, a2, a3⟩ := h n (Nat.le_trans (Nat.le_max_left _ _) hn)
    have hw := writeEach_add fsub zip now n closeErr 0 (q :: docs) _ c (h3 n (Nat.le_trans (Nat.le_max_right _ _) hn)) a1
    rw [h1] at hw
    refine ⟨⟨c, closeErr, 0⟩, ⟨c', closeErr, 1⟩, ?_, ?_, rfl, a3⟩
    · have e : (q :: docs).map (fun q => (q.1.length, (none : Option Err))) = (p :: l).map (fun p => ((encDoc p.1 ++ p.2).length, none)) := by
        have := congrArg (List.map fun b : Bytes => (b.length, (none : Option Err))) h1
        simpa [Function.comp_def] using this
      rw [← e]
      exact hw
    · simp only [WriterCollector.close, a2, Res.bind_ok]

/-- If a call has two documents, the second one is lost, without an error. -/
theorem C69_rest_lost {fsub : Nat → Nat → Nat}
    (hsub : ∀ a b, a < 18446744073709551616 → b < 18446744073709551616 → fsub a b < 18446744073709551616)
    {zip : Bytes → Bytes} {unzip : Bytes → Option Bytes} (hz : ∀ b, unzip (zip b) = some b) (f g : Fields) (hf : f.WF) (hk : f.metrics.Kept)
    (hl : (encDoc f ++ encDoc g).length < 2147483648) {max : Nat} (h32 : max < 4294967295)
    (hsm : ∀ docs, RepDocs docs [f] → ∀ md, SmallChunks fsub zip max md docs) (now : Nat → Time) :
    ∃ N, ∀ n, N ≤ n → ∃ w w', (WriterCollector.new max ⟨[], []⟩ none).write fsub zip now n (encDoc f ++ encDoc g) = .ok (w, (encDoc f ++ encDoc g).length, none) ∧
      w.close zip now n = .ok (w', none) ∧
      ∀ s : Stream.Source, s.left = w'.collector.base.output.out → ∃ M, ∀ m, M ≤ m → ∃ ds, readStructuredMetrics unzip m s = .ok ds ∧ RepDocs ds [f.metrics] := by
  obtain ⟨N, h⟩ := C69_written_partial hsub hz [(f, encDoc g)] (by simp) (by simpa using ⟨hf, by simpa using hl⟩) (by simpa using shapeF_refl _) (by simpa using hk) h32 hsm now none
  refine ⟨N, fun n hn => ?_⟩
  obtain ⟨w, w', a1, a2, _, a3⟩ := h n hn
  refine ⟨w, w', ?_, a2, a3⟩
  simp only [List.map_cons, List.map_nil, writeEach] at a1
  obtain ⟨⟨x, y, z⟩, b1, b2⟩ := Res.bind_eq_ok.mp a1
  simp only [Res.bind_ok, Res.ok.injEq, Prod.mk.injEq, List.cons.injEq, and_true] at b2
  obtain ⟨rfl, rfl, rfl⟩ := b2
  exact b1

/-- A call that does not begin with a document writes nothing: it returns 0 and an error, and the collector is as before. -/
theorem C69_not_a_document (fsub : Nat → Nat → Nat) (zip : Bytes → Bytes) (now : Nat → Time) (n : Nat) (w : WriterCollector) (fs : Fields) (t r : Bytes)
    (hl : (encDoc fs).length < 2147483648) (hr : r ≠ []) (h : encDoc fs = t ++ r) : ∃ e, w.write fsub zip now n t = .ok (w, 0, some e) := by
  obtain ⟨e, he⟩ := Birch.Proofs.Wire.readDocument_cut n hl hr h
  exact ⟨e, by simp only [WriterCollector.write, he]⟩

example : encDoc (intField 0x78 1) = [12, 0, 0, 0, 16] ++ [0x78, 0, 1, 0, 0, 0, 0] := by decide +kernel

/-- In every state, `Write` reports the size of what it got if and only if it got a document and the collector took it; otherwise it reports 0 and an error. -/
theorem C69_write (fsub : Nat → Nat → Nat) (zip : Bytes → Bytes) (now : Nat → Time) (n : Nat) (w w' : WriterCollector) (b : Bytes) (k : Nat) (e : Option Err)
    (h : w.write fsub zip now n b = .ok (w', k, e)) :
    (e = none ↔ ∃ d, readDocument n b = .ok d ∧ w.collector.add fsub zip now n d = .ok (w'.collector, none)) ∧ (e = none → k = b.length) ∧ (e ≠ none → k = 0) := by
  unfold WriterCollector.write at h
  cases hd : readDocument n b with
  | ok d =>
    simp only [hd] at h
    obtain ⟨⟨c, x⟩, h1, h2⟩ := Res.bind_eq_ok.mp h
    cases x with
    | none => cases h2; simp [h1]
    | some x => cases h2; simp [h1]
  | err x => simp only [hd] at h; cases h; simp
  | panic => simp only [hd] at h; cases h
  | oof => simp only [hd] at h; cases h

/-- a document that cannot be read -/
example (fsub : Nat → Nat → Nat) (zip : Bytes → Bytes) (now : Nat → Time) : (WriterCollector.new 5 ⟨[], []⟩ none).write fsub zip now 9 [1, 2, 3] = .ok (.new 5 ⟨[], []⟩ none, 0, some .tooSmall) := rfl

/-- hypotheses of `C69_written_partial` and `C69_rest_lost`: two documents in the first call -/
example : let l := [(intField 0x78 1, encDoc (intField 0x78 7)), (intField 0x78 2, []), (intField 0x79 3, [])]
    (∀ p ∈ l, p.1.WF ∧ (encDoc p.1 ++ p.2).length < 2147483648) ∧ (∀ g ∈ l.map Prod.fst, ∀ h ∈ l.map Prod.fst, fingerprint g = fingerprint h → g.metrics.SameShape h.metrics) ∧
    (∀ g ∈ l.map Prod.fst, g.metrics.Kept) ∧ ∀ docs, RepDocs docs (l.map Prod.fst) → ∀ md, SmallChunks (fun a _ => a) id 5 md docs := by
  refine ⟨?_, ?_, ?_, fun docs hr md => smallChunks_of hr (L := 100) (by decide +kernel) (by decide) (by decide) (fun b hb => ?_) _ _⟩
  · simp only [List.mem_cons, List.not_mem_nil, or_false, forall_eq_or_imp, forall_eq, List.length_append, intField_size]
    simp [intField, Fields.WF, BVal.WF, NulFree]
  · have hne : fingerprint (intField 0x78 1) ≠ fingerprint (intField 0x79 3) := by decide +kernel
    have hne' : fingerprint (intField 0x78 2) ≠ fingerprint (intField 0x79 3) := by decide +kernel
    simp only [List.map_cons, List.map_nil, List.mem_cons, List.not_mem_nil, or_false]
    rintro g (rfl | rfl | rfl) h (rfl | rfl | rfl) he <;> first | exact intField_shape _ _ _ | exact absurd he hne | exact absurd he hne' | exact absurd he.symm hne | exact absurd he.symm hne'
  · simp [intField, Fields.metrics, BVal.metric, Fields.Kept, BVal.Kept]
  · simp only [id]; omega

/-- If the writer fails during `Close`, the error is returned and the samples are kept, but the writer is not closed. -/
theorem C69_close_fails (zip : Bytes → Bytes) (now : Nat → Time) (n : Nat) (w : WriterCollector) (p : Bytes) (k : Nat) (x : Err) (plan : List (Option (Nat × Option Err)))
    (h : w.collector.base.inner.info.1 ≠ 0) (hr : w.collector.base.inner.resolve zip (now w.collector.base.flushes) n = .ok p)
    (hp : w.collector.base.output.plan = some (k, some x) :: plan) :
    ∃ w', w.close zip now n = .ok (w', some x) ∧ w'.closes = w.closes ∧ w'.collector.base.inner = w.collector.base.inner := by
  obtain ⟨⟨hash, num, ⟨⟨out, pl⟩, max, cnt, inner, fl⟩⟩, ce, cl⟩ := w
  simp only at h hr hp
  subst hp
  refine ⟨⟨⟨hash, num, ⟨⟨out ++ p.take k, plan⟩, max, cnt, inner, fl⟩⟩, ce, cl⟩, ?_, rfl, rfl⟩
  simp [WriterCollector.close, StreamingDynamic.flush, Streaming.flushWith, h, hr, Sink.write]

/-- hypotheses of `C69_close_fails`: after a document was written -/
example (now : Nat → Time) : ∃ w : WriterCollector, ∃ n p, w.collector.base.inner.info.1 ≠ 0 ∧
    w.collector.base.inner.resolve id (now w.collector.base.flushes) n = .ok p ∧ w.collector.base.output.plan = some (3, some .other) :: [] := by
  obtain ⟨d, hd⟩ := intField_built 0x78 1 (by decide) (by decide)
  have hr : RepDocs [d] [intField 0x78 1] := ⟨hd, trivial⟩
  have h0 : SInv (fun a _ => a) id now 10000000000 5 (StreamingDynamic.new 5 ⟨[], []⟩).base [] (Part.empty 5 none) :=
    ⟨rfl, rfl, rfl, rfl, rfl, by simp, by simp, run_nil, filled_nil _ _ 5 _, Nat.zero_le _, by simp [Part.empty]⟩
  have hsub : ∀ a b, a < 18446744073709551616 → b < 18446744073709551616 → (fun a _ => a : Nat → Nat → Nat) a b < 18446744073709551616 := fun a b h _ => h
  obtain ⟨b, q, e1, e2, e3, e4, e5, e6⟩ := sd_first hsub (zip := id) (unzip := some) (fun _ => rfl) (Nat.le_refl _) (by decide) (c := StreamingDynamic.new 5 ⟨[], []⟩) h0 empty_small rfl
    (run_one (fss := [intField 0x78 1]) (by simp [intField_size]) hd (by simp))
  have hsm : SmallChunks (fun a _ => a) id 5 none [d] := smallChunks_of hr (L := 100) (by decide +kernel) (by decide) (by decide) (fun b hb => by simp only [id]; omega) _ _
  obtain ⟨b', g1, g2, g3⟩ := sd_flush hsub (unzip := some) (fun _ => rfl) (Nat.le_refl _) (by decide) (c := ⟨[], 0, b⟩) e2 (by rw [e5]; simp)
    (hsm [d] 10000000000 q.chunk _ (List.Sublist.refl _) (by decide) (by have := e2.filled; rwa [e3, e4] at this)) e6
  have hi : b.inner.info.1 ≠ 0 := by
    rw [e2.inner, filled_info e2.run e2.filled e2.room (by decide), e5]; simp
  have hres : ∃ p, b.inner.resolve id (now b.flushes) 10000000000 = .ok p := by
    simp only [StreamingDynamic.flush, Streaming.flushWith, if_neg hi] at g1
    cases hx : b.inner.resolve id (now b.flushes) 10000000000 with
    | ok p => exact ⟨p, rfl⟩
    | err e => rw [show Better.resolve (fun x => x) (now b.flushes) 10000000000 b.inner = _ from hx] at g1; simp at g1
    | panic => rw [show Better.resolve (fun x => x) (now b.flushes) 10000000000 b.inner = _ from hx] at g1; simp at g1
    | oof => rw [show Better.resolve (fun x => x) (now b.flushes) 10000000000 b.inner = _ from hx] at g1; simp at g1
  obtain ⟨p, hp⟩ := hres
  exact ⟨⟨⟨[], 0, { b with output := ⟨[], [some (3, some .other)]⟩ }⟩, none, 0⟩, 10000000000, p, hi, hp, rfl⟩

/-! ### C70 -/

/-- a caller of the sampling collector: the collector afterwards and the errors -/
def attempts {σ α : Type} (add : σ → α → σ × Option Err) : Sampling σ → List (Attempt α) → Sampling σ × List (Option Err)
  | c, [] => (c, [])
  | c, a :: l =>
    let r := c.add add a.first a.second a.item
    let s := attempts add r.1 l
    (s.1, r.2 :: s.2)

/-- the collector inside with the items that are let through: the collector afterwards and the errors -/
def addSome {σ α : Type} (add : σ → α → σ × Option Err) : σ → List (Attempt α × Bool) → σ × List (Option Err)
  | c, [] => (c, [])
  | c, (a, b) :: l =>
    let r := if b then add c a.item else (c, none)
    let s := addSome add r.1 l
    (s.1, r.2 :: s.2)

theorem attempts_sampled {σ α : Type} (add : σ → α → σ × Option Err) (interval : Int) (hi : interval < 2 ^ 63) :
    ∀ (l : List (Attempt α)) (last : Int) (inner : σ), -2 ^ 63 < interval → ∃ ds : List Bool, ds.length = l.length ∧ Sampled interval last (l.zip ds) ∧
      (attempts add ⟨interval, last, inner⟩ l).1.inner = (addSome add inner (l.zip ds)).1 ∧ (attempts add ⟨interval, last, inner⟩ l).2 = (addSome add inner (l.zip ds)).2
  | [], last, inner, _ => ⟨[], rfl, .nil, rfl, rfl⟩
  | a :: l, last, inner, hlo => by
    have key : timeSub a.first last < interval ↔ a.first - last < interval := by
      unfold timeSub
      split
      · omega
      · split <;> omega
    by_cases h : a.first - last < interval
    · obtain ⟨ds, h1, h2, h3, h4⟩ := attempts_sampled add interval hi l last inner hlo
      refine ⟨false :: ds, by simp [h1], .skip h h2, ?_, ?_⟩ <;> simp [attempts, addSome, Sampling.add, key, h, h3, h4]
    · obtain ⟨ds, h1, h2, h3, h4⟩ := attempts_sampled add interval hi l a.second (add inner a.item).1 hlo
      refine ⟨true :: ds, by simp [h1], .pass (by omega) h2, ?_, ?_⟩ <;> simp [attempts, addSome, Sampling.add, key, h, h3, h4]

/-- Whatever the clock does, the collector inside gets exactly the items of the attempts that come at least `interval` after the last one it got, in order, and
    its errors are returned; for the others there is no error.  (The zero time is the start.) -/
theorem C70_sampled {σ α : Type} (add : σ → α → σ × Option Err) (interval : Int) (hlo : -2 ^ 63 < interval) (hi : interval < 2 ^ 63) (inner : σ) (l : List (Attempt α)) :
    ∃ ds : List Bool, ds.length = l.length ∧ Sampled interval 0 (l.zip ds) ∧ (attempts add (.new interval inner) l).1.inner = (addSome add inner (l.zip ds)).1 ∧
      (attempts add (.new interval inner) l).2 = (addSome add inner (l.zip ds)).2 :=
  attempts_sampled add interval hi l 0 inner hlo

/-- the first attempt (now, in 2026), one that is too early, and one that is late enough; the collector is a list -/
example : let now : Int := 63900000000000000000
    (attempts (fun (c : List Nat) x => (c ++ [x], none)) (.new 1000 []) [⟨now, now + 1, 1⟩, ⟨now + 999, now + 1000, 2⟩, ⟨now + 1001, now + 1002, 3⟩]).1.inner = [1, 3] := by decide

/-- With any clock that is later than 1753 the first attempt is let through, however long the interval is. -/
theorem C70_first {σ α : Type} (add : σ → α → σ × Option Err) (interval : Int) (hi : interval < 2 ^ 63) (inner : σ) (a : Attempt α) (h : 2 ^ 63 ≤ a.first) :
    ((Sampling.new interval inner).add add a.first a.second a.item).1.inner = (add inner a.item).1 ∧
    ((Sampling.new interval inner).add add a.first a.second a.item).2 = (add inner a.item).2 := by
  have : ¬ timeSub a.first 0 < interval := by
    unfold timeSub
    rw [if_pos (by omega)]; omega
  simp [Sampling.add, Sampling.new, this]

example : (2 : Int) ^ 63 ≤ 63900000000000000000 := by decide

theorem sampled_gap {α : Type} {interval : Int} : ∀ (l : List (Attempt α × Bool)) (last : Int), Sampled interval last l → (∀ p ∈ l, p.1.first ≤ p.1.second) →
    l.Pairwise (fun p q => p.1.second ≤ q.1.first) → (∀ p ∈ l, last ≤ p.1.first) → (∀ p ∈ l, p.2 = true → interval ≤ p.1.first - last) ∧
      l.Pairwise (fun p q => p.2 = true → q.2 = true → interval ≤ q.1.first - p.1.second)
  | [], _, _, _, _, _ => ⟨by simp, .nil⟩
  | (a, b) :: l, last, h, hm, ho, hs => by
    obtain ⟨ho1, ho2⟩ := List.pairwise_cons.mp ho
    have hm1 : a.first ≤ a.second := hm (a, b) (by simp)
    have hs1 : last ≤ a.first := hs (a, b) (by simp)
    cases h with
    | pass h1 h2 =>
      obtain ⟨i1, i2⟩ := sampled_gap l a.second h2 (fun p hp => hm p (List.mem_cons_of_mem _ hp)) ho2 (fun p hp => ho1 p hp)
      refine ⟨fun p hp ht => ?_, List.pairwise_cons.mpr ⟨fun q hq _ ht => i1 q hq ht, i2⟩⟩
      rcases List.mem_cons.mp hp with rfl | hp
      · exact h1
      · have := i1 p hp ht
        omega
    | skip h1 h2 =>
      obtain ⟨i1, i2⟩ := sampled_gap l last h2 (fun p hp => hm p (List.mem_cons_of_mem _ hp)) ho2 (fun p hp => hs p (List.mem_cons_of_mem _ hp))
      refine ⟨fun p hp ht => ?_, List.pairwise_cons.mpr ⟨fun q hq ht => (by cases ht), i2⟩⟩
      rcases List.mem_cons.mp hp with rfl | hp
      · cases ht
      · exact i1 p hp ht

/-- With a clock that does not go back, all items that are let through, not only neighbours, are at least `interval` apart. -/
theorem C70_apart {σ α : Type} (add : σ → α → σ × Option Err) (interval : Int) (hlo : -2 ^ 63 < interval) (hi : interval < 2 ^ 63) (inner : σ) (l : List (Attempt α))
    (hm : ∀ a ∈ l, 0 ≤ a.first ∧ a.first ≤ a.second) (ho : l.Pairwise fun a b => a.second ≤ b.first) :
    ∃ ds : List Bool, ds.length = l.length ∧ (attempts add (.new interval inner) l).1.inner = (addSome add inner (l.zip ds)).1 ∧
      (l.zip ds).Pairwise fun p q => p.2 = true → q.2 = true → interval ≤ q.1.first - p.1.second := by
  obtain ⟨ds, h1, h2, h3, _⟩ := C70_sampled add interval hlo hi inner l
  have hz : ∀ p ∈ l.zip ds, p.1 ∈ l := fun p hp => (List.of_mem_zip hp).1
  refine ⟨ds, h1, h3, (sampled_gap _ 0 h2 (fun p hp => (hm _ (hz p hp)).2) ?_ (fun p hp => (hm _ (hz p hp)).1)).2⟩
  have e : (l.zip ds).map Prod.fst = l := List.map_fst_zip (by omega)
  have : ((l.zip ds).map Prod.fst).Pairwise fun a b => a.second ≤ b.first := by rw [e]; exact ho
  exact List.pairwise_map.mp this

/-- If the collector inside refuses an item, the next ones are skipped without an error until the interval is over: nothing is recorded for up to two intervals. -/
theorem C70_refused {σ α : Type} (add : σ → α → σ × Option Err) (c : Sampling σ) (a b : Attempt α) (e : Err)
    (h : ¬ a.first - c.lastCollection < c.minimumInterval) (h2 : (add c.inner a.item).2 = some e) (hi : c.minimumInterval < 2 ^ 63) (hlo : -2 ^ 63 < c.minimumInterval)
    (hb : b.first - a.second < c.minimumInterval) :
    (attempts add c [a, b]).2 = [some e, none] ∧ (attempts add c [a, b]).1.inner = (add c.inner a.item).1 := by
  have h3 : ¬ timeSub a.first c.lastCollection < c.minimumInterval := by
    unfold timeSub; split
    · omega
    · split <;> omega
  have h4 : timeSub b.first a.second < c.minimumInterval := by
    unfold timeSub; split
    · omega
    · split <;> omega
  simp [attempts, Sampling.add, h3, h4, h2]

/-- a collector that refuses everything -/
example : (attempts (fun (c : List Nat) _ => (c, some Err.other)) (.new 1000 []) [⟨63900000000000000000, 63900000000000000001, 1⟩, ⟨63900000000000000009, 63900000000000000009, 2⟩]).2 =
    [some .other, none] := by decide

end Birch.Props
