import Verif.Spec.Histograms
import Verif.Proofs.Events
import Verif.Proofs.GoValue

namespace Birch.Proofs.Histograms
open Birch Model Model.Events Model.Histograms Spec Spec.Recorders Spec.Histograms
open Birch.Model.Recorders (Call)

variable {H : Type} {L : Lib H} {k : Form}

/-- what a recorder holds after a history -/
structure Good (L : Lib H) (k : Form) (cs : History) (r : Recorder H) : Prop where
  started : r.started = began (clock cs)
  last : k = .grouped → r.last = collected cs
  interval : r.interval = 0
  point : r.point = event L k cs
  catcher : r.catcher = failed L k cs
  recorded : r.recorded = events L k cs
  results : r.results = results L k cs

theorem new_good (k : Form) (i : Int) : Good L k [] (newRecorder L k i) := by
  cases k <;> exact ⟨rfl, fun _ => rfl, rfl, rfl, rfl, rfl, rfl⟩

theorem filled_append (lo hi : Int) (vs : List Int) (v : Int) : filled L lo hi (vs ++ [v]) = (L.record (filled L lo hi vs) v).1 := by
  simp [filled]

theorem counter_append (vs : List Int) (v : Int) : counter L (vs ++ [v]) = (L.record (counter L vs) v).1 := filled_append _ _ _ _

theorem timer_append (vs : List Int) (v : Int) : timer L (vs ++ [v]) = (L.record (timer L vs) v).1 := filled_append _ _ _ _

theorem refuses_nil (h : H) : refuses L h [] = false := rfl

theorem refuses_one (h : H) (v : Int) : refuses L h [v] = (L.record h v).2 := by simp [refuses]

theorem timeSub_nonneg (t u : Time) : timeSub t u ≥ 0 ↔ ¬ earlier t u = true := by
  unfold timeSub earlier nanoseconds
  simp only [decide_eq_true_eq]
  split
  · omega
  · split <;> omega

/-- the time of an event -/
theorem stampPoint_eq (p : Point H) (s n : Time) : stampPoint p s n = { p with ts := orElse p.ts (orElse s n) } := by
  unfold stampPoint orElse
  have e : zeroTime = noTime := rfl
  rw [e]
  by_cases h : p.ts = noTime
  · by_cases h' : s = noTime
    · simp [h, h']
    · simp [h, h']
  · simp [h]

theorem event_ts (k : Form) (cs : History) : (event L k cs).ts = stamp (early k) (clock cs) := rfl

theorem orElse_noTime (t u : Time) : orElse t u ≠ noTime ∨ t = noTime := by
  unfold orElse
  split
  · exact .inr ‹_›
  · exact .inl ‹_›

/-- calls that only report or set something, and the beginning of an iteration -/
theorem set_good (cs : History) (r : Recorder H) (h : Good L k cs r) (c : Call) (e : Env) (h1 : ∀ d, c ≠ .endIteration d) (h2 : c ≠ .endTest) (h3 : c ≠ .reset) :
    Good L k ((c, e) :: cs) (call L k r e c) := by
  obtain ⟨g1, g2, g3, g4, g5, g6, g7⟩ := h
  obtain ⟨st, la, iv, pt, ca, re, rs⟩ := r
  simp only at g1 g2 g3 g4 g5 g6 g7
  subst g1 g3 g4 g5 g6 g7
  cases c with
  | endIteration d => exact absurd rfl (h1 d)
  | endTest => exact absurd rfl h2
  | reset => exact absurd rfl h3
  | beginIteration =>
    cases k <;> refine ⟨rfl, ?_, rfl, ?_, ?_, ?_, rfl⟩ <;>
      simp_all [call, stampPoint_eq, event, clock, stamp, early, reported, numbers, Spec.Histograms.operations, sizes, Spec.Histograms.errors,
        Spec.Histograms.durations, totals, totalsOf, lastID, gauges, collected, failed, fails, refuses_nil, records, events]
  | _ =>
    refine ⟨rfl, ?_, rfl, ?_, ?_, ?_, rfl⟩ <;>
      simp_all [call, incNumber, Model.Histograms.incOperations, Model.Histograms.incSize, Model.Histograms.incError, Model.Histograms.setDuration,
        setTotal, push, event, clock, stamp, early, reported, numbers, Spec.Histograms.operations, sizes, Spec.Histograms.errors,
        Spec.Histograms.durations, totals, totalsOf, lastID, gauges, collected, failed, fails, refuses_nil, refuses_one, counter_append, timer_append,
        records, events]

theorem reset_good (cs : History) (c : Call) (e : Env) (hc : c = .endTest ∨ c = .reset) (r : Recorder H) (h1 : r.point.gauges = gauges (cs.map (·.1)))
    (h2 : r.interval = 0) (h3 : r.recorded = events L k ((c, e) :: cs)) (h4 : r.results = Spec.Histograms.results L k ((c, e) :: cs)) :
    Good L k ((c, e) :: cs) (doReset L k r) := by
  have hg : gauges (((c, e) :: cs).map (·.1)) = gauges (cs.map (·.1)) := by rcases hc with rfl | rfl <;> rfl
  have he : event L k ((c, e) :: cs) = newPoint L r.point.gauges := by
    rw [h1, ← hg]
    rcases hc with rfl | rfl <;> rfl
  have h5 : began (clock ((c, e) :: cs)) = zeroTime := by rcases hc with rfl | rfl <;> rfl
  have h6 : collected ((c, e) :: cs) = zeroTime := by rcases hc with rfl | rfl <;> rfl
  have h7 : failed L k ((c, e) :: cs) = false := by rcases hc with rfl | rfl <;> rfl
  cases k with
  | grouped => exact ⟨h5.symm, fun _ => h6.symm, h2, he.symm, h7.symm, h3, h4⟩
  | stream => exact ⟨h5.symm, fun h => (by cases h), h2, he.symm, h7.symm, h3, h4⟩
  | single => exact ⟨h5.symm, fun h => (by cases h), h2, he.symm, h7.symm, h3, h4⟩

theorem iteration_eq (cs : History) (r : Recorder H) (h : Good L k cs r) (d : Int) (e : Env) :
    iteration L r d e = { r with
      started := noTime
      point := event L k ((.endIteration d, e) :: cs)
      catcher := failed L k cs || refuses L (counter L (reported numbers cs)) [1] || refuses L (timer L (reported Spec.Histograms.durations cs)) [d] ||
        refuses L (timer L (totals cs)) (totalsOf (.endIteration d) e cs) } := by
  obtain ⟨g1, g2, g3, g4, g5, g6, g7⟩ := h
  obtain ⟨st, la, iv, pt, ca, re, rs⟩ := r
  simp only at g1 g2 g3 g4 g5 g6 g7
  subst g1 g3 g4 g5 g6 g7
  have ez : zeroTime = noTime := rfl
  have hts : stamp (early k) (clock ((.endIteration d, e) :: cs)) = orElse (stamp (early k) (clock cs)) (orElse (began (clock cs)) (e.now 1)) := rfl
  unfold iteration
  simp only [stampPoint_eq, incNumber, Model.Histograms.setDuration, setTotal, push, ez]
  by_cases hb : began (clock cs) = noTime
  · simp [hb, event, hts, reported, numbers, Spec.Histograms.operations, sizes, Spec.Histograms.errors, Spec.Histograms.durations, totals, totalsOf, lastID,
      gauges, refuses_nil, refuses_one, counter_append, timer_append, Bool.or_assoc]
  · simp [hb, event, hts, reported, numbers, Spec.Histograms.operations, sizes, Spec.Histograms.errors, Spec.Histograms.durations, totals, totalsOf, lastID,
      gauges, refuses_one, counter_append, timer_append, Bool.or_assoc]

theorem endIteration_good (cs : History) (r : Recorder H) (h : Good L k cs r) (d : Int) (e : Env) :
    Good L k ((.endIteration d, e) :: cs) (endIteration L k r d e) := by
  unfold endIteration
  rw [iteration_eq cs r h d e]
  obtain ⟨g1, g2, g3, g4, g5, g6, g7⟩ := h
  have hf : ∀ b : Bool, (!(records L k (.endIteration d) e cs).isEmpty && e.addFails) = b → failed L k ((.endIteration d, e) :: cs) =
      (failed L k cs || refuses L (counter L (reported numbers cs)) [1] || refuses L (timer L (reported Spec.Histograms.durations cs)) [d] ||
        refuses L (timer L (totals cs)) (totalsOf (.endIteration d) e cs) || b) := by
    intro b hb
    simp only [failed, fails, hb, numbers, Spec.Histograms.operations, sizes, Spec.Histograms.errors, Spec.Histograms.durations, refuses_nil, Bool.or_false,
      Bool.or_assoc]
  cases k with
  | stream =>
    refine ⟨rfl, fun h => (by cases h), g3, rfl, ?_, ?_, g7⟩
    · rw [hf e.addFails (by simp [records])]; rfl
    · simp only [Model.Histograms.persist, push, events, records, g6]
  | single =>
    refine ⟨rfl, fun h => (by cases h), g3, rfl, ?_, ?_, g7⟩
    · rw [hf false (by simp [records])]; simp
    · simp only [events, records, g6, List.append_nil]
  | grouped =>
    dsimp only
    by_cases hb : earlier (e.now 2) (collected cs) = true
    · rw [if_neg (by rw [g2 rfl, g3, timeSub_nonneg]; simp [hb])]
      refine ⟨rfl, fun _ => ?_, g3, rfl, ?_, ?_, g7⟩
      · simp [collected, hb, g2 rfl]
      · rw [hf false (by simp [records, hb])]; simp
      · simp [events, records, g6, hb]
    · rw [if_pos (by rw [g2 rfl, g3, timeSub_nonneg]; exact hb)]
      refine ⟨rfl, fun _ => ?_, g3, rfl, ?_, ?_, g7⟩
      · simp [collected, hb]
      · rw [hf e.addFails (by simp [records, hb])]; rfl
      · simp [Model.Histograms.persist, push, events, records, g6, hb]

theorem endTest_timed {cs : History} {r : Recorder H} (hk : k ≠ .single) (h : Good L k cs r) (e : Env)
    (hf : fails L k .endTest e cs = (!(records L k .endTest e cs).isEmpty && e.addFails)) :
    Good L k ((.endTest, e) :: cs)
      (let r := if r.point.ts ≠ zeroTime then Model.Histograms.persist r e else r
       doReset L k { r with results := r.results ++ [r.catcher] }) := by
  obtain ⟨g1, g2, g3, g4, g5, g6, g7⟩ := h
  have ht : r.point.ts = stamp true (clock cs) := by
    rw [g4]
    cases k with
    | single => exact absurd rfl hk
    | _ => rfl
  have hr : records L k .endTest e cs = if stamp true (clock cs) = noTime then [] else [event L k cs] := by
    cases k with
    | single => exact absurd rfl hk
    | _ => rfl
  have ez : zeroTime = noTime := rfl
  by_cases hb : stamp true (clock cs) = noTime
  · rw [if_neg (by rw [ht, hb, ez]; simp)]
    rw [if_pos hb] at hr
    apply reset_good _ _ _ (.inl rfl)
    · rw [g4]; rfl
    · exact g3
    · simp [g6, events, hr]
    · simp [g5, g7, Spec.Histograms.results, hf, hr]
  · rw [if_pos (by rw [ht, ez]; exact hb)]
    rw [if_neg hb] at hr
    apply reset_good _ _ _ (.inl rfl)
    · simp [Model.Histograms.persist, push, g4, event]
    · exact g3
    · simp [Model.Histograms.persist, push, g6, g4, events, hr]
    · simp [Model.Histograms.persist, push, g5, g7, Spec.Histograms.results, hf, hr]

theorem endTest_good (cs : History) (r : Recorder H) (h : Good L k cs r) (e : Env) :
    Good L k ((.endTest, e) :: cs) (endTest L k r e) := by
  obtain ⟨g1, g2, g3, g4, g5, g6, g7⟩ := h
  have ez : zeroTime = noTime := rfl
  have hf : fails L k .endTest e cs = (!(records L k .endTest e cs).isEmpty && e.addFails) := by
    simp [fails, numbers, Spec.Histograms.operations, sizes, Spec.Histograms.errors, Spec.Histograms.durations, totalsOf, refuses_nil]
  unfold endTest
  cases k with
  | single =>
    apply reset_good _ _ _ (.inl rfl)
    · simp [Model.Histograms.persist, push, stampPoint_eq, g4, event]
    · exact g3
    · simp [Model.Histograms.persist, push, stampPoint_eq, g1, g4, g6, events, records, event, early]
    · simp [Model.Histograms.persist, push, g5, g7, Spec.Histograms.results, hf, records]
  | stream => exact endTest_timed (by simp) ⟨g1, g2, g3, g4, g5, g6, g7⟩ e hf
  | grouped => exact endTest_timed (by simp) ⟨g1, g2, g3, g4, g5, g6, g7⟩ e hf

theorem call_good (cs : History) (r : Recorder H) (h : Good L k cs r) (c : Call) (e : Env) : Good L k ((c, e) :: cs) (call L k r e c) := by
  by_cases h1 : ∃ d, c = .endIteration d
  · obtain ⟨d, rfl⟩ := h1
    exact endIteration_good cs r h d e
  by_cases h2 : c = .endTest
  · subst h2; exact endTest_good cs r h e
  by_cases h3 : c = .reset
  · subst h3
    refine reset_good cs _ e (.inr rfl) r ?_ h.interval ?_ h.results
    · rw [h.point]; rfl
    · rw [h.recorded]; simp [events, records]
  exact set_good cs r h c e (fun d hd => h1 ⟨d, hd⟩) h2 h3

theorem run_good (ds : List (Call × Env)) : ∀ (cs : History) (r : Recorder H), Good L k cs r → Good L k (ds.reverse ++ cs) (run L k r ds) := by
  induction ds with
  | nil => intro cs r h; exact h
  | cons d ds ih =>
    intro cs r h
    rw [List.reverse_cons, List.append_assoc, List.singleton_append]
    exact ih _ _ (call_good cs r h d.1 d.2)

theorem good (k : Form) (i : Int) (cs : List (Call × Env)) : Good L k cs.reverse (run L k (newRecorder L k i) cs) := by
  have := run_good cs [] _ (new_good (L := L) k i)
  rwa [List.append_nil] at this

/-! ### documents -/

open Spec.Events Proofs.Events Proofs.Ftdc Proofs

theorem histogram_rep {k : Bytes} (h : H) (hk : NulFree k) (hl : k.length < 100) (hs : SnapshotFits (L.snapshot h)) :
    ∃ v, histogramElement L k h = .ok v ∧ Rep v k (.doc (snapshotFields (L.snapshot h))) := by
  obtain ⟨h1, h2, h3, h4⟩ := hs
  obtain ⟨v1, e1, r1⟩ := int64_ok (k := kLowest) (by simp [NulFree, kLowest]) (by decide) h1
  obtain ⟨v2, e2, r2⟩ := int64_ok (k := kHighest) (by simp [NulFree, kHighest]) (by decide) h2
  obtain ⟨v3, e3, r3⟩ := int64_ok (k := kFigures) (by simp [NulFree, kFigures]) (by decide) h3
  have hv : ∀ l : List Int, (∀ i ∈ l, IsInt64 i) → ∃ d, mapRes (EC.int64 []) l = .ok d ∧ RepVals d (valsOf .int64 l) := by
    intro l
    induction l with
    | nil => intro _; exact ⟨[], rfl, by simp [RepVals, valsOf]⟩
    | cons i l ih =>
      intro hi
      obtain ⟨v, e, r⟩ := int64_ok (k := []) (by simp [NulFree]) (by decide) (hi i (by simp))
      obtain ⟨d, e', r'⟩ := ih (fun j hj => hi j (by simp [hj]))
      exact ⟨v :: d, by simp only [mapRes, e, e', Res.bind_ok], ⟨_, r⟩, r'⟩
  obtain ⟨d, ed, rd⟩ := hv _ h4
  obtain ⟨v4, e4, r4⟩ := array_rep (k := kCounts) (d := d) (vs := valsOf .int64 (L.snapshot h).counts) (by simp [NulFree, kCounts]) (by decide) rd
  obtain ⟨v5, e5, r5⟩ := subDocument_rep (k := k) (d := [v1, v2, v3, v4]) (fs := snapshotFields (L.snapshot h)) hk (by omega) ⟨r1, r2, r3, r4, trivial⟩
  exact ⟨v5, by simp only [histogramElement, marshalHistogram, e1, e2, e3, ed, e4, e5, Res.bind_ok], r5⟩

theorem point_rep {p : Point H} (h : PointFits L p) : ∃ d, marshalPoint L p = .ok d ∧ RepFields d (pointFields L p) := by
  obtain ⟨h1, h2, h3, h4, h5, h6⟩ := h
  obtain ⟨v1, e1, r1⟩ := time_ok (k := kTs) (by simp [NulFree, kTs]) (by decide) h2 h3
  obtain ⟨v2, e2, r2⟩ := int64_ok (k := kIdent) (by simp [NulFree, kIdent]) (by decide) h1
  obtain ⟨v3, e3, r3⟩ := histogram_rep (L := L) (k := kN) p.number (by simp [NulFree, kN]) (by decide) (h6 _)
  obtain ⟨v4, e4, r4⟩ := histogram_rep (L := L) (k := kOps) p.operations (by simp [NulFree, kOps]) (by decide) (h6 _)
  obtain ⟨v5, e5, r5⟩ := histogram_rep (L := L) (k := kSize) p.size (by simp [NulFree, kSize]) (by decide) (h6 _)
  obtain ⟨v6, e6, r6⟩ := histogram_rep (L := L) (k := kErrors) p.errors (by simp [NulFree, kErrors]) (by decide) (h6 _)
  obtain ⟨v7, e7, r7⟩ := histogram_rep (L := L) (k := kDur) p.duration (by simp [NulFree, kDur]) (by decide) (h6 _)
  obtain ⟨v8, e8, r8⟩ := histogram_rep (L := L) (k := kTotal) p.total (by simp [NulFree, kTotal]) (by decide) (h6 _)
  obtain ⟨v9, e9, r9⟩ := int64_ok (k := kState) (by simp [NulFree, kState]) (by decide) h4
  obtain ⟨v10, e10, r10⟩ := int64_ok (k := kWorkers) (by simp [NulFree, kWorkers]) (by decide) h5
  obtain ⟨v11, e11, r11⟩ := boolean_ok (k := kFailed) (b := p.gauges.failed) (by simp [NulFree, kFailed]) (by decide)
  obtain ⟨v12, e12, r12⟩ := subDocument_rep (k := kCounters) (d := [v3, v4, v5, v6]) (by simp [NulFree, kCounters]) (by decide)
    (show RepFields _ (.cons kN _ (.cons kOps _ (.cons kSize _ (.cons kErrors _ .nil)))) from ⟨r3, r4, r5, r6, trivial⟩)
  obtain ⟨v13, e13, r13⟩ := subDocument_rep (k := kTimers) (d := [v7, v8]) (by simp [NulFree, kTimers]) (by decide)
    (show RepFields _ (.cons kDur _ (.cons kTotal _ .nil)) from ⟨r7, r8, trivial⟩)
  obtain ⟨v14, e14, r14⟩ := subDocument_rep (k := kGauges) (d := [v9, v10, v11]) (by simp [NulFree, kGauges]) (by decide)
    (show RepFields _ (.cons kState _ (.cons kWorkers _ (.cons kFailed _ .nil))) from ⟨r9, r10, r11, trivial⟩)
  refine ⟨[v1, v2, v12, v13, v14], ?_, r1, r2, r12, r13, r14, trivial⟩
  unfold marshalPoint
  simp only [e1, e2, e3, e4, e5, e6, e7, e8, e9, e10, e11, e12, e13, e14, Res.bind_ok]

end Birch.Proofs.Histograms
