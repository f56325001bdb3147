import Verif.Proofs.Histograms

/-
C79: the recorders of histograms.
-/

namespace Birch.Props
open Birch Model Model.Events Model.Histograms Spec Spec.Recorders Spec.Histograms
open Birch.Model.Recorders (Call)

/-- histograms that only remember their values and refuse those outside the bounds -/
def exLib : Lib (Int × Int × List Int) where
  new lo hi _ := (lo, hi, [])
  record h v := if h.1 ≤ v ∧ v ≤ h.2.1 then ((h.1, h.2.1, h.2.2 ++ [v]), false) else (h, true)
  snapshot h := ⟨if h.1 = 0 then 0 else 1000, 0, 5, List.replicate h.2.2.length 1⟩

/-- the clock shows `s` seconds, and the underlying collector works -/
def exEnv (s : Int) : Env := ⟨fun _ => ⟨s, 0⟩, false⟩

/-- At every moment the event holds what was reported since the last `Reset` or `EndTest`: each histogram is a new one, with counters from 0 to
    10 thousand or timers from a microsecond to a minute, in which exactly the reported values have been recorded, in order; its time,
    ID and gauges are as in the other recorders. -/
theorem C79_event {H : Type} (L : Lib H) (k : Form) (i : Int) (cs : List (Call × Env)) :
    (run L k (newRecorder L k i) cs).point = event L k cs.reverse :=
  (Proofs.Histograms.good k i cs).point

/-- two iterations, the second one from 5 to 7 seconds, after an `EndTest` -/
example : (run exLib .stream (newRecorder exLib .stream 0) [(.incSize 9, exEnv 1), (.endTest, exEnv 1), (.setID 3, exEnv 1), (.endIteration 2000, exEnv 4),
      (.beginIteration, exEnv 5), (.incSize 20, exEnv 6), (.incSize 20000, exEnv 6), (.endIteration 3000, exEnv 7)]).point =
    ⟨⟨4, 0⟩, 3, (0, 10000, [1, 1]), (0, 10000, []), (0, 10000, [20]), (0, 10000, []), (1000, 60000000000, [2000, 3000]), (1000, 60000000000, [2000000000]),
      ⟨0, 0, false⟩⟩ := by
  rw [C79_event]; rfl

/-- The events given to the underlying collector: the stream recorder gives one per iteration, the grouped one too unless the clock was set back,
    both one more at `EndTest` if the event has a time; the single recorder gives exactly one per `EndTest`. -/
theorem C79_recorded {H : Type} (L : Lib H) (k : Form) (i : Int) (cs : List (Call × Env)) :
    (run L k (newRecorder L k i) cs).recorded = events L k cs.reverse :=
  (Proofs.Histograms.good k i cs).recorded

example : (events exLib .stream [(Call.endTest, exEnv 8), (.endIteration 3000, exEnv 7), (.endIteration 2000, exEnv 4)]).map (·.number) =
    [(0, 10000, [1]), (0, 10000, [1, 1]), (0, 10000, [1, 1])] ∧
    (events exLib .single [(Call.endTest, exEnv 8), (.endIteration 3000, exEnv 7), (.endIteration 2000, exEnv 4)]).map (·.ts) = [⟨4, 0⟩] := by decide

/-- `EndTest` returns an error if and only if, since the last `Reset` or `EndTest`, a histogram has refused a value or the underlying collector
    has failed. -/
theorem C79_errors {H : Type} (L : Lib H) (k : Form) (i : Int) (cs : List (Call × Env)) :
    (run L k (newRecorder L k i) cs).results = results L k cs.reverse :=
  (Proofs.Histograms.good k i cs).results

/-- a size of 20000 is refused; after the `EndTest` that reports it all is well; then the underlying collector fails -/
example : results exLib .stream [(Call.endTest, ⟨fun _ => ⟨9, 0⟩, true⟩), (.endIteration 3000, exEnv 7), (.endTest, exEnv 7), (.endIteration 3000, exEnv 6), (.endTest, exEnv 5),
    (.incSize 20000, exEnv 4)] = [true, false, true] := by decide

/-- The interval given to `NewHistogramGroupedRecorder` has no effect: with any interval the recorder does the same, and gives every iteration to the
    underlying collector (if the clock is not set back), where the comment says that it does so if the interval has elapsed. -/
theorem C79_interval_ignored {H : Type} (L : Lib H) (i : Int) (cs : List (Call × Env)) (d : Int) (e : Env)
    (hc : nanoseconds (collected cs.reverse) ≤ nanoseconds (e.now 2)) :
    (∀ j, run L .grouped (newRecorder L .grouped i) cs = run L .grouped (newRecorder L .grouped j) cs) ∧
    (run L .grouped (newRecorder L .grouped i) (cs ++ [(.endIteration d, e)])).recorded =
      (run L .grouped (newRecorder L .grouped i) cs).recorded ++ [event L .grouped ((.endIteration d, e) :: cs.reverse)] := by
  refine ⟨fun j => rfl, ?_⟩
  rw [C79_recorded, C79_recorded, List.reverse_append, List.reverse_singleton, List.singleton_append, events, records]
  have : earlier (e.now 2) (collected cs.reverse) = false := by simp only [earlier, decide_eq_false_iff_not]; omega
  simp [this]

/-- two iterations within a nanosecond, and an interval of an hour -/
example : (run exLib .grouped (newRecorder exLib .grouped 3600000000000) [(.endIteration 2000, exEnv 4), (.endIteration 2001, ⟨fun _ => ⟨4, 1⟩, false⟩)]).recorded.length = 2 := by
  have := (C79_interval_ignored exLib 3600000000000 [(.endIteration 2000, exEnv 4)] 2001 ⟨fun _ => ⟨4, 1⟩, false⟩ (by decide)).2
  rw [List.singleton_append] at this
  rw [this, C79_recorded]
  decide

/-- What is reported without an iteration or a time is lost at `EndTest` in the stream and grouped recorders: nothing is recorded, and no error is returned on
    account of it. -/
theorem C79_lost {H : Type} (L : Lib H) (k : Form) (hk : k ≠ .single) (i : Int) (cs : List (Call × Env)) (e : Env)
    (h : ∀ c ∈ cs, ∀ t d, c.1 ≠ .beginIteration ∧ c.1 ≠ .endIteration d ∧ c.1 ≠ .setTime t) :
    (run L k (newRecorder L k i) (cs ++ [(.endTest, e)])).recorded = [] := by
  have hs : ∀ cs : History, (∀ c ∈ cs, ∀ t d, c.1 ≠ .beginIteration ∧ c.1 ≠ .endIteration d ∧ c.1 ≠ .setTime t) → stamp true (clock cs) = noTime := by
    intro cs
    induction cs with
    | nil => intro _; rfl
    | cons c cs ih =>
      intro h
      obtain ⟨c, e⟩ := c
      have hc := h _ (List.mem_cons_self)
      have ih := ih (fun c' hc' => h c' (List.mem_cons_of_mem _ hc'))
      have h0 := hc ⟨0, 0⟩ 0
      cases c with
      | beginIteration => exact absurd rfl h0.1
      | endIteration d => exact absurd rfl (hc ⟨0, 0⟩ d).2.1
      | setTime t => exact absurd rfl (hc t 0).2.2
      | endTest => rfl
      | reset => rfl
      | _ => exact ih
  have he : ∀ cs : History, (∀ c ∈ cs, ∀ t d, c.1 ≠ .beginIteration ∧ c.1 ≠ .endIteration d ∧ c.1 ≠ .setTime t) → events L k cs = [] := by
    intro cs
    induction cs with
    | nil => intro _; rfl
    | cons c cs ih =>
      intro h
      obtain ⟨c, e⟩ := c
      have hc := h _ (List.mem_cons_self)
      have h' : ∀ c ∈ cs, ∀ t d, c.1 ≠ .beginIteration ∧ c.1 ≠ .endIteration d ∧ c.1 ≠ .setTime t := fun c' hc' => h c' (List.mem_cons_of_mem _ hc')
      rw [events, ih h', List.nil_append]
      cases c with
      | endIteration d => exact absurd rfl (hc ⟨0, 0⟩ d).2.1
      | endTest => cases k <;> simp [records, hs cs h'] at hk ⊢
      | _ => rfl
  rw [C79_recorded, List.reverse_append, List.reverse_singleton, List.singleton_append]
  apply he
  intro c hc
  rcases List.mem_cons.mp hc with rfl | hc
  · intro t d; exact ⟨by simp, by simp, by simp⟩
  · exact h c (List.mem_reverse.mp hc)

example : (run exLib .stream (newRecorder exLib .stream 0) ([(.incOperations 7, exEnv 1), (.incSize 8, exEnv 2)] ++ [(.endTest, exEnv 3)])).recorded = [] :=
  C79_lost exLib .stream (by simp) 0 _ _ (by simp)

/-- The document of an event: time, ID and gauges as in that of a performance event, and for each histogram its bounds and counts. -/
theorem C79_document {H : Type} (L : Lib H) (p : Point H) (h : PointFits L p) :
    ∃ d, marshalPoint L p = .ok d ∧ RepFields d (pointFields L p) :=
  Proofs.Histograms.point_rep h

example : PointFits exLib (event exLib .stream [(Call.endIteration 2000, exEnv 4)]) := by
  have h0 : ∀ i : Int, 0 ≤ i → i ≤ 1000000 → Spec.Events.IsInt64 i := fun i _ _ => by unfold Spec.Events.IsInt64; omega
  refine ⟨h0 _ (by decide) (by decide), by unfold Normal; decide, h0 _ (by decide) (by decide), h0 _ (by decide) (by decide), h0 _ (by decide) (by decide),
    fun h => ⟨?_, h0 _ (by simp [exLib]) (by simp [exLib]), h0 _ (by simp [exLib]) (by simp [exLib]), ?_⟩⟩
  · simp only [exLib]; split <;> exact h0 _ (by decide) (by decide)
  · intro i hi
    rw [(List.mem_replicate.mp hi).2]; exact h0 _ (by decide) (by decide)

end Birch.Props
