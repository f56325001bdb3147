import Verif.Proofs.IntervalWorkers

/-
C48 (the lock of the interval recorder), C53 (what the interval recorder records).
-/

namespace Birch.Props
open Birch.Model.Events hiding run
open Birch.Model.Recorders hiding run new
open Birch Model Model.Interval Spec.Interval Proofs.Interval

/-! ### C48 -/

/-- In every reachable state, whatever callers, tickers and cancellations did before, a call that waits for the lock can still get it
    (within three steps of others and itself) exactly if no worker has taken the lock under a context that is done. -/
theorem C48_exactly (s : State) (h : Reachable s) (i : Nat) (c : Call) (hc : s.callers i = .waiting c) :
    (∃ ls t, Steps s ls t ∧ Has t i) ↔ ¬ Doomed s := by
  have hi := reachable_inv h
  constructor
  · rintro ⟨ls, t, st, ht⟩ hd
    have := doomed_waits hi hd st hc
    rcases ht with ⟨c', hx⟩ | hx <;> (rw [this] at hx; cases hx)
  · intro hd
    obtain ⟨ls, t, h1, -, h2⟩ := can_get hi hd hc
    exact ⟨ls, t, h1, .inl ⟨c, h2⟩⟩

/-- When the lock is lost, it is lost for good: no call that waits ever gets it. -/
theorem C48_forever (s t : State) (h : Reachable s) (hd : Doomed s) (ls : List Label) (st : Steps s ls t) (i : Nat) (c : Call)
    (hc : s.callers i = .waiting c) : t.callers i = .waiting c ∧ Doomed t :=
  ⟨doomed_waits (reachable_inv h) hd st hc, doomed_steps (reachable_inv h) hd st⟩

/-- As long as no test ends, the recorder is not reset and its context does not end, every call that waits can get the lock.
    Missing: all executions in which a context is cancelled (`C48_deadlock`, `C48_deadlock_context`). -/
theorem C48_progress_partial (ls : List Label) (s : State) (st : Steps new ls s) (hn : NoReset ls) (hr : .rootDone ∉ ls) (i : Nat) (c : Call)
    (hc : s.callers i = .waiting c) : ∃ ms t, Steps s ms t ∧ ms.length ≤ 3 ∧ Has t i := by
  obtain ⟨h1, h2⟩ := not_cancelled st hn hr (fun _ => rfl) rfl
  have hi := reachable_inv ⟨ls, st⟩
  by_cases hd : Doomed s
  · obtain ⟨j, hl, hw⟩ := hd
    exfalso
    have hret : ∀ {s t : State} {ls : List Label}, Steps s ls t → NoReset ls → .rootDone ∉ ls → (∀ j, s.cancelled j = false) → s.rootDone = false →
        (∀ j, s.workers j ≠ .returned) → ∀ j, t.workers j ≠ .returned := by
      intro s t ls st
      induction st with
      | refl => intro _ _ _ _ h; exact h
      | @step s t u l ls a b ih =>
        intro hn hr h1 h2 hw
        obtain ⟨g1, g2⟩ := not_cancelled (.step a .refl) (ls := [l]) (by
            intro c hc
            apply hn c
            cases l <;> simp_all [bodies]) (by simp at hr ⊢; exact fun e => hr.1 e) h1 h2
        refine ih (by
          intro c hc
          apply hn c
          cases l <;> simp only [bodies, List.mem_cons] <;> first | exact hc | exact .inr hc) (fun c => hr (List.mem_cons_of_mem _ c)) g1 g2 ?_
        intro j
        have keep : ∀ (k : Nat) (x : Worker), x ≠ .returned → upd s.workers k x j ≠ .returned := by
          intro k x hx
          by_cases e : j = k
          · subst e; rw [upd_same]; exact hx
          · rw [upd_other _ _ e]; exact hw j
        cases a with
        | @body i c now hb =>
          show (Model.Interval.body s now c).workers j ≠ _
          rcases (body_keeps s now c).2.2.2 with e | e <;> rw [e]
          · exact hw j
          · exact keep _ _ (by simp)
        | @stop k h3 h4 => simp [ctxDone, h1, h2] at h4
        | @leave k h3 h4 => simp [ctxDone, h1, h2] at h4
        | @tick k h3 => exact keep _ _ (by simp)
        | @lock k h3 h4 => exact keep _ _ (by simp)
        | @record k now h3 h4 => exact keep _ _ (by simp)
        | @unlock k h3 => exact keep _ _ (by simp)
        | _ => exact hw j
    rcases hw with hw | ⟨-, hw⟩
    · exact hret st hn hr (fun _ => rfl) rfl (fun j => by simp [new]) j hw
    · simp [ctxDone, h1, h2] at hw
  · obtain ⟨ms, t, h3, h4, h5⟩ := can_get hi hd hc
    exact ⟨ms, t, h3, h4, .inl ⟨c, h5⟩⟩

/-- one caller, one worker that has recorded once, another call waiting -/
example : ∃ s, Steps new [.call 0 .beginIteration, .acquire 0, .body 0 .beginIteration, .release 0, .tick 0, .lock 0, .call 1 (.incSize 3), .record 0] s ∧
    s.callers 1 = .waiting (.incSize 3) ∧ NoReset [.call 0 .beginIteration, .acquire 0, .body 0 .beginIteration, .release 0, .tick 0, .lock 0, .call 1 (.incSize 3), .record 0] := by
  refine ⟨_, .step (.call rfl) (.step (.acquire rfl rfl) (.step (.body (now := fun _ => ⟨0, 1⟩) rfl) (.step (.release rfl) (.step (.tick rfl) (.step (.lock rfl rfl)
    (.step (.call rfl) (.step (.record (now := ⟨0, 2⟩) rfl rfl) .refl))))))), rfl, ?_⟩
  intro c hc
  simp [bodies] at hc
  subst hc; simp

/-- The property does not hold: a single caller that begins an iteration and ends the test, while the ticker fires in between, finds that
    its next call never gets the lock. -/
theorem C48_deadlock : ∃ ls s, Steps new ls s ∧ bodies ls = [.beginIteration, .endTest] ∧ .rootDone ∉ ls ∧ s.callers 0 = .waiting .beginIteration ∧
    ∀ ms t, Steps s ms t → t.callers 0 = .waiting .beginIteration := by
  have st : Steps new [.call 0 .beginIteration, .acquire 0, .body 0 .beginIteration, .release 0, .call 0 .endTest, .acquire 0, .tick 0, .body 0 .endTest,
      .release 0, .lock 0, .leave 0, .call 0 .beginIteration] _ :=
    .step (.call rfl) (.step (.acquire rfl rfl) (.step (.body (now := fun _ => ⟨0, 1⟩) rfl) (.step (.release rfl) (.step (.call rfl) (.step (.acquire rfl rfl)
      (.step (.tick rfl) (.step (.body (now := fun _ => ⟨0, 2⟩) rfl) (.step (.release rfl) (.step (.lock rfl rfl) (.step (.leave rfl rfl)
        (.step (.call rfl) .refl)))))))))))
  exact ⟨_, _, st, rfl, by simp, rfl, fun ms t h => doomed_waits (inv_steps inv_new st) ⟨0, rfl, .inl rfl⟩ h rfl⟩

/-- nor when only the context given to the recorder ends -/
theorem C48_deadlock_context : ∃ ls s, Steps new ls s ∧ bodies ls = [.beginIteration] ∧ s.callers 0 = .waiting .endTest ∧
    ∀ ms t, Steps s ms t → t.callers 0 = .waiting .endTest := by
  have st : Steps new [.call 0 .beginIteration, .acquire 0, .body 0 .beginIteration, .release 0, .rootDone, .tick 0, .lock 0, .leave 0, .call 0 .endTest] _ :=
    .step (.call rfl) (.step (.acquire rfl rfl) (.step (.body (now := fun _ => ⟨0, 1⟩) rfl) (.step (.release rfl) (.step .rootDone (.step (.tick rfl)
      (.step (.lock rfl rfl) (.step (.leave rfl rfl) (.step (.call rfl) .refl))))))))
  exact ⟨_, _, st, rfl, rfl, fun ms t h => doomed_waits (inv_steps inv_new st) ⟨0, rfl, .inl rfl⟩ h rfl⟩

/-- Only one goroutine at a time is between `Lock` and `Unlock`. -/
theorem C48_exclusive (s : State) (h : Reachable s) (i j : Nat) (hi : Has s i) :
    (Has s j → i = j) ∧ s.workers j ≠ .checking ∧ s.workers j ≠ .unlocking := by
  have inv := reachable_inv h
  have key : ∀ i, Has s i → s.lock = some (.caller i) := by
    rintro i (⟨c, hc⟩ | hc) <;> exact (inv.caller i).1 (by rw [hc]; trivial)
  have h1 := key i hi
  refine ⟨fun hj => ?_, fun hj => ?_, fun hj => ?_⟩
  · have := key j hj
    rw [h1] at this
    simpa using this
  · have := inv.worker j (by rw [hj]; trivial)
    rw [h1] at this; cases this
  · have := inv.worker j (by rw [hj]; trivial)
    rw [h1] at this; cases this

example : ∃ s, Reachable s ∧ Has s 7 := by
  have st : Steps new [.call 7 .endTest, .acquire 7] _ := .step (.call rfl) (.step (.acquire rfl rfl) .refl)
  exact ⟨_, ⟨_, st⟩, .inl ⟨.endTest, rfl⟩⟩

/-- There is a worker while an iteration was begun since the last `EndTest` or `Reset`, and only one; else there is none: each that was started has been told to end.
    (The worker of an iteration may have ended on its own if the context of the recorder is done.) -/
theorem C48_worker (ls : List Label) (s : State) (st : Steps new ls s) :
    (begun (bodies ls).reverse = true → ∃ j, (∀ k, Live s k → k = j) ∧ (s.rootDone = false → Live s j)) ∧
    (begun (bodies ls).reverse = false → ∀ k, ¬ Live s k) := by
  have h := Proofs.IntervalWorkers.good_steps st [] Proofs.IntervalWorkers.good_new
  rw [List.append_nil] at h
  exact Proofs.IntervalWorkers.good_live h

/-- an iteration, a reset and another iteration: the second worker -/
example : ∃ s, Steps new [.call 0 .beginIteration, .acquire 0, .body 0 .beginIteration, .release 0, .call 0 .reset, .acquire 0, .body 0 .reset, .release 0,
    .call 0 .beginIteration, .acquire 0, .body 0 .beginIteration, .release 0] s ∧ Live s 1 ∧ ¬ Live s 0 ∧ s.workers 0 = .selecting :=
  ⟨_, .step (.call rfl) (.step (.acquire rfl rfl) (.step (.body (now := fun _ => ⟨0, 1⟩) rfl) (.step (.release rfl) (.step (.call rfl) (.step (.acquire rfl rfl)
    (.step (.body (now := fun _ => ⟨0, 2⟩) rfl) (.step (.release rfl) (.step (.call rfl) (.step (.acquire rfl rfl) (.step (.body (now := fun _ => ⟨0, 3⟩) rfl)
      (.step (.release rfl) .refl))))))))))),
    ⟨by simp [Live, Model.Interval.body, Model.Interval.reset, new, upd], by simp [Live, Model.Interval.body, Model.Interval.reset, new, upd], rfl⟩⟩

/-! ### C53 -/

/-- Under every interleaving of callers and workers, from a state with an empty event (as at the start or after a reset) on, as long as nothing is reset:
    what was recorded since and what is still to be recorded add up to what the callers have reported. -/
theorem C53_conserved (s t : State) (ls : List Label) (st : Steps s ls t) (hn : NoReset ls) (g : Gauges) (hs : s.point = zeroPerf g) :
    ∃ l, t.recorded = s.recorded ++ l ∧
      i64 ((l.map (·.counters.number)).sum + t.point.counters.number) = i64 ((bodies ls).map iterations).sum ∧
      i64 ((l.map (·.counters.operations)).sum + t.point.counters.operations) = i64 ((bodies ls).map Spec.Recorders.operations).sum ∧
      i64 ((l.map (·.counters.size)).sum + t.point.counters.size) = i64 ((bodies ls).map Spec.Recorders.size).sum ∧
      i64 ((l.map (·.counters.errors)).sum + t.point.counters.errors) = i64 ((bodies ls).map Spec.Recorders.errors).sum ∧
      i64 ((l.map (·.timers.duration)).sum + t.point.timers.duration) = i64 ((bodies ls).map Spec.Recorders.duration).sum := by
  obtain ⟨l, h0, h1⟩ := conserve number st hn
  have same : ∀ m, t.recorded = s.recorded ++ m → m = l := fun m hm => List.append_cancel_left (hm.symm.trans h0)
  obtain ⟨l2, e2, h2⟩ := conserve operations st hn
  obtain ⟨l3, e3, h3⟩ := conserve size st hn
  obtain ⟨l4, e4, h4⟩ := conserve errors st hn
  obtain ⟨l5, e5, h5⟩ := conserve duration st hn
  obtain rfl := same _ e2
  obtain rfl := same _ e3
  obtain rfl := same _ e4
  obtain rfl := same _ e5
  have z : ∀ f : Field, f.get s.point = 0 := fun f => by rw [hs]; exact f.zero g
  rw [z, Int.zero_add] at h1 h2 h3 h4 h5
  exact ⟨_, h0, h1, h2, h3, h4, h5⟩

example : new.point = zeroPerf ⟨0, 0, false⟩ := rfl

/-- The gauges are what they were last set to, whatever is reset and recorded in between, and zero at first; those of a recorded event are what they were set to by some
    first part of the calls. -/
theorem C53_gauges (t : State) (ls : List Label) (st : Steps new ls t) :
    t.point.gauges = gaugesAfter ⟨0, 0, false⟩ (bodies ls) ∧ ∀ p ∈ t.recorded, ∃ pre post, bodies ls = pre ++ post ∧ p.gauges = gaugesAfter ⟨0, 0, false⟩ pre := by
  obtain ⟨h1, l, h2, h3⟩ := gauges_after st
  refine ⟨h1, fun p hp => h3 p ?_⟩
  rw [h2] at hp
  exact hp

example : gaugesAfter ⟨0, 0, false⟩ [.setState 3, .setFailed true, .endTest, .setState 4] = ⟨4, 0, true⟩ := rfl

/-- An ID that was set is in the event of the first tick only. -/
theorem C53_id : ∃ ls s, Steps new ls s ∧ bodies ls = [.setID 7, .beginIteration] ∧ s.recorded.map (·.id) = [7, 0] := by
  refine ⟨[.call 0 (.setID 7), .acquire 0, .body 0 (.setID 7), .release 0, .call 0 .beginIteration, .acquire 0, .body 0 .beginIteration, .release 0,
    .tick 0, .lock 0, .record 0, .unlock 0, .tick 0, .lock 0, .record 0, .unlock 0], _,
    .step (.call rfl) (.step (.acquire rfl rfl) (.step (.body (now := fun _ => ⟨0, 1⟩) rfl) (.step (.release rfl)
      (.step (.call rfl) (.step (.acquire rfl rfl) (.step (.body (now := fun _ => ⟨0, 1⟩) rfl) (.step (.release rfl)
        (.step (.tick rfl) (.step (.lock rfl rfl) (.step (.record (now := ⟨0, 2⟩) rfl rfl) (.step (.unlock rfl)
          (.step (.tick rfl) (.step (.lock rfl rfl) (.step (.record (now := ⟨0, 3⟩) rfl rfl) (.step (.unlock rfl) .refl))))))))))))))), rfl, ?_⟩
  decide

/-- `EndTest` records what is left if the event has a time, and empties the event. -/
theorem C53_end_test (s t : State) (i : Nat) (st : Step s (.body i .endTest) t) :
    t.recorded = s.recorded ++ (if s.point.ts ≠ zeroTime then [s.point] else []) ∧ t.point = zeroPerf s.point.gauges := by
  have hr : ∀ s : State, (reset s).recorded = s.recorded ∧ (reset s).point = zeroPerf s.point.gauges := by
    intro s; unfold reset; cases s.canceler <;> exact ⟨rfl, rfl⟩
  cases st with
  | @body _ _ now h =>
    show (Model.Interval.body s now .endTest).recorded = _ ∧ (Model.Interval.body s now .endTest).point = _
    simp only [Model.Interval.body]
    rw [(hr _).1, (hr _).2]
    split <;> simp

example : ∃ s t, Step s (.body 0 .endTest) t ∧ s.point.ts ≠ zeroTime :=
  ⟨{ new with callers := fun _ => .inside .endTest, point := ⟨⟨0, 0⟩, 0, ⟨0, 0, 0, 0⟩, ⟨0, 0⟩, ⟨0, 0, false⟩⟩ }, _, .body (now := fun _ => zeroTime) rfl, by decide⟩

/-- What is reported between a tick and `EndTest` without a new iteration is lost: the event that the worker leaves has no time. -/
theorem C53_lost : ∃ ls s, Steps new ls s ∧ bodies ls = [.beginIteration, .incOperations 5, .endTest] ∧
    s.recorded.map (·.counters.operations) = [0] ∧ s.point.counters.operations = 0 := by
  refine ⟨[.call 0 .beginIteration, .acquire 0, .body 0 .beginIteration, .release 0, .tick 0, .lock 0, .record 0, .unlock 0,
    .call 0 (.incOperations 5), .acquire 0, .body 0 (.incOperations 5), .release 0, .call 0 .endTest, .acquire 0, .body 0 .endTest], _,
    .step (.call rfl) (.step (.acquire rfl rfl) (.step (.body (now := fun _ => ⟨0, 1⟩) rfl) (.step (.release rfl) (.step (.tick rfl) (.step (.lock rfl rfl)
      (.step (.record (now := ⟨0, 2⟩) rfl rfl) (.step (.unlock rfl) (.step (.call rfl) (.step (.acquire rfl rfl) (.step (.body (now := fun _ => ⟨0, 3⟩) rfl)
        (.step (.release rfl) (.step (.call rfl) (.step (.acquire rfl rfl) (.step (.body (now := fun _ => ⟨0, 4⟩) rfl) .refl)))))))))))))), rfl, ?_, ?_⟩
  · decide
  · decide

/-- `EndIteration` of this recorder does not count the iteration. -/
theorem C53_iteration_not_counted (s t : State) (i : Nat) (d : Int) (st : Step s (.body i (.endIteration d)) t) :
    t.point.counters = s.point.counters := by
  cases st with
  | @body _ _ now h =>
    show (Model.Interval.body s now (.endIteration d)).point.counters = _
    simp only [Model.Interval.body]
    split <;> simp only [(Proofs.Recorders.setTimestamp_keeps _ _ _).1]

example : ∃ s t, Step s (.body 0 (.endIteration 5)) t :=
  ⟨{ new with callers := fun _ => .inside (.endIteration 5) }, _, .body (now := fun _ => zeroTime) rfl⟩

end Birch.Props
