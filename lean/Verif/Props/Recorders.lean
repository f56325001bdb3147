import Verif.Proofs.Recorders

/-
C49 (recorders of performance events).
-/

namespace Birch.Props
open Birch.Model.Events hiding run
open Birch Model Model.Recorders Spec.Recorders Proofs.Recorders

/-- After any calls the counters of a recorder are the sums of what was reported since the last `Reset` or `EndTest`, and every
    `EndIteration` has added one. -/
theorem C49_counters (k : Flavor) (t : Time) (cs : List (Call × (Nat → Time))) :
    (run k (new k t) cs).point.counters = counters (sinceReset (cs.map (·.1))) := by
  simpa using (run_good cs (new_good k t)).1

example : counters (sinceReset [.incSize 9, .reset, .incIterations 5, .incSize 1, .endIteration 3, .incSize 2, .endIteration 4]) = ⟨7, 0, 3, 0⟩ := by decide

/-- The gauges are the last ones that were set, also before a `Reset`; the ID is the last one set since. -/
theorem C49_gauges (k : Flavor) (t : Time) (cs : List (Call × (Nat → Time))) :
    (run k (new k t) cs).point.gauges = gauges (cs.map (·.1)).reverse ∧ (run k (new k t) cs).point.id = ident (sinceReset (cs.map (·.1))).reverse := by
  have := run_good cs (new_good k t)
  exact ⟨by simpa using this.2.1, by simpa using this.2.2.1⟩

example : gauges [Call.setState 1, .setWorkers 4, .reset, .setState 2].reverse = ⟨2, 4, false⟩ := by decide

/-- The durations of the single and grouped recorders are summed since the last `Reset` or `EndTest`; in the raw one `SetDuration` replaces. -/
theorem C49_durations (k : Flavor) (t : Time) (cs : List (Call × (Nat → Time))) :
    (run k (new k t) cs).point.timers.duration = match k with
      | .raw => rawDuration (sinceReset (cs.map (·.1))).reverse
      | _ => i64 ((sinceReset (cs.map (·.1))).map duration).sum := by
  have := (run_good cs (new_good k t)).2.2.2
  cases k <;> simpa using this

example : rawDuration [Call.endIteration 5, .setDuration 2, .endIteration 1].reverse = 3 ∧ ([Call.endIteration 5, .setDuration 2, .endIteration 1].map duration).sum = 8 := by decide

/-- The raw recorder records an event at each `EndIteration`, with the sums since the last `Reset` or `EndTest` including this iteration. -/
theorem C49_raw_iteration (t : Time) (cs : List (Call × (Nat → Time))) (d : Int) (now : Nat → Time) :
    ∃ p, (run .raw (new .raw t) (cs ++ [(.endIteration d, now)])).recorded = (run .raw (new .raw t) cs).recorded ++ [p] ∧
      p.counters = counters (sinceReset (cs.map (·.1) ++ [.endIteration d])) := by
  obtain ⟨p, h1, h2⟩ := endIteration_raw (run .raw (new .raw t) cs) d now
  refine ⟨p, by rw [run_append]; exact h1, ?_⟩
  have := C49_counters .raw t (cs ++ [(.endIteration d, now)])
  rw [run_append] at this
  rw [h2, ← List.map_singleton (f := Prod.fst) (a := (Call.endIteration d, now)), ← List.map_append, ← this]
  rfl

/-- The single recorder records one event at each `EndTest`, with the sums since the one before, and nothing else ever. -/
theorem C49_single (t : Time) (cs : List (Call × (Nat → Time))) (c : Call) (now : Nat → Time) :
    (c ≠ .endTest → (run .single (new .single t) (cs ++ [(c, now)])).recorded = (run .single (new .single t) cs).recorded) ∧
    ∃ p, (run .single (new .single t) (cs ++ [(.endTest, now)])).recorded = (run .single (new .single t) cs).recorded ++ [p] ∧
      p.counters = counters (sinceReset (cs.map (·.1))) ∧ p.timers.duration = i64 ((sinceReset (cs.map (·.1))).map duration).sum ∧
      p.gauges = gauges (cs.map (·.1)).reverse := by
  constructor
  · intro hc
    rw [run_append]
    by_cases he : ∃ d, c = .endIteration d
    · obtain ⟨d, rfl⟩ := he
      exact endIteration_single _ d now
    · exact call_recorded _ _ now c (fun d e => he ⟨d, e⟩) hc
  · obtain ⟨p, h1, h2, h3, h4⟩ := endTest_single (run .single (new .single t) cs) now
    refine ⟨p, by rw [run_append]; exact h1, by rw [h2, C49_counters], ?_, by rw [h4, (C49_gauges _ _ _).1]⟩
    rw [h3]; exact C49_durations .single t cs

/-- The raw and grouped recorders record what is left at `EndTest`, if the event has a time. -/
theorem C49_end_test (k : Flavor) (hk : k ≠ .single) (t : Time) (cs : List (Call × (Nat → Time))) (now : Nat → Time) :
    ∃ p, p.counters = counters (sinceReset (cs.map (·.1))) ∧ p.ts = (run k (new k t) cs).point.ts ∧
      (run k (new k t) (cs ++ [(.endTest, now)])).recorded = (run k (new k t) cs).recorded ++ if p.ts ≠ zeroTime then [p] else [] :=
  ⟨_, C49_counters k t cs, rfl, by rw [run_append]; exact endTest_other hk _ now⟩

example : Flavor.grouped 5 ≠ .single := by simp

/-- The grouped recorder records at `EndIteration` if the interval is over, with the sums since the last `Reset` or `EndTest`
    including this iteration; otherwise it records nothing. -/
theorem C49_grouped_iteration (i : Int) (t : Time) (cs : List (Call × (Nat → Time))) (d : Int) (now : Nat → Time) :
    let before := run (.grouped i) (new (.grouped i) t) cs
    let after := run (.grouped i) (new (.grouped i) t) (cs ++ [(.endIteration d, now)])
    (timeSub (now 2) before.last ≥ i → ∃ p, after.recorded = before.recorded ++ [p] ∧ p.counters = counters (sinceReset (cs.map (·.1) ++ [.endIteration d]))) ∧
    (timeSub (now 2) before.last < i → after.recorded = before.recorded) := by
  intro before after
  have e : after = endIteration (.grouped i) before d now := by
    show run _ _ (cs ++ _) = _
    rw [run_append]; rfl
  obtain ⟨h1, h2⟩ := endIteration_grouped i before d now
  rw [e]
  refine ⟨fun h => ?_, fun h => h2 (by omega)⟩
  obtain ⟨p, h3, h4, -⟩ := h1 h
  refine ⟨p, h3, ?_⟩
  have := C49_counters (.grouped i) t (cs ++ [(.endIteration d, now)])
  rw [h4, ← e]
  simpa using this

/-- The calls other than `EndIteration` and `EndTest` record nothing. -/
theorem C49_silent (k : Flavor) (t : Time) (cs : List (Call × (Nat → Time))) (c : Call) (now : Nat → Time) (h1 : ∀ d, c ≠ .endIteration d) (h2 : c ≠ .endTest) :
    (run k (new k t) (cs ++ [(c, now)])).recorded = (run k (new k t) cs).recorded := by
  rw [run_append]; exact call_recorded _ _ now c h1 h2

example : ∀ d, Call.reset ≠ .endIteration d := by simp

/-- What is reported after the grouped recorder has recorded an iteration is lost if no iteration or time follows: `EndTest` records
    nothing and clears the counters. -/
theorem C49_grouped_lost (i : Int) (t : Time) (cs : List (Call × (Nat → Time))) (d v : Int) (now now' now'' : Nat → Time)
    (h : timeSub (now 2) (run (.grouped i) (new (.grouped i) t) cs).last ≥ i) :
    (run (.grouped i) (new (.grouped i) t) (cs ++ [(.endIteration d, now), (.incOperations v, now'), (.endTest, now'')])).recorded =
      (run (.grouped i) (new (.grouped i) t) (cs ++ [(.endIteration d, now)])).recorded ∧
    (run (.grouped i) (new (.grouped i) t) (cs ++ [(.endIteration d, now), (.incOperations v, now'), (.endTest, now'')])).point.counters = ⟨0, 0, 0, 0⟩ := by
  obtain ⟨p, h1, h2, h3, h4, h5⟩ := (endIteration_grouped i _ d now).1 h
  constructor
  · rw [run_append, run_append]
    show (endTest (.grouped i) (call (.grouped i) (endIteration (.grouped i) _ d now) now' (.incOperations v)) now'').recorded = _
    rw [endTest_other (by simp)]
    have : (call (.grouped i) (endIteration (.grouped i) (run (.grouped i) (new (.grouped i) t) cs) d now) now' (.incOperations v)).point.ts = zeroTime := h5
    rw [this]
    simp only [ne_eq, not_true_eq_false, if_false, List.append_nil]
    rfl
  · rw [C49_counters]
    simp [sinceReset]
    rfl

/-- an interval of 10 ns that is over -/
example : timeSub ⟨0, 20⟩ (run (.grouped 10) (new (.grouped 10) ⟨0, 5⟩) [(.beginIteration, fun _ => ⟨0, 7⟩)]).last ≥ 10 := by decide

/-- the same for a raw recorder that is given no time: nothing is recorded -/
theorem C49_raw_lost (t : Time) (v : Int) (now now' : Nat → Time) :
    (run .raw (new .raw t) [(.incOperations v, now), (.endTest, now')]).recorded = [] := rfl

/-- The total duration of a recorder is the time spent between `BeginIteration` and `EndIteration` since the last `Reset` or `EndTest`, plus what was
    set.  In the raw recorder `SetTotalDuration` replaces it. -/
theorem C49_total (k : Flavor) (t : Time) (cs : List (Call × (Nat → Time))) :
    (run k (new k t) cs).point.timers.total = total (match k with | .raw => true | _ => false) cs.reverse := by
  have := (run_times cs (new_times k t)).2.1
  rw [List.append_nil] at this
  cases k <;> exact this

/-- two iterations of 30 and 5 ns and one that was given up -/
example : total false [(Call.beginIteration, fun _ => ⟨7, 0⟩), (.endIteration 1, fun _ => ⟨7, 30⟩), (.beginIteration, fun _ => ⟨8, 0⟩), (.setState 1, fun _ => ⟨8, 1⟩),
    (.endIteration 1, fun _ => ⟨8, 5⟩), (.endIteration 1, fun _ => ⟨9, 5⟩)].reverse = 35 := by decide

/-- The raw recorder's events have the total duration of the iterations so far and the time that was set, or at which the first iteration was begun or ended. -/
theorem C49_raw_times (t : Time) (cs : List (Call × (Nat → Time))) (d : Int) (now : Nat → Time) :
    ∃ p, (run .raw (new .raw t) (cs ++ [(.endIteration d, now)])).recorded = (run .raw (new .raw t) cs).recorded ++ [p] ∧
      p.timers.total = total true ((.endIteration d, now) :: cs.reverse) ∧ p.ts = stamp true ((.endIteration d, now) :: cs.reverse) := by
  obtain ⟨p, h1, h2⟩ := endIteration_raw (run .raw (new .raw t) cs) d now
  refine ⟨p, by rw [run_append]; exact h1, ?_⟩
  have h := run_times (cs ++ [(.endIteration d, now)]) (new_times .raw t)
  rw [run_append, List.append_nil, List.reverse_append, List.reverse_singleton, List.singleton_append] at h
  rw [h2]
  exact ⟨h.2.1, h.2.2 rfl⟩

example : stamp true ([(Call.beginIteration, fun _ => ⟨7, 0⟩), (.endIteration 1, fun _ => ⟨7, 30⟩), (.beginIteration, fun _ => ⟨8, 0⟩)] : Timed).reverse = ⟨7, 0⟩ ∧
    stamp true ([(Call.beginIteration, fun _ => ⟨7, 0⟩), (.reset, fun _ => ⟨7, 30⟩), (.endIteration 1, fun _ => ⟨8, 0⟩)] : Timed).reverse = ⟨8, 0⟩ := by decide

/-- The event of the single recorder has the total duration of the iterations, and the time that was set, or at which the first iteration that ended was begun, or
    now if there was none. -/
theorem C49_single_times (t : Time) (cs : List (Call × (Nat → Time))) (now : Nat → Time) :
    ∃ p, (run .single (new .single t) (cs ++ [(.endTest, now)])).recorded = (run .single (new .single t) cs).recorded ++ [p] ∧
      p.timers.total = total false cs.reverse ∧ p.ts = orElse (stamp false cs.reverse) (orElse (began cs.reverse) (now 0)) := by
  have h := run_times cs (new_times .single t)
  rw [List.append_nil] at h
  refine ⟨_, by rw [run_append]; rfl, ?_, ?_⟩
  · exact (congrArg Timers.total (setTimestamp_keeps _ _ _).2.1).trans h.2.1
  · rw [setTimestamp_ts, h.1, h.2.2 rfl]; rfl

/-- The grouped recorder's events have the total duration of the iterations so far. -/
theorem C49_grouped_times (i : Int) (t : Time) (cs : List (Call × (Nat → Time))) (d : Int) (now : Nat → Time)
    (h : timeSub (now 2) (run (.grouped i) (new (.grouped i) t) cs).last ≥ i) :
    ∃ p, (run (.grouped i) (new (.grouped i) t) (cs ++ [(.endIteration d, now)])).recorded = (run (.grouped i) (new (.grouped i) t) cs).recorded ++ [p] ∧
      p.timers.total = total false ((.endIteration d, now) :: cs.reverse) ∧
      p.ts = orElse (run (.grouped i) (new (.grouped i) t) cs).point.ts (orElse (began cs.reverse) (now 1)) := by
  obtain ⟨p, h1, h2, h3⟩ := endIteration_grouped_ts i (run (.grouped i) (new (.grouped i) t) cs) d now h
  refine ⟨p, by rw [run_append]; exact h1, ?_, ?_⟩
  · have h := run_times (cs ++ [(.endIteration d, now)]) (new_times (.grouped i) t)
    rw [run_append, List.append_nil, List.reverse_append, List.reverse_singleton, List.singleton_append] at h
    exact h2.trans h.2.1
  · have h := run_times cs (new_times (.grouped i) t)
    rw [List.append_nil] at h
    rw [h3, h.1]

example : timeSub ⟨0, 20⟩ (run (.grouped 10) (new (.grouped 10) ⟨0, 5⟩) [(.beginIteration, fun _ => ⟨0, 7⟩)]).last ≥ 10 := by decide

end Birch.Props
