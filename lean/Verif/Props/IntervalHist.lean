import Verif.Proofs.IntervalWorkers
import Verif.Props.Histograms

/-
C80: the interval recorder of histograms.
-/

namespace Birch.Props
open Birch Model Model.Events Model.IntervalHist Spec Spec.IntervalHist Proofs.IntervalHist
open Birch.Spec.Recorders (noTime orElse)
open Birch.Model.Recorders (Call)
open Birch.Model.Histograms (Lib Point Recorder Env)
open Birch.Spec.Histograms (numbers operations sizes errors durations counter timer)

/-- Under every interleaving of callers and workers: the event that is being filled, the events handed on and what `EndTest` returned are those that belong to the history
    of what was done under the lock. -/
theorem C80_events {H : Type} (L : Lib H) (ls : List Label) (s : State H) (st : Steps L (new L) ls s) :
    s.data.point = event L (history ls) ∧ s.data.recorded = events L (history ls) ∧ s.data.results = results L (history ls) := by
  have := good st [] new_good
  rw [List.append_nil] at this
  exact ⟨this.point, this.recorded, this.results⟩

/-- an iteration that is begun by one caller and ended by another one, with a tick in between -/
def exSteps : List Label :=
  [.call 0 .beginIteration, .acquire 0, .body 0 .beginIteration (exEnv 1), .call 1 (.endIteration 2000), .release 0, .tick 0, .lock 0, .record 0 (exEnv 2), .unlock 0,
   .acquire 1, .body 1 (.endIteration 2000) (exEnv 3), .release 1]

example : ∃ s, Steps exLib (new exLib) exSteps s :=
  ⟨_, .step (.call rfl) (.step (.acquire rfl rfl) (.step (.body rfl) (.step (.call rfl) (.step (.release rfl) (.step (.tick rfl) (.step (.lock rfl rfl)
    (.step (.record rfl rfl) (.step (.unlock rfl) (.step (.acquire rfl rfl) (.step (.body rfl) (.step (.release rfl) .refl)))))))))))⟩

example : (events exLib (history exSteps)).map (·.ts) = [⟨1, 0⟩] ∧ (event exLib (history exSteps)).ts = ⟨1, 0⟩ ∧
    (event exLib (history exSteps)).total = (1000, 60000000000, [2000000000]) := by decide

/-- As long as nothing is reset, every value that was reported is in exactly one event that was handed on or in the one that is being filled, in order. -/
theorem C80_conserved {H : Type} (L : Lib H) (ls : List Label) (s : State H) (st : Steps L (new L) ls s) (hn : NoReset (history ls)) :
    (∃ (vss : List (List Int)) (last : List Int), s.data.recorded.map (·.number) = vss.map (counter L) ∧ s.data.point.number = counter L last ∧ vss.flatten ++ last = all numbers (history ls)) ∧
    (∃ (vss : List (List Int)) (last : List Int), s.data.recorded.map (·.operations) = vss.map (counter L) ∧ s.data.point.operations = counter L last ∧ vss.flatten ++ last = all operations (history ls)) ∧
    (∃ (vss : List (List Int)) (last : List Int), s.data.recorded.map (·.size) = vss.map (counter L) ∧ s.data.point.size = counter L last ∧ vss.flatten ++ last = all sizes (history ls)) ∧
    (∃ (vss : List (List Int)) (last : List Int), s.data.recorded.map (·.errors) = vss.map (counter L) ∧ s.data.point.errors = counter L last ∧ vss.flatten ++ last = all errors (history ls)) ∧
    (∃ (vss : List (List Int)) (last : List Int), s.data.recorded.map (·.duration) = vss.map (timer L) ∧ s.data.point.duration = timer L last ∧ vss.flatten ++ last = all durations (history ls)) := by
  obtain ⟨e1, e2, -⟩ := C80_events L ls s st
  rw [e1, e2]
  have key := fun f get mk h1 h2 => conserve (L := L) f (history ls) hn get mk h1 h2
  refine ⟨?_, ?_, ?_, ?_, ?_⟩
  · obtain ⟨vss, a, b⟩ := key numbers (·.number) (counter L) (fun _ => rfl) (fun _ _ => rfl); exact ⟨vss, _, a, rfl, b⟩
  · obtain ⟨vss, a, b⟩ := key operations (·.operations) (counter L) (fun _ => rfl) (fun _ _ => rfl); exact ⟨vss, _, a, rfl, b⟩
  · obtain ⟨vss, a, b⟩ := key sizes (·.size) (counter L) (fun _ => rfl) (fun _ _ => rfl); exact ⟨vss, _, a, rfl, b⟩
  · obtain ⟨vss, a, b⟩ := key errors (·.errors) (counter L) (fun _ => rfl) (fun _ _ => rfl); exact ⟨vss, _, a, rfl, b⟩
  · obtain ⟨vss, a, b⟩ := key durations (·.duration) (timer L) (fun _ => rfl) (fun _ _ => rfl); exact ⟨vss, _, a, rfl, b⟩

example : NoReset (history exSteps) ∧ all durations (history exSteps) = [2000] := by
  refine ⟨?_, rfl⟩
  intro c hc
  simp [exSteps, history, calls] at hc
  rcases hc with rfl | rfl <;> simp

/-- In every reachable state a call that waits for the lock can still get it exactly if no worker has taken the lock under a context that is done. -/
theorem C80_exactly {H : Type} (L : Lib H) (s : State H) (h : Reachable L s) (i : Nat) (c : Call) (hc : s.callers i = .waiting c) :
    (∃ ls t, Steps L s ls t ∧ Has t i) ↔ ¬ Doomed s := by
  have hi := reachable_inv h
  constructor
  · rintro ⟨ls, t, st, ht⟩ hd
    have := doomed_waits hi hd st hc
    rcases ht with ⟨c', hx⟩ | hx <;> (rw [this] at hx; cases hx)
  · intro hd
    obtain ⟨ls, t, h1, -, h2⟩ := can_get hi hd hc
    exact ⟨ls, t, h1, .inl ⟨c, h2⟩⟩

example : ∃ s : State (Int × Int × List Int), Reachable exLib s ∧ s.callers 7 = .waiting .endTest := by
  have st : Steps exLib (new exLib) [.call 7 .endTest] _ := .step (.call rfl) .refl
  exact ⟨_, ⟨_, st⟩, rfl⟩

/-- As long as no test ends, the recorder is not reset and its context does not end, every call that waits can get the lock.
    Missing: all executions in which a context is cancelled (`C80_deadlock`). -/
theorem C80_progress_partial {H : Type} (L : Lib H) (ls : List Label) (s : State H) (st : Steps L (new L) ls s) (hn : NoReset (history ls)) (hr : .rootDone ∉ ls)
    (i : Nat) (c : Call) (hc : s.callers i = .waiting c) : ∃ ms t, Steps L s ms t ∧ ms.length ≤ 3 ∧ Has t i := by
  obtain ⟨h1, h2⟩ := not_cancelled st hn hr (fun _ => rfl) rfl
  have hi := reachable_inv ⟨ls, st⟩
  by_cases hd : Doomed s
  · obtain ⟨j, hl, hw⟩ := hd
    exfalso
    rcases hw with hw | ⟨-, hw⟩
    · exact not_returned st hn hr (fun _ => rfl) rfl (fun j => by simp [new]) j hw
    · simp [h1, h2] at hw
  · obtain ⟨ms, t, h3, h4, h5⟩ := can_get hi hd hc
    exact ⟨ms, t, h3, h4, .inl ⟨c, h5⟩⟩

/-- a call that waits while the worker has the lock -/
example : ∃ s : State (Int × Int × List Int), Steps exLib (new exLib) (exSteps.take 7) s ∧ s.callers 1 = .waiting (.endIteration 2000) ∧ s.lock = some (.worker 0) :=
  ⟨_, .step (.call rfl) (.step (.acquire rfl rfl) (.step (.body rfl) (.step (.call rfl) (.step (.release rfl) (.step (.tick rfl) (.step (.lock rfl rfl) .refl)))))), rfl, rfl⟩

/-- The recorder can block its callers forever: a single caller that begins an iteration and ends the test, while the ticker fires in between, finds that its next call never gets
    the lock. -/
theorem C80_deadlock {H : Type} (L : Lib H) (e e' : Env) : ∃ ls s, Steps L (new L) ls s ∧ history ls = [.call .endTest e', .call .beginIteration e] ∧ .rootDone ∉ ls ∧
    s.callers 0 = .waiting .beginIteration ∧ ∀ ms t, Steps L s ms t → t.callers 0 = .waiting .beginIteration := by
  have st : Steps L (new L) [.call 0 .beginIteration, .acquire 0, .body 0 .beginIteration e, .release 0, .call 0 .endTest, .acquire 0, .tick 0, .body 0 .endTest e',
      .release 0, .lock 0, .leave 0, .call 0 .beginIteration] _ :=
    .step (.call rfl) (.step (.acquire rfl rfl) (.step (.body rfl) (.step (.release rfl) (.step (.call rfl) (.step (.acquire rfl rfl)
      (.step (.tick rfl) (.step (.body rfl) (.step (.release rfl) (.step (.lock rfl rfl) (.step (.leave rfl rfl)
        (.step (.call rfl) .refl)))))))))))
  exact ⟨_, _, st, rfl, by simp, rfl, fun ms t h => doomed_waits (inv_steps inv_new st) ⟨0, rfl, .inl rfl⟩ h rfl⟩

/-- The total duration of an iteration is recorded a second time by `EndTest`, with the time that has passed since: `EndIteration` does not forget when the iteration was begun. -/
theorem C80_counted_twice {H : Type} (L : Lib H) (ls : List Label) (s : State H) (st : Steps L (new L) ls s) (d : Int) (e e' e'' : Env) (h0 : e.now 0 ≠ noTime)
    (h : history ls = [.call .endTest e'', .call (.endIteration d) e', .call .beginIteration e]) :
    s.data.recorded.map (·.total) = [timer L [timeSub (e'.now 0) (e.now 0), timeSub (e''.now 0) (e.now 0)]] := by
  rw [(C80_events L ls s st).2.1, h]
  simp [events, records, event, stamp, renews, began, elapsed, totals, totalsOf, orElse, noTime] at h0 ⊢
  simp [h0]

/-- an iteration of one second, and four seconds to the end of the test -/
example : ∃ s : State (Int × Int × List Int), Steps exLib (new exLib) [.call 0 .beginIteration, .acquire 0, .body 0 .beginIteration (exEnv 1), .release 0,
    .call 0 (.endIteration 2000), .acquire 0, .body 0 (.endIteration 2000) (exEnv 2), .release 0, .call 0 .endTest, .acquire 0, .body 0 .endTest (exEnv 6)] s ∧
    s.data.recorded.map (·.total) = [(1000, 60000000000, [1000000000, 5000000000])] := by
  have st : Steps exLib (new exLib) [.call 0 .beginIteration, .acquire 0, .body 0 .beginIteration (exEnv 1), .release 0,
    .call 0 (.endIteration 2000), .acquire 0, .body 0 (.endIteration 2000) (exEnv 2), .release 0, .call 0 .endTest, .acquire 0, .body 0 .endTest (exEnv 6)] _ :=
    .step (.call rfl) (.step (.acquire rfl rfl) (.step (.body rfl) (.step (.release rfl) (.step (.call rfl) (.step (.acquire rfl rfl) (.step (.body rfl)
      (.step (.release rfl) (.step (.call rfl) (.step (.acquire rfl rfl) (.step (.body rfl) .refl))))))))))
  refine ⟨_, st, ?_⟩
  rw [C80_counted_twice exLib _ _ st 2000 (exEnv 1) (exEnv 2) (exEnv 6) (by decide) rfl]
  decide

/-- What is reported after a tick is lost at `EndTest`, unless an iteration was begun or ended or a time was set since; and an ID that was set before the tick is not in the events after
    it. -/
theorem C80_lost {H : Type} (L : Lib H) (is js : History) (e e' : Env)
    (h : ∀ i ∈ is, ∀ e t d, i ≠ .tick e ∧ i ≠ .call .beginIteration e ∧ i ≠ .call (.endIteration d) e ∧ i ≠ .call (.setTime t) e) :
    events L (.call .endTest e' :: (is ++ .tick e :: js)) = events L (is ++ .tick e :: js) ∧
    ((∀ i ∈ is, ∀ e n, i ≠ .call (.setID n) e) → (event L (is ++ .tick e :: js)).id = 0) := by
  have hs : stamp (is ++ .tick e :: js) = noTime := by
    induction is with
    | nil => rfl
    | cons i is ih =>
      have hi := h i (List.mem_cons_self)
      have ih := ih (fun j hj => h j (List.mem_cons_of_mem _ hj))
      cases i with
      | tick e1 => exact absurd rfl (hi e1 ⟨0, 0⟩ 0).1
      | call c e1 =>
        cases c with
        | beginIteration => exact absurd rfl (hi e1 ⟨0, 0⟩ 0).2.1
        | endIteration d => exact absurd rfl (hi e1 ⟨0, 0⟩ d).2.2.1
        | setTime t => exact absurd rfl (hi e1 t 0).2.2.2
        | _ => simp [stamp, ih]
  have hl : ∀ is : History, (∀ i ∈ is, ∀ e n, i ≠ .call (.setID n) e) → lastID (is ++ .tick e :: js) = 0 := by
    intro is
    induction is with
    | nil => intro _; rfl
    | cons i is ih =>
      intro hid
      have hi := hid i (List.mem_cons_self)
      have ih := ih (fun j hj => hid j (List.mem_cons_of_mem _ hj))
      cases i with
      | tick e1 => rfl
      | call c e1 =>
        cases c with
        | setID n => exact absurd rfl (hi e1 n)
        | _ => simp [lastID, ih]
  exact ⟨by simp [events, records, hs], hl is⟩

/-- seven operations between a tick and the end of the test are lost -/
example : events exLib [.call .endTest (exEnv 5), .call (.incOperations 7) (exEnv 4), .tick (exEnv 3), .call (.setID 9) (exEnv 2), .call .beginIteration (exEnv 1)] =
    events exLib [.call (.incOperations 7) (exEnv 4), .tick (exEnv 3), .call (.setID 9) (exEnv 2), .call .beginIteration (exEnv 1)] ∧
    (event exLib [.call (.incOperations 7) (exEnv 4), .tick (exEnv 3), .call (.setID 9) (exEnv 2), .call .beginIteration (exEnv 1)]).id = 0 := by
  have := C80_lost exLib [.call (.incOperations 7) (exEnv 4)] [.call (.setID 9) (exEnv 2), .call .beginIteration (exEnv 1)] (exEnv 3) (exEnv 5) (by simp)
  exact ⟨this.1, this.2 (by simp)⟩

/-- There is a worker while an iteration was begun since the last `EndTest` or `Reset`, and only one; else there is none: each that was started has been told to end.
    (The worker of an iteration may have ended on its own if the context of the recorder is done.) -/
theorem C80_worker {H : Type} (L : Lib H) (ls : List Label) (s : State H) (st : Steps L (new L) ls s) :
    (Spec.Interval.begun (calls (history ls)) = true → ∃ j, (∀ k, Live s k → k = j) ∧ (s.rootDone = false → Live s j)) ∧
    (Spec.Interval.begun (calls (history ls)) = false → ∀ k, ¬ Live s k) := by
  have h := Proofs.IntervalWorkers.goodH_steps st [] Proofs.IntervalWorkers.goodH_new
  rw [List.append_nil] at h
  exact Proofs.IntervalWorkers.good_live h

example : Spec.Interval.begun (calls (history exSteps)) = true ∧ Spec.Interval.begun (calls (history (exSteps ++ [.call 0 .reset, .acquire 0, .body 0 .reset (exEnv 5)]))) = false :=
  ⟨rfl, rfl⟩

end Birch.Props
