import Verif.Model.Interval
import Verif.Spec.Recorders

/-
When the lock of the interval recorder is lost, and what its callers report.
-/

namespace Birch.Spec.Interval
open Birch Model Model.Events Model.Recorders Model.Interval

/-- a worker has the lock and has returned, or will: it has yet to look at its context, which is done -/
def Doomed (s : State) : Prop :=
  ∃ j, s.lock = some (.worker j) ∧ (s.workers j = .returned ∨ (s.workers j = .checking ∧ ctxDone s j = true))

def Reachable (s : State) : Prop := ∃ ls, Steps new ls s

/-- caller `i` is in a call and has the lock -/
def Has (s : State) (i : Nat) : Prop := (∃ c, s.callers i = .inside c) ∨ s.callers i = .done

/-- the methods whose bodies are run, in order -/
def bodies : List Label → List Call
  | [] => []
  | .body _ c :: ls => c :: bodies ls
  | _ :: ls => bodies ls

/-- these steps end no test, and the recorder is not reset -/
def NoReset (ls : List Label) : Prop := ∀ c ∈ bodies ls, c ≠ .endTest ∧ c ≠ .reset

/-- the number of iterations that a call reports by itself -/
def iterations : Call → Int
  | .incIterations v => v
  | _ => 0

/-- the gauges after these calls: each is what it was last set to -/
def gaugesAfter (g : Gauges) : List Call → Gauges
  | [] => g
  | .setState v :: cs => gaugesAfter { g with state := v } cs
  | .setWorkers v :: cs => gaugesAfter { g with workers := v } cs
  | .setFailed b :: cs => gaugesAfter { g with failed := b } cs
  | _ :: cs => gaugesAfter g cs

/-- was an iteration begun since the last `EndTest` or `Reset`?  The last call is the first of the list. -/
def begun : List Call → Bool
  | [] => false
  | .beginIteration :: _ => true
  | .endTest :: _ => false
  | .reset :: _ => false
  | _ :: cs => begun cs

/-- worker `j` runs and its own context has not been cancelled -/
def Live (s : State) (j : Nat) : Prop := s.workers j ≠ .none ∧ s.workers j ≠ .returned ∧ s.cancelled j = false

end Birch.Spec.Interval
