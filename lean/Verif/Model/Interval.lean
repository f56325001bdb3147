import Verif.Model.Recorders

/-
Model of the interval recorder (x/ftdc/events/recorder_performance_interval.go): any number of callers, the background workers that
`BeginIteration` starts, their contexts and the lock, as a transition system.  Every step of `Step` is one thing that one goroutine does;
everything in between may be interleaved.  Errors of the underlying collector, the period of the ticker and the fairness of
the lock are not modelled; a ticker with an interval that is not positive (which panics) is left out.
-/

namespace Birch.Model.Interval
open Birch Model Events Recorders

/-- a goroutine that calls a method: not in a call, blocked in `r.Lock()`, holding the lock before and after the body of the method -/
inductive Caller where
  | idle
  | waiting (c : Call)
  | inside (c : Call)
  | done

/-- `worker` (x/ftdc/events/recorder_performance_interval.go:41-65): not started, in `select`, after a tick and blocked in `r.Lock()`,
    holding the lock before `ctx.Err()`, holding the lock before `r.Unlock()`, returned -/
inductive Worker where
  | none
  | selecting
  | waiting
  | checking
  | unlocking
  | returned
  deriving DecidableEq

inductive Owner where
  | caller (i : Nat)
  | worker (j : Nat)
  deriving DecidableEq

/-- `intervalStream` (x/ftdc/events/recorder_performance_interval.go:12-22), the goroutines and their contexts.
    `canceler` names the worker whose context it cancels; `cancelled` says which contexts were cancelled, `rootDone` that the context given
    to `NewIntervalRecorder` is. -/
structure State where
  point : Perf
  started : Time
  recorded : List Perf
  lock : Option Owner
  callers : Nat → Caller
  workers : Nat → Worker
  next : Nat
  canceler : Option Nat
  cancelled : Nat → Bool
  rootDone : Bool

/-- `NewIntervalRecorder` (x/ftdc/events/recorder_performance_interval.go:32-39) -/
def new : State where
  point := zeroPerf ⟨0, 0, false⟩
  started := zeroTime
  recorded := []
  lock := none
  callers := fun _ => .idle
  workers := fun _ => .none
  next := 0
  canceler := none
  cancelled := fun _ => false
  rootDone := false

def upd {α : Type} (f : Nat → α) (i : Nat) (x : α) : Nat → α := fun j => if j = i then x else f j

/-- `reset` (x/ftdc/events/recorder_performance_interval.go:127-137) -/
def reset (s : State) : State :=
  let s := match s.canceler with
    | some j => { s with cancelled := upd s.cancelled j true, canceler := none }
    | none => s
  { s with point := zeroPerf s.point.gauges, started := zeroTime }

/-- the methods between `Lock` and `Unlock` (x/ftdc/events/recorder_performance_interval.go:67-191) -/
def body (s : State) (now : Nat → Time) : Call → State
  | .setTime t => { s with point := { s.point with ts := t } }
  | .setID i => { s with point := { s.point with id := i } }
  | .beginIteration =>
    let s := match s.canceler with
      | some _ => s
      | none => { s with canceler := some s.next, workers := upd s.workers s.next .selecting, next := s.next + 1 }
    { s with started := now 0, point := setTimestamp s.point (now 0) (now 1) }
  | .endIteration d =>
    let s := { s with point := setTimestamp s.point s.started (now 1) }
    let s := if s.started ≠ zeroTime then
        { s with
          point := { s.point with timers := { s.point.timers with total := i64 (s.point.timers.total + timeSub (now 0) s.started) } }
          started := zeroTime }
      else s
    { s with point := { s.point with timers := { s.point.timers with duration := i64 (s.point.timers.duration + d) } } }
  | .endTest => reset (if s.point.ts ≠ zeroTime then { s with recorded := s.recorded ++ [s.point] } else s)
  | .reset => reset s
  | .setTotalDuration d => { s with point := { s.point with timers := { s.point.timers with total := i64 (s.point.timers.total + d) } } }
  | .setDuration d => { s with point := { s.point with timers := { s.point.timers with duration := i64 (s.point.timers.duration + d) } } }
  | .incIterations v => { s with point := { s.point with counters := { s.point.counters with number := i64 (s.point.counters.number + v) } } }
  | .incOperations v => { s with point := { s.point with counters := { s.point.counters with operations := i64 (s.point.counters.operations + v) } } }
  | .incSize v => { s with point := { s.point with counters := { s.point.counters with size := i64 (s.point.counters.size + v) } } }
  | .incError v => { s with point := { s.point with counters := { s.point.counters with errors := i64 (s.point.counters.errors + v) } } }
  | .setState v => { s with point := { s.point with gauges := { s.point.gauges with state := v } } }
  | .setWorkers v => { s with point := { s.point with gauges := { s.point.gauges with workers := v } } }
  | .setFailed b => { s with point := { s.point with gauges := { s.point.gauges with failed := b } } }

/-- `ctx.Err() != nil` for the context of worker `j` -/
def ctxDone (s : State) (j : Nat) : Bool := s.cancelled j || s.rootDone

/-- what is done in a step -/
inductive Label where
  | call (i : Nat) (c : Call)
  | acquire (i : Nat)
  | body (i : Nat) (c : Call)
  | release (i : Nat)
  | tick (j : Nat)
  | stop (j : Nat)
  | lock (j : Nat)
  | leave (j : Nat)
  | record (j : Nat)
  | unlock (j : Nat)
  | rootDone

/-- the steps -/
inductive Step : State → Label → State → Prop where
  /-- a caller calls a method and asks for the lock -/
  | call {s i c} : s.callers i = .idle → Step s (.call i c) { s with callers := upd s.callers i (.waiting c) }
  /-- `r.Lock()` returns -/
  | acquire {s i c} : s.callers i = .waiting c → s.lock = none →
      Step s (.acquire i) { s with callers := upd s.callers i (.inside c), lock := some (.caller i) }
  /-- the body of the method -/
  | body {s i c now} : s.callers i = .inside c → Step s (.body i c) { body s now c with callers := upd s.callers i .done }
  /-- `r.Unlock()` -/
  | release {s i} : s.callers i = .done → Step s (.release i) { s with callers := upd s.callers i .idle, lock := none }
  /-- `case <-ticker.C`: chosen by `select` even if the context is done -/
  | tick {s j} : s.workers j = .selecting → Step s (.tick j) { s with workers := upd s.workers j .waiting }
  /-- `case <-ctx.Done()` -/
  | stop {s j} : s.workers j = .selecting → ctxDone s j = true → Step s (.stop j) { s with workers := upd s.workers j .returned }
  /-- `r.Lock()` of the worker returns -/
  | lock {s j} : s.workers j = .waiting → s.lock = none → Step s (.lock j) { s with workers := upd s.workers j .checking, lock := some (.worker j) }
  /-- `if ctx.Err() != nil { return }` -/
  | leave {s j} : s.workers j = .checking → ctxDone s j = true → Step s (.leave j) { s with workers := upd s.workers j .returned }
  /-- otherwise the event is recorded and cleared -/
  | record {s j now} : s.workers j = .checking → ctxDone s j = false →
      Step s (.record j) { s with
        workers := upd s.workers j .unlocking
        recorded := s.recorded ++ [setTimestamp s.point s.started now]
        point := zeroPerf s.point.gauges }
  /-- `r.Unlock()` of the worker -/
  | unlock {s j} : s.workers j = .unlocking → Step s (.unlock j) { s with workers := upd s.workers j .selecting, lock := none }
  /-- the context of `NewIntervalRecorder` ends -/
  | rootDone {s} : Step s .rootDone { s with rootDone := true }

/-- any number of steps -/
inductive Steps : State → List Label → State → Prop where
  | refl {s} : Steps s [] s
  | step {s t u l ls} : Step s l t → Steps t ls u → Steps s (l :: ls) u

end Birch.Model.Interval
