import Verif.Model.Histograms
import Verif.Model.Interval

/-
Model of the interval histogram recorder (x/ftdc/events/recorder_histogram_interval.go), as a transition system like that of
Model/Interval: any number of callers, the background workers that `BeginIteration` starts, their contexts and the lock.  The period of the ticker and
the fairness of the lock are not modelled; a ticker with an interval that is not positive (which panics) is left out.
-/

namespace Birch.Model.IntervalHist
open Birch Model Events
open Birch.Model.Recorders (Call)
open Birch.Model.Interval (Caller Worker Owner upd)
open Birch.Model.Histograms (Lib Point Recorder Env newPoint stampPoint push incNumber incOperations incSize incError setDuration setTotal persist)

variable {H : Type}

/-- `intervalHistogramStream` (x/ftdc/events/recorder_histogram_interval.go:12-22), the goroutines and their contexts.  `data` holds `started`, `point` and
    `catcher`, what was given to the underlying collector and what `EndTest` returned; its `last` and `interval` are not used.
    `canceler` names the worker whose context it cancels; `cancelled` says which contexts were cancelled, `rootDone` that the context given to
    `NewIntervalHistogramRecorder` is. -/
structure State (H : Type) where
  data : Recorder H
  lock : Option Owner
  callers : Nat → Caller
  workers : Nat → Worker
  next : Nat
  canceler : Option Nat
  cancelled : Nat → Bool
  rootDone : Bool

/-- `NewIntervalHistogramRecorder` (x/ftdc/events/recorder_histogram_interval.go:32-39) -/
def new (L : Lib H) : State H where
  data := ⟨zeroTime, zeroTime, 0, newPoint L ⟨0, 0, false⟩, false, [], []⟩
  lock := none
  callers := fun _ => .idle
  workers := fun _ => .none
  next := 0
  canceler := none
  cancelled := fun _ => false
  rootDone := false

/-- `reset` (x/ftdc/events/recorder_histogram_interval.go:141-149) -/
def reset (L : Lib H) (s : State H) : State H :=
  let s := match s.canceler with
    | some j => { s with cancelled := upd s.cancelled j true, canceler := none }
    | none => s
  { s with data := { s.data with catcher := false, point := newPoint L s.data.point.gauges, started := zeroTime } }

/-- `EndIteration` (x/ftdc/events/recorder_histogram_interval.go:81-92): `started` is kept -/
def endIteration (L : Lib H) (r : Recorder H) (d : Int) (e : Env) : Recorder H :=
  let r := { r with point := stampPoint r.point r.started (e.now 1) }
  let r := incNumber L r 1
  let r := setDuration L r d
  if r.started ≠ zeroTime then setTotal L r (timeSub (e.now 0) r.started) else r

/-- `EndTest` up to `r.reset()` (x/ftdc/events/recorder_histogram_interval.go:118-128) -/
def endTest (L : Lib H) (r : Recorder H) (e : Env) : Recorder H :=
  let r := if r.started ≠ zeroTime then { setTotal L r (timeSub (e.now 0) r.started) with started := zeroTime } else r
  let r := if r.point.ts ≠ zeroTime then persist r e else r
  { r with results := r.results ++ [r.catcher] }

/-- what the methods that do not concern the worker do with the data -/
def change (L : Lib H) (r : Recorder H) (e : Env) : Call → Recorder H
  | .setTime t => { r with point := { r.point with ts := t } }
  | .setID i => { r with point := { r.point with id := i } }
  | .setTotalDuration d => setTotal L r d
  | .setDuration d => setDuration L r d
  | .incOperations v => incOperations L r v
  | .incIterations v => incNumber L r v
  | .incSize v => incSize L r v
  | .incError v => incError L r v
  | .setState v => { r with point := { r.point with gauges := { r.point.gauges with state := v } } }
  | .setWorkers v => { r with point := { r.point with gauges := { r.point.gauges with workers := v } } }
  | .setFailed b => { r with point := { r.point with gauges := { r.point.gauges with failed := b } } }
  | .endIteration d => endIteration L r d e
  | .beginIteration | .endTest | .reset => r

/-- the methods between `Lock` and `Unlock` (x/ftdc/events/recorder_histogram_interval.go:66-191) -/
def body (L : Lib H) (s : State H) (e : Env) : Call → State H
  | .beginIteration =>
    let s := match s.canceler with
      | some _ => s
      | none => { s with canceler := some s.next, workers := upd s.workers s.next .selecting, next := s.next + 1 }
    { s with data := { s.data with started := e.now 0, point := stampPoint s.data.point (e.now 0) (e.now 1) } }
  | .endTest => reset L { s with data := endTest L s.data e }
  | .reset => reset L s
  | c => { s with data := change L s.data e c }

/-- what the worker does at a tick (x/ftdc/events/recorder_histogram_interval.go:57-60).  It sets the time of the event that it has handed on to zero; the collectors of x/ftdc
    have read the event by then, so that this is left out. -/
def tick (L : Lib H) (r : Recorder H) (e : Env) : Recorder H :=
  let r := persist { r with point := stampPoint r.point r.started (e.now 0) } e
  { r with point := newPoint L r.point.gauges }

/-- `ctx.Err() != nil` for the context of worker `j` -/
def ctxDone (s : State H) (j : Nat) : Bool := s.cancelled j || s.rootDone

/-- what is done in a step -/
inductive Label where
  | call (i : Nat) (c : Call)
  | acquire (i : Nat)
  | body (i : Nat) (c : Call) (e : Env)
  | release (i : Nat)
  | tick (j : Nat)
  | stop (j : Nat)
  | lock (j : Nat)
  | leave (j : Nat)
  | record (j : Nat) (e : Env)
  | unlock (j : Nat)
  | rootDone

/-- the steps; those of the worker are `worker` (x/ftdc/events/recorder_histogram_interval.go:41-64) -/
inductive Step (L : Lib H) : State H → Label → State H → Prop where
  /-- a caller calls a method and asks for the lock -/
  | call {s i c} : s.callers i = .idle → Step L s (.call i c) { s with callers := upd s.callers i (.waiting c) }
  /-- `r.Lock()` returns -/
  | acquire {s i c} : s.callers i = .waiting c → s.lock = none →
      Step L s (.acquire i) { s with callers := upd s.callers i (.inside c), lock := some (.caller i) }
  /-- the body of the method -/
  | body {s i c e} : s.callers i = .inside c → Step L s (.body i c e) { body L s e c with callers := upd s.callers i .done }
  /-- `r.Unlock()` -/
  | release {s i} : s.callers i = .done → Step L s (.release i) { s with callers := upd s.callers i .idle, lock := none }
  /-- `case <-ticker.C`: chosen by `select` even if the context is done -/
  | tick {s j} : s.workers j = .selecting → Step L s (.tick j) { s with workers := upd s.workers j .waiting }
  /-- `case <-ctx.Done()` -/
  | stop {s j} : s.workers j = .selecting → ctxDone s j = true → Step L s (.stop j) { s with workers := upd s.workers j .returned }
  /-- `r.Lock()` of the worker returns -/
  | lock {s j} : s.workers j = .waiting → s.lock = none → Step L s (.lock j) { s with workers := upd s.workers j .checking, lock := some (.worker j) }
  /-- `if ctx.Err() != nil { return }` -/
  | leave {s j} : s.workers j = .checking → ctxDone s j = true → Step L s (.leave j) { s with workers := upd s.workers j .returned }
  /-- otherwise the event is recorded and cleared -/
  | record {s j e} : s.workers j = .checking → ctxDone s j = false →
      Step L s (.record j e) { s with workers := upd s.workers j .unlocking, data := tick L s.data e }
  /-- `r.Unlock()` of the worker -/
  | unlock {s j} : s.workers j = .unlocking → Step L s (.unlock j) { s with workers := upd s.workers j .selecting, lock := none }
  /-- the context of `NewIntervalHistogramRecorder` ends -/
  | rootDone {s} : Step L s .rootDone { s with rootDone := true }

/-- any number of steps -/
inductive Steps (L : Lib H) : State H → List Label → State H → Prop where
  | refl {s} : Steps L s [] s
  | step {s t u l ls} : Step L s l t → Steps L t ls u → Steps L s (l :: ls) u

end Birch.Model.IntervalHist
