import Verif.Model.Events

/-
Model of the recorders that keep one performance event (x/ftdc/events/recorder_performance_{raw,single,grouped}.go).
Errors of the underlying collector are only kept to be returned by `EndTest`; they are not modelled.
The underlying collector turns an event into a document at once.
-/

namespace Birch.Model.Recorders
open Birch Model Events

/-- which recorder: `NewRawRecorder`, `NewSingleRecorder`, `NewGroupedRecorder` -/
inductive Flavor where
  | raw
  | single
  | grouped (interval : Int)

/-- `rawStream`, `singleStream`, `groupStream` (x/ftdc/events/recorder_performance_raw.go:10-15, recorder_performance_single.go:9-13,
    recorder_performance_grouped.go:10-17); `last` is `lastCollected` and only used by the last one.
    `recorded` are the events given to the underlying collector. -/
structure Recorder where
  started : Time
  last : Time
  point : Perf
  recorded : List Perf

def zeroPerf (g : Gauges) : Perf := ⟨zeroTime, 0, ⟨0, 0, 0, 0⟩, ⟨0, 0⟩, g⟩

/-- `NewRawRecorder`, `NewSingleRecorder`, `NewGroupedRecorder` (x/ftdc/events/recorder_performance_raw.go:22-27,
    recorder_performance_single.go:21-26, recorder_performance_grouped.go:25-32) -/
def new : Flavor → Time → Recorder
  | .grouped _, now => ⟨zeroTime, now, zeroPerf ⟨0, 0, false⟩, []⟩
  | _, _ => ⟨zeroTime, zeroTime, zeroPerf ⟨0, 0, false⟩, []⟩

/-- `setTimestamp` (x/ftdc/events/performance.go:180-188) -/
def setTimestamp (p : Perf) (started now : Time) : Perf :=
  if p.ts = zeroTime then
    if started ≠ zeroTime then { p with ts := started } else { p with ts := now }
  else p

/-- the methods of `Recorder` (x/ftdc/events/recorder.go:22-94) -/
inductive Call where
  | beginIteration
  | setTime (t : Time)
  | setID (i : Int)
  | setTotalDuration (d : Int)
  | setDuration (d : Int)
  | incOperations (v : Int)
  | incIterations (v : Int)
  | incSize (v : Int)
  | incError (v : Int)
  | setState (v : Int)
  | setWorkers (v : Int)
  | setFailed (b : Bool)
  | endIteration (d : Int)
  | endTest
  | reset

/-- `Reset` (x/ftdc/events/recorder_performance_raw.go:62-68, recorder_performance_single.go:57-62, recorder_performance_grouped.go:71-78) -/
def doReset (k : Flavor) (r : Recorder) : Recorder :=
  let r := { r with point := zeroPerf r.point.gauges, started := zeroTime }
  match k with
  | .grouped _ => { r with last := zeroTime }
  | _ => r

/-- `collector.Add(r.point)` -/
def persist (r : Recorder) : Recorder := { r with recorded := r.recorded ++ [r.point] }

/-- `r.point.Timers.Total += time.Since(r.started)` if it was started -/
def addTotal (r : Recorder) (now : Time) : Recorder :=
  if r.started ≠ zeroTime then
    { r with point := { r.point with timers := { r.point.timers with total := i64 (r.point.timers.total + timeSub now r.started) } } }
  else r

def addDuration (r : Recorder) (d : Int) : Recorder :=
  { r with point := { r.point with timers := { r.point.timers with duration := i64 (r.point.timers.duration + d) } } }

def addNumber (r : Recorder) (v : Int) : Recorder :=
  { r with point := { r.point with counters := { r.point.counters with number := i64 (r.point.counters.number + v) } } }

/-- `EndIteration` (x/ftdc/events/recorder_performance_raw.go:41-51, recorder_performance_single.go:40-48,
    recorder_performance_grouped.go:46-60); `now` gives the readings of the clock during the call -/
def endIteration (k : Flavor) (r : Recorder) (d : Int) (now : Nat → Time) : Recorder :=
  match k with
  | .raw =>
    let r := addNumber r 1
    let r := addTotal r (now 0)
    let r := { r with point := setTimestamp r.point r.started (now 1) }
    let r := addDuration r d
    let r := persist r
    { r with started := zeroTime }
  | .single =>
    let r := { r with point := setTimestamp r.point r.started (now 1) }
    let r := addNumber r 1
    let r := { addTotal r (now 0) with started := zeroTime }
    addDuration r d
  | .grouped interval =>
    let r := addNumber r 1
    let r := addTotal r (now 0)
    let r := addDuration r d
    let r :=
      if timeSub (now 2) r.last ≥ interval then
        let r := { r with point := setTimestamp r.point r.started (now 1) }
        let r := persist r
        { r with last := now 3, point := { r.point with ts := zeroTime } }
      else r
    { r with started := zeroTime }

/-- `EndTest` (x/ftdc/events/recorder_performance_raw.go:53-60, recorder_performance_single.go:50-55, recorder_performance_grouped.go:62-69) -/
def endTest (k : Flavor) (r : Recorder) (now : Nat → Time) : Recorder :=
  match k with
  | .single => doReset k (persist { r with point := setTimestamp r.point r.started (now 0) })
  | _ => doReset k (if r.point.ts ≠ zeroTime then persist r else r)

/-- one call (x/ftdc/events/recorder_performance_raw.go:29-40, recorder_performance_single.go:28-39, recorder_performance_grouped.go:34-45) -/
def call (k : Flavor) (r : Recorder) (now : Nat → Time) : Call → Recorder
  | .beginIteration =>
    match k with
    | .single => { r with started := now 0 }
    | _ => { r with started := now 0, point := setTimestamp r.point (now 0) (now 1) }
  | .setTime t => { r with point := { r.point with ts := t } }
  | .setID i => { r with point := { r.point with id := i } }
  | .setTotalDuration d =>
    match k with
    | .raw => { r with point := { r.point with timers := { r.point.timers with total := d } } }
    | _ => { r with point := { r.point with timers := { r.point.timers with total := i64 (r.point.timers.total + d) } } }
  | .setDuration d =>
    match k with
    | .raw => { r with point := { r.point with timers := { r.point.timers with duration := d } } }
    | _ => addDuration r d
  | .incOperations v => { r with point := { r.point with counters := { r.point.counters with operations := i64 (r.point.counters.operations + v) } } }
  | .incIterations v => addNumber r v
  | .incSize v => { r with point := { r.point with counters := { r.point.counters with size := i64 (r.point.counters.size + v) } } }
  | .incError v => { r with point := { r.point with counters := { r.point.counters with errors := i64 (r.point.counters.errors + v) } } }
  | .setState v => { r with point := { r.point with gauges := { r.point.gauges with state := v } } }
  | .setWorkers v => { r with point := { r.point with gauges := { r.point.gauges with workers := v } } }
  | .setFailed b => { r with point := { r.point with gauges := { r.point.gauges with failed := b } } }
  | .endIteration d => endIteration k r d now
  | .endTest => endTest k r now
  | .reset => doReset k r

/-- calls one after the other, each with what the clock shows during the call -/
def run (k : Flavor) (r : Recorder) : List (Call × (Nat → Time)) → Recorder
  | [] => r
  | (c, now) :: cs => run k (call k r now c) cs

end Birch.Model.Recorders
