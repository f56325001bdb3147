import Verif.Model.Recorders
import Verif.Model.GoValue

/-
Model of the recorders that keep one event of histograms (x/ftdc/events/histogram.go, recorder_histogram.go,
recorder_histogram_single.go, recorder_histogram_grouped.go) and of the documents of such events (x/ftdc/hdrhist/snapshot.go).

The histograms come from another module (fun/dt/hdrhist) and are a parameter here, as are the collector of errors
(fun/erc), of which only whether it is empty is kept, and the underlying collector, which turns an event into a document
at once.  Reading events back (`UnmarshalBSON`, `UnmarshalJSON`) is done by other modules and left out.
-/

namespace Birch.Model.Histograms
open Birch Model Events
open Birch.Model.Recorders (Call)

/-- what `Histogram.Export` gives (fun/dt/hdrhist, as used in x/ftdc/hdrhist/snapshot.go:16-25) -/
structure Snapshot where
  lowest : Int
  highest : Int
  figures : Int
  counts : List Int

/-- the histograms of fun/dt/hdrhist: `New`, `RecordValue` (the histogram afterwards, and whether there is an error), `Export` (`snapshot`) -/
structure Lib (H : Type) where
  new : Int → Int → Int → H
  record : H → Int → H × Bool
  snapshot : H → Snapshot

/-- `PerformanceHDR` (x/ftdc/events/histogram.go:18-38) without the nesting -/
structure Point (H : Type) where
  ts : Time
  id : Int
  number : H
  operations : H
  size : H
  errors : H
  duration : H
  total : H
  gauges : Gauges

variable {H : Type}

/-- `newMillisecondDurationHistogram` (histogram.go:80-82), in nanoseconds -/
def durationHist (L : Lib H) : H := L.new 1000 60000000000 5

/-- `newMillisecondCounterHistogram` (histogram.go:84-86) -/
def counterHist (L : Lib H) : H := L.new 0 (10 * 1000) 5

/-- `NewHistogramMillisecond` (histogram.go:64-78) -/
def newPoint (L : Lib H) (g : Gauges) : Point H :=
  ⟨zeroTime, 0, counterHist L, counterHist L, counterHist L, counterHist L, durationHist L, durationHist L, g⟩

/-- `setTimestamp` (histogram.go:110-118) -/
def stampPoint (p : Point H) (started now : Time) : Point H :=
  if p.ts = zeroTime then
    if started ≠ zeroTime then { p with ts := started } else { p with ts := now }
  else p

/-- which recorder: `NewHistogramRecorder`, `NewSingleHistogramRecorder`, `NewHistogramGroupedRecorder` -/
inductive Form where
  | stream
  | single
  | grouped

/-- `histogramStream`, `histogramSingle`, `histogramGroupedStream` (recorder_histogram.go:10-15, recorder_histogram_single.go:10-15,
    recorder_histogram_grouped.go:10-17); `last` is `lastCollected`, it and `interval` are only used by the last one.  `catcher`: there is an error
    in it.  `recorded` are the events given to the underlying collector, `results` whether the calls of `EndTest` returned an error. -/
structure Recorder (H : Type) where
  started : Time
  last : Time
  interval : Int
  point : Point H
  catcher : Bool
  recorded : List (Point H)
  results : List Bool

/-- `NewHistogramRecorder`, `NewSingleHistogramRecorder`, `NewHistogramGroupedRecorder` (recorder_histogram.go:28-33,
    recorder_histogram_single.go:28-33, recorder_histogram_grouped.go:31-36).  The last one does not store its second argument. -/
def newRecorder (L : Lib H) (k : Form) (interval : Int) : Recorder H :=
  match k with
  | .grouped => let _ := interval; ⟨zeroTime, zeroTime, 0, newPoint L ⟨0, 0, false⟩, false, [], []⟩
  | _ => ⟨zeroTime, zeroTime, 0, newPoint L ⟨0, 0, false⟩, false, [], []⟩

/-- what happens around a call: what the clock shows, and whether the underlying collector returns an error if called -/
structure Env where
  now : Nat → Time
  addFails : Bool

/-- `catcher.Push(err)` -/
def push (r : Recorder H) (err : Bool) : Recorder H := { r with catcher := r.catcher || err }

/-- `r.catcher.Push(r.point.Counters.Number.RecordValue(v))` (recorder_histogram.go:71-73), and the same for the other histograms
    (recorder_histogram.go:39-49, 63-69, recorder_histogram_single.go:39-53, 65-71, recorder_histogram_grouped.go:42-52, 70-80) -/
def incNumber (L : Lib H) (r : Recorder H) (v : Int) : Recorder H :=
  let (h, e) := L.record r.point.number v
  push { r with point := { r.point with number := h } } e

def incOperations (L : Lib H) (r : Recorder H) (v : Int) : Recorder H :=
  let (h, e) := L.record r.point.operations v
  push { r with point := { r.point with operations := h } } e

def incSize (L : Lib H) (r : Recorder H) (v : Int) : Recorder H :=
  let (h, e) := L.record r.point.size v
  push { r with point := { r.point with size := h } } e

def incError (L : Lib H) (r : Recorder H) (v : Int) : Recorder H :=
  let (h, e) := L.record r.point.errors v
  push { r with point := { r.point with errors := h } } e

def setDuration (L : Lib H) (r : Recorder H) (v : Int) : Recorder H :=
  let (h, e) := L.record r.point.duration v
  push { r with point := { r.point with duration := h } } e

def setTotal (L : Lib H) (r : Recorder H) (v : Int) : Recorder H :=
  let (h, e) := L.record r.point.total v
  push { r with point := { r.point with total := h } } e

/-- `r.catcher.Push(r.collector.Add(r.point))` -/
def persist (r : Recorder H) (e : Env) : Recorder H := push { r with recorded := r.recorded ++ [r.point] } e.addFails

/-- the part of `EndIteration` that the recorders have in common (recorder_histogram.go:51-58, recorder_histogram_single.go:55-63,
    recorder_histogram_grouped.go:54-62) -/
def iteration (L : Lib H) (r : Recorder H) (d : Int) (e : Env) : Recorder H :=
  let r := { r with point := stampPoint r.point r.started (e.now 1) }
  let r := incNumber L r 1
  let r := setDuration L r d
  if r.started ≠ zeroTime then { setTotal L r (timeSub (e.now 0) r.started) with started := zeroTime } else r

/-- `EndIteration` (recorder_histogram.go:51-61, recorder_histogram_single.go:55-63, recorder_histogram_grouped.go:54-68) -/
def endIteration (L : Lib H) (k : Form) (r : Recorder H) (d : Int) (e : Env) : Recorder H :=
  let r := iteration L r d e
  match k with
  | .stream => persist r e
  | .single => r
  | .grouped => if timeSub (e.now 2) r.last ≥ r.interval then { persist r e with last := e.now 3 } else r

/-- `Reset` (recorder_histogram.go:87-91, recorder_histogram_single.go:84-88, recorder_histogram_grouped.go:97-102) -/
def doReset (L : Lib H) (k : Form) (r : Recorder H) : Recorder H :=
  let r := { r with catcher := false, point := newPoint L r.point.gauges, started := zeroTime }
  match k with
  | .grouped => { r with last := zeroTime }
  | _ => r

/-- `EndTest` (recorder_histogram.go:78-85, recorder_histogram_single.go:76-82, recorder_histogram_grouped.go:88-95) -/
def endTest (L : Lib H) (k : Form) (r : Recorder H) (e : Env) : Recorder H :=
  let r :=
    match k with
    | .single => persist { r with point := stampPoint r.point r.started (e.now 0) } e
    | _ => if r.point.ts ≠ zeroTime then persist r e else r
  doReset L k { r with results := r.results ++ [r.catcher] }

/-- one call (recorder_histogram.go:35-91, recorder_histogram_single.go:35-88, recorder_histogram_grouped.go:38-102) -/
def call (L : Lib H) (k : Form) (r : Recorder H) (e : Env) : Call → Recorder H
  | .beginIteration =>
    match k with
    | .single => { r with started := e.now 0 }
    | _ => { r with started := e.now 0, point := stampPoint r.point (e.now 0) (e.now 1) }
  | .setTime t => { r with point := { r.point with ts := t } }
  | .setID i => { r with point := { r.point with id := i } }
  | .setTotalDuration d => setTotal L r d
  | .setDuration d => setDuration L r d
  | .incOperations v => incOperations L r v
  | .incIterations v => incNumber L r v
  | .incSize v => incSize L r v
  | .incError v => incError L r v
  | .setState v => { r with point := { r.point with gauges := { r.point.gauges with state := v } } }
  | .setWorkers v => { r with point := { r.point with gauges := { r.point.gauges with workers := v } } }
  | .setFailed b => { r with point := { r.point with gauges := { r.point.gauges with failed := b } } }
  | .endIteration d => endIteration L k r d e
  | .endTest => endTest L k r e
  | .reset => doReset L k r

/-- calls one after the other -/
def run (L : Lib H) (k : Form) (r : Recorder H) : List (Call × Env) → Recorder H
  | [] => r
  | (c, e) :: cs => run L k (call L k r e c) cs

/-! ### documents -/

def kLowest : Bytes := [108, 111, 119, 101, 115, 116]
def kHighest : Bytes := [104, 105, 103, 104, 101, 115, 116]
def kFigures : Bytes := [102, 105, 103, 117, 114, 101, 115]
def kCounts : Bytes := [99, 111, 117, 110, 116, 115]

/-- `Histogram.MarshalDocument` (x/ftdc/hdrhist/snapshot.go:16-25); `EC.SliceInt64` is x_constructor.go:305-313 -/
def marshalHistogram (L : Lib H) (h : H) : Res Doc := do
  let ss := L.snapshot h
  .ok [
    ← EC.int64 kLowest ss.lowest,
    ← EC.int64 kHighest ss.highest,
    ← EC.int64 kFigures ss.figures,
    ← EC.array kCounts (← mapRes (EC.int64 []) ss.counts)]

/-- `EC.DocumentMarshaler` (x_constructor.go:247-249) of a histogram; `erc.Must` panics on an error, of which there is none -/
def histogramElement (L : Lib H) (k : Bytes) (h : H) : Res Value := do
  EC.subDocument k (← marshalHistogram L h)

/-- `PerformanceHDR.MarshalDocument` (x/ftdc/events/histogram.go:88-108) -/
def marshalPoint (L : Lib H) (p : Point H) : Res Doc := do
  let ts ← EC.time kTs p.ts
  let id ← EC.int64 kIdent p.id
  let cs ← EC.subDocument kCounters [
    ← histogramElement L kN p.number,
    ← histogramElement L kOps p.operations,
    ← histogramElement L kSize p.size,
    ← histogramElement L kErrors p.errors]
  let tm ← EC.subDocument kTimers [
    ← histogramElement L kDur p.duration,
    ← histogramElement L kTotal p.total]
  let gs ← EC.subDocument kGauges [
    ← EC.int64 kState p.gauges.state,
    ← EC.int64 kWorkers p.gauges.workers,
    ← EC.boolean kFailed p.gauges.failed]
  .ok [ts, id, cs, tm, gs]

end Birch.Model.Histograms
