import Verif.Model.Ints
import Verif.Model.Write

/-
Model of x/ftdc/events: performance events and the collectors that sum them (performance.go, collector.go).
-/

namespace Birch.Model.Events
open Birch Model

/-- `PerformanceCounters` (x/ftdc/events/performance.go:36-41) -/
structure Counters where
  number : Int
  operations : Int
  size : Int
  errors : Int
  deriving DecidableEq

/-- `PerformanceTimers` (x/ftdc/events/performance.go:45-48), in nanoseconds -/
structure Timers where
  duration : Int
  total : Int
  deriving DecidableEq

/-- `PerformanceGauges` (x/ftdc/events/performance.go:53-57) -/
structure Gauges where
  state : Int
  workers : Int
  failed : Bool
  deriving DecidableEq

/-- `Performance` (x/ftdc/events/performance.go:25-31).  The integers are int64; the functions below wrap them. -/
structure Perf where
  ts : Time
  id : Int
  counters : Counters
  timers : Timers
  gauges : Gauges
  deriving DecidableEq

/-- `time.Time{}` (standard library): the start of year 1 -/
def zeroTime : Time := ⟨-62135596800, 0⟩

/-- `time.Time.Sub` (standard library), which saturates.  Monotonic clock readings are not modelled. -/
def timeSub (t u : Time) : Int :=
  let d := (t.sec - u.sec) * 1000000000 + (t.nsec - u.nsec)
  if d < -9223372036854775808 then -9223372036854775808
  else if d > 9223372036854775807 then 9223372036854775807
  else d

/-! ### documents -/

def kTs : Bytes := [116, 115]
def kIdent : Bytes := [105, 100]
def kCounters : Bytes := [99, 111, 117, 110, 116, 101, 114, 115]
def kTimers : Bytes := [116, 105, 109, 101, 114, 115]
def kGauges : Bytes := [103, 97, 117, 103, 101, 115]
def kN : Bytes := [110]
def kOps : Bytes := [111, 112, 115]
def kOpts : Bytes := [111, 112, 116, 115]
def kSize : Bytes := [115, 105, 122, 101]
def kErrors : Bytes := [101, 114, 114, 111, 114, 115]
def kDur : Bytes := [100, 117, 114]
def kTotal : Bytes := [116, 111, 116, 97, 108]
def kState : Bytes := [115, 116, 97, 116, 101]
def kWorkers : Bytes := [119, 111, 114, 107, 101, 114, 115]
def kFailed : Bytes := [102, 97, 105, 108, 101, 100]

/-- `Performance.MarshalDocument` (x/ftdc/events/performance.go:66-86); `EC.Duration` is `EC.Int64` (x_constructor.go:375-377) -/
def marshal (p : Perf) : Res Doc := do
  let ts ← EC.time kTs p.ts
  let id ← EC.int64 kIdent p.id
  let cs ← EC.subDocument kCounters [
    ← EC.int64 kN p.counters.number,
    ← EC.int64 kOps p.counters.operations,
    ← EC.int64 kSize p.counters.size,
    ← EC.int64 kErrors p.counters.errors]
  let tm ← EC.subDocument kTimers [
    ← EC.int64 kDur p.timers.duration,
    ← EC.int64 kTotal p.timers.total]
  let gs ← EC.subDocument kGauges [
    ← EC.int64 kState p.gauges.state,
    ← EC.int64 kWorkers p.gauges.workers,
    ← EC.boolean kFailed p.gauges.failed]
  .ok [ts, id, cs, tm, gs]

/-- `PerformanceCounters.UnmarshalDocument` (x/ftdc/events/performance.go:112-127) -/
def unmarshalCounters (c : Counters) : Doc → Res Counters
  | [] => .ok c
  | e :: es => do
    let k ← key e
    if k = kN then unmarshalCounters { c with number := ← int64 e } es
    else if k = kOpts then unmarshalCounters { c with operations := ← int64 e } es
    else if k = kSize then unmarshalCounters { c with size := ← int64 e } es
    else if k = kErrors then unmarshalCounters { c with errors := ← int64 e } es
    else unmarshalCounters c es

/-- `PerformanceTimers.UnmarshalDocument` (x/ftdc/events/performance.go:129-140) -/
def unmarshalTimers (c : Timers) : Doc → Res Timers
  | [] => .ok c
  | e :: es => do
    let k ← key e
    if k = kDur then unmarshalTimers { c with duration := ← int64 e } es
    else if k = kTotal then unmarshalTimers { c with total := ← int64 e } es
    else unmarshalTimers c es

/-- `PerformanceGauges.UnmarshalDocument` (x/ftdc/events/performance.go:142-155) -/
def unmarshalGauges (c : Gauges) : Doc → Res Gauges
  | [] => .ok c
  | e :: es => do
    let k ← key e
    if k = kState then unmarshalGauges { c with state := ← int64 e } es
    else if k = kWorkers then unmarshalGauges { c with workers := ← int64 e } es
    else if k = kFailed then unmarshalGauges { c with failed := ← boolean e } es
    else unmarshalGauges c es

/-- `Performance.UnmarshalDocument` (x/ftdc/events/performance.go:88-110) into `p`.
    The changes of an event whose document makes it panic half way are not modelled. -/
def unmarshal (fuel : Nat) (p : Perf) : Doc → Res Perf
  | [] => .ok p
  | e :: es => do
    let k ← key e
    if k = kTs then unmarshal fuel { p with ts := ← time e } es
    else if k = kIdent then unmarshal fuel p es
    else if k = kCounters then unmarshal fuel { p with counters := ← unmarshalCounters p.counters (← mutableDocument fuel e) } es
    else if k = kTimers then unmarshal fuel { p with timers := ← unmarshalTimers p.timers (← mutableDocument fuel e) } es
    else if k = kGauges then unmarshal fuel { p with gauges := ← unmarshalGauges p.gauges (← mutableDocument fuel e) } es
    else unmarshal fuel p es

/-! ### adding events -/

/-- the events in memory, by address -/
abbrev Heap := Nat → Perf

def Heap.set (h : Heap) (a : Nat) (p : Perf) : Heap := fun b => if b = a then p else h b

/-- `Performance.Add` (x/ftdc/events/performance.go:160-178) of the event at `q` to the one at `p`, which may be the same one.
    Each field is read and written once, so the order of the assignments does not matter. -/
def add (h : Heap) (p q : Nat) : Heap :=
  let h := if (h q).id = 0 then h.set q { h q with id := i64 ((h p).id + 1) } else h
  h.set p
    { ts := (h q).ts
      id := (h q).id
      counters :=
        { number := i64 ((h p).counters.number + (h q).counters.number)
          operations := i64 ((h p).counters.operations + (h q).counters.operations)
          size := i64 ((h p).counters.size + (h q).counters.size)
          errors := i64 ((h p).counters.errors + (h q).counters.errors) }
      timers :=
        { duration := i64 ((h p).timers.duration + (h q).timers.duration)
          total := i64 ((h p).timers.total + (h q).timers.total) }
      gauges := (h q).gauges }

/-! ### collectors -/

/-- which collector: `NewBasicCollector`, `NewPassthroughCollector`, `NewSamplingCollector`, `NewRandomSamplingCollector`,
    `NewIntervalCollector` (x/ftdc/events/collector.go:39-43, 66-70, 91-96, 131-136, 178-183).
    The second argument of `NewRandomSamplingCollector` is ignored there, too. -/
inductive Kind where
  | basic
  | passthrough
  | sampling (n : Int)
  | random (percent : Int)
  | interval (dur : Int)

/-- the memory, the state of the collector (`current` is an address) and the events given to the underlying collector so far.
    That one turns an event into a document at once, so it gets the value that the event has at that moment. -/
structure World where
  heap : Heap
  current : Option Nat
  count : Int
  last : Time
  recorded : List Perf

/-- a new collector -/
def World.new (h : Heap) : World := ⟨h, none, 0, zeroTime, []⟩

/-- one call of `AddEvent`: the address of the event or nil, what `rand.Intn(101)` gives if called, what `time.Since` and `time.Now` read -/
structure In where
  event : Option Nat
  draw : Int
  now1 : Time
  now2 : Time

/-- `c.Collector.Add` of the event at `a`.  Its error is what `AddEvent` returns; it has no effect on the collectors of this file. -/
def World.record (w : World) (a : Nat) : World := { w with recorded := w.recorded ++ [w.heap a] }

/-- `c.current = in` or `c.current.Add(in)`; also gives the address in `current` -/
def World.sum (w : World) (a : Nat) : World × Nat :=
  match w.current with
  | none => ({ w with current := some a }, a)
  | some c => ({ w with heap := add w.heap c a }, c)

/-- `AddEvent` of the collectors (x/ftdc/events/collector.go:46-57, 73-79, 99-119, 139-154, 186-203) and
    `shouldCollect` (collector.go:156-166); `c.count%c.sample` panics for 0 -/
def addEvent (k : Kind) (w : World) (i : In) : Res World :=
  match i.event with
  | none => .err .other
  | some a =>
    match k with
    | .basic =>
      let (w, c) := w.sum a
      .ok (w.record c)
    | .passthrough => .ok (w.record a)
    | .sampling n =>
      let (w, c) := w.sum a
      if n = 0 then .panic else
      let collect := w.count.tmod n = 0
      let w := { w with count := i64 (w.count + 1) }
      .ok (if collect then w.record c else w)
    | .random percent =>
      let (w, c) := w.sum a
      .ok (if percent > 100 then w.record c
        else if percent ≤ 0 then w
        else if i.draw < percent then w.record c else w)
    | .interval dur =>
      match w.current with
      | none =>
        let (w, c) := w.sum a
        .ok ({ w with last := i.now2 }.record c)
      | some _ =>
        let (w, c) := w.sum a
        .ok (if timeSub i.now1 w.last ≥ dur then { w with last := i.now2 }.record c else w)

/-- what a program does: it writes an event of its own or calls `AddEvent` -/
inductive Act where
  | write (a : Nat) (p : Perf)
  | add (i : In)

/-- `AddEvent(nil)` returns an error and changes nothing -/
def act (k : Kind) (w : World) : Act → Res World
  | .write a p => .ok { w with heap := w.heap.set a p }
  | .add i =>
    match addEvent k w i with
    | .err _ => .ok w
    | r => r

def run (k : Kind) (w : World) : List Act → Res World
  | [] => .ok w
  | a :: as => do run k (← act k w a) as

end Birch.Model.Events
