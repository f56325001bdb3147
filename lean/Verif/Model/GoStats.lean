import Verif.Model.Events

/-
Model of what x/ftdc/metrics/golang_info.go makes of the counters of the Go runtime.  `goStatsCache` is one for the whole process and every collection holds its
lock, so that collections come one after the other; `collect` is one of them.  What the runtime and the clock show is a parameter (`Seen`).
The map of `CollectBasicGoStats` is left out apart from its rates, with the division of doubles as a parameter.
-/

namespace Birch.Model.GoStats
open Birch Model Events

/-- `runtime.MemStats`, as far as it is used: uint64, `PauseNs` of 256 of them, and uint32 for `NumGC` -/
structure MemStats where
  heapObjects : Nat
  alloc : Nat
  heapSys : Nat
  heapIdle : Nat
  heapInuse : Nat
  mallocs : Nat
  frees : Nat
  numGC : Nat
  lastGC : Nat
  pauseNs : Nat → Nat

/-- what a collection sees: `time.Now()`, `runtime.ReadMemStats`, `runtime.NumCgoCall()`, `runtime.NumGoroutine()`, and the clock in `time.Since(goStatsCache.lastGC)` -/
structure Seen where
  now : Time
  mem : MemStats
  cgoCalls : Int
  goroutines : Int
  later : Time

/-- `goStatsData` (x/ftdc/metrics/golang_info.go:15-18) -/
structure Data where
  previous : Int
  current : Int

/-- `diff` (x/ftdc/metrics/golang_info.go:20) -/
def Data.diff (d : Data) : Int := i64 (d.current - d.previous)

/-- `goStats` (x/ftdc/metrics/golang_info.go:22-33) -/
structure Stats where
  cgoCalls : Data
  mallocs : Data
  frees : Data
  gcRate : Data
  gcPause : Nat
  lastGC : Time
  lastCollection : Time
  elapsed : Int

/-- `&goStats{}` (x/ftdc/metrics/golang_info.go:13) -/
def Stats.new : Stats := ⟨⟨0, 0⟩, ⟨0, 0⟩, ⟨0, 0⟩, ⟨0, 0⟩, 0, zeroTime, zeroTime, 0⟩

/-- `d.previous = d.current; d.current = x` -/
def Data.next (d : Data) (x : Int) : Data := ⟨d.current, x⟩

/-- `int64(x)` of a uint64 -/
def toInt64 (x : Nat) : Int := i64 x

/-- `time.Unix(0, ns)` -/
def unixNano (ns : Int) : Time := ⟨ns / 1000000000, ns % 1000000000⟩

/-- `update` (x/ftdc/metrics/golang_info.go:35-60); `NumGC + 255` is a uint32 -/
def Stats.update (s : Stats) (x : Seen) : Stats where
  lastGC := unixNano (toInt64 x.mem.lastGC)
  gcPause := x.mem.pauseNs (u32 (x.mem.numGC + 255) % 256)
  cgoCalls := s.cgoCalls.next x.cgoCalls
  mallocs := s.mallocs.next (toInt64 x.mem.mallocs)
  frees := s.frees.next (toInt64 x.mem.frees)
  gcRate := s.gcRate.next x.mem.numGC
  elapsed := timeSub x.now s.lastCollection
  lastCollection := x.now

/-- `statRate` (x/ftdc/metrics/golang_info.go:62-65) -/
structure Rate where
  delta : Int
  duration : Int

/-- `getRate` (x/ftdc/metrics/golang_info.go:67-73) -/
def Stats.getRate (s : Stats) (stat : Int) : Rate := if s.elapsed = 0 then ⟨0, 0⟩ else ⟨stat, s.elapsed⟩

/-- `int` (x/ftdc/metrics/golang_info.go:87-92); division of Go truncates, and wraps around for the smallest number and -1 -/
def Rate.int (r : Rate) : Int := if r.duration = 0 then 0 else i64 (r.delta.tdiv r.duration)

/-- `float` (x/ftdc/metrics/golang_info.go:80-85); `fdiv a b` is `float64(a) / float64(b)` -/
def Rate.float (fdiv : Int → Int → Nat) (r : Rate) : Nat := if r.duration = 0 then 0 else fdiv r.delta r.duration

/-- `CounterType` (x/ftdc/metrics/golang_info.go:155-161) -/
inductive Kind where
  | current
  | deltas
  | rates
  deriving DecidableEq

/-- `GoRuntimeInfo` (x/ftdc/metrics/golang_info.go:138-153) -/
structure Info where
  heapObjects : Nat
  alloc : Nat
  heapSystem : Nat
  heapIdle : Nat
  heapInUse : Nat
  mallocs : Int
  frees : Int
  gc : Int
  gcPause : Int
  gcLatency : Int
  goroutines : Int
  cgoCalls : Int

/-- the `switch` of `build` (x/ftdc/metrics/golang_info.go:236-253), for one counter -/
def Stats.counter (s : Stats) (k : Kind) (d : Data) : Int :=
  match k with
  | .deltas => (s.getRate d.diff).delta
  | .rates => (s.getRate d.diff).int
  | .current => d.current

/-- `build` (x/ftdc/metrics/golang_info.go:221-254) -/
def Stats.build (s : Stats) (k : Kind) (x : Seen) : Stats × Info :=
  let s := s.update x
  (s, {
    heapObjects := x.mem.heapObjects
    alloc := x.mem.alloc
    heapSystem := x.mem.heapSys
    heapIdle := x.mem.heapIdle
    heapInUse := x.mem.heapInuse
    goroutines := x.goroutines
    gcLatency := timeSub x.later s.lastGC
    gcPause := toInt64 s.gcPause
    mallocs := s.counter k s.mallocs
    frees := s.counter k s.frees
    gc := s.counter k s.gcRate
    cgoCalls := s.counter k s.cgoCalls })

/-- the rates of `CollectBasicGoStats` (x/ftdc/metrics/golang_info.go:111-132): mallocs, frees, garbage collections, cgo calls -/
def Stats.basic (fdiv : Int → Int → Nat) (s : Stats) (x : Seen) : Stats × (Nat × Nat × Nat × Nat) :=
  let s := s.update x
  (s, (s.getRate s.mallocs.diff).float fdiv, (s.getRate s.frees.diff).float fdiv, (s.getRate s.gcRate.diff).float fdiv, (s.getRate s.cgoCalls.diff).float fdiv)

/-- a call of `CollectGoStatsTotals` or `CollectGoStatsCurrent`, `CollectGoStatsDeltas`, `CollectGoStatsRates` (x/ftdc/metrics/golang_info.go:170-219), or `none` for
    `CollectBasicGoStats` -/
abbrev Collection := Option Kind × Seen

/-- collections one after the other: the cache afterwards, and what each has returned -/
def collectAll (s : Stats) : List Collection → Stats × List (Option Info)
  | [] => (s, [])
  | (some k, x) :: cs =>
    let (s, i) := s.build k x
    let (s, is) := collectAll s cs
    (s, some i :: is)
  | (none, x) :: cs =>
    let (s, is) := collectAll (s.update x) cs
    (s, none :: is)

/-! ### documents -/

/-- "memory.objects.heap" -/
def kHeapObjects : Bytes := [109, 101, 109, 111, 114, 121, 46, 111, 98, 106, 101, 99, 116, 115, 46, 104, 101, 97, 112]
/-- "memory.summary.alloc" -/
def kAlloc : Bytes := [109, 101, 109, 111, 114, 121, 46, 115, 117, 109, 109, 97, 114, 121, 46, 97, 108, 108, 111, 99]
/-- "memory.summary.system" -/
def kSystem : Bytes := [109, 101, 109, 111, 114, 121, 46, 115, 117, 109, 109, 97, 114, 121, 46, 115, 121, 115, 116, 101, 109]
/-- "memory.heap.idle" -/
def kIdle : Bytes := [109, 101, 109, 111, 114, 121, 46, 104, 101, 97, 112, 46, 105, 100, 108, 101]
/-- "memory.heap.used" -/
def kUsed : Bytes := [109, 101, 109, 111, 114, 121, 46, 104, 101, 97, 112, 46, 117, 115, 101, 100]
/-- "memory.counters.mallocs" -/
def kMallocs : Bytes := [109, 101, 109, 111, 114, 121, 46, 99, 111, 117, 110, 116, 101, 114, 115, 46, 109, 97, 108, 108, 111, 99, 115]
/-- "memory.counters.frees" -/
def kFrees : Bytes := [109, 101, 109, 111, 114, 121, 46, 99, 111, 117, 110, 116, 101, 114, 115, 46, 102, 114, 101, 101, 115]
/-- "gc.rate" -/
def kGC : Bytes := [103, 99, 46, 114, 97, 116, 101]
/-- "gc.pause.duration.last" -/
def kPause : Bytes := [103, 99, 46, 112, 97, 117, 115, 101, 46, 100, 117, 114, 97, 116, 105, 111, 110, 46, 108, 97, 115, 116]
/-- "gc.pause.duration.latency" -/
def kLatency : Bytes := [103, 99, 46, 112, 97, 117, 115, 101, 46, 100, 117, 114, 97, 116, 105, 111, 110, 46, 108, 97, 116, 101, 110, 99, 121]
/-- "goroutines.total" -/
def kGoroutines : Bytes := [103, 111, 114, 111, 117, 116, 105, 110, 101, 115, 46, 116, 111, 116, 97, 108]
/-- "cgo.calls" -/
def kCgo : Bytes := [99, 103, 111, 46, 99, 97, 108, 108, 115]

/-- `MarshalDocument` (x/ftdc/metrics/golang_info.go:256-270); `EC.Duration` is `EC.Int64` (x_constructor.go:375-377) -/
def Info.marshalDocument (s : Info) : Res Doc := do
  .ok [
    ← EC.int64 kHeapObjects (toInt64 s.heapObjects),
    ← EC.int64 kAlloc (toInt64 s.alloc),
    ← EC.int64 kSystem (toInt64 s.heapSystem),
    ← EC.int64 kIdle (toInt64 s.heapIdle),
    ← EC.int64 kUsed (toInt64 s.heapInUse),
    ← EC.int64 kMallocs s.mallocs,
    ← EC.int64 kFrees s.frees,
    ← EC.int64 kGC s.gc,
    ← EC.int64 kPause s.gcPause,
    ← EC.int64 kLatency s.gcLatency,
    ← EC.int64 kGoroutines s.goroutines,
    ← EC.int64 kCgo s.cgoCalls]

end Birch.Model.GoStats
