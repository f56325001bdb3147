import Verif.Model.FtdcCollectors
import Verif.Model.Custom

/-
Model of `CollectRuntime` and `CollectOptions.Validate` (x/ftdc/metrics/metrics.go:134-246).

The loop is one goroutine, and what it does depends only on which case of its `select` is taken each time.  An execution is a list of these (`Event`), in any order: when
the timers fire is left open.  What `generate` gives is part of the event, and what the file system does is a parameter (`Disk`).
-/

namespace Birch.Model.Collect
open Birch Ftdc

/-- `CustomCollector` (x/ftdc/metrics/metrics.go:50-53), with what its function gives -/
structure Collector where
  name : Bytes
  operation : Res Doc

/-- `CollectOptions` (x/ftdc/metrics/metrics.go:30-42); durations are nanoseconds -/
structure Options where
  flushInterval : Int
  collectionInterval : Int
  skipGolang : Bool
  skipSystem : Bool
  skipProcess : Bool
  parallel : Bool
  sampleCount : Int
  collectors : List Collector
  outputFilePrefix : Bytes

/-- `NewCollectOptions` (x/ftdc/metrics/metrics.go:134-144) -/
def Options.new (pre : Bytes) : Options := ⟨24 * 3600 * 1000000000, 1000000000, false, false, false, false, 300, [], pre⟩

/-- `Less` (x/ftdc/metrics/metrics.go:48) -/
def collectorLess (a b : Collector) : Res Bool := .ok (strLt a.name b.name)

/-- `validateCondition` (x/ftdc/metrics/metrics.go:146-152): the errors, one more if the condition holds -/
def validateCondition (errs : List Err) (cond : Bool) : List Err := if cond then errs ++ [.other] else errs

/-- `Validate` (x/ftdc/metrics/metrics.go:154-174): the collectors are sorted, in the slice that the caller has, and what is wrong is collected.  `time.Millisecond` is
    1000000. -/
def Options.validate (o : Options) : Res (Options × List Err) := do
  let cs ← DocHeap.sortStable collectorLess o.collectors
  let errs := validateCondition [] (o.flushInterval < 1000000)
  let errs := validateCondition errs (o.collectionInterval < 1000000)
  let errs := validateCondition errs (o.collectionInterval > o.flushInterval)
  let errs := validateCondition errs (o.sampleCount < 10)
  let errs := validateCondition errs (o.skipGolang && o.skipProcess && o.skipSystem)
  let errs := validateCondition errs (o.parallel && o.collectors.length == 0)
  .ok ({ o with collectors := cs }, errs)

/-- what `os.Create` does with the file of a number: an error, or a file with what its `Write` and its `Close` will do -/
abbrev Disk := Nat → Except Err (List (Option (Nat × Option Err)) × Option Err)

/-- the case of the `select` that is taken (x/ftdc/metrics/metrics.go:224-244); `generate` is what `opts.generate` gives for a number -/
inductive Event where
  | collect (generate : Nat → Res Doc)
  | flush
  | done

/-- the variables of `CollectRuntime` (x/ftdc/metrics/metrics.go:184-196).  The current file is `collector.output`.  `closed` has the contents of the files before it.  Whether
    it has been closed is in `isOpen`. -/
structure State where
  collectCount : Nat
  closed : List Bytes
  collector : Streaming
  closeErr : Option Err
  isOpen : Bool

/-- `outputCount`: the files before the current one -/
def State.outputCount (s : State) : Nat := s.closed.length

/-- the contents of all files -/
def State.files (s : State) : List Bytes := s.closed ++ [s.collector.output.out]

section
variable (fsub : Nat → Nat → Nat) (zip : Bytes → Bytes) (now : Nat → Nat → Time) (disk : Disk) (fuel : Nat)

/-- `flusher` (x/ftdc/metrics/metrics.go:198-221); `now` are the times of the chunks of each file -/
def flusher (max : Nat) (s : State) : Res (State × Option Err) :=
  if s.collector.inner.info.1 = 0 then .ok (s, none)
  else do
    match ← s.collector.flush zip (now s.outputCount) fuel with
    | (c, some e) => .ok ({ s with collector := c }, some e)
    | (c, none) =>
      match s.closeErr with
      | some e => .ok ({ s with collector := c, isOpen := false }, some e)
      | none =>
        match disk (s.outputCount + 1) with
        | .error e => .ok ({ s with collector := c, isOpen := false }, some e)
        | .ok (plan, closeErr) => .ok (⟨s.collectCount, s.closed ++ [c.output.out], Streaming.new max ⟨[], plan⟩, closeErr, true⟩, none)

/-- one turn of the loop (x/ftdc/metrics/metrics.go:223-245); the second part is what is returned, if it is -/
def step (max : Nat) (s : State) : Event → Res (State × Option (Option Err))
  | .done => do
    let (s, e) ← flusher zip now disk fuel max s
    .ok (s, some e)
  | .collect generate =>
    match generate s.collectCount with
    | .err e => .ok (s, some (some e))
    | .ok payload => do
      match ← s.collector.add fsub zip (now s.outputCount) fuel payload with
      | (c, some e) => .ok ({ s with collector := c }, some (some e))
      | (c, none) => .ok ({ s with collector := c, collectCount := s.collectCount + 1 }, none)
    | .panic => .panic
    | .oof => .oof
  | .flush => do
    match ← flusher zip now disk fuel max s with
    | (s, some e) => .ok (s, some (some e))
    | (s, none) => .ok (s, none)

/-- the loop, until it returns or the events are over -/
def run (max : Nat) (s : State) : List Event → Res (State × Option (Option Err))
  | [] => .ok (s, none)
  | ev :: evs => do
    match ← step fsub zip now disk fuel max s ev with
    | (s, some r) => .ok (s, some r)
    | (s, none) => run max s evs

/-- `CollectRuntime` (x/ftdc/metrics/metrics.go:179-246): the state, if a file was created, and what is returned, if it is.  (`SampleCount` is positive after `Validate`.) -/
def collectRuntime (o : Options) (evs : List Event) : Res (Option State × Option (Option Err)) := do
  match ← o.validate with
  | (_, e :: _) => .ok (none, some (some e))
  | (o, []) =>
    match disk 0 with
    | .error e => .ok (none, some (some e))
    | .ok (plan, closeErr) => do
      let (s, r) ← run fsub zip now disk fuel o.sampleCount.toNat ⟨0, [], Streaming.new o.sampleCount.toNat ⟨[], plan⟩, closeErr, true⟩ evs
      .ok (some s, r)

end

end Birch.Model.Collect
