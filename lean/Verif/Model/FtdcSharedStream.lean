import Verif.Model.FtdcShared
import Verif.Model.FtdcCollectors

/-
Model of the streaming FTDC collector (x/ftdc/collector_streaming.go:10-78) around the base collector of `Model/FtdcShared`: the documents it is given belong to the
caller as well, and are read again when a chunk is written.
-/

namespace Birch.Model.Shared
open Birch Model Graph

/-- `Reset` (x/ftdc/collector_better.go:45-50) -/
def Collector.reset (c : Collector) : Collector := { c with reference := none, last := [], deltas := [], numSamples := 0 }

/-- `Info().SampleCount` (x/ftdc/collector_better.go:52-68) -/
def Collector.samples (c : Collector) : Nat := (if c.reference.isSome then 1 else 0) + c.numSamples

/-- `streamingCollector` (x/ftdc/collector_streaming.go:10-15).  `flushes` counts the chunks written and is not part of the code, it numbers the chunks for `now`. -/
structure Streaming where
  output : Ftdc.Sink
  maxSamples : Nat
  count : Nat
  inner : Collector
  flushes : Nat

/-- `NewStreamingCollector` (x/ftdc/collector_streaming.go:23-35), with `SetMetadata` called with a document or not -/
def Streaming.new (max : Nat) (md : Option Nat) (s : Ftdc.Sink) : Streaming := ⟨s, max, 0, Collector.new max md, 0⟩

/-- `Reset` (x/ftdc/collector_streaming.go:37) -/
def Streaming.reset (c : Streaming) : Streaming := { c with count := 0, inner := c.inner.reset }

/-- `FlushCollector` (x/ftdc/collector_streaming.go:57-78) with the collector's own writer.  The objects are not changed, see `Collector.resolve`, for which the fuel `m` is. -/
def Streaming.flush (zip : Bytes → Bytes) (now : Nat → Time) (m : Nat) (c : Streaming) : M (Streaming × Option Err) := fun w =>
  if c.inner.samples = 0 then (w, .ok (c, none))
  else match c.inner.resolve zip (now c.flushes) w m with
    | .ok payload =>
      match c.output.write payload with
      | (o, _, some e) => (w, .ok ({ c with output := o }, some e))
      | (o, k, none) =>
        if k ≠ payload.length then (w, .ok ({ c with output := o }, some .other))
        else (w, .ok (Streaming.reset { c with output := o, flushes := c.flushes + 1 }, none))
    | .err e => (w, .ok (c, some e))
    | .panic => (w, .panic)
    | .oof => (w, .oof)

/-- the second half of `Add` (x/ftdc/collector_streaming.go:45-50) -/
def Streaming.push (fsub : Nat → Nat → Nat) (n : Nat) (c : Streaming) (d : Nat) : M (Streaming × Option Err) := do
  let (inner, e) ← c.inner.add fsub n d
  match e with
  | some e => pure ({ c with inner := inner }, some e)
  | none => pure ({ c with inner := inner, count := c.count + 1 }, none)

/-- `Add` (x/ftdc/collector_streaming.go:38-51); `count-1 >= maxSamples` on ints -/
def Streaming.add (fsub : Nat → Nat → Nat) (zip : Bytes → Bytes) (now : Nat → Time) (n m : Nat) (c : Streaming) (d : Nat) : M (Streaming × Option Err) :=
  if (c.count : Int) - 1 ≥ c.maxSamples then do
    let (c, e) ← c.flush zip now m
    match e with
    | some e => pure (c, some e)
    | none => c.push fsub n d
  else c.push fsub n d

/-- the steps one after the other: the collector afterwards and what `Add` returned -/
def runStream (fsub : Nat → Nat → Nat) (zip : Bytes → Bytes) (now : Nat → Time) (n m : Nat) : Streaming → List Step → M (Streaming × List (Option Err))
  | c, [] => pure (c, [])
  | c, .call k :: rest => fun w => runStream fsub zip now n m c rest (k.run w)
  | c, .add d :: rest => do
    let (c, e) ← c.add fsub zip now n m d
    let (c, es) ← runStream fsub zip now n m c rest
    pure (c, e :: es)

end Birch.Model.Shared
