import Verif.Model.Ftdc

/-
Model of the series of a chunk: `exportMatrix` and `getSeries` (x/ftdc/ftdc.go:49-55, 110-143), `ReadSeries`
(x/ftdc/iterator.go:123-149).

The registered marshaler (x/ftdc/util/driver_shim.go:17-22, 31-36) is a function from outside; `none` says that none is registered,
as is the case at the start (x/ftdc/util/driver_shim.go:11-15).  To call a nil function is a panic.
-/

namespace Birch.Model.Ftdc
open Birch Model

/-- the slices returned by `getSeries`; doubles as their bits -/
inductive Series
  | int64s (l : List Int)
  | int32s (l : List Int)
  | bools (l : List Bool)
  | doubles (l : List Nat)
  | times (l : List Time)
  | nil

/-- `Metric.getSeries` (x/ftdc/ftdc.go:110-143) -/
def Metric.getSeries (m : Metric) : Series :=
  if m.originalType = 0x12 ∨ m.originalType = 0x11 then .int64s m.values
  else if m.originalType = 0x10 then .int32s (m.values.map i32)
  else if m.originalType = 0x08 then .bools (m.values.map fun p => decide (p ≠ 0))
  else if m.originalType = 0x01 then .doubles (m.values.map u64i)
  else if m.originalType = 0x09 then .times (m.values.map timeEpocMs)
  else .nil

/-- `out[k] = s`; the order of a map is arbitrary -/
def assign (out : List (Bytes × Series)) (k : Bytes) (s : Series) : List (Bytes × Series) :=
  out.filter (fun e => e.1 ≠ k) ++ [(k, s)]

/-- `Chunk.exportMatrix` (x/ftdc/ftdc.go:49-55) -/
def Chunk.exportMatrix (c : Chunk) : List (Bytes × Series) :=
  c.metrics.foldl (fun out m => assign out m.key m.getSeries) []

/-- the loop of `ReadSeries` over the chunks (x/ftdc/iterator.go:131-145), iterated to its end: the documents passed on and the errors collected -/
def seriesLoop (global : Option (List (Bytes × Series) → Option Bytes)) (fuel : Nat) : List Chunk → Res (List Doc × List Err)
  | [] => .ok ([], [])
  | c :: cs =>
    match global with
    | none => .panic
    | some f =>
      match f c.exportMatrix with
      | none => do
        let (ds, es) ← seriesLoop global fuel cs
        .ok (ds, .other :: es)
      | some payload =>
        match readDocument fuel payload with
        | .ok d => do
          let (ds, es) ← seriesLoop global fuel cs
          .ok (d :: ds, es)
        | .err e => do
          let (ds, es) ← seriesLoop global fuel cs
          .ok (ds, e :: es)
        | .panic => .panic
        | .oof => .oof

/-- `ReadSeries` (x/ftdc/iterator.go:123-149), iterated to its end; the error of reading the chunks is added last (line 130) -/
def readSeriesDocs (unzip : Bytes → Option Bytes) (fuel : Nat) (global : Option (List (Bytes × Series) → Option Bytes)) (s : Stream.Source) :
    Res (List Doc × List Err) := do
  let (chunks, e) := readAll unzip fuel s
  let (ds, es) ← seriesLoop global fuel chunks
  match e with
  | .ok () => .ok (ds, es)
  | .err e => .ok (ds, es ++ [e])
  | .panic => .panic
  | .oof => .oof

end Birch.Model.Ftdc
