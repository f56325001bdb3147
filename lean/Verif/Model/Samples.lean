import Verif.Model.DocHeap
import Verif.Model.Compare
import Verif.Model.GoValue
import Verif.Model.Ftdc

/-
Model of the samples a collector takes: `readDocument` (x/ftdc/util.go:18-56) and the `Add` and `SetMetadata` in front of
the document (x/ftdc/collector_better.go:35-43, 70-74 and the like).

A sample is a Go value of any type.  Types that implement `DocumentMarshaler` or `Marshaler` are given by what their method
returns (`Go.docMarshaler`, `Go.marshaler`); every other type without a case is `Go.other` or a case of `Go` that none of
the branches names.  Left out: nil pointers of the types with a case (`(*birch.Document)(nil)` and the like).
-/

namespace Birch.Model.Samples
open Birch Model

/-- an argument of `Add`: a value of a type that `Go` has, or one of the other types named by `readDocument` -/
inductive Sample
  | go (g : Go)
  /-- `map[string]int`, `map[string]int64`, `map[string]uint` or `map[string]uint64`, in the order of a visit -/
  | intMap (m : List (Bytes × GoInt))
  /-- `map[string]struct{}` -/
  | setMap (keys : List Bytes)
  /-- `struct{}{}` -/
  | unit

/-- a registered marshaler (x/ftdc/util/driver_shim.go:6); `none` is an error.  That it does not panic is assumed. -/
abbrev Marshaler := Sample → Option Bytes

/-- `DC.Interface` (x_constructor.go:167-202), which has no case for maps of integers, sets and `struct{}` -/
def dcInterface (W : Nat → Nat) (fuel : Nat) : Sample → Res Doc
  | .go g => DC.interface W fuel g
  | .intMap _ => .ok []
  | .setMap _ => .ok []
  | .unit => .ok []

/-- the branch for maps (x/ftdc/util.go:33-35) -/
def readMap (W : Nat → Nat) (fuel : Nat) (s : Sample) : Res Doc := do
  let elems ← dcInterface W fuel s
  DocHeap.sortStable less elems

/-- the default branch (x/ftdc/util.go:45-54) -/
def readOther (fuel : Nat) (global : Option Marshaler) (s : Sample) : Res Doc :=
  match global with
  | none => .err .other
  | some f => do
    let data ← outcome (f s)
    readDocument fuel data

/-- `readDocument` (x/ftdc/util.go:18-56); `global` is the registered marshaler.  The text of errors is not modelled. -/
def readSample (W : Nat → Nat) (fuel : Nat) (global : Option Marshaler) : Sample → Res Doc
  | .go (.doc d) => .ok d
  | .go (.docMarshaler r) => outcome r
  | .go (.bytes b) => readDocument fuel b
  | .go (.elem v) => do readDocument fuel (← elemMarshal fuel v)
  | .go (.array a) => do readDocument fuel (← arrMarshal fuel a)
  | .go (.reader b) => do readDocument fuel (← readerMarshal fuel b)
  | .go (.marshaler r) => do readDocument fuel (← outcome r)
  | .go (.map m) => readMap W fuel (.go (.map m))
  | .intMap m => readMap W fuel (.intMap m)
  | .go (.mapStr _) => .err .other
  | .go .nil => .err .other
  | .unit => .ok []
  | .setMap _ => .err .other
  | s => readOther fuel global s

/-- `Add` in front of the document (x/ftdc/collector_better.go:71-74, collector_batch.go:50-53, collector_dynamic.go:52-55,
    collector_streaming.go:105-108, collector_uncompressed.go:169-172): an error is returned and the collector is left alone -/
def addSample {σ : Type} (W : Nat → Nat) (fuel : Nat) (global : Option Marshaler) (add : σ → Doc → Res (σ × Option Err)) (c : σ) (s : Sample) :
    Res (σ × Option Err) :=
  match readSample W fuel global s with
  | .ok d => add c d
  | .err e => .ok (c, some e)
  | .panic => .panic
  | .oof => .oof

/-- a caller that adds samples one after the other -/
def addSamples {σ : Type} (W : Nat → Nat) (fuel : Nat) (global : Option Marshaler) (add : σ → Doc → Res (σ × Option Err)) :
    σ → List Sample → Res (σ × List (Option Err))
  | c, [] => .ok (c, [])
  | c, s :: ss => do
    let (c, e) ← addSample W fuel global add c s
    let (c, es) ← addSamples W fuel global add c ss
    .ok (c, e :: es)

/-- `SetMetadata` (x/ftdc/collector_better.go:35-43) -/
def setMetadata (W : Nat → Nat) (fuel : Nat) (global : Option Marshaler) (c : Ftdc.Better) (s : Sample) : Res (Ftdc.Better × Option Err) :=
  addSample W fuel global (fun c d => .ok (c.setMetadata d, none)) c s

end Birch.Model.Samples
