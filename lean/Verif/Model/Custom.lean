import Verif.Model.GoValue
import Verif.Model.DocHeap
import Verif.Model.Compare

/-
Model of `events.Custom` (x/ftdc/events/custom.go:26-104): named numbers that are written as one document.

Left out: capacities (`MakeCustom`), and that a `Custom` shares its array with other slices.
-/

namespace Birch.Model.Custom
open Birch Model

/-- A Go value by its dynamic type, as far as the type switches of `Add` and of `EC.Interface` tell types apart: the three
    slice types that only `Add` knows, and the others. -/
inductive Val where
  | go (g : Go)
  /-- []bool, []uint32, []uint64 -/
  | bools (l : List Bool)
  | uint32s (l : List Nat)
  | uint64s (l : List Nat)

/-- the value in the type switch of `EC.Interface`, which has no case for the three slice types (constructor.go:43-159) -/
def Val.any : Val → Go
  | .go g => g
  | .bools _ => .other
  | .uint32s _ => .other
  | .uint64s _ => .other

/-- `CustomPoint` (custom.go:26-29) -/
structure Point where
  name : Bytes
  value : Val

/-- `Custom` (custom.go:38) -/
abbrev Custom := List Point

/-- the type switch of `Add` (custom.go:47-56) -/
def known : Val → Bool
  | .go (.int (.int64 _)) => true
  | .go (.int (.int32 _)) => true
  | .go (.int (.int _)) => true
  | .go (.bool _) => true
  | .go (.time _) => true
  | .go (.f64 _) => true
  | .go (.f32 _) => true
  | .go (.int (.uint32 _)) => true
  | .go (.int (.uint64 _)) => true
  | .go (.int64s _) => true
  | .go (.int32s _) => true
  | .go (.ints _) => true
  | .bools _ => true
  | .go (.times _) => true
  | .go (.f64s _) => true
  | .go (.f32s _) => true
  | .uint32s _ => true
  | .uint64s _ => true
  | _ => false

/-- `Add` (custom.go:45-57): the points afterwards, and the error -/
def add (ps : Custom) (key : Bytes) (v : Val) : Custom × Option Err :=
  if known v then (ps ++ [⟨key, v⟩], none) else (ps, some .other)

/-- `Less` (custom.go:63) -/
def pointLess (a b : Point) : Res Bool := .ok (strLt a.name b.name)

/-- `Sort` (custom.go:70) -/
def sort (ps : Custom) : Res Custom := DocHeap.sortStable pointLess ps

/-- the loop of `MarshalDocument` (custom.go:95-101) -/
def docOf (W : Nat → Nat) (fuel : Nat) : Custom → Doc → Res Doc
  | [], doc => .ok doc
  | p :: ps, doc => do
    let de ← ECE.interface W fuel p.name p.value.any
    docOf W fuel ps (doc ++ [de])

/-- `MarshalDocument` (custom.go:90-104): the points as they are afterwards (they are sorted in place), and the result -/
def marshalDocument (W : Nat → Nat) (fuel : Nat) (ps : Custom) : Res (Custom × Res Doc) := do
  let ps ← sort ps
  .ok (ps, docOf W fuel ps [])

/-- `MarshalBSON` (custom.go:72) by `MarshalDocumentBSON` (x_marshaler.go:30-42) -/
def marshalBSON (W : Nat → Nat) (fuel : Nat) (ps : Custom) : Res (Custom × Res Bytes) := do
  let (ps, doc) ← marshalDocument W fuel ps
  .ok (ps, do docMarshal fuel (← doc))

/-- the loop of `UnmarshalBSON` (custom.go:80-85) -/
def appendAll (fuel : Nat) : Doc → Custom → Res Custom
  | [], ps => .ok ps
  | v :: d, ps => do
    let k ← key v
    let g ← Value.interface fuel v
    appendAll fuel d (ps ++ [⟨k, .go g⟩])

/-- `UnmarshalBSON` (custom.go:74-88); an error leaves the points as they are -/
def unmarshalBSON (fuel : Nat) (ps : Custom) (b : Bytes) : Res Custom := do
  let doc ← readDocument fuel b
  appendAll fuel doc ps

end Birch.Model.Custom
