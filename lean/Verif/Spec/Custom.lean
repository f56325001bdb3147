import Verif.Model.Custom
import Verif.Spec.GoValue
import Verif.Spec.Order

/-
What a `Custom` stands for: a document with one field per point.
The types of Go values and of points come from the model.
-/

namespace Birch.Spec
open Birch Model Model.Custom

/-- the name order of points -/
def byName (a b : Point) : Bool := decide (a.name < b.name)

/-- Go's native number types, booleans and times, and slices of them -/
def NumberType : Val → Prop
  | .go (.bool _) => True
  | .go (.int _) => True
  | .go (.f32 _) => True
  | .go (.f64 _) => True
  | .go (.time _) => True
  | .go (.int64s _) => True
  | .go (.int32s _) => True
  | .go (.f64s _) => True
  | .go (.f32s _) => True
  | .go (.ints _) => True
  | .go (.times _) => True
  | .bools _ => True
  | .uint32s _ => True
  | .uint64s _ => True
  | _ => False

/-- number types that `Add` refuses -/
def SmallOrUint : Val → Prop
  | .go (.int (.int8 _)) => True
  | .go (.int (.int16 _)) => True
  | .go (.int (.uint8 _)) => True
  | .go (.int (.uint16 _)) => True
  | .go (.int (.uint _)) => True
  | _ => False

/-- the points stand for these fields, in this order -/
inductive PointsAre (W : Nat → Nat) : List Point → Fields → Prop
  | nil : PointsAre W [] .nil
  | cons {p : Point} {t : BVal} {ps : List Point} {fs : Fields} : Denotes W p.value.any t → (t = .null → p.value.any = .nil) →
      PointsAre W ps fs → PointsAre W (p :: ps) (.cons p.name t fs)

/-- values that cannot be written: types without a case, and numbers from 2^63 on -/
inductive Unwritable : Val → Prop
  | type {v : Val} : Unsupported v.any → Unwritable v
  | large {n : Nat} : 9223372036854775808 ≤ n → Unwritable (.go (.int (.uint64 n)))

/-- a value that can be written -/
def Writable (W : Nat → Nat) (p : Point) : Prop :=
  ∃ t, Denotes W p.value.any t ∧ (t = .null → p.value.any = .nil) ∧ t.WF ∧ p.name.length + 2 + t.enc.length < 1073741824

/-- the points that reading the fields gives -/
def pointsOf : Fields → List Point
  | .nil => []
  | .cons k t rest => ⟨k, .go (goOf t)⟩ :: pointsOf rest

/-- a slice as `[]any` -/
def anys {α : Type} (f : α → Go) : List α → GoSlice
  | [] => .nil
  | a :: l => .cons (f a) (anys f l)

/-- an integer as an `int64` or an `int32` -/
def sized (g : GoInt) : Go := .int (if wide g then .int64 (intVal g) else .int32 (intVal g))

/-- a time without the part below a millisecond -/
def truncated (t : Time) : Time := ⟨t.sec, t.nsec / 1000000 * 1000000⟩

/-- what a number is after writing and reading: integers are `int32` or `int64`, floats are `float64`, slices are `[]any` -/
def comesBack (W : Nat → Nat) : Val → Val
  | .go (.int g) => .go (sized g)
  | .go (.f32 b) => .go (.f64 (W b))
  | .go (.time t) => .go (.time (truncated t))
  | .go (.int64s l) => .go (.slice (anys (fun i => .int (.int64 i)) l))
  | .go (.int32s l) => .go (.slice (anys (fun i => .int (.int32 i)) l))
  | .go (.f64s l) => .go (.slice (anys .f64 l))
  | .go (.f32s l) => .go (.slice (anys (fun b => .f64 (W b)) l))
  | .go (.ints l) => .go (.slice (anys (fun i => sized (.int i)) l))
  | .go (.times l) => .go (.slice (anys (fun t => .time (truncated t)) l))
  | v => v

/-- values whose type and value are the same after writing and reading: int64, int32, float64, booleans, and times in whole
    milliseconds -/
def Exact : Val → Prop
  | .go (.int (.int64 _)) => True
  | .go (.int (.int32 _)) => True
  | .go (.f64 _) => True
  | .go (.bool _) => True
  | .go (.time t) => t.nsec % 1000000 = 0
  | _ => False

end Birch.Spec
