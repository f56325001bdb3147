import Verif.Model.Jsonx
import Verif.Spec.ExtJson

/- What a jsonx document made in Go stands for, and what two jsonx documents share (C90). -/

namespace Birch.Spec.Jsonx
open Birch Spec Model.Jsonx Spec.ExtJson

mutual
/-- the BSON value of a jsonx value with numbers of type `int` and `float64` only, in which no object begins with a reserved key -/
inductive Means : GVal → BVal → Prop
  | null : Means .null .null
  | bool {b} : Means (.bool b) (.bool b)
  | int {i} : Means (.int i) (ofInt i)
  | double {b} : Means (.f64 b) (.double b.toNat)
  | str {s} : Means (.str s) (.string s)
  | arr {js vs} : MeansVals js vs → Means (.arr js) (.array vs)
  | obj {es fs} : Unreserved fs → MeansFields es fs → Means (.obj es) (.doc fs)
inductive MeansVals : GVals → Vals → Prop
  | nil : MeansVals .nil .nil
  | cons {j t js vs} : Means j t → MeansVals js vs → MeansVals (.cons j js) (.cons t vs)
inductive MeansFields : GElems → Fields → Prop
  | nil : MeansFields .nil .nil
  | cons {k j t es fs} : Means j t → MeansFields es fs → MeansFields (.cons k j es) (.cons k t fs)
end

mutual
/-- There is a number of type `int32`, `int64` or `float32`, not inside an object that begins with a reserved key. -/
inductive Other : GVal → Prop
  | int32 {n} : Other (.int32 n)
  | int64 {n} : Other (.int64 n)
  | f32 {b} : Other (.f32 b)
  | arr {a} : OtherVals a → Other (.arr a)
  | obj {k v r} : k ∉ reserved → OtherElems (.cons k v r) → Other (.obj (.cons k v r))
inductive OtherVals : GVals → Prop
  | here {v r} : Other v → OtherVals (.cons v r)
  | there {v r} : OtherVals r → OtherVals (.cons v r)
inductive OtherElems : GElems → Prop
  | here {k v r} : Other v → OtherElems (.cons k v r)
  | there {k v r} : OtherElems r → OtherElems (.cons k v r)
end

/-- these members and then those -/
def append : GElems → GElems → GElems
  | .nil, e => e
  | .cons k v r, e => .cons k v (append r e)

/-- A value with everything in it. -/
inductive Tree (α : Type) where
  | leaf (x : α)
  | obj (l : List (Bytes × Tree α))
  | arr (l : List (Tree α))

variable {α : Type}

mutual
/-- The value at this address is this tree. -/
inductive Shows (w : World α) : Nat → Tree α → Prop
  | leaf {v x} : w.vals v = .leaf x → Shows w v (.leaf x)
  | doc {v d l} : w.vals v = .doc d → ShowsElems w (w.docs d) l → Shows w v (.obj l)
  | arr {v a l} : w.vals v = .arr a → ShowsVals w (w.arrs a) l → Shows w v (.arr l)
inductive ShowsElems (w : World α) : List Nat → List (Bytes × Tree α) → Prop
  | nil : ShowsElems w [] []
  | cons {e k v t es l} : w.elems e = (k, some v) → Shows w v t → ShowsElems w es l → ShowsElems w (e :: es) ((k, t) :: l)
inductive ShowsVals (w : World α) : List (Option Nat) → List (Tree α) → Prop
  | nil : ShowsVals w [] []
  | cons {v t vs l} : Shows w v t → ShowsVals w vs l → ShowsVals w (some v :: vs) (t :: l)
end

/-- All objects referred to exist. -/
structure Closed (w : World α) : Prop where
  docs : ∀ d < w.nd, ∀ e ∈ w.docs d, e < w.ne
  elems : ∀ e < w.ne, ∀ v, (w.elems e).2 = some v → v < w.nv
  arrs : ∀ a < w.na, ∀ v, some v ∈ w.arrs a → v < w.nv
  valDocs : ∀ v < w.nv, ∀ d, w.vals v = .doc d → d < w.nd
  valArrs : ∀ v < w.nv, ∀ a, w.vals v = .arr a → a < w.na

/-- a change of objects that `w` does not have -/
def Own (w : World α) : Change α → Prop
  | .appendDoc d _ => w.nd ≤ d
  | .appendArr a _ => w.na ≤ a
  | .setVal v _ => w.nv ≤ v

end Birch.Spec.Jsonx
