import Verif.Model.DocHeap

/-
Model of loops over a document while it is being changed.  `Document.Iterator` (document.go:145) is
`irt.Slice(d.elems)`: the slice header is copied when `Iterator` is called, the elements are read from the backing
array while the loop runs.  `Array.Iterator` (array.go:289) and `newArrayIterator` (iterator.go:138-140) range over the
same slice.

`irt.Slice` is outside the repository; it is taken to be `for _, x := range s { if !yield(x) { return } }`.
-/

namespace Birch.Model.DocLoops
open Birch Birch.Model.DocHeap

variable {E : Type}

/-- `for i, x := range s { body }` with `n` turns to go: the header `s` is fixed, its array is the current one; `body`
    says which calls turn `i` makes for element `x`.  Returns the elements the loop got, and the world after it. -/
def loop (P : Params E) (s : Slice) (body : Nat → Option E → List (Call E)) :
    Nat → Nat → World E → Res (List (Option E) × World E)
  | _, 0, w => .ok ([], w)
  | i, n + 1, w => do
    let x ← get w.heap s i
    let (w, _) ← run P w (body i x)
    let (xs, w) ← loop P s body (i + 1) n w
    .ok (x :: xs, w)

/-- `Elements` (x_document.go:88-90): the header itself -/
def elements (x : Document E) : Slice := x.elems

/-- `it := d.Iterator(); pre; for e := range it { body }` (document.go:145) -/
def forEach (P : Params E) (d : Nat) (pre : List (Call E)) (body : Nat → Option E → List (Call E)) (w : World E) :
    Res (List (Option E) × World E) := do
  let x ← deref w d
  let (w, _) ← run P w pre
  loop P x.elems body 0 x.elems.len w

/-- the loop of `UnmarshalDocument` (x_document.go:20): `Append(nil)` panics (document.go:64-66) -/
def unmarshalLoop (P : Params E) (d : Nat) (s : Slice) : Nat → Nat → World E → Res (World E)
  | _, 0, w => .ok w
  | i, n + 1, w => do
    match ← get w.heap s i with
    | none => .panic
    | some e => do
      let (w, _) ← step P w (.append d [e])
      unmarshalLoop P d s (i + 1) n w

/-- `d.UnmarshalDocument(in)` (x_document.go:19-22) -/
def unmarshalDocument (P : Params E) (d in_ : Nat) (w : World E) : Res (World E) := do
  let x ← deref w in_
  unmarshalLoop P d x.elems 0 x.elems.len w

end Birch.Model.DocLoops
