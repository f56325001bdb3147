import Verif.Model.DocHeap

/-
What can be observed of a document through its reading methods, and which worlds can be reached.
-/

namespace Birch.Spec.DocView
open Birch
open Birch.Model.DocHeap (World Call Out Params Document Heap deref len elementAt elementAtOK iterator lookupElement lookupElementErr arrayLookup step)

variable {E : Type}

/-- some program produces this world -/
def Reached (P : Params E) (w : World E) : Prop := ∃ cs os, Model.DocHeap.run P World.empty cs = .ok (w, os)

/-- everything the reading methods say about document `d` is said by the list `es` -/
def Shows (w : World E) (d : Nat) (es : List E) : Prop :=
  ∃ x, deref w d = .ok x ∧
    len x = es.length ∧
    iterator w.heap x = es.map some ∧
    (∀ i (hi : i < es.length), elementAt w.heap x i = .ok (some es[i]) ∧ elementAtOK w.heap x i = .ok (some es[i], true) ∧
      arrayLookup w.heap x i = .ok es[i]) ∧
    (∀ i, es.length ≤ i → elementAt w.heap x i = .panic ∧ elementAtOK w.heap x i = .ok (none, false) ∧
      arrayLookup w.heap x i = .err .outOfBounds)

/-- `e` is the first element of `es` with key `k` -/
def IsFirst (key : E → Bytes) (k : Bytes) (es : List E) (e : E) : Prop :=
  ∃ pre post, es = pre ++ e :: post ∧ key e = k ∧ ∀ y ∈ pre, key y ≠ k

/-- what the lookup methods answer for key `k` in document `d` -/
def Finds (P : Params E) (w : World E) (d : Nat) (k : Bytes) (r : Option E) : Prop :=
  ∃ x, deref w d = .ok x ∧ lookupElement P.keyOf w.heap x k = .ok r ∧
    lookupElementErr P.keyOf w.heap x k = (match r with | some e => .ok e | none => .err .elementNotFound)

end Birch.Spec.DocView
