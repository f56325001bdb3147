import Verif.Model.DocHeap
import Verif.Model.Value

/-
Model of `blist.Document` (x/blist/blist.go), a document kept in a linked list.  The list (`dt.List` of another module, which is not part of the
repository) is taken to be a sequence: `PushBack` and `PushFront` add at the ends, `Front`/`Next` walk it, `Set` replaces and `Remove` takes out
the node at hand, and a removed node keeps its value.
-/

namespace Birch.Model.BList
open Birch Model
open Birch.Model.DocHeap (Params Out)

variable {E : Type}

/-- `Len` (x/blist/blist.go:13): the method of the embedded list is hidden by this very method, which calls itself -/
def len : Nat → List E → Res Nat
  | 0, _ => .oof
  | fuel + 1, l => len fuel l

/-- `Append` (x/blist/blist.go:14-23) -/
def append (l : List E) : List (Option E) → Res (List E)
  | [] => .ok l
  | none :: _ => .panic
  | some e :: es => append (l ++ [e]) es

/-- `AppendOmitEmpty` (x/blist/blist.go:24-32) -/
def appendOmitEmpty (P : Params E) (l : List E) : List (Option E) → Res (List E)
  | [] => .ok l
  | none :: es => appendOmitEmpty P l es
  | some e :: es => do
    if ← P.isEmpty e then appendOmitEmpty P l es else appendOmitEmpty P (l ++ [e]) es

/-- `Prepend` (x/blist/blist.go:33-41) -/
def prepend (l : List E) : List (Option E) → Res (List E)
  | [] => .ok l
  | none :: _ => .panic
  | some e :: es => prepend (e :: l) es

/-- `Set` (x/blist/blist.go:43-52) -/
def set (P : Params E) (e : E) : List E → Res (List E)
  | [] => .ok []
  | x :: xs => do
    let k ← P.keyOf x
    let k' ← P.keyOf e
    if k ≠ k' then .ok (x :: (← set P e xs)) else .ok (e :: xs)

/-- `Delete` (x/blist/blist.go:54-64) -/
def delete (P : Params E) (key : Bytes) : List E → Res (List E × Option E)
  | [] => .ok ([], none)
  | x :: xs => do
    let k ← P.keyOf x
    if k ≠ key then do
      let (xs, r) ← delete P key xs
      .ok (x :: xs, r)
    else .ok (xs, some x)

/-- `Validate` (x/blist/blist.go:66-84) from the running total `size` -/
def validate (fuel : Nat) : Nat → List Value → Res Nat
  | size, [] => .ok size
  | size, v :: rest => do
    let n ← elemValidate fuel v
    validate fuel (u32 (size + n)) rest

/-- the calls -/
inductive Call (E : Type) where
  | append (args : List (Option E))
  | appendOmitEmpty (args : List (Option E))
  | prepend (args : List (Option E))
  | set (e : E)
  | delete (k : Bytes)

def step (P : Params E) (l : List E) : Call E → Res (List E × Out E)
  | .append args => do .ok (← append l args, .none)
  | .appendOmitEmpty args => do .ok (← appendOmitEmpty P l args, .none)
  | .prepend args => do .ok (← prepend l args, .none)
  | .set e => do .ok (← set P e l, .none)
  | .delete k => do
    let (l, r) ← delete P k l
    .ok (l, .elem r)

def run (P : Params E) (l : List E) : List (Call E) → Res (List E × List (Out E))
  | [] => .ok (l, [])
  | c :: cs => do
    let (l, o) ← step P l c
    let (l, os) ← run P l cs
    .ok (l, o :: os)

end Birch.Model.BList
