import Verif.Model.ExtJson

/-
Package jsonx as used from Go, without text: values as the constructors make them (jsonx/constructor.go:157-233), how documents turn
them into BSON (`DC.JSONX`, x_json_unmarshal.go:73-88; `EC.Interface`, constructor.go:133-134), access by position
(jsonx/juniper.go:26-41), and copies (jsonx/juniper.go:17-24, 51-58, 68, 90-95).

`Model/Json` does not tell the Go types of numbers apart; here they matter.  Left out: a nil `*jsonx.Document`.
-/

namespace Birch.Model.Jsonx
open Birch Model Model.ExtJson

mutual
/-- a `*jsonx.Value` with the Go type of its number: `int` (`VC.Int`), `int32`, `int64`, `float64` and `float32` (as bits) -/
inductive GVal where
  /-- a nil pointer -/
  | nil
  | str (s : Bytes)
  | int (n : Int)
  | int32 (n : Int)
  | int64 (n : Int)
  | f64 (bits : UInt64)
  | f32 (bits : Nat)
  | bool (b : Bool)
  | null
  | obj (d : GElems)
  | arr (a : GVals)
inductive GVals where
  | nil
  | cons (v : GVal) (r : GVals)
/-- the elements of a `jsonx.Document` -/
inductive GElems where
  | nil
  | cons (k : Bytes) (v : GVal) (r : GElems)
end

mutual
/-- What `Model.ExtJson.object` has to know of the members of an object: it asks for strings, for documents and, by `IntOK`, for numbers of type `int`
    (jsonx/juniper.go:77-88); numbers of other types are like floating point numbers to it. -/
def GVal.shape : GVal → Json.JVal
  | .nil => .nil
  | .str s => .str s
  | .int n => .int n
  | .int32 _ => .dbl 0
  | .int64 _ => .dbl 0
  | .f64 b => .dbl b
  | .f32 _ => .dbl 0
  | .bool b => .bool b
  | .null => .null
  | .obj d => .obj d.shape
  | .arr a => .arr a.shape
def GVals.shape : GVals → Json.JVals
  | .nil => .nil
  | .cons v r => .cons v.shape r.shape
def GElems.shape : GElems → Json.JElems
  | .nil => .nil
  | .cons k v r => .cons k v.shape r.shape
end

mutual
/-- `convertJSONElements` (x_json_unmarshal.go:90-304): numbers must be of type `int` or `float64` (lines 107-118) -/
def convert (C : Clock) : Bytes → GVal → Res Value
  | _, .nil => .panic
  | k, .str s => EC.string k s
  | k, .bool b => EC.boolean k b
  | k, .null => EC.null k
  | k, .int n => EC.int k n
  | _, .int32 _ => .err .other
  | _, .int64 _ => .err .other
  | k, .f64 b => EC.double k b.toNat
  | _, .f32 _ => .err .other
  | k, .obj d => object C k d.shape (convertElems C d)
  | k, .arr a => do EC.array k (← collect (convertVals C a))
def convertElems (C : Clock) : GElems → List (Res Value)
  | .nil => []
  | .cons k v r => convert C k v :: convertElems C r
def convertVals (C : Clock) : GVals → List (Res Value)
  | .nil => []
  | .cons v r => convert C [] v :: convertVals C r
end

/-- `DCE.JSONX` (x_json_unmarshal.go:73-86) -/
def jsonx (C : Clock) (d : GElems) : Res Doc := collect (convertElems C d)

/-- `erc.Must` (fun/erc): panics on an error -/
def must {α : Type} : Res α → Res α
  | .err _ => .panic
  | r => r

/-- `DC.JSONX` (x_json_unmarshal.go:88) -/
def mustJSONX (C : Clock) (d : GElems) : Res Doc := must (jsonx C d)

/-- `EC.Interface` for a `*jsonx.Document` (constructor.go:133-134) -/
def interface (C : Clock) (k : Bytes) (d : GElems) : Res Value := do EC.subDocument k (← mustJSONX C d)

/-- `ECE.Interface` for a `*jsonx.Document` (constructor.go:187-195): it has no case of its own; the element made by `EC.Interface` is an embedded document, not null -/
def interfaceErr (C : Clock) (k : Bytes) (d : GElems) : Res Value := interface C k d

/-! ### access by position -/

def GElems.toList : GElems → List (Bytes × GVal)
  | .nil => []
  | .cons k v r => (k, v) :: r.toList

/-- `Document.ElementAtIndex` (jsonx/juniper.go:35-41); `idx+1` wraps, a negative index into a slice panics -/
def elementAt (d : GElems) (idx : Int) : Res (Option (Bytes × GVal)) :=
  if i64 (idx + 1) > d.toList.length then .ok none
  else if idx < 0 then .panic
  else match d.toList[idx.toNat]? with
    | some e => .ok (some e)
    | none => .panic

/-- `Document.KeyAtIndex` (jsonx/juniper.go:26-33) -/
def keyAt (d : GElems) (idx : Int) : Res Bytes := do
  match ← elementAt d idx with
  | none => .ok []
  | some e => .ok e.1

/-! ### copies: values, elements, documents and arrays as objects -/

/-- what a `jsonx.Value` holds: a document or an array by its address, or something else (with its type) -/
inductive Held (α : Type) where
  | leaf (x : α)
  | doc (d : Nat)
  | arr (a : Nat)

/-- All objects (jsonx/juniper.go:9-11, 43-45, 60-63, 70-73) and how many of each there are.  The pointer to the value in an element, and the pointers in an array, may be nil. -/
structure World (α : Type) where
  vals : Nat → Held α
  nv : Nat
  elems : Nat → Bytes × Option Nat
  ne : Nat
  docs : Nat → List Nat
  nd : Nat
  arrs : Nat → List (Option Nat)
  na : Nat

def upd {β : Type} (f : Nat → β) (i : Nat) (x : β) : Nat → β := fun j => if j = i then x else f j

variable {α : Type}

/-- `Value.Copy` (jsonx/juniper.go:90-95); a nil receiver is dereferenced -/
def copyValue (w : World α) : Option Nat → Res (World α × Nat)
  | none => .panic
  | some v => .ok ({ w with vals := upd w.vals w.nv (w.vals v), nv := w.nv + 1 }, w.nv)

/-- `Element.Copy` (jsonx/juniper.go:68) -/
def copyElement (w : World α) (e : Nat) : Res (World α × Nat) := do
  let (w, v) ← copyValue w (w.elems e).2
  .ok ({ w with elems := upd w.elems w.ne ((w.elems e).1, some v), ne := w.ne + 1 }, w.ne)

/-- the loop of `Document.Copy` (jsonx/juniper.go:19-21): the new elements -/
def copyElements (w : World α) : List Nat → Res (World α × List Nat)
  | [] => .ok (w, [])
  | e :: es => do
    let (w, e) ← copyElement w e
    let (w, es) ← copyElements w es
    .ok (w, e :: es)

/-- `Document.Copy` (jsonx/juniper.go:17-24) -/
def copyDocument (w : World α) (d : Nat) : Res (World α × Nat) := do
  let (w, es) ← copyElements w (w.docs d)
  .ok ({ w with docs := upd w.docs w.nd es, nd := w.nd + 1 }, w.nd)

/-- the loop of `Array.Copy` (jsonx/juniper.go:53-55) -/
def copyValues (w : World α) : List (Option Nat) → Res (World α × List (Option Nat))
  | [] => .ok (w, [])
  | v :: vs => do
    let (w, v) ← copyValue w v
    let (w, vs) ← copyValues w vs
    .ok (w, some v :: vs)

/-- `Array.Copy` (jsonx/juniper.go:51-58) -/
def copyArray (w : World α) (a : Nat) : Res (World α × Nat) := do
  let (w, vs) ← copyValues w (w.arrs a)
  .ok ({ w with arrs := upd w.arrs w.na vs, na := w.na + 1 }, w.na)

/-- What can be done to objects that exist: `Document.Append` and `Document.UnmarshalJSON` (jsonx/juniper.go:13, jsonx/unmarshal.go:29), `Array.Append` and `Array.UnmarshalJSON`
    (jsonx/juniper.go:47, jsonx/unmarshal.go:56), `Value.UnmarshalJSON` (jsonx/unmarshal.go:73-74). -/
inductive Change (α : Type) where
  | appendDoc (d : Nat) (es : List Nat)
  | appendArr (a : Nat) (vs : List (Option Nat))
  | setVal (v : Nat) (h : Held α)

def Change.apply (w : World α) : Change α → World α
  | .appendDoc d es => { w with docs := upd w.docs d (w.docs d ++ es) }
  | .appendArr a vs => { w with arrs := upd w.arrs a (w.arrs a ++ vs) }
  | .setVal v h => { w with vals := upd w.vals v h }

end Birch.Model.Jsonx
