import Verif.Model.GoValue
import Verif.Model.Write

/-
`DocumentMap` (unmarshal.go) and `Document.Unmarshal` (document.go:362-391).

A Go map is a list of entries; every key occurs once and the position of an entry has no meaning,
so that a loop over a map runs through the list and any permutation of the list stands for the same map.
Elements are non-nil and immutable here: that `Copy`, `MarshalDocument` and `UnmarshalDocument` share element pointers is not modelled.
The error collector of `Validate` comes from a package outside the repository: it is taken to report an error when one of the errors wrapped is not nil.
Functions that change a map before they fail return the map and their result.
-/

namespace Birch.Model
open Birch

abbrev Assoc (α : Type) := List (Bytes × α)

/-- `m[k] = a` -/
def Assoc.put {α : Type} (m : Assoc α) (k : Bytes) (a : α) : Assoc α := (k, a) :: m.filter (fun p => p.1 != k)

abbrev DocMap := Assoc Value

namespace DocMap

/-- the loop of `Validate` (unmarshal.go:26-31): it goes on after an error; `failed` tells whether one was collected -/
def validateLoop (fuel : Nat) (failed : Bool) : DocMap → Res Bool
  | [] => .ok failed
  | (_, v) :: rest => do
    let _ ← key v
    match elemValidate fuel v with
    | .ok _ => validateLoop fuel failed rest
    | .err _ => validateLoop fuel true rest
    | .panic => .panic
    | .oof => .oof

/-- `Validate` (unmarshal.go:24-34) -/
def validate (fuel : Nat) (m : DocMap) : Res Unit := do
  if ← validateLoop fuel false m then .err .other else .ok ()

/-- `MarshalDocument` (unmarshal.go:36-46) -/
def marshalDocument (fuel : Nat) (m : DocMap) : Res Doc := do
  validate fuel m
  .ok (m.map Prod.snd)

/-- `MarshalBSON` (unmarshal.go:58-64) -/
def marshalBSON (fuel : Nat) (m : DocMap) : Res Bytes := do
  docMarshal fuel (← marshalDocument fuel m)

/-- `UnmarshalDocument` (unmarshal.go:48-56) -/
def unmarshalDocument (fuel : Nat) (m : DocMap) : Doc → DocMap × Res Unit
  | [] => (m, .ok ())
  | v :: rest =>
    match (do let _ ← elemValidate fuel v; key v) with
    | .ok k => unmarshalDocument fuel (m.put k v) rest
    | .err e => (m, .err e)
    | .panic => (m, .panic)
    | .oof => (m, .oof)

end DocMap

/-- one call of `readerIterator.Next` (iterator.go:86-123): the element and the new position, or none at the end of the document -/
def iterNext (r : Bytes) (pos end_ : Nat) : Res (Option (Value × Nat)) :=
  if pos ≥ end_ then .err .invalidReadOnlyDocument else do
  let t ← idx r pos
  if t = 0 then .ok none else do
  let n ← readerKey r (u32 (pos + 1)) end_
  let off := u32 (u32 (pos + 1) + n)
  let m ← rawSize r pos off
  .ok (some (.raw pos off r, u32 (off + m)))

/-- a `for elem, err := range Reader(b).Iterator()` loop (reader.go:190-197) that returns an error and otherwise updates `s` with `f` -/
def eachLoop {σ : Type} (f : σ → Value → Res σ) : Nat → Bytes → Nat → Nat → σ → σ × Res Unit
  | 0, _, _, _, s => (s, .oof)
  | fuel + 1, r, pos, end_, s =>
    match iterNext r pos end_ with
    | .ok none => (s, .ok ())
    | .ok (some (v, pos')) =>
      match f s v with
      | .ok s' => eachLoop f fuel r pos' end_ s'
      | .err e => (s, .err e)
      | .panic => (s, .panic)
      | .oof => (s, .oof)
    | .err e => (s, .err e)
    | .panic => (s, .panic)
    | .oof => (s, .oof)

/-- the loop over `Reader(b).Iterator()` (reader.go:185-198) -/
def forEach {σ : Type} (f : σ → Value → Res σ) (fuel : Nat) (b : Bytes) (s : σ) : σ × Res Unit :=
  match iterEnd b with
  | .ok end_ => eachLoop f fuel b 4 end_ s
  | .err e => (s, .err e)
  | .panic => (s, .panic)
  | .oof => (s, .oof)

/-- `DocumentMap.UnmarshalBSON` (unmarshal.go:66-78) -/
def DocMap.unmarshalBSON (fuel : Nat) (m : DocMap) (b : Bytes) : DocMap × Res Unit :=
  forEach (fun m v => do .ok (Assoc.put m (← key v) v)) fuel b m

/-- `Document.UnmarshalBSON` (document.go:288-302): the elements of the document afterwards, and the result -/
def docUnmarshal (fuel : Nat) (b : Bytes) : Doc × Res Unit :=
  forEach (fun d v => .ok (d ++ [v])) fuel b []

/-- `Document.Unmarshal` into a `map[string]string` (document.go:373-378) -/
def unmarshalStrings : Doc → Assoc Bytes → Res (Assoc Bytes)
  | [], out => .ok out
  | v :: rest, out => do
    match ← stringValueOK v with
    | some s => do unmarshalStrings rest (out.put (← key v) s)
    | none => unmarshalStrings rest out

/-- `Document.Unmarshal` into a `map[string]any` or `map[any]any` (document.go:379-386).  Only the entries of the latter whose key is a string are shown: no other is touched. -/
def unmarshalAny (fuel : Nat) (d : Doc) (out : GoMap) : Res GoMap := exportLoop (Value.interface fuel) d out

end Birch.Model
