import Verif.Spec.Rep
import Verif.Spec.GoValue
import Verif.Model.DocMap

/- What a `DocumentMap` holds, and which element of a document a key stands for. -/

namespace Birch.Spec
open Birch Model

/-- the value of the last field with the key -/
def Fields.last (k : Bytes) : Fields → Option BVal
  | .nil => none
  | .cons k' t rest =>
    match rest.last k with
    | some t' => some t'
    | none => if k' = k then some t else none

/-- the last string among the fields with the key -/
def Fields.lastString (k : Bytes) : Fields → Option Bytes
  | .nil => none
  | .cons k' t rest =>
    match rest.lastString k, t with
    | some s, _ => some s
    | none, .string s => if k' = k then some s else none
    | none, _ => none

/-- the entry of a key -/
def GoMap.get (k : Bytes) : GoMap → Option Go
  | .nil => none
  | .cons k' g rest => if k' = k then some g else GoMap.get k rest

/-- `m'` is `m` with the fields `fs` written into it, a later field replacing an earlier one -/
def Written (m : DocMap) (fs : Fields) (m' : DocMap) : Prop :=
  ∀ k, match fs.last k with
    | some t => ∃ v, m'.lookup k = some v ∧ Rep v k t
    | none => m'.lookup k = m.lookup k

/-- the entries of the map hold these fields, each under any key, in this order -/
def Entries : DocMap → Fields → Prop
  | [], .nil => True
  | (_, v) :: m, .cons k t fs => Rep v k t ∧ Entries m fs
  | _, _ => False

end Birch.Spec
