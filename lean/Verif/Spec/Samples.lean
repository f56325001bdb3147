import Verif.Model.Samples
import Verif.Spec.GoValue
import Verif.Spec.FtdcDocs

/-
Which documents the samples given to a collector stand for.  The type `Sample` of samples comes from the model.
-/

namespace Birch.Spec
open Birch Model Model.Samples

/-- the same fields in strictly ascending order of their keys -/
structure KeyOrder (fs gs : Fields) : Prop where
  same : gs.toList.Perm fs.toList
  ascending : gs.toList.Pairwise (fun a b => a.1 < b.1)

/-- What becomes of a map whose entries may have values of types that the constructors do not know: those are null. -/
inductive ReadsMap (W : Nat → Nat) : GoMap → Fields → Prop
  | nil : ReadsMap W .nil .nil
  | known (k : Bytes) {g : Go} {t : BVal} {m : GoMap} {fs : Fields} : Denotes W g t → ReadsMap W m fs → ReadsMap W (.cons k g m) (.cons k t fs)
  | unknown (k : Bytes) {g : Go} {m : GoMap} {fs : Fields} : Unsupported g → ReadsMap W m fs → ReadsMap W (.cons k g m) (.cons k .null fs)

/-- the map has an entry with this key and value -/
def GoMap.Holds (k : Bytes) (g : Go) : GoMap → Prop
  | .nil => False
  | .cons k' g' rest => k' = k ∧ g' = g ∨ GoMap.Holds k g rest

/-- `Stands W s fs`: the sample `s` stands for the document `fs` -/
inductive Stands (W : Nat → Nat) : Sample → Fields → Prop
  | doc {d : Doc} {fs : Fields} : RepFields d fs → Stands W (.go (.doc d)) fs
  | docMarshaler {d : Doc} {fs : Fields} : RepFields d fs → Stands W (.go (.docMarshaler (some d))) fs
  | bytes (fs : Fields) : Stands W (.go (.bytes (encDoc fs))) fs
  | reader (fs : Fields) : Stands W (.go (.reader (encDoc fs))) fs
  | marshaler (fs : Fields) : Stands W (.go (.marshaler (some (encDoc fs)))) fs
  /-- an array is read as the document with the keys "0", "1", ... -/
  | array {a : Doc} {vs : Vals} : RepVals a vs → Stands W (.go (.array a)) (numbered 0 vs)
  /-- a map is read in the order of its keys -/
  | map {m : GoMap} {fs gs : Fields} : DenotesMap W m fs → KeyOrder fs gs → Stands W (.go (.map m)) gs
  | unit : Stands W .unit .nil

/-- samples that are refused: nil, maps of strings, sets, and marshalers that return an error -/
inductive Refused : Sample → Prop
  | nil : Refused (.go .nil)
  | strings (m : List (Bytes × Bytes)) : Refused (.go (.mapStr m))
  | set (keys : List Bytes) : Refused (.setMap keys)
  | docMarshaler : Refused (.go (.docMarshaler none))
  | marshaler : Refused (.go (.marshaler none))

/-- samples of types that only a registered marshaler can read -/
def Foreign : Sample → Prop
  | .go g => match g with
    | .doc _ | .docMarshaler _ | .bytes _ | .elem _ | .array _ | .reader _ | .marshaler _ | .map _ | .mapStr _ | .nil => False
    | _ => True
  | _ => False

end Birch.Spec
