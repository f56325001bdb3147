import Verif.Model.ObjectID
import Verif.Base

/-
The JSON and text methods of `ObjectID` (types/objectid.go:54-146).

`json.Unmarshal` into an `any` is a parameter: a function from bytes to what was decoded.  `json.Marshal` is used for strings of hexadecimal digits only,
which it puts between quotes.  Which error is returned is not modelled.
-/

namespace Birch.Model
open Birch

/-- what `encoding/json` (standard library) decodes into an `any`, as far as `UnmarshalJSON` looks at it; a map has each key once -/
inductive JAny where
  | str (s : Bytes)
  | map (m : List (Bytes × JAny))
  /-- null, a boolean, a number or an array -/
  | other

/-- `json.Unmarshal(b, &res)` (types/objectid.go:111); `none` is an error -/
abbrev JDecode := Bytes → Option JAny

namespace ObjectID

/-- `MarshalJSON` (types/objectid.go:94-96) -/
def marshalJSON (id : Bytes) : Bytes := 34 :: ObjectID.hex id ++ [34]

/-- `hex.Decode(dst, src)` (standard library), called at types/objectid.go:139: the bytes of `dst` afterwards, and whether it returns no error.
    The pairs before the first that is not hexadecimal are written. -/
def decodeInto : Bytes → Bytes → Bytes × Bool
  | dst, [] => (dst, true)
  | dst, [_] => (dst, false)
  | dst, c :: d :: r =>
    match hexValue c, hexValue d, dst with
    | some a, some b, _ :: dst =>
      let (dst, ok) := decodeInto dst r
      (UInt8.ofNat (a * 16 + b) :: dst, ok)
    | _, _, dst => (dst, false)

/-- the string in the decoded value (types/objectid.go:117-133) -/
def jsonString : JAny → Option Bytes
  | .str s => some s
  | .map m =>
    match m.lookup [36, 111, 105, 100] with
    | some (.str s) => some s
    | _ => none
  | .other => none

/-- `UnmarshalJSON` (types/objectid.go:102-146) of a receiver holding `id`: the receiver afterwards, and whether no error is returned -/
def unmarshalJSON (J : JDecode) (id b : Bytes) : Bytes × Bool :=
  if b.length = 12 then (b, true) else
  match J b with
  | none => (id, false)
  | some res =>
    match jsonString res with
    | none => (id, false)
    | some str => if str.length ≠ 24 then (id, false) else decodeInto id str

/-- `MustObjectIDFromHex` (types/objectid.go:84-91) -/
def mustFromHex (s : Bytes) : Res Bytes :=
  match ObjectID.fromHex s with
  | some id => .ok id
  | none => .panic

/-- `IsZero` (types/objectid.go:59-61): `bytes.Equal` with `NilObjectID` -/
def isZero (id : Bytes) : Bool := id == List.replicate 12 0

/-- `String` (types/objectid.go:54-56); `%q` of hexadecimal digits puts them between quotes -/
def string (id : Bytes) : Bytes :=
  [79, 98, 106, 101, 99, 116, 73, 68, 40, 34] ++ ObjectID.hex id ++ [34, 41]

end ObjectID
end Birch.Model
