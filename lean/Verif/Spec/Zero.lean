import Verif.Spec.Bson

/-
Specification of "the zero value of a BSON type" and of the order of elements.
Texts are compared byte by byte (`<` of lists), doubles by the numbers they stand for.
-/

namespace Birch.Spec
open Birch

/-- The number that a double (IEEE 754 binary64, given by its bits) stands for, in units of 2^-1074; the infinities are larger than all
    other numbers; `none` is NaN. -/
def doubleVal (bits : Nat) : Option Int :=
  let e := bits / 4503599627370496 % 2048
  let m := bits % 4503599627370496
  let mag : Nat := if e = 0 then m else (4503599627370496 + m) * 2 ^ (e - 1)
  if e = 2047 ∧ m ≠ 0 then none else some (if bits / 9223372036854775808 % 2 = 1 then -mag else mag)

/-- both are numbers and the first is smaller -/
def doubleLt (a b : Nat) : Bool :=
  match doubleVal a, doubleVal b with
  | some x, some y => x < y
  | _, _ => false

/-- twelve zero bytes -/
def zeroOid : Bytes := List.replicate 12 0

/-- The zero value of its type: 0, "", an empty container, false, the epoch, zero ids.  Types without a payload
    (undefined, null, min key, max key) have no zero value: "Nil-ish types are all not empty" (value.go:131). -/
def BVal.isZero : BVal → Bool
  | .double b => doubleVal b = some 0
  | .string s => s = []
  | .doc fs => fs.toList.isEmpty
  | .array vs => vs.toList.isEmpty
  | .binary _ b => b = []
  | .undefined => false
  | .oid id => id = zeroOid
  | .bool b => !b
  | .datetime ms => ms = 0
  | .null => false
  | .regex p o => p = [] ∧ o = []
  | .dbpointer ns id => ns = [] ∧ id = zeroOid
  | .js c => c = []
  | .symbol s => s = []
  | .codeScope c fs => c = [] ∧ fs.toList.isEmpty
  | .int32 i => i = 0
  | .timestamp t i => t = 0 ∧ i = 0
  | .int64 i => i = 0
  | .decimal h l => h = 0 ∧ l = 0
  | .minKey => false
  | .maxKey => false

/-- The values on which the code's notion of "empty" departs from `isZero`: any undefined, any object id
    but zero, and regexes, db pointers and scoped code whose first component is empty while the second is not. -/
def BVal.oddlyEmpty : BVal → Bool
  | .undefined => true
  | .oid id => id ≠ zeroOid
  | .regex p o => p = [] ∧ o ≠ []
  | .dbpointer ns id => ns = [] ∧ id ≠ zeroOid
  | .codeScope c fs => c = [] ∧ ¬ fs.toList.isEmpty
  | _ => false

/-- order of values of the same type: numbers, strings, object ids and dates by value; other types unordered -/
def valLess : BVal → BVal → Bool
  | .double a, .double b => doubleLt a b
  | .string a, .string b => a < b
  | .oid a, .oid b => a < b
  | .datetime a, .datetime b => a < b
  | .int32 a, .int32 b => a < b
  | .int64 a, .int64 b => a < b
  | _, _ => false

/-- order of elements: by key, then by type byte, then by value -/
def elemLess (a b : Bytes × BVal) : Bool :=
  if a.1 ≠ b.1 then a.1 < b.1
  else if a.2.tag ≠ b.2.tag then a.2.tag < b.2.tag
  else valLess a.2 b.2

end Birch.Spec
