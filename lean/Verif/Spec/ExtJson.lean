import Verif.Model.ExtJson
import Verif.Spec.Bson
import Verif.Spec.Decimal
import Verif.Spec.JsonText
import Verif.Spec.JsonValue

/-
Extended JSON (MongoDB Extended JSON v2, relaxed format).
-/

namespace Birch.Spec.ExtJson
open Birch Spec Model.ExtJson Model.Gjson

/-- the bytes of an ASCII string -/
def ascii (s : String) : Bytes := s.toList.map fun c => UInt8.ofNat c.toNat

/-- hexadecimal digits -/
def hexText (b : Bytes) : Bytes := b.flatMap fun c => [digit (c.toNat / 16), digit (c.toNat % 16)]
where digit (n : Nat) : UInt8 := UInt8.ofNat (if n < 10 then 48 + n else 87 + n)

/-- base64 (RFC 4648) -/
def base64 : Bytes → Bytes
  | [] => []
  | [a] => [char (a.toNat / 4), char (a.toNat % 4 * 16), 61, 61]
  | [a, b] => [char (a.toNat / 4), char (a.toNat % 4 * 16 + b.toNat / 16), char (b.toNat % 16 * 4), 61]
  | a :: b :: c :: r => char (a.toNat / 4) :: char (a.toNat % 4 * 16 + b.toNat / 16) :: char (b.toNat % 16 * 4 + c.toNat / 64) :: char (c.toNat % 64) :: base64 r
where char (n : Nat) : UInt8 := UInt8.ofNat (if n < 26 then 65 + n else if n < 52 then 71 + n else if n < 62 then n - 4 else if n = 62 then 43 else 47)

section
open Spec.Json

/-- the object `{k: v}` -/
def one (k : String) (v : J) : J := .obj (.cons (ascii k) v .nil)

/-- the object `{k: v, l: w}` -/
def two (k : String) (v : J) (l : String) (w : J) : J := .obj (.cons (ascii k) v (.cons (ascii l) w .nil))

mutual
/-- The JSON value that stands for a BSON value.  Floating point numbers are rounded to six digits after the point, infinities and NaNs are left out, and a date is
    any text for its time. -/
inductive Ext (C : Clock) : BVal → J → Prop
  | double {b neg m k} {n : Nat} : Double (UInt64.ofNat b) neg m k → Nearest6 m k n → Ext C (.double b) (.num (if neg then -(n : Int) else n) (-6))
  | string {s} : Ext C (.string s) (.str s)
  | doc {fs es} : ExtFields C fs es → Ext C (.doc fs) (.obj es)
  | array {vs js} : ExtVals C vs js → Ext C (.array vs) (.arr js)
  | binary {st b} : Ext C (.binary st b) (one "$binary" (two "base64" (.str (base64 b)) "subType" (.str (hexText [st]))))
  | undefined : Ext C .undefined (one "$undefined" (.bool true))
  | oid {id} : Ext C (.oid id) (one "$oid" (.str (hexText id)))
  | bool {b} : Ext C (.bool b) (.bool b)
  | datetime {ms s} : C.parse s = some ms → Ext C (.datetime ms) (one "$date" (.str s))
  | null : Ext C .null .null
  | regex {p o} : Ext C (.regex p o) (one "$regularExpression" (two "pattern" (.str p) "options" (.str o)))
  | dbpointer {ns id} : Ext C (.dbpointer ns id) (one "$dbPointer" (two "$ref" (.str ns) "$id" (one "$oid" (.str (hexText id)))))
  | js {c} : Ext C (.js c) (one "$code" (.str c))
  | symbol {s} : Ext C (.symbol s) (one "$symbol" (.str s))
  | codeScope {c fs es} : ExtFields C fs es → Ext C (.codeScope c fs) (two "$code" (.str c) "$scope" (.obj es))
  | int32 {i} : Ext C (.int32 i) (.num i 0)
  | timestamp {t i : Nat} : Ext C (.timestamp t i) (one "$timestamp" (two "t" (.num t 0) "i" (.num i 0)))
  | int64 {i} : Ext C (.int64 i) (.num i 0)
  | decimal {neg c e} : Decimal.Representable c e →
      Ext C (.decimal (Decimal.encode neg c e).h.toNat (Decimal.encode neg c e).l.toNat) (one "$numberDecimal" (.str (Decimal.text neg c e)))
  | minKey : Ext C .minKey (one "$minKey" (.num 1 0))
  | maxKey : Ext C .maxKey (one "$maxKey" (.num 1 0))
inductive ExtFields (C : Clock) : Fields → Jes → Prop
  | nil : ExtFields C .nil .nil
  | cons {k t fs j es} : Ext C t j → ExtFields C fs es → ExtFields C (.cons k t fs) (.cons k j es)
inductive ExtVals (C : Clock) : Vals → Js → Prop
  | nil : ExtVals C .nil .nil
  | cons {t vs j js} : Ext C t j → ExtVals C vs js → ExtVals C (.cons t vs) (.cons j js)
end

mutual
/-- Finite doubles, plain keys, times whose text is read as the same time; no binary data, pointers and decimals. -/
def Shown (C : Clock) : BVal → Prop
  | .double b => ∃ neg m k, Double (UInt64.ofNat b) neg m k
  | .doc fs => ShownFields C fs
  | .array vs => ShownVals C vs
  | .binary .. => False
  | .datetime ms => C.parse (C.format ms) = some ms
  | .dbpointer .. => False
  | .codeScope _ fs => ShownFields C fs
  | .decimal .. => False
  | _ => True
def ShownFields (C : Clock) : Fields → Prop
  | .nil => True
  | .cons k t fs => PlainKey k ∧ Shown C t ∧ ShownFields C fs
def ShownVals (C : Clock) : Vals → Prop
  | .nil => True
  | .cons t vs => Shown C t ∧ ShownVals C vs
end

end

/-! ### reading again -/

/-- the keys that mark an object as something else if they come first -/
def reserved : List Bytes := ["$minKey", "$maxKey", "$numberDecimal", "$timestamp", "$symbol", "$code", "$dbPointer", "$regularExpression", "$date", "$oid", "$undefined",
  "$binary"].map ascii

def Unreserved : Fields → Prop
  | .nil => True
  | .cons k _ _ => k ∉ reserved

/-- What an integer becomes: an int32, cut to 32 bits, if it is less than 2^31-1, otherwise an int64. -/
def ofInt (i : Int) : BVal := if i < 2147483647 then .int32 ((i + 2147483648) % 4294967296 - 2147483648) else .int64 i

section
open Spec.JsonText

mutual
/-- `Back S C t t'`: the value `t` is written with plain keys and finite doubles, without the reserved keys at the front of nested documents, without binary data, and comes back as `t'`
    when it is read. -/
inductive Back (S : Strconv) (C : Clock) : BVal → BVal → Prop
  | double {b f} : (∃ neg m k, Json.Double (UInt64.ofNat b) neg m k) → Conv S (.num (Model.Json.formatFloat (UInt64.ofNat b))) (.dbl f) →
      Back S C (.double b) (.double f.toNat)
  | doubleInt {b i} : (∃ neg m k, Json.Double (UInt64.ofNat b) neg m k) → Conv S (.num (Model.Json.formatFloat (UInt64.ofNat b))) (.int i) →
      Back S C (.double b) (ofInt i)
  | string {s} : Back S C (.string s) (.string s)
  | doc {fs fs'} : Unreserved fs → BackFields S C fs fs' → Back S C (.doc fs) (.doc fs')
  | array {vs vs'} : BackVals S C vs vs' → Back S C (.array vs) (.array vs')
  | undefined : Back S C .undefined .undefined
  | oid {id} : Back S C (.oid id) (.oid id)
  | bool {b} : Back S C (.bool b) (.bool b)
  | datetime {ms ms'} : C.parse (C.format ms) = some ms' → Back S C (.datetime ms) (.datetime ms')
  | null : Back S C .null .null
  | regex {p o} : Back S C (.regex p o) (.regex p o)
  | dbpointer {ns id} : ns ≠ [] → Back S C (.dbpointer ns id) (.dbpointer ns id)
  | js {c} : Back S C (.js c) (.js c)
  | symbol {s} : Back S C (.symbol s) (.symbol s)
  | codeScope {c fs fs'} : Unreserved fs → BackFields S C fs fs' → Back S C (.codeScope c fs) (.codeScope c fs')
  | int32 {i} : Back S C (.int32 i) (ofInt i)
  | timestamp {t i} : Back S C (.timestamp t i) (.timestamp t i)
  | int64 {i} : Back S C (.int64 i) (ofInt i)
  /-- the halves are exchanged when the decimal is read from the document -/
  | decimal {h l s x} : Model.Decimal.toString ⟨UInt64.ofNat l, UInt64.ofNat h⟩ = .ok s → Model.Decimal.parse s = some x →
      Back S C (.decimal h l) (.decimal x.h.toNat x.l.toNat)
  | minKey : Back S C .minKey .minKey
  | maxKey : Back S C .maxKey .maxKey
inductive BackFields (S : Strconv) (C : Clock) : Fields → Fields → Prop
  | nil : BackFields S C .nil .nil
  | cons {k t fs t' fs'} : Json.PlainKey k → Back S C t t' → BackFields S C fs fs' → BackFields S C (.cons k t fs) (.cons k t' fs')
inductive BackVals (S : Strconv) (C : Clock) : Vals → Vals → Prop
  | nil : BackVals S C .nil .nil
  | cons {t vs t' vs'} : Back S C t t' → BackVals S C vs vs' → BackVals S C (.cons t vs) (.cons t' vs')
end

mutual
/-- what comes back as it is: no doubles, no binary data, no int64 below 2^31-1, and not the int32 2^31-1 -/
def Kept (C : Clock) : BVal → Prop
  | .double _ => False
  | .doc fs => Unreserved fs ∧ KeptFields C fs
  | .array vs => KeptVals C vs
  | .binary .. => False
  | .datetime ms => C.parse (C.format ms) = some ms
  | .dbpointer ns _ => ns ≠ []
  | .codeScope _ fs => Unreserved fs ∧ KeptFields C fs
  | .int32 i => i ≠ 2147483647
  | .int64 i => 2147483647 ≤ i
  | .decimal .. => False
  | _ => True
def KeptFields (C : Clock) : Fields → Prop
  | .nil => True
  | .cons k t fs => Json.PlainKey k ∧ Kept C t ∧ KeptFields C fs
def KeptVals (C : Clock) : Vals → Prop
  | .nil => True
  | .cons t vs => Kept C t ∧ KeptVals C vs
end

mutual
/-- The BSON value of a JSON value in which no object begins with a reserved key. -/
inductive Imports (S : Strconv) : J → BVal → Prop
  | null : Imports S .null .null
  | bool {b} : Imports S (.bool b) (.bool b)
  | int {t i} : Conv S (.num t) (.int i) → Imports S (.num t) (ofInt i)
  | double {t f} : Conv S (.num t) (.dbl f) → Imports S (.num t) (.double f.toNat)
  | str {s} : Imports S (.str s) (.string s)
  | arr {js vs} : ImportsVals S js vs → Imports S (.arr js) (.array vs)
  | obj {es fs} : Unreserved fs → ImportsFields S es fs → Imports S (.obj es) (.doc fs)
inductive ImportsVals (S : Strconv) : Js → Vals → Prop
  | nil : ImportsVals S .nil .nil
  | cons {j t js vs} : Imports S j t → ImportsVals S js vs → ImportsVals S (.cons j js) (.cons t vs)
inductive ImportsFields (S : Strconv) : Jes → Fields → Prop
  | nil : ImportsFields S .nil .nil
  | cons {k j t es fs} : Imports S j t → ImportsFields S es fs → ImportsFields S (.cons k j es) (.cons k t fs)
end

/-- the object `{k: v}` of a text -/
def single (k : String) (v : J) : J := .obj (.cons (ascii k) v .nil)

/-- the object `{k: v, l: w}` of a text -/
def double (k : String) (v : J) (l : String) (w : J) : J := .obj (.cons (ascii k) v (.cons (ascii l) w .nil))

mutual
/-- The BSON value of a value of relaxed extended JSON, without binary data and pointers.  Integers become int32 or int64 (`ofInt`); texts are compared after escapes have been
    replaced. -/
inductive Reads (S : Strconv) (C : Clock) : J → BVal → Prop
  | null : Reads S C .null .null
  | bool {b} : Reads S C (.bool b) (.bool b)
  | int {t i} : Conv S (.num t) (.int i) → Reads S C (.num t) (ofInt i)
  | double {t f} : Conv S (.num t) (.dbl f) → Reads S C (.num t) (.double f.toNat)
  | str {s} : Reads S C (.str s) (.string s)
  | arr {js vs} : ReadsVals S C js vs → Reads S C (.arr js) (.array vs)
  | obj {es fs} : Unreserved fs → ReadsFields S C es fs → Reads S C (.obj es) (.doc fs)
  | undefined : Reads S C (single "$undefined" (.bool true)) .undefined
  | oid {id} : id.length = 12 → Reads S C (single "$oid" (.str (hexText id))) (.oid id)
  | datetime {s ms} : C.parse s = some ms → Reads S C (single "$date" (.str s)) (.datetime ms)
  | regex {p o} : Reads S C (single "$regularExpression" (ExtJson.double "pattern" (.str p) "options" (.str o))) (.regex p o)
  | js {c} : Reads S C (single "$code" (.str c)) (.js c)
  | symbol {s} : Reads S C (single "$symbol" (.str s)) (.symbol s)
  | codeScope {c es fs} : Unreserved fs → ReadsFields S C es fs → Reads S C (ExtJson.double "$code" (.str c) "$scope" (.obj es)) (.codeScope c fs)
  | timestamp {a b} {t i : Nat} : Conv S (.num a) (.int t) → Conv S (.num b) (.int i) → t < 2 ^ 32 → i < 2 ^ 32 →
      Reads S C (single "$timestamp" (ExtJson.double "t" (.num a) "i" (.num b))) (.timestamp t i)
  | decimal {neg c e} : Decimal.Representable c e →
      Reads S C (single "$numberDecimal" (.str (Decimal.text neg c e))) (.decimal (Decimal.encode neg c e).h.toNat (Decimal.encode neg c e).l.toNat)
  | minKey {n} : Conv S (.num n) (.int 1) → Reads S C (single "$minKey" (.num n)) .minKey
  | maxKey {n} : Conv S (.num n) (.int 1) → Reads S C (single "$maxKey" (.num n)) .maxKey
inductive ReadsVals (S : Strconv) (C : Clock) : Js → Vals → Prop
  | nil : ReadsVals S C .nil .nil
  | cons {j t js vs} : Reads S C j t → ReadsVals S C js vs → ReadsVals S C (.cons j js) (.cons t vs)
inductive ReadsFields (S : Strconv) (C : Clock) : Jes → Fields → Prop
  | nil : ReadsFields S C .nil .nil
  | cons {k j t es fs} : Reads S C j t → ReadsFields S C es fs → ReadsFields S C (.cons k j es) (.cons k t fs)
end

end

/-! ### what is read without a panic -/

section
open JsonText

/-- the keys whose values are taken as strings without a check -/
def asString : List Bytes := ["$oid", "$symbol", "$numberDecimal", "$date", "$binary"].map ascii
/-- … and as objects -/
def asObject : List Bytes := ["$timestamp", "$dbPointer", "$regularExpression"].map ascii

def IsStr : J → Prop
  | .str _ => True
  | _ => False

def IsObj : J → Prop
  | .obj _ => True
  | _ => False

/-- an object that is not marked as something else -/
def PlainObj : J → Prop
  | .obj .nil => True
  | .obj (.cons k _ _) => k ∉ reserved
  | _ => False

mutual
/-- values of reserved keys that come first have the right kind, wherever they are looked at: not in the other fields of an object with such a key, but in the `$scope` that
    directly follows `$code` -/
def Tame : J → Prop
  | .arr vs => TameVals vs
  | .obj .nil => True
  | .obj (.cons k v r) => (k ∈ asString → IsStr v) ∧ (k ∈ asObject → IsObj v) ∧ (k ∉ reserved → Tame v ∧ TameFields r) ∧ (k = ascii "$code" → IsStr v → TameScope r)
  | _ => True
def TameVals : Js → Prop
  | .nil => True
  | .cons v r => Tame v ∧ TameVals r
def TameFields : Jes → Prop
  | .nil => True
  | .cons _ v r => Tame v ∧ TameFields r
def TameScope : Jes → Prop
  | .nil => True
  | .cons k v _ => k = ascii "$scope" → PlainObj v ∧ Tame v
end

end

end Birch.Spec.ExtJson
