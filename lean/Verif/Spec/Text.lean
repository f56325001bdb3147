import Verif.Model.Text
import Verif.Spec.Bson
import Verif.Spec.GoValue
import Verif.Spec.ExtJson
/-!
# The texts of BSON values, without reference to the model

The only thing taken from the model is the structure `Fmt` of texts that other packages make.
-/
namespace Birch.Spec.Text
open Birch Birch.Spec
open Birch.Spec.ExtJson (hexText)
open Birch.Model.Text (Fmt)

/-- the name of a type -/
def kind : BVal → Bytes
  | .double _ => ascii "double"
  | .string _ => ascii "string"
  | .doc _ => ascii "embedded document"
  | .array _ => ascii "array"
  | .binary _ _ => ascii "binary"
  | .undefined => ascii "undefined"
  | .oid _ => ascii "objectID"
  | .bool _ => ascii "boolean"
  | .datetime _ => ascii "UTC datetime"
  | .null => ascii "null"
  | .regex _ _ => ascii "regex"
  | .dbpointer _ _ => ascii "dbPointer"
  | .js _ => ascii "javascript"
  | .symbol _ => ascii "symbol"
  | .codeScope _ _ => ascii "code with scope"
  | .int32 _ => ascii "32-bit integer"
  | .timestamp _ _ => ascii "timestamp"
  | .int64 _ => ascii "64-bit integer"
  | .decimal _ _ => ascii "128-bit decimal"
  | .minKey => ascii "min key"
  | .maxKey => ascii "max key"

/-- a number in decimal: a minus sign if it is negative, and the digits -/
def number (i : Int) : Bytes := (if i < 0 then ascii "-" else []) ++ decimalKey i.natAbs

def separated (sep : String) (l : List Bytes) : Bytes := (l.intersperse (ascii sep)).flatten

/-- as a Go string: `ObjectID("0123…")` -/
def objectID (id : Bytes) : Bytes := ascii "ObjectID(\"" ++ hexText id ++ ascii "\")"

/-- one key is not behind another one, byte by byte -/
def before (a b : Bytes) : Bool := decide (a.map UInt8.toNat ≤ b.map UInt8.toNat)

/-- How simple values are printed inside another value: `plain` with `%v`, and `broken` with `%s`, which is not made for numbers and booleans. -/
structure Style where
  /-- of a Go type -/
  simple : String → Bytes → Bytes
  bytes : Bytes → Bytes

def plain : Style := ⟨fun _ t => t, fun b => ascii "[" ++ separated " " (b.map fun x => number x.toNat) ++ ascii "]"⟩
def broken : Style := ⟨fun name t => ascii "%!s(" ++ ascii name ++ ascii "=" ++ t ++ ascii ")", fun b => b⟩

mutual
/-- A value inside another one: without its type.  Of a document, only the last field with each key is there, and they are sorted by their keys. -/
def inner (F : Fmt) (S : Style) : BVal → Bytes
  | .double b => S.simple "float64" (F.float b)
  | .string s => s
  | .doc fs => ascii "map[" ++ separated " " (((innerFields F S fs).mergeSort fun a b => before a.1 b.1).map fun e => e.1 ++ ascii ":" ++ e.2) ++ ascii "]"
  | .array vs => ascii "[" ++ separated " " (innerVals F S vs) ++ ascii "]"
  | .binary _ b => S.bytes b
  | .undefined => ascii "<nil>"
  | .oid id => objectID id
  | .bool b => S.simple "bool" (ascii (if b then "true" else "false"))
  | .datetime ms => F.time ⟨ms / 1000, ms % 1000 * 1000000⟩
  | .null => ascii "<nil>"
  | .regex p o => ascii "{\"pattern\": \"" ++ p ++ ascii "\", \"options\": \"" ++ o ++ ascii "\"}"
  | .dbpointer ns id => ascii "{\"db\": \"" ++ ns ++ ascii "\", \"pointer\": \"" ++ objectID id ++ ascii "\"}"
  | .js c => c
  | .symbol s => s
  | .codeScope c fs => ascii "{\"code\": \"" ++ c ++ ascii "\", \"scope\": " ++ encDoc fs ++ ascii "}"
  | .int32 i => S.simple "int32" (number i)
  | .timestamp t i => ascii "{" ++ S.simple "uint32" (number t) ++ ascii " " ++ S.simple "uint32" (number i) ++ ascii "}"
  | .int64 i => S.simple "int64" (number i)
  | .decimal _ _ => []
  | .minKey => ascii "<nil>"
  | .maxKey => ascii "<nil>"
def innerFields (F : Fmt) (S : Style) : Fields → List (Bytes × Bytes)
  | .nil => []
  | .cons k t rest => if k ∈ rest.keys then innerFields F S rest else (k, inner F S t) :: innerFields F S rest
def innerVals (F : Fmt) (S : Style) : Vals → List Bytes
  | .nil => []
  | .cons t rest => inner F S t :: innerVals F S rest
end

/-- the value of an element of a document: strings are quoted -/
def value (F : Fmt) : BVal → Bytes
  | .string s => F.quote s
  | t => inner F plain t

/-- an element: `bson.Element{[type]"key": value}` -/
def element (F : Fmt) (k : Bytes) (t : BVal) : Bytes :=
  ascii "bson.Element{[" ++ kind t ++ ascii "]\"" ++ k ++ ascii "\": " ++ value F t ++ ascii "}"

/-- the elements of a document -/
def elements (F : Fmt) : Fields → List Bytes
  | .nil => []
  | .cons k t rest => element F k t :: elements F rest

/-- a document: `bson.Document{element, element}`, or `bson.Reader{…}` -/
def document (head : String) (F : Fmt) (fs : Fields) : Bytes := ascii head ++ ascii "{" ++ separated ", " (elements F fs) ++ ascii "}"

/-- a value of an array: those that are nil in Go are not welcome -/
def item (F : Fmt) : BVal → Bytes
  | .undefined => ascii "%!s(<nil>)"
  | .null => ascii "%!s(<nil>)"
  | .minKey => ascii "%!s(<nil>)"
  | .maxKey => ascii "%!s(<nil>)"
  | t => inner F broken t

def items (F : Fmt) : Vals → List Bytes
  | .nil => []
  | .cons t rest => item F t :: items F rest

/-- an array: `bson.Array[item, item]` -/
def array (F : Fmt) (vs : Vals) : Bytes := ascii "bson.Array[" ++ separated ", " (items F vs) ++ ascii "]"

/-! ### which values can be told apart -/

/-- The values whose texts at the top of a document can be read back: no floating point numbers and times, whose texts are made elsewhere; no documents and arrays, which lose
    types; no binaries, which lose the subtype; and no values with strings that are not quoted. -/
def Legible : BVal → Prop
  | .string _ => True
  | .oid _ => True
  | .bool _ => True
  | .int32 _ => True
  | .int64 _ => True
  | .timestamp _ _ => True
  | .null => True
  | .undefined => True
  | .minKey => True
  | .maxKey => True
  | _ => False

/-- documents of such values, with keys without quotation marks -/
def LegibleFields : Fields → Prop
  | .nil => True
  | .cons k t rest => 0x22 ∉ k ∧ Legible t ∧ LegibleFields rest

/-- a quoted string shows what was quoted and where it ends, as those of `strconv.Quote` do -/
def Quotes (quote : Bytes → Bytes) : Prop := ∀ s t x y : Bytes, quote s ++ x = quote t ++ y → s = t ∧ x = y

end Birch.Spec.Text
