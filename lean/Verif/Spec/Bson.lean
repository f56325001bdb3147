import Verif.Base

/-
Independent specification of BSON (bsonspec.org, version 1.1): abstract syntax and
encoding.  Nothing in this file refers to the model of the Go code; only the
byte-string vocabulary of `Base` (`Bytes`, `le32`, `le64`) is used.
-/

namespace Birch.Spec
open Birch

mutual
/-- Abstract BSON values.  Integers are mathematical integers (range in `BVal.WF`), a double
    is its 64 bit pattern, text is its bytes. -/
inductive BVal where
  | double (bits : Nat)
  | string (s : Bytes)
  | doc (fs : Fields)
  | array (vs : Vals)
  | binary (subtype : UInt8) (b : Bytes)
  | undefined
  | oid (id : Bytes)
  | bool (b : Bool)
  | datetime (ms : Int)
  | null
  | regex (pattern options : Bytes)
  | dbpointer (ns : Bytes) (id : Bytes)
  | js (code : Bytes)
  | symbol (s : Bytes)
  | codeScope (code : Bytes) (scope : Fields)
  | int32 (i : Int)
  | timestamp (t i : Nat)
  | int64 (i : Int)
  | decimal (high low : Nat)
  | minKey
  | maxKey
/-- An ordered list of keys and values. -/
inductive Fields where
  | nil
  | cons (key : Bytes) (v : BVal) (rest : Fields)
/-- An ordered list of values. -/
inductive Vals where
  | nil
  | cons (v : BVal) (rest : Vals)
end

/-- The element type byte. -/
def BVal.tag : BVal → UInt8
  | .double _ => 0x01
  | .string _ => 0x02
  | .doc _ => 0x03
  | .array _ => 0x04
  | .binary _ _ => 0x05
  | .undefined => 0x06
  | .oid _ => 0x07
  | .bool _ => 0x08
  | .datetime _ => 0x09
  | .null => 0x0A
  | .regex _ _ => 0x0B
  | .dbpointer _ _ => 0x0C
  | .js _ => 0x0D
  | .symbol _ => 0x0E
  | .codeScope _ _ => 0x0F
  | .int32 _ => 0x10
  | .timestamp _ _ => 0x11
  | .int64 _ => 0x12
  | .decimal _ _ => 0x13
  | .minKey => 0xFF
  | .maxKey => 0x7F

/-- two's complement of a signed number in 32 / 64 bits -/
def twos32 (i : Int) : Nat := (i % 4294967296).toNat
def twos64 (i : Int) : Nat := (i % 18446744073709551616).toNat

/-- `string ::= int32 (byte*) 0x00`, length counts the terminator -/
def encString (s : Bytes) : Bytes := le32 (s.length + 1) ++ s ++ [0]

/-- ASCII decimal digits of a number, as used for array keys. -/
def decimalKey (n : Nat) : Bytes := (Nat.toDigits 10 n).map (fun c => UInt8.ofNat c.toNat)

/-- `int32 body 0x00`, where the int32 is the total length -/
def wrapDoc (body : Bytes) : Bytes := le32 (body.length + 5) ++ body ++ [0]

mutual
/-- encoding of a value (without type byte and key) -/
def BVal.enc : BVal → Bytes
  | .double bits => le64 bits
  | .string s => encString s
  | .doc fs => wrapDoc fs.enc
  | .array vs => wrapDoc (vs.encFrom 0)
  | .binary st b =>
      if st = 2 then le32 (b.length + 4) ++ [st] ++ le32 b.length ++ b
      else le32 b.length ++ [st] ++ b
  | .undefined => []
  | .oid id => id
  | .bool b => [if b then 1 else 0]
  | .datetime ms => le64 (twos64 ms)
  | .null => []
  | .regex p o => p ++ [0] ++ o ++ [0]
  | .dbpointer ns id => encString ns ++ id
  | .js c => encString c
  | .symbol s => encString s
  | .codeScope c fs =>
      let body := encString c ++ wrapDoc fs.enc
      le32 (body.length + 4) ++ body
  | .int32 i => le32 (twos32 i)
  | .timestamp t i => le32 i ++ le32 t
  | .int64 i => le64 (twos64 i)
  | .decimal h l => le64 l ++ le64 h
  | .minKey => []
  | .maxKey => []
/-- `e_list ::= element e_list | ""` with `element ::= type cstring value` -/
def Fields.enc : Fields → Bytes
  | .nil => []
  | .cons k v rest => [v.tag] ++ k ++ [0] ++ v.enc ++ rest.enc
/-- an array is a document whose keys are "0", "1", ... -/
def Vals.encFrom : Nat → Vals → Bytes
  | _, .nil => []
  | i, .cons v rest => [v.tag] ++ decimalKey i ++ [0] ++ v.enc ++ rest.encFrom (i + 1)
end

/-- encoding of a whole document -/
def encDoc (fs : Fields) : Bytes := wrapDoc fs.enc

/-- no NUL byte inside -/
def NulFree (s : Bytes) : Prop := ∀ c ∈ s, c ≠ 0

mutual
/-- Well-formed values: numbers in range, C-strings NUL-free, ids of 12 bytes,
    binary subtypes defined by the specification. -/
def BVal.WF : BVal → Prop
  | .double bits => bits < 18446744073709551616
  | .string _ => True
  | .doc fs => fs.WF
  | .array vs => vs.WF
  | .binary st _ => st ≤ 5 ∨ 0x80 ≤ st
  | .undefined => True
  | .oid id => id.length = 12
  | .bool _ => True
  | .datetime ms => -9223372036854775808 ≤ ms ∧ ms < 9223372036854775808
  | .null => True
  | .regex p o => NulFree p ∧ NulFree o
  | .dbpointer _ id => id.length = 12
  | .js _ => True
  | .symbol _ => True
  | .codeScope _ fs => fs.WF
  | .int32 i => -2147483648 ≤ i ∧ i < 2147483648
  | .timestamp t i => t < 4294967296 ∧ i < 4294967296
  | .int64 i => -9223372036854775808 ≤ i ∧ i < 9223372036854775808
  | .decimal h l => h < 18446744073709551616 ∧ l < 18446744073709551616
  | .minKey => True
  | .maxKey => True
def Fields.WF : Fields → Prop
  | .nil => True
  | .cons k v rest => NulFree k ∧ v.WF ∧ rest.WF
def Vals.WF : Vals → Prop
  | .nil => True
  | .cons v rest => v.WF ∧ rest.WF
end

/-- the fields as a list of pairs -/
def Fields.toList : Fields → List (Bytes × BVal)
  | .nil => []
  | .cons k v rest => (k, v) :: rest.toList

def Vals.toList : Vals → List BVal
  | .nil => []
  | .cons v rest => v :: rest.toList

def Fields.ofList : List (Bytes × BVal) → Fields
  | [] => .nil
  | (k, v) :: rest => .cons k v (ofList rest)

def Vals.ofList : List BVal → Vals
  | [] => .nil
  | v :: rest => .cons v (ofList rest)

end Birch.Spec
