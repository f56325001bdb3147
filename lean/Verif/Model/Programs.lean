import Verif.Model.Constructors
import Verif.Model.Access
import Verif.Spec.Bson

/-
Client programs over the modelled API: assembling a document with the constructors from
its abstract description, and reading a document back through the accessors.
-/

namespace Birch.Model
open Birch Spec

mutual
/-- `EC.X(key, ...)` for an abstract value; nested documents, arrays and scopes are assembled with
    `DC.Elements(EC...)` and `NewArray(VC...)` (`VC.X(...)` is `EC.X("", ...)`,
    constructor.go:596-723; `DC.Elements`, `NewArray` and `Append` keep the
    given elements in order, document.go:62-72, array.go:28-36). -/
def buildVal : Bytes → BVal → Res Value
  | k, .double bits => EC.double k bits
  | k, .string s => EC.string k s
  | k, .doc fs => do EC.subDocument k (← buildDoc fs)
  | k, .array vs => do EC.array k (← buildArr vs)
  | k, .binary st b => EC.binaryWithSubtype k b st
  | k, .undefined => EC.undefined k
  | k, .oid id => EC.objectID k id
  | k, .bool b => EC.boolean k b
  | k, .datetime ms => EC.dateTime k ms
  | k, .null => EC.null k
  | k, .regex p o => EC.regex k p o
  | k, .dbpointer ns id => EC.dbPointer k ns id
  | k, .js c => EC.javaScript k c
  | k, .symbol s => EC.symbol k s
  | k, .codeScope c fs => do EC.codeWithScope k c (← buildDoc fs)
  | k, .int32 i => EC.int32 k i
  | k, .timestamp t i => EC.timestamp k t i
  | k, .int64 i => EC.int64 k i
  | k, .decimal h l => EC.decimal128 k h l
  | k, .minKey => EC.minKey k
  | k, .maxKey => EC.maxKey k
def buildDoc : Fields → Res Doc
  | .nil => .ok []
  | .cons k v rest => do
      let e ← buildVal k v
      .ok (e :: (← buildDoc rest))
def buildArr : Vals → Res Doc
  | .nil => .ok []
  | .cons v rest => do
      let e ← buildVal [] v
      .ok (e :: (← buildArr rest))
end

/-- read the elements of a document in order with `Key` and `g` -/
def obsFields (g : Value → Res BVal) : List Value → Res Fields
  | [] => .ok .nil
  | v :: rest => do
      let k ← key v
      let t ← g v
      .ok (.cons k t (← obsFields g rest))

/-- read the values of an array in order with `g` -/
def obsVals (g : Value → Res BVal) : List Value → Res Vals
  | [] => .ok .nil
  | v :: rest => do
      let t ← g v
      .ok (.cons t (← obsVals g rest))

/-- Read a value back by dispatching on `Type` and calling the typed accessor; nested
    documents, arrays and scopes are opened with `MutableDocument`, `MutableArray` and
    `MutableJavaScriptWithScope` and read the same way. -/
def obsVal : Nat → Value → Res BVal
  | 0, _ => .oof
  | fuel + 1, v => do
    let t ← type v
    if t = 0x01 then do .ok (.double (← double v))
    else if t = 0x02 then do .ok (.string (← stringValue v))
    else if t = 0x03 then do .ok (.doc (← obsFields (obsVal fuel) (← mutableDocument (fuel + 1) v)))
    else if t = 0x04 then do .ok (.array (← obsVals (obsVal fuel) (← mutableArray (fuel + 1) v)))
    else if t = 0x05 then do
      let (st, b) ← binary v
      .ok (.binary st b)
    else if t = 0x06 then .ok .undefined
    else if t = 0x07 then do .ok (.oid (← objectID v))
    else if t = 0x08 then do .ok (.bool (← boolean v))
    else if t = 0x09 then do .ok (.datetime (← dateTime v))
    else if t = 0x0A then .ok .null
    else if t = 0x0B then do
      let (p, o) ← regex v
      .ok (.regex p o)
    else if t = 0x0C then do
      let (ns, id) ← dbPointer v
      .ok (.dbpointer ns id)
    else if t = 0x0D then do .ok (.js (← javaScript v))
    else if t = 0x0E then do .ok (.symbol (← symbol v))
    else if t = 0x0F then do
      let (c, d) ← mutableCodeWithScope (fuel + 1) v
      .ok (.codeScope c (← obsFields (obsVal fuel) d))
    else if t = 0x10 then do .ok (.int32 (← int32 v))
    else if t = 0x11 then do
      let (t, i) ← timestamp v
      .ok (.timestamp t i)
    else if t = 0x12 then do .ok (.int64 (← int64 v))
    else if t = 0x13 then do
      let (h, l) ← decimal128 v
      .ok (.decimal h l)
    else if t = 0xFF then .ok .minKey
    else if t = 0x7F then .ok .maxKey
    else .panic

/-- read a whole document back -/
def obsDoc (fuel : Nat) (d : Doc) : Res Fields := obsFields (obsVal fuel) d

end Birch.Model
