import Verif.Model.Gjson
import Verif.Model.Constructors
import Verif.Model.Access
import Verif.Model.Decimal
import Verif.Model.ObjectID

/-
Extended JSON: `MarshalJSON` and `UnmarshalJSON` of documents, arrays and values (x_json_marshal.go, x_json_unmarshal.go).

The text of a time (package time, which also consults the time zone of the machine) is a parameter, like the text of floating point numbers (`Strconv`).
-/

namespace Birch.Model.ExtJson
open Birch Model Model.Json Model.Gjson

/-- Package time, on times in milliseconds since 1970. -/
structure Clock where
  /-- `time.Unix(i/1000, i%1000*1000000).Format(time.RFC3339)` (value.go:804-807, x_json_marshal.go:69) -/
  format : Int → Bytes
  /-- `time.Parse(time.RFC3339, s)` as `t.Unix()*1000 + int64(t.Nanosecond()/1e6)` (x_json_unmarshal.go:255-260, constructor.go:386-389); `none` is an error -/
  parse : Bytes → Option Int

/-! ### names -/

/-- `$binary` -/
def kBinary : Bytes := [36, 98, 105, 110, 97, 114, 121]
/-- `base64` -/
def kBase64 : Bytes := [98, 97, 115, 101, 54, 52]
/-- `subType` -/
def kSubType : Bytes := [115, 117, 98, 84, 121, 112, 101]
/-- `$undefined` -/
def kUndefined : Bytes := [36, 117, 110, 100, 101, 102, 105, 110, 101, 100]
/-- `$oid` -/
def kOid : Bytes := [36, 111, 105, 100]
/-- `$date` -/
def kDate : Bytes := [36, 100, 97, 116, 101]
/-- `$regularExpression` -/
def kRegex : Bytes := [36, 114, 101, 103, 117, 108, 97, 114, 69, 120, 112, 114, 101, 115, 115, 105, 111, 110]
/-- `pattern` -/
def kPattern : Bytes := [112, 97, 116, 116, 101, 114, 110]
/-- `options` -/
def kOptions : Bytes := [111, 112, 116, 105, 111, 110, 115]
/-- `$dbPointer` -/
def kDbPointer : Bytes := [36, 100, 98, 80, 111, 105, 110, 116, 101, 114]
/-- `$ref` -/
def kRef : Bytes := [36, 114, 101, 102]
/-- `$id` -/
def kId : Bytes := [36, 105, 100]
/-- `$code` -/
def kCode : Bytes := [36, 99, 111, 100, 101]
/-- `$scope` -/
def kScope : Bytes := [36, 115, 99, 111, 112, 101]
/-- `$symbol` -/
def kSymbol : Bytes := [36, 115, 121, 109, 98, 111, 108]
/-- `$timestamp` -/
def kTimestamp : Bytes := [36, 116, 105, 109, 101, 115, 116, 97, 109, 112]
/-- `t` -/
def kT : Bytes := [116]
/-- `i` -/
def kI : Bytes := [105]
/-- `$numberDecimal` -/
def kDecimal : Bytes := [36, 110, 117, 109, 98, 101, 114, 68, 101, 99, 105, 109, 97, 108]
/-- `$minKey` -/
def kMinKey : Bytes := [36, 109, 105, 110, 75, 101, 121]
/-- `$maxKey` -/
def kMaxKey : Bytes := [36, 109, 97, 120, 75, 101, 121]

/-! ### writing (x_json_marshal.go) -/

/-- an object with one element, `jsonx.VC.ObjectFromElements(jsonx.EC.Value(k, v))` (jsonx/constructor.go:78-80, 220-222) -/
def obj1 (k : Bytes) (v : JVal) : JVal := .obj (.cons k v .nil)

/-- … and with two -/
def obj2 (k : Bytes) (v : JVal) (l : Bytes) (w : JVal) : JVal := .obj (.cons k v (.cons l w .nil))

/-- the loop of `Document.toJSON` (x_json_marshal.go:16-24) -/
def elemsToJSON (f : Value → Res JVal) : Doc → Res JElems
  | [] => .ok .nil
  | v :: r => do
    let k ← key v
    let j ← f v
    .ok (.cons k j (← elemsToJSON f r))

/-- the loop of `Array.toJSON` (x_json_marshal.go:31-39) -/
def valsToJSON (f : Value → Res JVal) : Doc → Res JVals
  | [] => .ok .nil
  | v :: r => do
    let j ← f v
    .ok (.cons j (← valsToJSON f r))

/-- `Value.toJSON` (x_json_marshal.go:43-123).  That nested documents stay parsed is left out. -/
def toJSON (C : Clock) : Nat → Value → Res JVal
  | 0, _ => .oof
  | fuel + 1, v => do
    let t ← type v
    if t = 0x01 then do .ok (.dbl (UInt64.ofNat (← double v)))
    else if t = 0x02 then do .ok (.str (← stringValue v))
    else if t = 0x03 then do .ok (.obj (← elemsToJSON (toJSON C fuel) (← mutableDocument (fuel + 1) v)))
    else if t = 0x04 then do .ok (.arr (← valsToJSON (toJSON C fuel) (← mutableArray (fuel + 1) v)))
    else if t = 0x05 then do
      let (st, b) ← binary v
      -- `string(t)` of a byte is the UTF-8 encoding of the code point
      .ok (obj1 kBinary (obj2 kBase64 (.str (encodeRune st.toNat)) kSubType (.str b)))
    else if t = 0x06 then .ok (obj1 kUndefined (.bool true))
    else if t = 0x07 then do .ok (obj1 kOid (.str (ObjectID.hex (← objectID v))))
    else if t = 0x08 then do .ok (.bool (← boolean v))
    else if t = 0x09 then do .ok (obj1 kDate (.str (C.format (← dateTime v))))
    else if t = 0x0A then .ok .null
    else if t = 0x0B then do
      let (p, o) ← regex v
      .ok (obj1 kRegex (obj2 kPattern (.str p) kOptions (.str o)))
    else if t = 0x0C then do
      let (ns, id) ← dbPointer v
      .ok (obj1 kDbPointer (obj2 kRef (.str ns) kId (.str (ObjectID.hex id))))
    else if t = 0x0D then do .ok (obj1 kCode (.str (← javaScript v)))
    else if t = 0x0E then do .ok (obj1 kSymbol (.str (← symbol v)))
    else if t = 0x0F then do
      let (c, d) ← mutableCodeWithScope (fuel + 1) v
      .ok (obj2 kCode (.str c) kScope (.obj (← elemsToJSON (toJSON C fuel) d)))
    else if t = 0x10 then do .ok (.int (← int32 v))
    else if t = 0x11 then do
      let (t, i) ← timestamp v
      .ok (obj1 kTimestamp (obj2 kT (.int t) kI (.int i)))
    else if t = 0x12 then do .ok (.int (← int64 v))
    else if t = 0x13 then do
      let (h, l) ← decimal128 v
      .ok (obj1 kDecimal (.str (← Decimal.toString ⟨UInt64.ofNat h, UInt64.ofNat l⟩)))
    else if t = 0xFF then .ok (obj1 kMinKey (.int 1))
    else if t = 0x7F then .ok (obj1 kMaxKey (.int 1))
    else .ok .nil

/-- `none` is an error -/
def orErr : Option Bytes → Res Bytes
  | some t => .ok t
  | none => .err .other

/-- `Document.MarshalJSON` (x_json_marshal.go:14) -/
def marshalDocument (C : Clock) (fuel : Nat) (d : Doc) : Res Bytes := do orErr (marshal (.obj (← elemsToJSON (toJSON C fuel) d)))

/-- `Array.MarshalJSON` (x_json_marshal.go:29) -/
def marshalArray (C : Clock) (fuel : Nat) (a : Doc) : Res Bytes := do orErr (marshal (.arr (← valsToJSON (toJSON C fuel) a)))

/-- `Value.MarshalJSON` (x_json_marshal.go:41) -/
def marshalValue (C : Clock) (fuel : Nat) (v : Value) : Res Bytes := do orErr (marshal (← toJSON C fuel v))

/-! ### reading (x_json_unmarshal.go) -/

/-- `Value.StringValue` of package jsonx (jsonx/juniper.go:78): panics on other values -/
def stringOf : JVal → Res Bytes
  | .str s => .ok s
  | _ => .panic

/-- `Value.Document` of package jsonx (jsonx/juniper.go:80): panics on other values -/
def documentOf : JVal → Res JElems
  | .obj d => .ok d
  | _ => .panic

/-- the loop over the fields of a timestamp (x_json_unmarshal.go:145-164); the number is how many iterations are left -/
def timestampLoop : Nat → JElems → Int × Int → Res (Int × Int)
  | 0, _, a => .ok a
  | _ + 1, .nil, a => .ok a
  | n + 1, .cons k v r, (t, i) =>
    if k = kT then match v with
      | .int x => timestampLoop n r (x, i)
      | _ => .err .other
    else if k = kI then match v with
      | .int x => timestampLoop n r (t, x)
      | _ => .err .other
    else timestampLoop n r (t, i)

/-- the loops over the fields of a pointer or a regular expression, which are strings called `a` and `b` (x_json_unmarshal.go:196-214, 234-252) -/
def pairLoop (a b : Bytes) : Nat → JElems → Bytes × Bytes → Res (Bytes × Bytes)
  | 0, _, p => .ok p
  | _ + 1, .nil, p => .ok p
  | n + 1, .cons k v r, (x, y) =>
    if k = a then match v with
      | .str s => pairLoop a b n r (s, y)
      | _ => .err .other
    else if k = b then match v with
      | .str s => pairLoop a b n r (x, s)
      | _ => .err .other
    else pairLoop a b n r (x, y)

def errOr {α β : Type} (f : α → Res β) : Option α → Res β
  | some a => f a
  | none => .err .other

/-- the results of a loop, up to the first that is not a value -/
def collect : List (Res Value) → Res Doc
  | [] => .ok []
  | c :: cs => do
    let v ← c
    .ok (v :: (← collect cs))

/-- The objects of `convertJSONElements` (x_json_unmarshal.go:121-285).  `cs` are the results of `convertJSONElements` for the elements of the object, used where the code calls
    it.  A scope that was converted is never raw, so that `MutableDocument` does not read it. -/
def object (C : Clock) (k : Bytes) (d : JElems) (cs : List (Res Value)) : Res Value :=
  match d with
  | .nil => do EC.subDocument k (← collect cs)
  | .cons k0 v0 r0 =>
    if k0 = kMinKey then EC.minKey k
    else if k0 = kMaxKey then EC.maxKey k
    else if k0 = kDecimal then do
      let s ← stringOf v0
      errOr (fun x => EC.decimal128 k x.h.toNat x.l.toNat) (Decimal.parse s)
    else if k0 = kTimestamp then do
      let (t, i) ← timestampLoop 3 (← documentOf v0) (0, 0)
      EC.timestamp k (u32i t) (u32i i)
    else if k0 = kSymbol then do EC.symbol k (← stringOf v0)
    else if k0 = kCode then
      match v0 with
      | .str js =>
        match r0 with
        | .nil => EC.javaScript k js
        | .cons k1 _ _ =>
          if k1 = [] then EC.javaScript k js
          else if k1 = kScope then
            match cs with
            | _ :: c :: _ => do
              let scope ← c
              EC.codeWithScope k js (← mutableDocument 0 scope)
            | _ => .panic
          else .err .other
      | _ => .err .other
    else if k0 = kDbPointer then do
      let (ns, oid) ← pairLoop kRef kId 2 (← documentOf v0) ([], [])
      if ns = [] ∨ oid = [] then .err .other else
      errOr (fun id => EC.dbPointer k ns id) (ObjectID.fromHex oid)
    else if k0 = kRegex then do
      let (p, o) ← pairLoop kPattern kOptions 2 (← documentOf v0) ([], [])
      EC.regex k p o
    else if k0 = kDate then do
      let s ← stringOf v0
      errOr (fun ms => EC.dateTime k ms) (C.parse s)
    else if k0 = kOid then do
      let s ← stringOf v0
      errOr (fun id => EC.objectID k id) (ObjectID.fromHex s)
    else if k0 = kUndefined then EC.undefined k
    else if k0 = kBinary then do EC.binary k (← stringOf v0)
    else do EC.subDocument k (← collect cs)

mutual
/-- `convertJSONElements` (x_json_unmarshal.go:90-304) for a key and a value as `UnmarshalJSON` of package jsonx makes it (or `jsonx.VC.Int`, but not `VC.Int32`, `VC.Int64` and
    `VC.Float32`, whose values `IntOK` and `Float64OK` refuse). -/
def convert (C : Clock) : Bytes → JVal → Res Value
  | _, .nil => .panic
  | k, .str s => EC.string k s
  | k, .bool b => EC.boolean k b
  | k, .null => EC.null k
  | k, .int n => EC.int k n
  | k, .dbl b => EC.double k b.toNat
  | k, .obj d => object C k d (convertElems C d)
  | k, .arr a => do EC.array k (← collect (convertVals C a))
def convertElems (C : Clock) : JElems → List (Res Value)
  | .nil => []
  | .cons k v r => convert C k v :: convertElems C r
def convertVals (C : Clock) : JVals → List (Res Value)
  | .nil => []
  | .cons v r => convert C [] v :: convertVals C r
end

/-- The loops of `UnmarshalJSON` (x_json_unmarshal.go:27-34, 45-52): what has been appended when an error occurs stays. -/
def appendAll (d : Doc) : List (Res Value) → Res (Doc × Option Err)
  | [] => .ok (d, none)
  | .ok v :: cs => appendAll (d ++ [v]) cs
  | .err e :: _ => .ok (d, some e)
  | .panic :: _ => .panic
  | .oof :: _ => .oof

/-- `Document.UnmarshalJSON` (x_json_unmarshal.go:21-37): the document afterwards and the error -/
def unmarshalDocument (S : Strconv) (C : Clock) (d : Doc) (t : Bytes) (fuel : Nat) : Res (Doc × Option Err) :=
  match Gjson.unmarshalDocument S fuel t with
  | .ok es => appendAll d (convertElems C es)
  | .err e => .ok (d, some e)
  | .panic => .panic
  | .oof => .oof

/-- `Array.UnmarshalJSON` (x_json_unmarshal.go:39-55) -/
def unmarshalArray (S : Strconv) (C : Clock) (d : Doc) (t : Bytes) (fuel : Nat) : Res (Doc × Option Err) :=
  match Gjson.unmarshalArray S fuel t with
  | .ok vs => appendAll d (convertVals C vs)
  | .err e => .ok (d, some e)
  | .panic => .panic
  | .oof => .oof

/-- `Value.UnmarshalJSON` (x_json_unmarshal.go:57-71): the value afterwards -/
def unmarshalValue (S : Strconv) (C : Clock) (t : Bytes) (fuel : Nat) : Res Value := do convert C [] (← Gjson.unmarshalValue S fuel t)

end Birch.Model.ExtJson
