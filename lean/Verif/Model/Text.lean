import Verif.Model.GoValue
import Verif.Model.ReaderWalk
import Verif.Model.Decimal
import Verif.Model.ObjectID
import Verif.Model.Json
import Verif.Spec.Ascii
/-!
# The text of documents, arrays and readers

* `Document.String` (document.go:336-351), `Element.String` (element.go:287-294), `Reader.String` (reader.go:201-220), `Array.String` (array.go:201-219; for its buffer see
  `Verif/Model/BufPool.lean`)
* `bsontype.Type.String` (bsontype/bsontype.go:40-87), and the `String` methods of types/types.go:34-62 and types/objectid.go:54-56
* what package fmt prints for `%v` and `%s`, for the Go values that `Value.Interface` returns: printArg, printValue, handleMethods and badVerb of fmt/print.go.  The texts of
  floating point numbers and times, `strconv.Quote` and the text of a panic are parameters.
-/
namespace Birch.Model.Text
open Birch Birch.Model

/-- the texts that other packages make -/
structure Fmt where
  /-- `%v` of a float64 -/
  float : Nat → Bytes
  /-- `time.Time.String` -/
  time : Time → Bytes
  /-- `strconv.Quote` -/
  quote : Bytes → Bytes
  /-- the value with which a method panicked -/
  panicked : Bytes

inductive Verb where
  | v
  | s

/-- what fmt writes if a method panics (catchPanic of fmt/print.go) -/
def caught (F : Fmt) : Verb → Bytes
  | .v => ascii "%!v(PANIC=String method: " ++ F.panicked ++ ascii ")"
  | .s => ascii "%!s(PANIC=String method: " ++ F.panicked ++ ascii ")"

/-- `badVerb` of fmt/print.go, which is what `%s` does with a number or a boolean: the name of the type and the text for `%v` -/
def noString : Verb → Bytes → Bytes → Bytes
  | .v, _, t => t
  | .s, name, t => ascii "%!s(" ++ name ++ ascii "=" ++ t ++ ascii ")"

/-- the name of the type of an integer and the integer -/
def goInt : GoInt → Bytes × Int
  | .int i => (ascii "int", i)
  | .int8 i => (ascii "int8", i)
  | .int16 i => (ascii "int16", i)
  | .int32 i => (ascii "int32", i)
  | .int64 i => (ascii "int64", i)
  | .uint n => (ascii "uint", n)
  | .uint8 n => (ascii "uint8", n)
  | .uint16 n => (ascii "uint16", n)
  | .uint32 n => (ascii "uint32", n)
  | .uint64 n => (ascii "uint64", n)

/-- texts with something between them -/
def join (sep : Bytes) : List Bytes → Bytes
  | [] => []
  | [t] => t
  | t :: u :: r => t ++ sep ++ join sep (u :: r)

/-- a slice of bytes: `[1 2 3]`, or as a string -/
def byteSlice : Verb → Bytes → Bytes
  | .v, b => ascii "[" ++ join (ascii " ") (b.map fun x => Json.formatInt x.toNat) ++ ascii "]"
  | .s, b => b

/-- the order of strings in Go: by bytes -/
def strLe : Bytes → Bytes → Bool
  | [], _ => true
  | _ :: _, [] => false
  | x :: a, y :: b => x < y || x == y && strLe a b

/-- a map with string keys: fmt sorts it by its keys (internal/fmtsort) -/
def mapText (entries : List (Bytes × Bytes)) : Bytes :=
  ascii "map[" ++ join (ascii " ") ((entries.mergeSort fun a b => strLe a.1 b.1).map fun e => e.1 ++ ascii ":" ++ e.2) ++ ascii "]"

/-- `ObjectID.String` (types/objectid.go:54-56) -/
def oidText (id : Bytes) : Bytes := ascii "ObjectID(\"" ++ ObjectID.hex id ++ ascii "\")"

/-- a `String` method that may panic -/
def method (F : Fmt) (verb : Verb) : Res Bytes → Bytes
  | .ok t => t
  | _ => caught F verb

mutual
/-- what fmt prints for a value inside another one (or for one that is not nil).  Only the values that `Value.Interface` returns are modelled; other ones are left out (here:
    nothing is printed). -/
def text (F : Fmt) (verb : Verb) : Go → Bytes
  | .nil => ascii "<nil>"
  | .bool b => noString verb (ascii "bool") (if b then ascii "true" else ascii "false")
  | .int g => noString verb (goInt g).1 (Json.formatInt (goInt g).2)
  | .f64 b => noString verb (ascii "float64") (F.float b)
  | .str s => s
  | .time t => F.time t
  | .timestamp t i => ascii "{" ++ noString verb (ascii "uint32") (Json.formatInt t) ++ ascii " " ++ noString verb (ascii "uint32") (Json.formatInt i) ++ ascii "}"
  | .map m => mapText (entries F verb m)
  | .slice s => ascii "[" ++ join (ascii " ") (texts F verb s) ++ ascii "]"
  | .bytes b => byteSlice verb b
  | .oid id => oidText id
  | .decimal h l => method F verb (Decimal.toString ⟨UInt64.ofNat h, UInt64.ofNat l⟩)
  -- types/types.go:34-36, 44-46, 60-62
  | .regex p o => ascii "{\"pattern\": \"" ++ p ++ ascii "\", \"options\": \"" ++ o ++ ascii "\"}"
  | .dbPointer ns id => ascii "{\"db\": \"" ++ ns ++ ascii "\", \"pointer\": \"" ++ oidText id ++ ascii "\"}"
  | .codeScope c scope => ascii "{\"code\": \"" ++ c ++ ascii "\", \"scope\": " ++ scope ++ ascii "}"
  | _ => []
def entries (F : Fmt) (verb : Verb) : GoMap → List (Bytes × Bytes)
  | .nil => []
  | .cons k g r => (k, text F verb g) :: entries F verb r
def texts (F : Fmt) (verb : Verb) : GoSlice → List Bytes
  | .nil => []
  | .cons g r => text F verb g :: texts F verb r
end

/-- what fmt prints for an argument: `%s` does not like nil -/
def arg (F : Fmt) : Verb → Go → Bytes
  | .s, .nil => ascii "%!s(<nil>)"
  | verb, g => text F verb g

/-- `bsontype.Type.String` (bsontype/bsontype.go:40-87) -/
def typeName (t : UInt8) : Bytes :=
  if t = 0x01 then ascii "double"
  else if t = 0x02 then ascii "string"
  else if t = 0x03 then ascii "embedded document"
  else if t = 0x04 then ascii "array"
  else if t = 0x05 then ascii "binary"
  else if t = 0x06 then ascii "undefined"
  else if t = 0x07 then ascii "objectID"
  else if t = 0x08 then ascii "boolean"
  else if t = 0x09 then ascii "UTC datetime"
  else if t = 0x0A then ascii "null"
  else if t = 0x0B then ascii "regex"
  else if t = 0x0C then ascii "dbPointer"
  else if t = 0x0D then ascii "javascript"
  else if t = 0x0E then ascii "symbol"
  else if t = 0x0F then ascii "code with scope"
  else if t = 0x10 then ascii "32-bit integer"
  else if t = 0x11 then ascii "timestamp"
  else if t = 0x12 then ascii "64-bit integer"
  else if t = 0x13 then ascii "128-bit decimal"
  else if t = 0xFF then ascii "min key"
  else if t = 0x7F then ascii "max key"
  else ascii "invalid"

/-- the value that `Element.String` prints (element.go:288-291): strings are quoted, but not symbols and code, for which `Interface` returns strings, too -/
def quoted (F : Fmt) (t : UInt8) : Go → Go
  | .str s => if t = 0x02 then .str (F.quote s) else .str s
  | g => g

/-- `Element.String` (element.go:287-294) -/
def elemString (F : Fmt) (fuel : Nat) (v : Value) : Res Bytes := do
  let g ← Value.interface fuel v
  let t ← type v
  let k ← key v
  .ok (ascii "bson.Element{[" ++ typeName t ++ ascii "]\"" ++ k ++ ascii "\": " ++ arg F .v (quoted F t g) ++ ascii "}")

/-- the loops of `Document.String` (document.go:341-346) and `Array.String` (array.go:208-214), which start with index `idx` -/
def loop (f : Value → Res Bytes) : Nat → Doc → Res Bytes
  | _, [] => .ok []
  | idx, v :: r => do
    let t ← f v
    let u ← loop f (idx + 1) r
    .ok ((if idx > 0 then ascii ", " else []) ++ t ++ u)

/-- `Document.String` (document.go:336-351) -/
def docString (F : Fmt) (fuel : Nat) (d : Doc) : Res Bytes := do
  .ok (ascii "bson.Document{" ++ (← loop (elemString F fuel) 0 d) ++ ascii "}")

/-- `Array.String` (array.go:201-219) -/
def arrString (F : Fmt) (fuel : Nat) (d : Doc) : Res Bytes := do
  .ok (ascii "bson.Array[" ++ (← loop (fun v => do .ok (arg F .s (← Value.interface fuel v))) 0 d) ++ ascii "]")

/-- `fmt.Fprintf(&buf, "%s", elem)` (reader.go:212): a panic in `Element.String` is caught by fmt -/
def printElem (F : Fmt) (fuel : Nat) (v : Value) : Res Bytes :=
  match elemString F fuel v with
  | .ok t => .ok t
  | .oof => .oof
  | _ => .ok (caught F .s)

/-- the loop of `readElements` (reader.go:260-300) with the callback of `Reader.String` (reader.go:208-215): what is written until the document or the loop ends; its error is
    dropped.  `f` prints an element.  One turn of the loop up to the callback is the same code as `Next` (iterator.go:86-123). -/
def readerLoop (f : Value → Res Bytes) : Nat → Bytes → Nat → Nat → Nat → Res Bytes
  | 0, _, _, _, _ => .oof
  | fuel + 1, r, pos, end_, i =>
    match iterNext r pos end_ with
    | .ok none => .ok []
    | .ok (some (v, pos')) => do
      let t ← f v
      let u ← readerLoop f fuel r pos' end_ (i + 1)
      .ok ((if i > 0 then ascii ", " else []) ++ t ++ u)
    | .err _ => .ok []
    | .panic => .panic
    | .oof => .oof

/-- `Reader.String` (reader.go:201-220) -/
def readerString (F : Fmt) (fuel : Nat) (r : Bytes) : Res Bytes :=
  match readerEnd r with
  | .ok e => do .ok (ascii "bson.Reader{" ++ (← readerLoop (printElem F fuel) fuel r 4 e 0) ++ ascii "}")
  | .err _ => .ok (ascii "bson.Reader{" ++ ascii "}")
  | .panic => .panic
  | .oof => .oof

end Birch.Model.Text
