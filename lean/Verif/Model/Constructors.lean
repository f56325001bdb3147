import Verif.Model.Value
import Verif.Model.Elements

/-
Model of the element constructors `EC.*` (constructor.go:199-588) and value
constructors `VC.*` (constructor.go:596-723).

Float64 arguments are bit patterns, `[12]byte` ids are byte lists (length 12 is a
hypothesis of the theorems), documents and arrays are element lists.
-/

namespace Birch.Model
open Birch

/-- The common shape of the scalar constructors (e.g. constructor.go:200-211):
    `b := make([]byte, size)`, encode at 0, panic on error, offset `1+len(key)+1`. -/
def mkElem (size : Nat) (key : Bytes) (enc : Nat → Bytes → Res Elements.Out) : Res Value := do
  let o ← enc 0 (List.replicate (u32 size) 0)
  if o.failed then .panic else .ok (.raw 0 (u32 (1 + key.length + 1)) o.buf)

namespace EC

/-- constructor.go:200-211 -/
def double (key : Bytes) (bits : Nat) : Res Value :=
  mkElem (1 + key.length + 1 + 8) key (Elements.element 0x01 key fun st w => Elements.double st w bits)

/-- constructor.go:214-226 -/
def string (key s : Bytes) : Res Value :=
  mkElem (1 + key.length + 1 + 4 + s.length + 1) key
    (Elements.element 0x02 key fun st w => Elements.string st w s)

/-- type byte and key only, as written by `SubDocument`, `Array`, `Undefined`, `Null`, `MinKey`
    and `MaxKey` (e.g. constructor.go:229-246): `Byte.Encode` at 0, `CString.Encode` at 1 -/
def header (tag : UInt8) (key : Bytes) : Res Bytes := do
  let o ← Elements.byte 0 (List.replicate (u32 (1 + key.length + 1)) 0) tag
  if o.failed then .panic else do
  let o ← Elements.cstring 1 o.buf key
  if o.failed then .panic else .ok o.buf

/-- constructor.go:229-246 -/
def subDocument (key : Bytes) (d : Doc) : Res Value := do
  .ok (.withDoc 0 (u32 (1 + key.length + 1)) (← header 0x03 key) d)

/-- constructor.go:248-267 -/
def subDocumentFromReader (key : Bytes) (r : Bytes) : Res Value := do
  let o ← Elements.byte 0 (List.replicate (u32 (1 + key.length + 1 + r.length)) 0) 0x03
  if o.failed then .panic else do
  let o ← Elements.cstring 1 o.buf key
  if o.failed then .panic else do
  let (_, b) ← copyAt o.buf (1 + key.length + 1) r
  .ok (.raw 0 (u32 (1 + key.length + 1)) b)

/-- constructor.go:276-293 -/
def array (key : Bytes) (a : Doc) : Res Value := do
  .ok (.withDoc 0 (u32 (1 + key.length + 1)) (← header 0x04 key) a)

/-- constructor.go:308-324 -/
def binaryWithSubtype (key b : Bytes) (btype : UInt8) : Res Value :=
  mkElem (1 + key.length + 1 + 4 + 1 + b.length + (if btype = 2 then 4 else 0)) key
    (Elements.element 0x05 key fun st w => Elements.binary st w b btype)

/-- constructor.go:302-304 -/
def binary (key b : Bytes) : Res Value := binaryWithSubtype key b 0

/-- constructor.go:327-343 -/
def undefined (key : Bytes) : Res Value := do
  .ok (.raw 0 (u32 (1 + key.length + 1)) (← header 0x06 key))

/-- constructor.go:346-356 -/
def objectID (key oid : Bytes) : Res Value :=
  mkElem (1 + key.length + 1 + 12) key
    (Elements.element 0x07 key fun st w => Elements.objectID st w oid)

/-- constructor.go:359-369 -/
def boolean (key : Bytes) (b : Bool) : Res Value :=
  mkElem (1 + key.length + 1 + 1) key
    (Elements.element 0x08 key fun st w => Elements.boolean st w b)

/-- constructor.go:373-383 -/
def dateTime (key : Bytes) (dt : Int) : Res Value :=
  mkElem (1 + key.length + 1 + 8) key
    (Elements.element 0x09 key fun st w => Elements.datetime st w dt)

/-- constructor.go:392-408 -/
def null (key : Bytes) : Res Value := do
  .ok (.raw 0 (u32 (1 + key.length + 1)) (← header 0x0A key))

/-- constructor.go:411-422 -/
def regex (key pattern options : Bytes) : Res Value :=
  mkElem (1 + key.length + 1 + pattern.length + 1 + options.length + 1) key
    (Elements.regexElement key pattern options)

/-- constructor.go:425-436 -/
def dbPointer (key ns oid : Bytes) : Res Value :=
  mkElem (1 + key.length + 1 + 4 + ns.length + 1 + 12) key
    (Elements.element 0x0C key fun st w => Elements.dbpointer st w ns oid)

/-- constructor.go:439-450 -/
def javaScript (key code : Bytes) : Res Value :=
  mkElem (1 + key.length + 1 + 4 + code.length + 1) key
    (Elements.element 0x0D key fun st w => Elements.string st w code)

/-- constructor.go:453-464 -/
def symbol (key s : Bytes) : Res Value :=
  mkElem (1 + key.length + 1 + 4 + s.length + 1) key
    (Elements.element 0x0E key fun st w => Elements.string st w s)

/-- constructor.go:467-494 -/
def codeWithScope (key code : Bytes) (scope : Doc) : Res Value := do
  let size := u32 (1 + key.length + 1 + 4 + 4 + code.length + 1)
  let o ← Elements.byte 0 (List.replicate size 0) 0x0F
  if o.failed then .panic else do
  let o ← Elements.cstring 1 o.buf key
  if o.failed then .panic else do
  let o ← Elements.int32 (1 + key.length + 1) o.buf (i32 size)
  if o.failed then .panic else do
  let o ← Elements.string (1 + key.length + 1 + 4) o.buf code
  if o.failed then .panic else
  .ok (.withDoc 0 (u32 (1 + key.length + 1)) o.buf scope)

/-- constructor.go:497-508 -/
def int32 (key : Bytes) (i : Int) : Res Value :=
  mkElem (1 + key.length + 1 + 4) key
    (Elements.element 0x10 key fun st w => Elements.int32 st w i)

/-- constructor.go:511-522 -/
def timestamp (key : Bytes) (t i : Nat) : Res Value :=
  mkElem (1 + key.length + 1 + 8) key
    (Elements.element 0x11 key fun st w => Elements.timestamp st w t i)

/-- constructor.go:525-536 -/
def int64 (key : Bytes) (i : Int) : Res Value :=
  mkElem (1 + key.length + 1 + 8) key
    (Elements.element 0x12 key fun st w => Elements.int64 st w i)

/-- constructor.go:539-550 -/
def decimal128 (key : Bytes) (high low : Nat) : Res Value :=
  mkElem (1 + key.length + 1 + 16) key
    (Elements.element 0x13 key fun st w => Elements.decimal128 st w high low)

/-- constructor.go:553-569 -/
def minKey (key : Bytes) : Res Value := do
  .ok (.raw 0 (u32 (1 + key.length + 1)) (← header 0xFF key))

/-- constructor.go:572-588 -/
def maxKey (key : Bytes) : Res Value := do
  .ok (.raw 0 (u32 (1 + key.length + 1)) (← header 0x7F key))

/-- `EC.Int` (x_constructor.go:260-266): a Go `int` -/
def int (key : Bytes) (i : Int) : Res Value :=
  if i < 2147483647 then int32 key (i32 i) else int64 key i

end EC

/- The value constructors `VC.X(args)` are `EC.X("", args).value` (constructor.go:596-723). -/

end Birch.Model
