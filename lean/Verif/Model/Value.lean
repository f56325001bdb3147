import Verif.Base

/-
Model of `Value`, `Element`, `Reader` and the validation code.

An `*Element` is a pointer to a `*Value`; the key lives in the value's bytes, so the
model identifies an element with its value.  A `*Document` is the list of its elements.
Nil `*Element`/`*Value` pointers inside documents are not represented (the
constructors never create them and `Append` panics on nil elements).
-/

namespace Birch.Model
open Birch

/-- `Value` (value.go:23-41).  `raw`: the field `d` is nil and the value is
    `data[offset:]`; `withDoc`: `d` is a parsed document, array or scope.
    An empty `data` stands for a nil slice. -/
inductive Value where
  | raw (start offset : Nat) (data : Bytes)
  | withDoc (start offset : Nat) (data : Bytes) (d : List Value)

/-- `Document` without its cache (document.go:25-30). -/
abbrev Doc := List Value

namespace Value
def start : Value → Nat
  | raw s _ _ => s
  | withDoc s _ _ _ => s
def offset : Value → Nat
  | raw _ o _ => o
  | withDoc _ o _ _ => o
def data : Value → Bytes
  | raw _ _ b => b
  | withDoc _ _ b _ => b
end Value

/-- `strconv.Itoa` for a non-negative number (standard library): decimal digits -/
def itoa (n : Nat) : Bytes := (Nat.toDigits 10 n).map (fun c => UInt8.ofNat c.toNat)

/-- the bytes from `i` on, up to (not including) the first NUL -/
def cstrAt (b : Bytes) (i : Nat) : Bytes := (b.drop i).takeWhile (· ≠ 0)

/-- `validate(true)` for a value with `d == nil` (value.go:198-482): the size of the
    value starting at `offset` inside `data`, checking only lengths.  The size that
    accompanies an error is not modelled.  The regex loops (value.go:350-368) are
    written as scans for the first NUL; their `uint32` index is not wrapped (data of
    2^32 bytes or more is outside the model). -/
def rawSize (data : Bytes) (start offset : Nat) : Res Nat := do
  if data = [] then .err .uninitializedElement else
  let len : Nat := data.length
  let t ← idx data start
  if t = 0x06 ∨ t = 0x0A ∨ t = 0xFF ∨ t = 0x7F then .ok 0
  else if t = 0x01 then
    if len < u32 (offset + 8) then .err .tooSmall else .ok 8
  else if t = 0x02 ∨ t = 0x0D ∨ t = 0x0E then
    if len < u32 (offset + 4) then .err .tooSmall else do
    let l ← readi32 (← slice data offset (u32 (offset + 4)))
    if i32 (i32 (i32 offset + 4) + l) > i32 len then .err .tooSmall
    else .ok (u32 (4 + u32i l))
  else if t = 0x03 ∨ t = 0x04 then
    if len < u32 (offset + 4) then .err .tooSmall else do
    let l ← readi32 (← slice data offset (u32 (offset + 4)))
    if l < 5 then .err .invalidReadOnlyDocument
    else if i32 (i32 offset + l) > i32 len then .err .tooSmall
    else .ok (u32 (4 + u32i (u32i l - 4)))
  else if t = 0x05 then
    if len < u32 (offset + 5) then .err .tooSmall else do
    let l ← readi32 (← slice data offset (u32 (offset + 4)))
    let st ← idx data (u32 (offset + 4))
    if st > 0x05 ∧ st < 0x80 then .err .invalidBinarySubtype
    else if i32 (i32 (i32 offset + 5) + l) > i32 len then .err .tooSmall
    else .ok (u32 (5 + u32i l))
  else if t = 0x07 then
    if len < u32 (offset + 12) then .err .tooSmall else .ok 12
  else if t = 0x08 then
    if len < u32 (offset + 1) then .err .tooSmall else do
    let v ← idx data offset
    if v ≠ 0 ∧ v ≠ 1 then .err .invalidBooleanType else .ok 1
  else if t = 0x09 then
    if len < u32 (offset + 8) then .err .tooSmall else .ok 8
  else if t = 0x0B then
    if offset > len then .panic else
    let n := (cstrAt data offset).length
    if offset + n ≥ len then .err .invalidString else
    let m := (cstrAt data (offset + n + 1)).length
    if offset + n + 1 + m ≥ len then .err .invalidString
    else .ok (u32 (n + 1 + m + 1))
  else if t = 0x0C then
    if len < u32 (offset + 4) then .err .tooSmall else do
    let l ← readi32 (← slice data offset (u32 (offset + 4)))
    if i32 (i32 (i32 (i32 offset + 4) + l) + 12) > i32 len then .err .tooSmall
    else .ok (u32 (4 + u32i l + 12))
  else if t = 0x0F then
    if len < u32 (offset + 4) then .err .tooSmall else do
    let l ← readi32 (← slice data offset (u32 (offset + 4)))
    if i32 (i32 offset + l) > i32 len then .err .tooSmall
    else .ok (u32 (4 + u32i (u32i l - 4)))
  else if t = 0x10 then
    if len < u32 (offset + 4) then .err .tooSmall else .ok 4
  else if t = 0x11 ∨ t = 0x12 then
    if len < u32 (offset + 8) then .err .tooSmall else .ok 8
  else if t = 0x13 then
    if len < u32 (offset + 16) then .err .tooSmall else .ok 16
  else .err .invalidElement

/-- `Reader.validateKey` (reader.go:88-102): length of the C-string at `pos`, including
    its NUL.  The index loop is written as a scan; reading past the end of the
    slice before reaching `end_` is a panic. -/
def readerKey (r : Bytes) (pos end_ : Nat) : Res Nat :=
  let n := ((r.take end_).drop pos).takeWhile (· ≠ 0) |>.length
  if pos + n = end_ then .err .invalidKey
  else if pos + n ≥ r.length then .panic
  else .ok (n + 1)

/-- `getReader` for a value with `d == nil` (value.go:576-581). -/
def rawReader (data : Bytes) (offset : Nat) : Res Bytes := do
  let l ← readi32 (← slice data offset (u32 (offset + 4)))
  slice data offset (u32 (offset + u32i l))

/-- the checks at the top of `readElements` (reader.go:240-252); returns `end` -/
def readerEnd (r : Bytes) : Res Nat :=
  if r.length < 5 then .err .tooSmall else do
  let given ← readi32 r
  if (r.length : Int) < given ∨ given < 0 then .err .invalidLength
  else .ok (u32i given)

/-- The loop of `readElements` with the callback of `Reader.Validate`
    (reader.go:73-84, 239-305).  The nested call
    `elem.value.ReaderDocument().Validate()` is the recursive call on the sub-slice.
    (`Type()` panics when the value offset is 0; here `pos < off ≤ end_ < 2^32`.) -/
def validateLoop : Nat → Bytes → Nat → Nat → Res Nat
  | 0, _, _, _ => .oof
  | fuel + 1, r, pos, end_ =>
    if pos ≥ end_ then .err .invalidReadOnlyDocument else do
    let t ← idx r pos
    if t = 0 then .ok (u32 (pos + 1)) else do
    let n ← readerKey r (u32 (pos + 1)) end_
    let off := u32 (u32 (pos + 1) + n)
    let m ← rawSize r pos off
    let pos' := u32 (off + m)
    if t = 0x03 ∨ t = 0x04 then do
      -- ReaderDocument / ReaderArray (value.go:553-563, 640-650)
      let sub ← rawReader r off
      let e ← readerEnd sub
      let _ ← validateLoop fuel sub 4 e
      validateLoop fuel r pos' end_
    else validateLoop fuel r pos' end_

/-- `Reader.Validate` (reader.go:73-84). -/
def readerValidate (fuel : Nat) (r : Bytes) : Res Nat := do
  let e ← readerEnd r
  validateLoop fuel r 4 e

/-- `validate(false)` for a value with `d == nil` (value.go:198-482).  Types whose
    treatment does not depend on `sizeOnly` are delegated to `rawSize`. -/
def rawValidate (fuel : Nat) (data : Bytes) (start offset : Nat) : Res Nat := do
  if data = [] then .err .uninitializedElement else
  let len : Nat := data.length
  let t ← idx data start
  if t = 0x02 ∨ t = 0x0D ∨ t = 0x0E then
    if len < u32 (offset + 4) then .err .tooSmall else do
    let l ← readi32 (← slice data offset (u32 (offset + 4)))
    if i32 (i32 (i32 offset + 4) + l) > i32 len then .err .tooSmall else do
    let last ← idx data (u32i ((offset : Int) + 4 + u32i l - 1))
    if last ≠ 0 then .err .invalidString else .ok (u32 (4 + u32i l))
  else if t = 0x03 ∨ t = 0x04 then
    if len < u32 (offset + 4) then .err .tooSmall else do
    let l ← readi32 (← slice data offset (u32 (offset + 4)))
    if l < 5 then .err .invalidReadOnlyDocument
    else if i32 (i32 offset + l) > i32 len then .err .tooSmall else do
    let n ← readerValidate fuel (← slice data offset (u32 (offset + u32i l)))
    .ok (u32i (4 + ((n : Int) - 4)))
  else if t = 0x0F then
    if len < u32 (offset + 4) then .err .tooSmall else do
    let l ← readi32 (← slice data offset (u32 (offset + 4)))
    if i32 (i32 offset + l) > i32 len then .err .tooSmall else do
    let sl ← readi32 (← slice data (u32 (offset + 4)) (u32 (offset + 8)))
    if sl > i32 (l - 13) then .err .stringLargerThanContainer else do
    let last ← idx data (u32i ((offset : Int) + 8 + u32i sl - 1))
    if last ≠ 0 then .err .invalidString else do
    let n ← readerValidate fuel (← slice data (u32 (offset + 8 + u32i sl)) (u32 (offset + u32i l)))
    .ok (u32 (8 + u32i sl + n))
  else rawSize data start offset

/-- the key part of `Element.Validate` (`validateKey`, element.go:74-98): length of the key
    including its NUL.  The loop is written as a scan. -/
def elemKeyLen (data : Bytes) (start offset : Nat) : Res Nat :=
  if data = [] then .err .uninitializedElement else
  let end_ := min offset data.length
  let n := ((data.take end_).drop (start + 1)).takeWhile (· ≠ 0) |>.length
  if start + 1 + n = end_ then .err .invalidKey
  else if start + 1 + n < data.length then
    (if data[start + 1 + n]? = some 0 then .ok (n + 1) else .err .invalidKey)
  else .panic

mutual
/-- `(*Value).validate(sizeOnly)` (value.go:198-482), all cases. -/
def valueValidate (fuel : Nat) : Bool → Value → Res Nat
  | sizeOnly, .raw start offset data =>
      if sizeOnly then rawSize data start offset else rawValidate fuel data start offset
  | sizeOnly, .withDoc start offset data d => do
      if data = [] then .err .uninitializedElement else
      let t ← idx data start
      if t = 0x03 then elemsValidate fuel 5 d
      else if t = 0x04 then arrElemsValidate fuel 5 0 d
      else if t = 0x0F then
        if data.length < u32 (offset + 8) then .err .tooSmall else do
        let sl ← readi32 (← slice data (u32 (offset + 4)) (u32 (offset + 8)))
        if sl > (data.length : Int) + 8 then .err .tooSmall else do
        let last ← if sizeOnly then .ok 0 else idx data (u32i ((offset : Int) + 8 + u32i sl - 1))
        if last ≠ 0 then .err .invalidString else do
        let n ← elemsValidate fuel 5 d
        .ok (u32 (8 + u32i sl + n))
      -- a parsed document attached to any other type is ignored by `validate`
      else if sizeOnly then rawSize data start offset else rawValidate fuel data start offset

/-- the loop of `Document.Validate` (document.go:205-216), where `size` is the running
    total; the element part is `Element.Validate` (element.go:46-72) -/
def elemsValidate (fuel : Nat) : Nat → List Value → Res Nat
  | size, [] => .ok size
  | size, v :: rest => do
      let k ← elemKeyLen v.data v.start v.offset
      let n ← valueValidate fuel false v
      elemsValidate fuel (u32 (size + u32 (1 + k + n))) rest

/-- the loop of `Array.Validate` (array.go:55-71) from index `i`; `size` is the
    running total -/
def arrElemsValidate (fuel : Nat) : Nat → Nat → List Value → Res Nat
  | size, _, [] => .ok size
  | size, i, v :: rest => do
      let n ← valueValidate fuel false v
      arrElemsValidate fuel (u32 (size + 1 + ((itoa i).length + 1) + n)) (i + 1) rest
end

/-- `Element.Validate` (element.go:46-72) -/
def elemValidate (fuel : Nat) (v : Value) : Res Nat := do
  let k ← elemKeyLen v.data v.start v.offset
  let n ← valueValidate fuel false v
  .ok (u32 (1 + k + n))

/-- `Document.Validate` (document.go:199-217), for a non-nil document -/
def docValidate (fuel : Nat) (d : Doc) : Res Nat := elemsValidate fuel 5 d

/-- `Array.Validate` (array.go:54-72) -/
def arrValidate (fuel : Nat) (d : Doc) : Res Nat := arrElemsValidate fuel 5 0 d

/-! ### Reading documents -/

/-- `newReaderIterator` (iterator.go:64-81); returns `end` -/
def iterEnd (r : Bytes) : Res Nat :=
  if r.length < 5 then .err .tooSmall else do
  let given ← readi32 r
  if (r.length : Int) < given then .err .invalidLength
  else .ok (u32i given)

/-- `readerIterator.Next` repeated until it returns false (iterator.go:86-123), collecting
    the elements as `UnmarshalBSON` does (document.go:293-299). -/
def iterLoop : Nat → Bytes → Nat → Nat → Res (List Value)
  | 0, _, _, _ => .oof
  | fuel + 1, r, pos, end_ =>
    if pos ≥ end_ then .err .invalidReadOnlyDocument else do
    let t ← idx r pos
    if t = 0 then .ok [] else do
    let n ← readerKey r (u32 (pos + 1)) end_
    let off := u32 (u32 (pos + 1) + n)
    let m ← rawSize r pos off
    let rest ← iterLoop fuel r (u32 (off + m)) end_
    .ok (.raw pos off r :: rest)

/-- `Document.UnmarshalBSON` / `ReadDocument` (document.go:34-42, 288-302).  The elements
    collected before an error are not modelled (`ReadDocument` drops them). -/
def readDocument (fuel : Nat) (b : Bytes) : Res Doc := do
  let e ← iterEnd b
  iterLoop fuel b 4 e

end Birch.Model
