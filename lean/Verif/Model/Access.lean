import Verif.Model.Write

/-
Model of the typed accessors of `Value` (value.go:491-1164) and of `Element.Key`.

A nil receiver is not modelled.  Accessors that parse a nested document return it;
that they also store it in the value (`v.d`) is modelled by the `open*` functions.
-/

namespace Birch.Model
open Birch

/-- `Element.Key` (element.go:102-108) -/
def key (v : Value) : Res Bytes :=
  if v.offset = 0 ∨ v.data = [] then .ok [] else
  slice v.data (v.start + 1) (v.offset - 1)

/-- `Value.Type` (value.go:491-497) -/
def type (v : Value) : Res UInt8 :=
  if v.offset = 0 ∨ v.data = [] then .panic else idx v.data v.start

/-- the checks at the top of every typed accessor: initialized and of type `t`
    (e.g. value.go:502-508); both failures panic -/
def expect (t : UInt8) (v : Value) : Res Unit :=
  if v.offset = 0 ∨ v.data = [] then .panic else do
  let t' ← idx v.data v.start
  if t' ≠ t then .panic else .ok ()

/-- The `XOK` variants (e.g. value.go:514-520): `none` when uninitialized or of
    another type, otherwise the result of `X`. -/
def okVariant {α : Type} (t : UInt8) (f : Value → Res α) (v : Value) : Res (Option α) :=
  if v.offset = 0 ∨ v.data = [] then .ok none else do
  let t' ← idx v.data v.start
  if t' ≠ t then .ok none else do
  .ok (some (← f v))

/-- `getUint64` (value.go:1095-1097) -/
def getUint64 (v : Value) : Res Nat := do
  rdU64 (← slice v.data v.offset (u32 (v.offset + 8)))

/-- value.go:501-511, as bit pattern -/
def double (v : Value) : Res Nat := do
  expect 0x01 v
  getUint64 v

/-- the string at the value offset (value.go:536-538) -/
def getString (v : Value) : Res Bytes := do
  let l ← readi32 (← slice v.data v.offset (u32 (v.offset + 4)))
  sliceI v.data (u32 (v.offset + 4)) (i32 (i32 v.offset + 4 + l - 1))

/-- value.go:527-539 -/
def stringValue (v : Value) : Res Bytes := do
  expect 0x02 v
  getString v

/-- value.go:901-913 -/
def javaScript (v : Value) : Res Bytes := do
  expect 0x0D v
  getString v

/-- value.go:927-939 -/
def symbol (v : Value) : Res Bytes := do
  expect 0x0E v
  getString v

/-- error-to-panic (`if err != nil { panic(err) }`) -/
def orPanic {α : Type} : Res α → Res α
  | .err _ => .panic
  | r => r

/-- `getReader` (value.go:576-592) -/
def getReader (fuel : Nat) : Value → Res Bytes
  | .raw _ offset data => rawReader data offset
  | .withDoc _ _ _ d => orPanic (docMarshal fuel d)

/-- `ReaderDocument` (value.go:553-563) -/
def readerDocument (fuel : Nat) (v : Value) : Res Bytes := do
  expect 0x03 v
  getReader fuel v

/-- `ReaderArray` (value.go:640-650) -/
def readerArray (fuel : Nat) (v : Value) : Res Bytes := do
  expect 0x04 v
  getReader fuel v

/-- the lazy parse of `MutableDocument`/`MutableArray` (value.go:614-625, 672-683) -/
def getDoc (fuel : Nat) : Value → Res Doc
  | .raw _ offset data => orPanic do
      let l ← rdU32 (← slice data offset (u32 (offset + 4)))
      readDocument fuel (← slice data offset (u32 (offset + u32i (i32 l))))
  | .withDoc _ _ _ d => .ok d

/-- `MutableDocument` (value.go:605-626) -/
def mutableDocument (fuel : Nat) (v : Value) : Res Doc := do
  expect 0x03 v
  getDoc fuel v

/-- `MutableArray` (value.go:663-684) -/
def mutableArray (fuel : Nat) (v : Value) : Res Doc := do
  expect 0x04 v
  getDoc fuel v

/-- `Binary` (value.go:698-720); `make([]byte, l)` panics for negative `l` -/
def binary (v : Value) : Res (UInt8 × Bytes) := do
  expect 0x05 v
  let l ← readi32 (← slice v.data v.offset (u32 (v.offset + 4)))
  let st ← idx v.data (u32 (v.offset + 4))
  if st = 0x02 then do
    let l ← readi32 (← slice v.data (u32 (v.offset + 5)) (u32 (v.offset + 9)))
    if l < 0 then .panic else do
    let b ← sliceI v.data (u32 (v.offset + 9)) (i32 (i32 v.offset + 9 + l))
    .ok (st, b)
  else do
    if l < 0 then .panic else do
    let b ← sliceI v.data (u32 (v.offset + 5)) (i32 (i32 v.offset + 5 + l))
    .ok (st, b)

/-- `ObjectID` (value.go:736-750) -/
def objectID (v : Value) : Res Bytes := do
  expect 0x07 v
  slice v.data v.offset (u32 (v.offset + 12))

/-- `Boolean` (value.go:766-776) -/
def boolean (v : Value) : Res Bool := do
  expect 0x08 v
  let x ← idx v.data v.offset
  .ok (x = 1)

/-- `DateTime` (value.go:790-800) -/
def dateTime (v : Value) : Res Int := do
  expect 0x09 v
  let n ← getUint64 v
  .ok (i64 n)

/-- the scan `for ; v.data[i] != 0; i++ {}` (value.go:840): the first NUL from `i` on; runs
    off the slice (panic) when there is none -/
def scanNul (b : Bytes) (i : Nat) : Res Nat :=
  let n := (cstrAt b i).length
  if i + n < b.length then .ok (i + n) else .panic

/-- `Regex` (value.go:821-853) -/
def regex (v : Value) : Res (Bytes × Bytes) := do
  expect 0x0B v
  let pend ← scanNul v.data v.offset
  let oend ← scanNul v.data (pend + 1)
  let p ← slice v.data v.offset pend
  let o ← slice v.data (pend + 1) oend
  .ok (p, o)

/-- `DBPointer` (value.go:867-883) -/
def dbPointer (v : Value) : Res (Bytes × Bytes) := do
  expect 0x0C v
  let l ← readi32 (← slice v.data v.offset (u32 (v.offset + 4)))
  let p ← slice v.data (u32 (v.offset + 4 + u32i l)) (u32 (v.offset + 4 + u32i l + 12))
  let s ← sliceI v.data (u32 (v.offset + 4)) (i32 (i32 v.offset + 4 + l - 1))
  .ok (s, p)

/-- the code string of `ReaderJavaScriptWithScope` / `MutableJavaScriptWithScope`
    (value.go:953-957, 1001-1005) and its length field -/
def getCode (v : Value) : Res (Bytes × Int) := do
  let sl ← readi32 (← slice v.data (u32 (v.offset + 4)) (u32 (v.offset + 8)))
  let s ← slice v.data (u32 (v.offset + 8)) (u32i ((v.offset : Int) + 8 + u32i sl - 1))
  .ok (s, sl)

/-- `ReaderJavaScriptWithScope` (value.go:944-974) -/
def readerCodeWithScope (fuel : Nat) (v : Value) : Res (Bytes × Bytes) := do
  expect 0x0F v
  let (s, sl) ← getCode v
  match v with
  | .raw _ offset data => do
      let l ← readi32 (← slice data offset (u32 (offset + 4)))
      let r ← slice data (u32 (offset + 8 + u32i sl)) (u32 (offset + u32i l))
      .ok (s, r)
  | .withDoc _ _ _ d => do
      let r ← orPanic (docMarshal fuel d)
      .ok (s, r)

/-- `MutableJavaScriptWithScope` (value.go:990-1017) -/
def mutableCodeWithScope (fuel : Nat) (v : Value) : Res (Bytes × Doc) := do
  expect 0x0F v
  let l ← rdU32 (← slice v.data v.offset (u32 (v.offset + 4)))
  let (s, sl) ← getCode v
  match v with
  | .raw _ offset data => do
      let d ← orPanic do
        readDocument fuel (← slice data (u32 (offset + 8 + u32i sl)) (u32 (offset + u32i (i32 l))))
      .ok (s, d)
  | .withDoc _ _ _ d => .ok (s, d)

/-- `Int32` (value.go:1033-1043) -/
def int32 (v : Value) : Res Int := do
  expect 0x10 v
  readi32 (← slice v.data v.offset (u32 (v.offset + 4)))

/-- `Timestamp` (value.go:1057-1067) -/
def timestamp (v : Value) : Res (Nat × Nat) := do
  expect 0x11 v
  let t ← rdU32 (← slice v.data (u32 (v.offset + 4)) (u32 (v.offset + 8)))
  let i ← rdU32 (← slice v.data v.offset (u32 (v.offset + 4)))
  .ok (t, i)

/-- `Int64` (value.go:1083-1093) -/
def int64 (v : Value) : Res Int := do
  expect 0x12 v
  let n ← getUint64 v
  .ok (i64 n)

/-- `Decimal128` (value.go:1142-1154) as the pair (high, low) given to `NewDecimal128` -/
def decimal128 (v : Value) : Res (Nat × Nat) := do
  expect 0x13 v
  let h ← rdU64 (← slice v.data v.offset (u32 (v.offset + 8)))
  let l ← rdU64 (← slice v.data (u32 (v.offset + 8)) (u32 (v.offset + 16)))
  .ok (h, l)

/-! The `XOK` variants. -/

/-- value.go:514-520 -/
def doubleOK := okVariant 0x01 double
/-- value.go:543-549 -/
def stringValueOK := okVariant 0x02 stringValue
/-- value.go:596-602 -/
def readerDocumentOK (fuel : Nat) := okVariant 0x03 (readerDocument fuel)
/-- value.go:630-636 -/
def mutableDocumentOK (fuel : Nat) := okVariant 0x03 (mutableDocument fuel)
/-- value.go:654-660 -/
def readerArrayOK (fuel : Nat) := okVariant 0x04 (readerArray fuel)
/-- value.go:688-694 -/
def mutableArrayOK (fuel : Nat) := okVariant 0x04 (mutableArray fuel)
/-- value.go:724-732 -/
def binaryOK := okVariant 0x05 binary
/-- value.go:754-762 -/
def objectIDOK := okVariant 0x07 objectID
/-- value.go:780-786 -/
def booleanOK := okVariant 0x08 boolean
/-- value.go:857-863 -/
def dateTimeOK := okVariant 0x09 dateTime
/-- value.go:887-897 -/
def dbPointerOK := okVariant 0x0C dbPointer
/-- value.go:917-923 -/
def javaScriptOK := okVariant 0x0D javaScript
/-- value.go:978-986 -/
def readerCodeWithScopeOK (fuel : Nat) := okVariant 0x0F (readerCodeWithScope fuel)
/-- value.go:1021-1029 -/
def mutableCodeWithScopeOK (fuel : Nat) := okVariant 0x0F (mutableCodeWithScope fuel)
/-- value.go:1047-1053 -/
def int32OK := okVariant 0x10 int32
/-- value.go:1071-1079 -/
def timestampOK := okVariant 0x11 timestamp
/-- value.go:1132-1138 -/
def int64OK := okVariant 0x12 int64
/-- value.go:1158-1164 -/
def decimal128OK := okVariant 0x13 decimal128

/-- `Int` (value.go:1102-1112) -/
def int (v : Value) : Res Int := do
  match ← int32OK v with
  | some i => .ok i
  | none =>
    match ← int64OK v with
    | some i => .ok i
    | none => .panic

/-- `IntOK` (value.go:1118-1128) -/
def intOK (v : Value) : Res (Option Int) :=
  if v.offset = 0 ∨ v.data = [] then .ok none else do
  let t ← idx v.data v.start
  if t ≠ 0x12 ∧ t ≠ 0x10 then .ok none else do
  .ok (some (← int v))

/-- The effect of `MutableDocument`/`MutableArray`/`MutableJavaScriptWithScope` on the value
    itself: `v.d` is set to the parsed document (value.go:614-625, 672-681, 1007-1014). -/
def openValue (fuel : Nat) (v : Value) : Res Value := do
  let t ← type v
  if t = 0x03 then do .ok (.withDoc v.start v.offset v.data (← mutableDocument fuel v))
  else if t = 0x04 then do .ok (.withDoc v.start v.offset v.data (← mutableArray fuel v))
  else if t = 0x0F then do
    let (_, d) ← mutableCodeWithScope fuel v
    .ok (.withDoc v.start v.offset v.data d)
  else .panic

end Birch.Model
