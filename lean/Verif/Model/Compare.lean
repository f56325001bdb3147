import Verif.Model.Access

/-
Model of `Value.IsEmpty` (value.go:133-190), `Elements.Less` (x_document.go:41-72), `Value.Time`
and `Value.Equal` / `Element.Equal`.
-/

namespace Birch.Model
open Birch

/-! ### float64 comparison on bit patterns -/

/-- the number order of doubles: `none` for NaN, otherwise sign and magnitude as an integer
    (both zeros give 0) -/
def f64Ord (bits : Nat) : Option Int :=
  let mag := bits % 9223372036854775808
  if mag > 0x7FF0000000000000 then none
  else if bits / 9223372036854775808 % 2 = 1 then some (-(mag : Int)) else some mag

/-- `a < b` -/
def f64Lt (a b : Nat) : Bool :=
  match f64Ord a, f64Ord b with
  | some x, some y => x < y
  | _, _ => false

/-- `a == 0.0` -/
def f64IsZero (a : Nat) : Bool := f64Ord a = some 0

/-! ### time.Time (standard library): seconds and nanoseconds since 1970, nanoseconds in [0, 10^9) -/

structure Time where
  sec : Int
  nsec : Int
  deriving DecidableEq

/-- `time.Unix`: brings the nanoseconds into range.  Go's `/` and `%` truncate. -/
def timeUnix (sec nsec : Int) : Time :=
  if nsec < 0 ∨ nsec ≥ 1000000000 then
    let n := nsec.tdiv 1000000000
    let sec := sec + n
    let nsec := nsec - n * 1000000000
    if nsec < 0 then ⟨sec - 1, nsec + 1000000000⟩ else ⟨sec, nsec⟩
  else ⟨sec, nsec⟩

/-- `t.Before(u)` -/
def Time.before (t u : Time) : Bool := t.sec < u.sec ∨ (t.sec = u.sec ∧ t.nsec < u.nsec)

/-- `Value.Time` (value.go:804-807) -/
def time (v : Value) : Res Time := do
  let i ← dateTime v
  .ok (timeUnix (i.tdiv 1000) (i64 (i.tmod 1000 * 1000000)))

/-- `TimeOK` (value.go:811-817) -/
def timeOK := okVariant 0x09 time

/-! ### IsEmpty -/

/-- `IsEmpty` (value.go:133-190) of a non-nil value -/
def isEmpty (fuel : Nat) (v : Value) : Res Bool := do
  let t ← type v
  if t = 0x01 then do .ok (f64IsZero (← double v))
  else if t = 0x02 then do .ok ((← stringValue v) = [])
  else if t = 0x03 then do .ok ((← mutableDocument fuel v).length = 0)
  else if t = 0x04 then do .ok ((← mutableArray fuel v).length = 0)
  else if t = 0x05 then do .ok ((← binary v).2.length = 0)
  else if t = 0x06 then .ok true
  else if t = 0x07 then .ok true
  else if t = 0x08 then do .ok !(← boolean v)
  else if t = 0x09 then do .ok ((← dateTime v) = 0)
  else if t = 0x0A then .ok false
  else if t = 0x0B then do .ok ((← regex v).1 = [])
  else if t = 0x0C then do .ok ((← dbPointer v).1 = [])
  else if t = 0x0D then do .ok ((← javaScript v) = [])
  else if t = 0x0E then do .ok ((← symbol v) = [])
  else if t = 0x0F then do .ok ((← mutableCodeWithScope fuel v).1 = [])
  else if t = 0x10 then do .ok ((← int32 v) = 0)
  else if t = 0x11 then do
    let (t, i) ← timestamp v
    .ok (t = 0 ∧ i = 0)
  else if t = 0x12 then do .ok ((← int64 v) = 0)
  else if t = 0x13 then do
    let (h, l) ← decimal128 v
    .ok (h = 0 ∧ l = 0)
  else .ok false

/-! ### Less -/

/-- Go's `<` on strings: bytewise lexicographic -/
def strLt : Bytes → Bytes → Bool
  | _, [] => false
  | [], _ :: _ => true
  | a :: as, b :: bs => a < b ∨ (a = b ∧ strLt as bs)

/-- lower-case hexadecimal digit -/
def hexDigit (n : Nat) : UInt8 := UInt8.ofNat (if n < 10 then 48 + n else 87 + n)

/-- `hex.EncodeToString` (standard library), used by `ObjectID.Hex` (types/objectid.go:50-52) -/
def hexEncode : Bytes → Bytes
  | [] => []
  | b :: r => hexDigit (b.toNat / 16) :: hexDigit (b.toNat % 16) :: hexEncode r

/-- `Elements.Less` (x_document.go:41-72) -/
def less (v w : Value) : Res Bool := do
  let ik ← key v
  let jk ← key w
  if ik ≠ jk then .ok (strLt ik jk) else do
  let it ← type v
  let jt ← type w
  if it ≠ jt then .ok (it < jt)
  else if it = 0x01 then do .ok (f64Lt (← double v) (← double w))
  else if it = 0x02 then do .ok (strLt (← stringValue v) (← stringValue w))
  else if it = 0x07 then do .ok (strLt (hexEncode (← objectID v)) (hexEncode (← objectID w)))
  else if it = 0x09 then do .ok ((← time v).before (← time w))
  else if it = 0x10 then do .ok ((← int32 v) < (← int32 w))
  else if it = 0x12 then do .ok ((← int64 v) < (← int64 w))
  else .ok false

/-! ### Equal -/

/-- `readLength` (x_value.go:41-47): `none` when fewer than four bytes are left -/
def readLength (src : Bytes) : Option Int :=
  match src with
  | a :: b :: c :: d :: _ => some (i32 (a.toNat + b.toNat * 256 + c.toNat * 65536 + d.toNat * 16777216 : Nat))
  | _ => none

/-- `bytes.IndexByte(src, 0)` -/
def indexNul (src : Bytes) : Option Nat := src.findIdx? (· = 0)

/-- the length computed by `readValue` (x_core.go:13-53); `none` when `ok` is false -/
def valueLength (src : Bytes) (t : UInt8) : Option Int :=
  if t = 0x04 ∨ t = 0x03 ∨ t = 0x0F then readLength src
  else if t = 0x05 then (readLength src).map fun l => i32 (l + 5)
  else if t = 0x08 then some 1
  else if t = 0x0C then (readLength src).map fun l => i32 (l + 16)
  else if t = 0x09 ∨ t = 0x01 ∨ t = 0x12 ∨ t = 0x11 then some 8
  else if t = 0x13 then some 16
  else if t = 0x10 then some 4
  else if t = 0x0D ∨ t = 0x02 ∨ t = 0x0E then (readLength src).map fun l => i32 (l + 4)
  else if t = 0x7F ∨ t = 0xFF ∨ t = 0x0A ∨ t = 0x06 then some 0
  else if t = 0x07 then some 12
  else if t = 0x0B then
    match indexNul src with
    | none => none
    | some r =>
      match indexNul (src.drop (r + 1)) with
      | none => none
      | some p => some (i32 (r + 1 + p + 1))
  else none

/-- `readValue` (x_core.go:9-60), without the remainder; slicing with a negative length panics -/
def readValue (src : Bytes) (t : UInt8) : Res (Option Bytes) :=
  match valueLength src t with
  | none => .ok none
  | some l => if l > src.length then .ok none else do .ok (some (← sliceI src 0 l))

/-- `checkEqualVal` (x_value.go:10-26) -/
def checkEqualVal (t1 t2 : UInt8) (v1 v2 : Bytes) : Res Bool := do
  if t1 ≠ t2 then .ok false else do
  match ← readValue v1 t1 with
  | none => .ok false
  | some b1 =>
    match ← readValue v2 t2 with
    | none => .ok false
    | some b2 => .ok (b1 = b2)

/-- `readstring` (x_value.go:28-39), without the remainder -/
def readstring (src : Bytes) : Res (Option Bytes) :=
  match readLength src with
  | none => .ok none
  | some l => if ((src.drop 4).length : Int) < l then .ok none else do .ok (some (← sliceI (src.drop 4) 0 (i32 (l - 1))))

/-- `appendCodeWithScope` with an empty destination (x_value.go:49-69) -/
def appendCodeWithScope (code scope : Bytes) : Bytes :=
  le32 (u32 (4 + 4 + code.length + 1 + scope.length)) ++ (le32 (u32 (code.length + 1)) ++ code ++ [0]) ++ scope

/-- `b[i:]` -/
def sliceFrom (b : Bytes) (i : Nat) : Res Bytes := if i ≤ b.length then .ok (b.drop i) else .panic

/-- `docToBytes` (value.go:1199-1224) -/
def docToBytes (fuel : Nat) (v : Value) (t : UInt8) : Res Bytes :=
  match v with
  | .raw _ o data => sliceFrom data o
  | .withDoc _ o data d =>
    if t = 0x03 then docMarshal fuel d
    else if t = 0x04 then arrMarshal fuel d
    else if t = 0x0F then do
      let scope ← docMarshal fuel d
      match ← readstring (← sliceFrom data (u32 (o + 4))) with
      | none => .err .other
      | some code => .ok (appendCodeWithScope code scope)
    else sliceFrom data o

/-- `if err != nil { return false }` -/
def orFalse (r : Res Bool) : Res Bool :=
  match r with
  | .err _ => .ok false
  | r => r

/-- `Value.Equal` (value.go:1171-1197) of two non-nil values -/
def equal (fuel : Nat) (v w : Value) : Res Bool := orFalse do
  let t1 ← idx v.data v.start
  let t2 ← idx w.data w.start
  if t1 ≠ t2 then .ok false else do
  let d1 ← docToBytes fuel v t1
  let d2 ← docToBytes fuel w t2
  checkEqualVal t1 t2 d1 d2

/-- `Element.Equal` (element.go:297-311) of two non-nil elements -/
def elemEqual (fuel : Nat) (v w : Value) : Res Bool := do
  if (← key v) ≠ (← key w) then .ok false else equal fuel v w

end Birch.Model
