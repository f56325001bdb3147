/-
Base vocabulary of the model: byte strings, the outcome of a Go call, wrapping
integer conversions, bounds-checked slicing and little-endian integers.
-/

namespace Birch

/-- A Go `[]byte`/`string` as the list of its bytes. Capacity is not modelled. -/
abbrev Bytes := List UInt8

/-- The error values of the modelled functions that are told apart by callers.
    (bsonerr/errors.go, bson.go, elements/elements.go:28) -/
inductive Err where
  | tooSmall | invalidLength | invalidReadOnlyDocument | invalidKey | invalidString
  | invalidBinarySubtype | invalidBooleanType | invalidElement | stringLargerThanContainer
  | uninitializedElement | nilElement | nilDocument | elementNotFound | outOfBounds
  | invalidDepthTraversal | emptyKey | invalidArrayKey | eof | unexpectedEOF | other
  deriving DecidableEq, Repr

/-- Outcome of a Go call: a value, an error value, a run-time panic, or `oof`
    ("out of fuel"), which marks an unfinished run of a loop given too little fuel. -/
inductive Res (α : Type) where
  | ok (a : α)
  | err (e : Err)
  | panic
  | oof
  deriving DecidableEq, Repr

namespace Res

@[inline] protected def bind {α β : Type} : Res α → (α → Res β) → Res β
  | ok a, f => f a
  | err e, _ => err e
  | panic, _ => panic
  | oof, _ => oof

instance : Monad Res where
  pure := ok
  bind := Res.bind

@[simp] theorem bind_ok {α β : Type} (a : α) (f : α → Res β) : ((ok a : Res α) >>= f) = f a := id rfl
@[simp] theorem bind_err {α β : Type} (e : Err) (f : α → Res β) : ((err e : Res α) >>= f) = err e := id rfl
@[simp] theorem bind_panic {α β : Type} (f : α → Res β) : ((panic : Res α) >>= f) = panic := id rfl
@[simp] theorem bind_oof {α β : Type} (f : α → Res β) : ((oof : Res α) >>= f) = oof := id rfl
@[simp] theorem pure_eq {α : Type} (a : α) : (pure a : Res α) = ok a := id rfl

theorem bind_eq_ok {α β : Type} {x : Res α} {f : α → Res β} {b : β} :
    (x >>= f) = ok b ↔ ∃ a, x = ok a ∧ f a = ok b := by
  cases x <;> simp

end Res

/-- "The call returns `r`": every run with enough fuel gives `r`. -/
def Returns {α : Type} (f : Nat → Res α) (r : Res α) : Prop := ∃ n, ∀ m, n ≤ m → f m = r

/-- "The call never returns": no amount of fuel finishes it. -/
def Diverges {α : Type} (f : Nat → Res α) : Prop := ∀ n, f n = .oof

/-! ### Go integer conversions (wrap-around) -/

/-- conversion to `uint32` of a non-negative number (wraps modulo 2^32) -/
def u32 (n : Nat) : Nat := n % 4294967296
/-- conversion to `uint32` of a signed number -/
def u32i (z : Int) : Nat := (z % 4294967296).toNat
/-- conversion to `int32` (wraps modulo 2^32 into [-2^31, 2^31)) -/
def i32 (z : Int) : Int := (z + 2147483648) % 4294967296 - 2147483648
/-- conversion to `int64` -/
def i64 (z : Int) : Int := (z + 9223372036854775808) % 18446744073709551616 - 9223372036854775808
/-- conversion to `uint64` of a signed number -/
def u64i (z : Int) : Nat := (z % 18446744073709551616).toNat

/-! ### Bounds-checked indexing -/

/-- `b[i]` -/
def idx (b : Bytes) (i : Nat) : Res UInt8 :=
  match b[i]? with
  | some x => .ok x
  | none => .panic

/-- `b[lo:hi]`; panics unless `lo ≤ hi ≤ len b` (Go: `≤ cap b`). -/
def slice (b : Bytes) (lo hi : Nat) : Res Bytes :=
  if lo ≤ hi ∧ hi ≤ b.length then .ok ((b.take hi).drop lo) else .panic

/-- `b[lo:hi]` where `hi` is a signed index: a negative bound panics. -/
def sliceI (b : Bytes) (lo : Nat) (hi : Int) : Res Bytes :=
  if 0 ≤ hi then slice b lo hi.toNat else .panic

/-- `copy(dst[at:], src)` with the new contents of `dst`; panics when `at > len dst`. -/
def copyAt (dst : Bytes) (at_ : Nat) (src : Bytes) : Res (Nat × Bytes) :=
  if at_ ≤ dst.length then
    let n := min src.length (dst.length - at_)
    .ok (n, dst.take at_ ++ src.take n ++ dst.drop (at_ + n))
  else .panic

/-! ### Little-endian integers -/

/-- little-endian bytes of a 32 bit number (`PutUint32`) -/
def le32 (n : Nat) : Bytes :=
  [UInt8.ofNat n, UInt8.ofNat (n / 256), UInt8.ofNat (n / 65536), UInt8.ofNat (n / 16777216)]

/-- little-endian bytes of a 64 bit number (`PutUint64`) -/
def le64 (n : Nat) : Bytes := le32 n ++ le32 (n / 4294967296)

/-- `binary.LittleEndian.Uint32` of a slice; indexing past the end panics. -/
def rdU32 : Bytes → Res Nat
  | a :: b :: c :: d :: _ => .ok (a.toNat + b.toNat * 256 + c.toNat * 65536 + d.toNat * 16777216)
  | _ => .panic

/-- `binary.LittleEndian.Uint64` of a slice -/
def rdU64 (b : Bytes) : Res Nat := do
  let lo ← rdU32 b
  let hi ← rdU32 (b.drop 4)
  return lo + hi * 4294967296

/-- `readi32` (reader.go:308-311) -/
def readi32 (b : Bytes) : Res Int := do
  let n ← rdU32 b
  return i32 n

end Birch
