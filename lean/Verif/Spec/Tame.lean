import Verif.Spec.Bson

/- Inputs without oversized length fields. -/

namespace Birch.Spec
open Birch

/-- the types whose value starts with an int32 length -/
def hasLength (t : UInt8) : Bool :=
  t = 0x02 ∨ t = 0x03 ∨ t = 0x04 ∨ t = 0x05 ∨ t = 0x0C ∨ t = 0x0D ∨ t = 0x0E ∨ t = 0x0F

/-- little-endian number in the first four bytes, if there are four -/
def lenAt : Bytes → Option Nat
  | a :: b :: c :: d :: _ => some (a.toNat + b.toNat * 256 + c.toNat * 65536 + d.toNat * 16777216)
  | _ => none

/-- Wherever the input looks like the head of an element with a length (type byte, key, NUL), the
    length that follows is not so large that it overflows int32 together with the size
    of the input.  (In particular it is not negative.) -/
def Tame (b : Bytes) : Prop :=
  ∀ (pre k rest : Bytes) (t : UInt8), b = pre ++ t :: (k ++ 0 :: rest) → NulFree k → hasLength t = true →
    ∀ n, lenAt rest = some n → n + b.length < 2147483648

end Birch.Spec
