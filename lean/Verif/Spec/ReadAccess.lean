import Verif.Base

/- What the length fields inside a byte string say. -/

namespace Birch.Spec
open Birch

/-- the little-endian signed 32-bit number at position `i`, if there are four bytes -/
def int32At (b : Bytes) (i : Nat) : Option Int :=
  match b.drop i with
  | x0 :: x1 :: x2 :: x3 :: _ =>
    let n := x0.toNat + x1.toNat * 256 + x2.toNat * 65536 + x3.toNat * 16777216
    some (if n < 2147483648 then n else (n : Int) - 4294967296)
  | _ => none

/-- the length field of the string at position `i` says at least 1 (for the NUL) and the string ends within `b` -/
def StringFits (b : Bytes) (i : Nat) : Prop := ∃ n, int32At b i = some n ∧ 1 ≤ n ∧ i + 4 + n ≤ b.length

/-- the length field of the binary at position `i` is not negative and it ends within `b`; for the old subtype 2, in which the
    length is repeated, only the inner length field matters -/
def BinaryFits (b : Bytes) (i : Nat) : Prop :=
  if b[i + 4]? = some 0x02 then ∃ m, int32At b (i + 5) = some m ∧ 0 ≤ m ∧ i + 9 + m ≤ b.length
  else ∃ n, int32At b i = some n ∧ 0 ≤ n ∧ i + 5 + n ≤ b.length

/-- the string of the database pointer at position `i` fits, and twelve bytes after it -/
def PointerFits (b : Bytes) (i : Nat) : Prop := ∃ n, int32At b i = some n ∧ 1 ≤ n ∧ i + 4 + n + 12 ≤ b.length

/-- code with scope at position `i`: the code fits before the end that its length field gives -/
def CodeFits (b : Bytes) (i : Nat) : Prop := ∃ n m, int32At b i = some n ∧ int32At b (i + 4) = some m ∧ 1 ≤ m ∧ 8 + m ≤ n ∧ i + n ≤ b.length

/-- the embedded document at position `i` ends within `b` -/
def DocumentFits (b : Bytes) (i : Nat) : Prop := ∃ n, int32At b i = some n ∧ i + n ≤ b.length

/-- the call returns a value when `P` holds and panics when it does not -/
def Exactly {α : Type} (r : Res α) (P : Prop) : Prop := (P → ∃ a, r = .ok a) ∧ (¬ P → r = .panic)

end Birch.Spec
