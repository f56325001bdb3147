import Verif.Model.ObjectID

/- Vocabulary for ObjectIDs. -/

namespace Birch.Spec
open Birch Model

/-- a hexadecimal digit, as text -/
def IsHex (c : UInt8) : Prop := (48 ≤ c ∧ c ≤ 57) ∨ (97 ≤ c ∧ c ≤ 102) ∨ (65 ≤ c ∧ c ≤ 70)

/-- no upper-case letter -/
def NotUpper (c : UInt8) : Prop := ¬ (65 ≤ c ∧ c ≤ 90)

/-- the number of increments of the counter that a schedule asks for -/
def increments (evs : List GenEvent) : Nat := (evs.filter fun | .increment _ => true | _ => false).length

/-- the number that bytes are, most significant first -/
def bigEndian : Bytes → Nat := List.foldl (fun h x => h * 256 + x.toNat) 0

/-- `id` is a reading of the clock by one of the calls, the bytes of the process, and the counter after one of the increments -/
def LaidOut (unique : Bytes) (c0 : UInt32) (evs : List GenEvent) (id : Bytes) : Prop :=
  ∃ g t j, .call g t ∈ evs ∧ 1 ≤ j ∧ j ≤ increments evs ∧ id.length = 12 ∧
    bigEndian (id.take 4) = t.toNat ∧ (id.drop 4).take 5 = unique ∧ bigEndian (id.drop 9) = (c0.toNat + j) % 16777216

end Birch.Spec
