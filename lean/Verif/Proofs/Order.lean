import Verif.Spec.Order
import Verif.Model.Compare

/- The order of doubles and texts in the model is that of the specification. -/

namespace Birch.Proofs
open Birch Model Spec

/-- the magnitude of a double in units of 2^-1074, from its bits without the sign -/
def magOf (a : Nat) : Nat := if a / 4503599627370496 = 0 then a % 4503599627370496 else (4503599627370496 + a % 4503599627370496) * 2 ^ (a / 4503599627370496 - 1)

theorem magOf_lt {a b : Nat} (h : a < b) : magOf a < magOf b := by
  unfold magOf
  have ha : a % 4503599627370496 < 4503599627370496 := Nat.mod_lt _ (by decide)
  have hb : b % 4503599627370496 < 4503599627370496 := Nat.mod_lt _ (by decide)
  have hle : a / 4503599627370496 ≤ b / 4503599627370496 := Nat.div_le_div_right (Nat.le_of_lt h)
  have da := Nat.div_add_mod a 4503599627370496
  have db := Nat.div_add_mod b 4503599627370496
  generalize a / 4503599627370496 = e at *
  generalize b / 4503599627370496 = f at *
  generalize a % 4503599627370496 = m at *
  generalize b % 4503599627370496 = n at *
  by_cases hef : e = f
  · subst hef
    have hmn : m < n := by omega
    split
    · exact hmn
    · exact Nat.mul_lt_mul_of_pos_right (by omega) (Nat.pow_pos (by decide))
  · have hf0 : f ≠ 0 := by omega
    rw [if_neg hf0]
    have hp : 1 ≤ 2 ^ (f - 1) := Nat.pow_pos (by decide)
    have h2 : 4503599627370496 * 2 ^ (f - 1) ≤ (4503599627370496 + n) * 2 ^ (f - 1) := Nat.mul_le_mul_right _ (by omega)
    split
    · omega
    · next he0 =>
      have h3 : (4503599627370496 + m) * 2 ^ (e - 1) < 9007199254740992 * 2 ^ (e - 1) := Nat.mul_lt_mul_of_pos_right (by omega) (Nat.pow_pos (by decide))
      have h4 : 2 ^ e ≤ 2 ^ (f - 1) := Nat.pow_le_pow_right (by decide) (by omega)
      have h5 : 2 ^ e = 2 * 2 ^ (e - 1) := by rw [← Nat.pow_succ', Nat.succ_eq_add_one, Nat.sub_add_cancel (by omega)]
      omega

theorem magOf_lt_iff (a b : Nat) : magOf a < magOf b ↔ a < b := by
  constructor
  · intro h
    rcases Nat.lt_trichotomy a b with h1 | h1 | h1
    · exact h1
    · rw [h1] at h; exact absurd h (Nat.lt_irrefl _)
    · have := magOf_lt h1; omega
  · exact magOf_lt

theorem magOf_zero : magOf 0 = 0 := by decide

theorem magOf_eq_zero (a : Nat) : magOf a = 0 ↔ a = 0 := by
  constructor
  · intro h
    by_cases ha : 0 < a
    · have := magOf_lt ha; omega
    · omega
  · rintro rfl; rfl

/-- the bits without the sign and the number go together -/
theorem doubleVal_eq (b : Nat) : doubleVal b = (f64Ord b).map fun x => if x < 0 then -(magOf x.natAbs : Int) else magOf x.natAbs := by
  unfold doubleVal f64Ord
  have e1 : b / 4503599627370496 % 2048 = b % 9223372036854775808 / 4503599627370496 := by omega
  have e2 : b % 4503599627370496 = b % 9223372036854775808 % 4503599627370496 := by omega
  simp only [e1, e2]
  generalize hm : b % 9223372036854775808 = m
  have hn : m / 4503599627370496 = 2047 ∧ m % 4503599627370496 ≠ 0 ↔ m > 9218868437227405312 := by
    have : m < 9223372036854775808 := by rw [← hm]; exact Nat.mod_lt _ (by decide)
    omega
  by_cases hg : m > 9218868437227405312
  · rw [if_pos (hn.mpr hg), if_pos hg]; rfl
  · rw [if_neg (fun h => hg (hn.mp h)), if_neg hg]
    have hmag : ((if m / 4503599627370496 = 0 then m % 4503599627370496 else (4503599627370496 + m % 4503599627370496) * 2 ^ (m / 4503599627370496 - 1) : Nat) : Int) = magOf m := rfl
    rw [hmag]
    split
    · simp only [Option.map_some, Option.some.injEq]
      by_cases h0 : m = 0
      · subst h0; simp [magOf_zero]
      · rw [if_pos (by omega)]; simp
    · simp only [Option.map_some, Option.some.injEq]
      rw [if_neg (by omega)]; simp

theorem sign_lt (x y : Int) : (if x < 0 then -(magOf x.natAbs : Int) else magOf x.natAbs) < (if y < 0 then -(magOf y.natAbs : Int) else magOf y.natAbs) ↔ x < y := by
  have h1 := magOf_lt_iff x.natAbs y.natAbs
  have h2 := magOf_lt_iff y.natAbs x.natAbs
  have hx := magOf_eq_zero x.natAbs
  have hy := magOf_eq_zero y.natAbs
  split <;> split <;> omega

theorem f64Ord_none (a : Nat) : f64Ord a = none ↔ doubleVal a = none := by rw [doubleVal_eq]; simp

theorem f64Lt_eq (a b : Nat) : f64Lt a b = doubleLt a b := by
  unfold f64Lt doubleLt
  rw [doubleVal_eq, doubleVal_eq]
  cases f64Ord a <;> cases f64Ord b <;> simp only [Option.map_none, Option.map_some]
  rw [decide_eq_decide]; exact (sign_lt _ _).symm

theorem f64IsZero_eq (a : Nat) : f64IsZero a = decide (doubleVal a = some 0) := by
  unfold f64IsZero
  rw [decide_eq_decide, doubleVal_eq]
  cases f64Ord a with
  | none => simp
  | some x =>
    simp only [Option.map_some, Option.some.injEq]
    have := magOf_eq_zero x.natAbs
    split <;> omega

theorem strLt_eq : ∀ a b : Bytes, strLt a b = decide (a < b)
  | a, [] => by simp [strLt]
  | [], _ :: _ => by simp [strLt]
  | a :: as, b :: bs => by
    simp only [strLt, strLt_eq as bs, List.cons_lt_cons_iff]
    simp

end Birch.Proofs
