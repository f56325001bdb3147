import Verif.Model.Decimal

/- The 128-bit arithmetic of decimals. -/

namespace Birch.Proofs.Decimal
open Birch Model Model.Decimal

/-- the 128-bit number held in two words -/
def num (h l : UInt64) : Nat := h.toNat * 18446744073709551616 + l.toNat

theorem shr32 (a : UInt64) : (a >>> 32).toNat = a.toNat / 4294967296 := by
  simp [Nat.shiftRight_eq_div_pow]

theorem and32 (a : UInt64) : (a &&& mask32).toNat = a.toNat % 4294967296 := by
  rw [UInt64.toNat_and]
  exact Nat.and_two_pow_sub_one_eq_mod (n := 32) a.toNat

theorem shl32 (a : UInt64) : (a <<< 32).toNat = a.toNat % 4294967296 * 4294967296 := by
  rw [UInt64.toNat_shiftLeft, Nat.shiftLeft_eq]
  have : (32 : UInt64).toNat % 64 = 32 := rfl
  rw [this]
  omega

theorem shl32_small {a : UInt64} (h : a.toNat < 4294967296) : (a <<< 32).toNat = a.toNat * 4294967296 := by
  rw [shl32, Nat.mod_eq_of_lt h]

/-- `x<<32 | y` for a 32-bit `y` -/
theorem join {x y : UInt64} (hy : y.toNat < 4294967296) : (x <<< 32 ||| y).toNat = x.toNat % 4294967296 * 4294967296 + y.toNat := by
  rw [UInt64.toNat_or, shl32]
  have := Nat.shiftLeft_add_eq_or_of_lt (i := 32) (b := y.toNat) (by simpa using hy) (x.toNat % 4294967296)
  rw [Nat.shiftLeft_eq] at this
  exact this.symm

theorem add_small {a b : UInt64} (h : a.toNat + b.toNat < 18446744073709551616) : (a + b).toNat = a.toNat + b.toNat := by
  rw [UInt64.toNat_add]; exact Nat.mod_eq_of_lt h

theorem mul_small {a b : UInt64} (h : a.toNat * b.toNat < 18446744073709551616) : (a * b).toNat = a.toNat * b.toNat := by
  rw [UInt64.toNat_mul]; exact Nat.mod_eq_of_lt h

theorem w64 (m : UInt32) : m.toUInt64.toNat = m.toNat := by simp

/-- one step of long division in base `B` -/
theorem longDiv (x y B d : Nat) (hd : 0 < d) : (x * B + y) / d = x / d * B + (x % d * B + y) / d ∧ (x * B + y) % d = (x % d * B + y) % d := by
  have e : x * B + y = d * (x / d * B) + (x % d * B + y) := by
    have := Nat.div_add_mod x d
    calc x * B + y = (d * (x / d) + x % d) * B + y := by rw [this]
      _ = _ := by rw [Nat.add_mul, Nat.mul_assoc]; omega
  constructor
  · rw [e, Nat.mul_add_div hd]
  · rw [e, Nat.mul_add_mod]

theorem digit_lt {r y d : Nat} (hr : r < d) (hy : y < 4294967296) : (r * 4294967296 + y) / d < 4294967296 := by
  refine (Nat.div_lt_iff_lt_mul (by omega)).mpr ?_
  have := Nat.mul_le_mul_right 4294967296 (show r + 1 ≤ d from hr)
  rw [Nat.mul_comm 4294967296 d]
  omega

theorem divmod_spec (h l : UInt64) (div : UInt32) (hd : div ≠ 0) :
    num (divmod h l div).1 (divmod h l div).2.1 = num h l / div.toNat ∧ (divmod h l div).2.2.toNat = num h l % div.toNat := by
  have hd0 : 0 < div.toNat := by
    rcases Nat.eq_zero_or_pos div.toNat with h | h
    · exact absurd (UInt32.toNat_inj.mp h) hd
    · exact h
  have hd32 := div.toNat_lt
  have hh := h.toNat_lt
  have hl := l.toNat_lt
  unfold divmod
  dsimp only
  generalize ha : h >>> 32 = a
  generalize har : a % div.toUInt64 = ar
  generalize hb : ar <<< 32 + (h &&& mask32) = b
  generalize hbr : b % div.toUInt64 = br
  generalize hc : br <<< 32 + l >>> 32 = c
  generalize hcr : c % div.toUInt64 = cr
  generalize hdd : cr <<< 32 + (l &&& mask32) = d
  have na : a.toNat = h.toNat / 4294967296 := by rw [← ha, shr32]
  have nar : ar.toNat = a.toNat % div.toNat := by rw [← har, UInt64.toNat_mod, w64]
  have lar := Nat.mod_lt a.toNat hd0
  have nb : b.toNat = ar.toNat * 4294967296 + h.toNat % 4294967296 := by
    rw [← hb, add_small, shl32_small, and32]
    · omega
    · rw [shl32_small (by omega), and32]; omega
  have nbr : br.toNat = b.toNat % div.toNat := by rw [← hbr, UInt64.toNat_mod, w64]
  have lbr := Nat.mod_lt b.toNat hd0
  have nc : c.toNat = br.toNat * 4294967296 + l.toNat / 4294967296 := by
    rw [← hc, add_small, shl32_small, shr32]
    · omega
    · rw [shl32_small (by omega), shr32]; omega
  have ncr : cr.toNat = c.toNat % div.toNat := by rw [← hcr, UInt64.toNat_mod, w64]
  have lcr := Nat.mod_lt c.toNat hd0
  have nd : d.toNat = cr.toNat * 4294967296 + l.toNat % 4294967296 := by
    rw [← hdd, add_small, shl32_small, and32]
    · omega
    · rw [shl32_small (by omega), and32]; omega
  have qa : (a / div.toUInt64).toNat = a.toNat / div.toNat := by rw [UInt64.toNat_div, w64]
  have qb : (b / div.toUInt64).toNat = b.toNat / div.toNat := by rw [UInt64.toNat_div, w64]
  have qc : (c / div.toUInt64).toNat = c.toNat / div.toNat := by rw [UInt64.toNat_div, w64]
  have qd : (d / div.toUInt64).toNat = d.toNat / div.toNat := by rw [UInt64.toNat_div, w64]
  have rd : (d % div.toUInt64).toUInt32.toNat = d.toNat % div.toNat := by
    rw [UInt64.toNat_toUInt32, UInt64.toNat_mod, w64]
    have := Nat.mod_lt d.toNat hd0
    exact Nat.mod_eq_of_lt (by omega)
  have lb : b.toNat / div.toNat < 4294967296 := by rw [nb]; exact digit_lt (by omega) (by omega)
  have lc : c.toNat / div.toNat < 4294967296 := by rw [nc]; exact digit_lt (by omega) (by omega)
  have ld : d.toNat / div.toNat < 4294967296 := by rw [nd]; exact digit_lt (by omega) (by omega)
  have la : a.toNat / div.toNat < 4294967296 := Nat.lt_of_le_of_lt (Nat.div_le_self _ _) (by omega)
  have s1 := longDiv a.toNat (h.toNat % 4294967296) 4294967296 div.toNat hd0
  have s2 := longDiv h.toNat (l.toNat / 4294967296) 4294967296 div.toNat hd0
  have s3 := longDiv (h.toNat * 4294967296 + l.toNat / 4294967296) (l.toNat % 4294967296) 4294967296 div.toNat hd0
  rw [show a.toNat * 4294967296 + h.toNat % 4294967296 = h.toNat by omega, ← nar, ← nb] at s1
  rw [s1.1, s1.2, ← nbr, ← nc] at s2
  rw [s2.1, s2.2, ← ncr, ← nd, show (h.toNat * 4294967296 + l.toNat / 4294967296) * 4294967296 + l.toNat % 4294967296 = num h l by
    unfold num; omega] at s3
  rw [rd, s3.2, s3.1]
  refine ⟨?_, rfl⟩
  unfold num
  rw [join (by rw [qb]; exact lb), join (by rw [qd]; exact ld), qa, qb, qc, qd, Nat.mod_eq_of_lt la, Nat.mod_eq_of_lt lc]
  omega

/-- the exact product and sum -/
def exact (h l : UInt64) (mul add : UInt32) : Nat := num h l * mul.toNat + add.toNat

theorem muladd_spec (h l : UInt64) (mul add : UInt32) :
    num (muladd h l mul add).1 (muladd h l mul add).2.1 = exact h l mul add % 340282366920938463463374607431768211456 ∧
    ((muladd h l mul add).2.2 ≠ 0 → 340282366920938463463374607431768211456 ≤ exact h l mul add) ∧
    (exact h l mul add < 340282366920938463463374607431768211456 → (muladd h l mul add).2.2 = 0) := by
  have hm := mul.toNat_lt
  have hadd := add.toNat_lt
  have hh := h.toNat_lt
  have hl := l.toNat_lt
  unfold muladd
  dsimp only
  generalize ha : mul.toUInt64 * (l &&& mask32) = a
  generalize hb : a >>> 32 + mul.toUInt64 * (l >>> 32) = b
  generalize hc : b >>> 32 + mul.toUInt64 * (h &&& mask32) = c
  generalize hd : c >>> 32 + mul.toUInt64 * (h >>> 32) = d
  generalize ha' : (a &&& mask32) + add.toUInt64 = a'
  generalize hb' : (b &&& mask32) + a' >>> 32 = b'
  generalize hc' : (c &&& mask32) + b' >>> 32 = c'
  generalize hd' : (d &&& mask32) + c' >>> 32 = d'
  have bound : ∀ x : Nat, x < 4294967296 → mul.toNat * x ≤ 4294967295 * 4294967295 := fun x hx =>
    Nat.mul_le_mul (by omega) (by omega)
  generalize hp0 : mul.toNat * (l.toNat % 4294967296) = p0
  generalize hp1 : mul.toNat * (l.toNat / 4294967296) = p1
  generalize hp2 : mul.toNat * (h.toNat % 4294967296) = p2
  generalize hp3 : mul.toNat * (h.toNat / 4294967296) = p3
  have b0 : p0 ≤ 4294967295 * 4294967295 := hp0 ▸ bound _ (by omega)
  have b1 : p1 ≤ 4294967295 * 4294967295 := hp1 ▸ bound _ (by omega)
  have b2 : p2 ≤ 4294967295 * 4294967295 := hp2 ▸ bound _ (by omega)
  have b3 : p3 ≤ 4294967295 * 4294967295 := hp3 ▸ bound _ (by omega)
  have hex : exact h l mul add = p0 + p1 * 4294967296 + p2 * 18446744073709551616 + p3 * 79228162514264337593543950336 + add.toNat := by
    unfold exact num
    rw [← hp0, ← hp1, ← hp2, ← hp3]
    have e1 : h.toNat = h.toNat / 4294967296 * 4294967296 + h.toNat % 4294967296 := by omega
    have e2 : l.toNat = l.toNat / 4294967296 * 4294967296 + l.toNat % 4294967296 := by omega
    generalize h.toNat / 4294967296 = x3 at *
    generalize h.toNat % 4294967296 = x2 at *
    generalize l.toNat / 4294967296 = x1 at *
    generalize l.toNat % 4294967296 = x0 at *
    rw [e1, e2]
    have e : ((x3 * 4294967296 + x2) * 18446744073709551616 + (x1 * 4294967296 + x0)) * mul.toNat =
        mul.toNat * x0 + mul.toNat * x1 * 4294967296 + mul.toNat * x2 * 18446744073709551616 + mul.toNat * x3 * 79228162514264337593543950336 := by
      grind
    rw [e]
  have na : a.toNat = p0 := by rw [← ha, mul_small, w64, and32, hp0]; rw [w64, and32, hp0]; omega
  have nb : b.toNat = p0 / 4294967296 + p1 := by
    have e : (mul.toUInt64 * (l >>> 32)).toNat = p1 := by rw [mul_small, w64, shr32, hp1]; rw [w64, shr32, hp1]; omega
    rw [← hb, add_small, e, shr32, na]; rw [e, shr32, na]; omega
  have nc : c.toNat = b.toNat / 4294967296 + p2 := by
    have e : (mul.toUInt64 * (h &&& mask32)).toNat = p2 := by rw [mul_small, w64, and32, hp2]; rw [w64, and32, hp2]; omega
    rw [← hc, add_small, e, shr32]; rw [e, shr32]; omega
  have nd : d.toNat = c.toNat / 4294967296 + p3 := by
    have e : (mul.toUInt64 * (h >>> 32)).toNat = p3 := by rw [mul_small, w64, shr32, hp3]; rw [w64, shr32, hp3]; omega
    rw [← hd, add_small, e, shr32]; rw [e, shr32]; omega
  have na' : a'.toNat = p0 % 4294967296 + add.toNat := by
    rw [← ha', add_small, and32, w64, na]; rw [and32, w64, na]; omega
  have nb' : b'.toNat = b.toNat % 4294967296 + a'.toNat / 4294967296 := by
    rw [← hb', add_small, and32, shr32]; rw [and32, shr32]; omega
  have nc' : c'.toNat = c.toNat % 4294967296 + b'.toNat / 4294967296 := by
    rw [← hc', add_small, and32, shr32]; rw [and32, shr32]; omega
  have nd' : d'.toNat = d.toNat % 4294967296 + c'.toNat / 4294967296 := by
    rw [← hd', add_small, and32, shr32]; rw [and32, shr32]; omega
  have no : (d' >>> 32).toUInt32.toNat = d'.toNat / 4294967296 := by
    rw [UInt64.toNat_toUInt32, shr32]; exact Nat.mod_eq_of_lt (by have := d'.toNat_lt; omega)
  have ho : (d' >>> 32).toUInt32 = 0 ↔ d'.toNat / 4294967296 = 0 := by
    rw [← no]; exact ⟨fun h => by rw [h]; rfl, fun h => UInt32.toNat_inj.mp h⟩
  refine ⟨?_, ?_, ?_⟩
  · unfold num
    rw [join (by rw [and32]; omega), join (by rw [and32]; omega), and32, and32, hex]
    omega
  · intro h
    rw [Ne, ho] at h
    rw [hex]; omega
  · intro h
    rw [hex] at h
    rw [ho]; omega

end Birch.Proofs.Decimal
