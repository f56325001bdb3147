import Verif.Proofs.DecimalRange

/-
C28: which texts are read as decimal numbers, and as which.
-/

namespace Birch.Props
open Birch Model Model.Decimal Spec Spec.Decimal Proofs Proofs.Decimal

/-- Everything that is read is a well-formed number or one of the words NaN, Inf and Infinity: any other text is rejected. -/
theorem C28_grammar (s : Bytes) (d : Dec) (h : parse s = some d) : (∃ w : Written, w.Ok ∧ w.text = s) ∨ Special s d := parse_sound h

-- "+.5e07" is read; "1.E5", "5E", ".", "1.2.3" and "0x10" are not
example := C28_grammar "+.5e07".toUTF8.toList (encode false 5 6) (by decide +kernel)
example : parse "1.E5".toUTF8.toList = none ∧ parse "5E".toUTF8.toList = none ∧ parse ".".toUTF8.toList = none ∧ parse "1.2.3".toUTF8.toList = none ∧
    parse "0x10".toUTF8.toList = none := by decide +kernel

/-- The words, in whatever case, are read as the special values. -/
theorem C28_special (s : Bytes) (d : Dec) (h : Special s d) : parse s = some d := parse_special h

theorem cased_example : Cased "infinity".toUTF8.toList "iNFinItY".toUTF8.toList := by
  rw [infinity_word, show "iNFinItY".toUTF8.toList = [105, 78, 70, 105, 110, 73, 116, 89] by decide +kernel]
  exact ⟨rfl, by decide⟩

example := C28_special (45 :: "iNFinItY".toUTF8.toList) ⟨0xF800000000000000, 0⟩ (.negInf (.inr cased_example))

/-- All the codes of the special values are printed in the usual form: bits 58 to 62 of the high word say which it is, bit 63 is
    the sign. -/
theorem C28_special_string (d : Dec) :
    (d.h.toNat / 2 ^ 58 % 32 = 31 → Model.Decimal.toString d = .ok "NaN".toUTF8.toList) ∧
    (d.h.toNat / 2 ^ 58 % 32 = 30 → Model.Decimal.toString d = .ok (if d.h.toNat < 2 ^ 63 then "Infinity".toUTF8.toList else "-Infinity".toUTF8.toList)) := by
  rw [show "NaN".toUTF8.toList = [78, 97, 78] by decide +kernel, show "Infinity".toUTF8.toList = [73, 110, 102, 105, 110, 105, 116, 121] by decide +kernel,
    show "-Infinity".toUTF8.toList = [45, 73, 110, 102, 105, 110, 105, 116, 121] by decide +kernel]
  have f58 : ((d.h >>> 58) &&& 31).toNat = d.h.toNat / 2 ^ 58 % 32 := by
    rw [UInt64.toNat_and, UInt64.toNat_shiftRight, show (31 : UInt64).toNat = 2 ^ 5 - 1 from rfl, Nat.and_two_pow_sub_one_eq_mod, show (58 : UInt64).toNat % 64 = 58 from rfl,
      Nat.shiftRight_eq_div_pow]
  have f63 : ((d.h >>> 63) &&& 1).toNat = d.h.toNat / 2 ^ 63 := by
    rw [UInt64.toNat_and, UInt64.toNat_shiftRight, show (1 : UInt64).toNat = 2 ^ 1 - 1 from rfl, Nat.and_two_pow_sub_one_eq_mod, show (63 : UInt64).toNat % 64 = 63 from rfl,
      Nat.shiftRight_eq_div_pow]
    have := d.h.toNat_lt
    omega
  have hlt := d.h.toNat_lt
  unfold Model.Decimal.toString
  refine ⟨fun h => ?_, fun h => ?_⟩
  · have h1 : (d.h >>> 58) &&& 31 = 0x1F := by rw [← UInt64.toNat_inj, f58, h]; rfl
    dsimp only
    rw [if_pos h1]
  · have h1 : ¬ (d.h >>> 58) &&& 31 = 0x1F := by rw [← UInt64.toNat_inj, f58, h]; decide
    have h2 : (d.h >>> 58) &&& 31 = 0x1E := by rw [← UInt64.toNat_inj, f58, h]; rfl
    dsimp only
    rw [if_neg h1, if_pos h2]
    by_cases hs : d.h.toNat < 2 ^ 63
    · rw [if_pos hs, if_pos (by rw [← UInt64.toNat_inj, f63]; show _ = 0; omega)]; rfl
    · rw [if_neg hs, if_neg (by rw [← UInt64.toNat_inj, f63]; show ¬ _ = 0; omega)]; rfl

example := (C28_special_string ⟨0x7C00000000000000, 7⟩).1 (by decide)
example := (C28_special_string ⟨0xF800000000000000, 0⟩).2 (by decide)

/-- More digits than there is room for, and exponents of more than five digits, are rejected (also those of zero). -/
theorem C28_unreadable (w : Written) (hw : w.Ok) (hr : ¬ w.Readable) : parse w.text = none := parse_unreadable hw hr

theorem written_ok {s : Option Bool} {i : Bytes} {f : Option Bytes} {e : Option (UInt8 × Option Bool × Bytes)} (h1 : i.all isDigit = true) (h2 : (f.getD []).all isDigit = true)
    (h3 : i ++ f.getD [] ≠ []) (h4 : f = some [] → e = none) (h5 : ∀ x, e = some x → (x.1 = 69 ∨ x.1 = 101) ∧ x.2.2 ≠ [] ∧ x.2.2.all isDigit = true) :
    Written.Ok ⟨s, i, f, e⟩ :=
  ⟨fun c hc => isDigit_iff.mp (List.all_eq_true.mp h1 c hc), fun c hc => isDigit_iff.mp (List.all_eq_true.mp h2 c hc), h3, h4,
    fun _ _ _ h => ⟨(h5 _ h).1, (h5 _ h).2.1, fun c hc => isDigit_iff.mp (List.all_eq_true.mp (h5 _ h).2.2 c hc)⟩⟩

-- 35 digits, the last of them 1
example := C28_unreadable ⟨none, 49 :: List.replicate 33 48 ++ [49], none, none⟩
  (written_ok (by decide +kernel) (by decide +kernel) (by decide +kernel) (by decide +kernel) (by intro x h; cases h))
  (fun h => absurd (h.cut 49 (by decide +kernel)) (by decide))

/-- Numbers in range are read exactly, whatever the way they are written. -/
theorem C28_in_range (w : Written) (hw : w.Ok) (hr : w.Readable) (h1 : -6176 ≤ w.scale) (h2 : w.scale ≤ 6111) :
    parse w.text = some (encode w.neg w.coeff w.scale) := by
  obtain ⟨a, b, hn, hp⟩ := parse_readable hw hr
  have hlt := coeff_lt hw
  rw [hp]
  split
  · rw [wrap_in h1 h2]
  · rw [adjust_in h1 h2]
    show finish _ (some (a, b, w.scale, [])) = _
    rw [finish_ok (by omega) hn, wrap_in h1 h2]

-- "+12." followed by nothing, and 1 followed by 40 zeros
example := C28_in_range ⟨some false, [49, 50], some [], none⟩
  (written_ok (by decide +kernel) (by decide +kernel) (by decide +kernel) (by decide +kernel) (by intro x h; cases h))
  ⟨by unfold Zeros; decide, .inr rfl, by decide, by decide⟩ (by decide) (by decide)
example := C28_in_range ⟨none, 49 :: List.replicate 40 48, none, some (101, none, [48, 55])⟩
  (written_ok (by decide +kernel) (by decide +kernel) (by decide +kernel) (by decide +kernel) (by intro x h; cases h; decide))
  ⟨by unfold Zeros; decide +kernel, .inr rfl, by decide, by decide⟩ (by decide +kernel) (by decide +kernel)

/-- In other words: the number that is read, `± c * 10^e`, is exactly the number that is written, `± digits * 10^(power - fraction)`
    (both sides multiplied by a power of ten, so that no exponent is negative). -/
theorem C28_exact (w : Written) (hw : w.Ok) (hr : w.Readable) (h1 : -6176 ≤ w.scale) (h2 : w.scale ≤ 6111) :
    ∃ c e, parse w.text = some (encode w.neg c e) ∧ Representable c e ∧
      c * 10 ^ (e + w.fraction.length + 100000).toNat = value (w.int ++ w.fraction) * 10 ^ (w.power + 100000).toNat := by
  refine ⟨_, _, C28_in_range w hw hr h1 h2, ⟨coeff_lt hw, h1, h2⟩, ?_⟩
  have hv : value (w.int ++ w.fraction) = w.coeff * 10 ^ (cut w.digits).length := value_cut hr.cut
  have := hr.power.1
  rw [hv, Nat.mul_assoc, ← Nat.pow_add]
  congr 2
  unfold Written.scale
  omega

-- 0012.50e-3
example := C28_exact ⟨none, [48, 48, 49, 50], some [53, 48], some (101, some true, [51])⟩
  (written_ok (by decide +kernel) (by decide +kernel) (by decide +kernel) (by decide +kernel) (by intro x h; cases h; decide))
  ⟨by unfold Zeros; decide, .inl (by decide), by decide, by decide⟩ (by decide) (by decide)

/-- Below the range a number is read if and only if it is a multiple of the smallest one. -/
theorem C28_small (w : Written) (hw : w.Ok) (hr : w.Readable) (hx : w.exp ≠ none) (h : w.scale < -6176) :
    parse w.text = if w.coeff % 10 ^ (-6176 - w.scale).toNat = 0 then some (encode w.neg (w.coeff / 10 ^ (-6176 - w.scale).toNat) (-6176)) else none := by
  obtain ⟨a, b, hn, hp⟩ := parse_readable hw hr
  have hlt := coeff_lt hw
  obtain ⟨s1, s2⟩ := adjust_small (h := a) (l := b) h
  rw [hn] at s1 s2
  rw [hp, if_neg hx]
  by_cases hd : 10 ^ (-6176 - w.scale).toNat ∣ w.coeff
  · obtain ⟨a', b', e1, e2⟩ := s1 hd
    rw [if_pos (Nat.mod_eq_zero_of_dvd hd), e1]
    show finish _ (some (a', b', -6176, [])) = _
    rw [finish_ok (Nat.lt_of_le_of_lt (Nat.div_le_self _ _) (by omega)) e2]
    rfl
  · rw [if_neg (fun h => hd (Nat.dvd_of_mod_eq_zero h)), s2 hd]
    rfl

-- -1200E-6178 is -12E-6176
example := C28_small ⟨some true, [49, 50, 48, 48], none, some (69, some true, [54, 49, 55, 56])⟩
  (written_ok (by decide +kernel) (by decide +kernel) (by decide +kernel) (by decide +kernel) (by intro x h; cases h; decide))
  ⟨by unfold Zeros; decide, .inr rfl, by decide, by decide⟩ (by decide) (by decide)

/-- Above the range a number is read exactly as long as the coefficient with the zeros moved into it has at most 113 bits.
    Missing from the full claim: coefficients of 10^34 and more should be rejected (`C28_noncanonical`), and much larger numbers
    are not always rejected (`C28_overflow_accepted`). -/
theorem C28_large_partial (w : Written) (hw : w.Ok) (hr : w.Readable) (hx : w.exp ≠ none) (h : 6111 < w.scale) :
    (w.coeff * 10 ^ (w.scale - 6111).toNat < 2 ^ 113 → parse w.text = some (encode w.neg (w.coeff * 10 ^ (w.scale - 6111).toNat) 6111)) ∧
    (w.scale ≤ 6115 → ¬ w.coeff * 10 ^ (w.scale - 6111).toNat < 2 ^ 113 → parse w.text = none) := by
  obtain ⟨a, b, hn, hp⟩ := parse_readable hw hr
  have hlt := coeff_lt hw
  obtain ⟨s1, s2⟩ := adjust_large (h := a) (l := b) h
  rw [hn] at s1 s2
  rw [hp, if_neg hx]
  refine ⟨fun hd => ?_, fun h1 h2 => ?_⟩
  · obtain ⟨a', b', e1, e2⟩ := s1 hd
    rw [e1]
    show finish _ (some (a', b', 6111, [])) = _
    rw [finish_ok hd e2]
    rfl
  · rw [s2 h1 (by omega) h2]
    rfl

-- 12E6113 is 1200E6111
example := C28_large_partial ⟨none, [49, 50], none, some (69, none, [54, 49, 49, 51])⟩
  (written_ok (by decide +kernel) (by decide +kernel) (by decide +kernel) (by decide +kernel) (by intro x h; cases h; decide))
  ⟨by unfold Zeros; decide, .inr rfl, by decide, by decide⟩ (by decide) (by decide)

/-- Without a written exponent the range is not checked: the exponent is cut to 14 bits. -/
theorem C28_unchecked (w : Written) (hw : w.Ok) (hr : w.Readable) (hx : w.exp = none) :
    parse w.text = some (encode w.neg w.coeff ((w.scale + 6176) % 16384 - 6176)) := by
  obtain ⟨a, b, hn, hp⟩ := parse_readable hw hr
  rw [hp, if_pos hx]
  rfl

example := C28_unchecked ⟨none, [48], some [49, 50], none⟩
  (written_ok (by decide +kernel) (by decide +kernel) (by decide +kernel) (by decide +kernel) (by intro x h; cases h))
  ⟨by unfold Zeros; decide, .inl (by decide), by decide, by decide⟩ rfl

/-- The full claim is false: 1E+6145 is larger than every decimal number (all of them have at most 34 digits), but it is read, and
    as a coefficient of 35 digits. -/
theorem C28_noncanonical : parse "1E6145".toUTF8.toList = some (encode false (10 ^ 34) 6111) ∧ ∀ c e, Representable c e → c * 10 ^ (e + 6176).toNat < 10 ^ (6145 + 6176) := by
  refine ⟨by decide +kernel, ?_⟩
  rintro c e ⟨h1, h2, h3⟩
  have h4 : 10 ^ (e + 6176).toNat ≤ 10 ^ 12287 := Nat.pow_le_pow_right (by decide) (by omega)
  have h5 : 10 ^ (6145 + 6176) = 10 ^ 34 * 10 ^ 12287 := by rw [← Nat.pow_add]
  have h6 : 0 < 10 ^ 12287 := Nat.pow_pos (by decide)
  rw [h5]
  generalize 10 ^ 12287 = m at *
  exact Nat.lt_of_le_of_lt (Nat.mul_le_mul_left c h4) (Nat.mul_lt_mul_of_pos_right h1 h6)

end Birch.Props
