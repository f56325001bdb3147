import Verif.Proofs.DecimalParse

/-
C27, C28: decimal numbers.
-/

namespace Birch.Props
open Birch Model Model.Decimal Spec Spec.Decimal Proofs Proofs.Decimal

/-! ### C27: the wide arithmetic -/

/-- Division: the 128-bit quotient and the 32-bit remainder are exact, for every dividend and every divisor but 0. -/
theorem C27_divmod (h l : UInt64) (div : UInt32) (hd : div ≠ 0) :
    let (q1, q0, r) := divmod h l div
    let n := h.toNat * 2 ^ 64 + l.toNat
    q1.toNat * 2 ^ 64 + q0.toNat = n / div.toNat ∧ r.toNat = n % div.toNat := by
  have := divmod_spec h l div hd
  generalize divmod h l div = r at *
  obtain ⟨a, b, c⟩ := r
  exact this

example := C27_divmod 0xFFFFFFFFFFFFFFFF 12345 1000000000 (by decide)

/-- Multiplication: the low 128 bits are always exact, an overflow is only reported when there is one, and never when
    the exact result fits. Missing from the full claim: an overflow is not always reported (`C27_overflow_missed`). -/
theorem C27_muladd_partial (h l : UInt64) (mul add : UInt32) :
    let (r1, r0, over) := muladd h l mul add
    let n := (h.toNat * 2 ^ 64 + l.toNat) * mul.toNat + add.toNat
    r1.toNat * 2 ^ 64 + r0.toNat = n % 2 ^ 128 ∧ (over ≠ 0 → 2 ^ 128 ≤ n) ∧ (n < 2 ^ 128 → over = 0) := by
  have := muladd_spec h l mul add
  generalize muladd h l mul add = r at *
  obtain ⟨a, b, c⟩ := r
  exact this

example := C27_muladd_partial 0x1000000000000 7 1000000000 999999999

/-- The full claim is false: 2^64 * 2^64 does not fit into 128 bits, but no overflow is reported. -/
theorem C27_overflow_missed :
    ∃ (h l : UInt64) (mul add : UInt32), 2 ^ 128 ≤ (h.toNat * 2 ^ 64 + l.toNat) * mul.toNat + add.toNat ∧ (muladd h l mul add).2.2 = 0 :=
  ⟨0x1000000000000, 0, 0x10000, 0, by decide, by decide⟩

/-! ### C28: decimal text -/

/-- The text of a finite number is its canonical one. -/
theorem C28_string (neg : Bool) (c : Nat) (e : Int) (h : Representable c e) :
    Model.Decimal.toString (encode neg c e) = .ok (text neg c e) := string_encode h

-- -0.00123 and 1.23E+10
example := C28_string true 123 (-5) (by unfold Representable; decide)
example : text true 123 (-5) = "-0.00123".toUTF8.toList := by decide +kernel
example : text false 123 8 = "1.23E+10".toUTF8.toList := by decide +kernel

/-- Printing and reading back gives the same decimal, bit for bit. -/
theorem C28_round_trip (neg : Bool) (c : Nat) (e : Int) (h : Representable c e) :
    ∃ s, Model.Decimal.toString (encode neg c e) = .ok s ∧ parse s = some (encode neg c e) :=
  ⟨_, string_encode h, parse_text h⟩

example := C28_round_trip true 9999999999999999999999999999999999 (-6176) (by unfold Representable; decide)

/-- Every plain numeral of a representable number, with whatever leading zeros, point and exponent, is read as that number.
    Missing from the full claim: numerals with more than 34 digits or an exponent that has to be adjusted, and the rejection of
    numbers out of range (which does not always happen: `C28_overflow_accepted`, `C28_exponent_accepted`). -/
theorem C28_parse_partial (neg : Bool) (int frac : Bytes) (exp : Option Int) (hi : int ≠ []) (hid : ∀ c ∈ int, Digit c) (hfd : ∀ c ∈ frac, Digit c)
    (hx : ∀ x, exp = some x → -10000 < x ∧ x < 10000) (hr : Representable (value (int ++ frac)) (exp.getD 0 - frac.length)) :
    parse (numeral neg int frac exp) = some (encode neg (value (int ++ frac)) (exp.getD 0 - frac.length)) :=
  parse_numeral hi hid hfd hx hr

-- "-0012.50E-3" is -1250 * 10^-5
example := C28_parse_partial true "0012".toUTF8.toList "50".toUTF8.toList (some (-3)) (by decide +kernel) (by unfold Digit; decide +kernel)
  (by unfold Digit; decide +kernel) (by intro x h; cases h; decide) (by unfold Representable; decide +kernel)
example : value ("0012".toUTF8.toList ++ "50".toUTF8.toList) = 1250 := by decide +kernel
example : numeral true "0012".toUTF8.toList "50".toUTF8.toList (some (-3)) = "-0012.50E-3".toUTF8.toList := by decide +kernel

/-- The full claim is false: 340282366920938463463374607432E+6120 is larger than every decimal, but it is read as
    231788544E+6111, a number that is smaller by a factor of more than 10^20. -/
theorem C28_overflow_accepted : parse (numeral false "340282366920938463463374607432".toUTF8.toList [] (some 6120)) = some (encode false 231788544 6111) ∧
    ∀ c e, Representable c e → c * 10 ^ (e + 6176).toNat < 340282366920938463463374607432 * 10 ^ (6120 + 6176) := by
  refine ⟨by rw [overflow_parse]; decide +kernel, ?_⟩
  rintro c e ⟨h1, h2, h3⟩
  have h4 : 10 ^ (e + 6176).toNat ≤ 10 ^ 12287 := Nat.pow_le_pow_right (by decide) (by omega)
  have h5 : 10 ^ (6120 + 6176) = 10 ^ 12287 * 10 ^ 9 := by rw [← Nat.pow_add]
  have h6 : 0 < 10 ^ 12287 := Nat.pow_pos (by decide)
  rw [h5]
  generalize 10 ^ 12287 = m at *
  have h7 : c * 10 ^ (e + 6176).toNat ≤ c * m := Nat.mul_le_mul_left c h4
  have h8 : c * m < 10 ^ 34 * m := Nat.mul_lt_mul_of_pos_right h1 h6
  omega

/-- The exponent is not checked at all when it is not written: 0.000…01 with 10273 digits after the point is read as 1E+6111. -/
theorem C28_exponent_accepted : parse (numeral false [48] (List.replicate 10272 48 ++ [49]) none) = some (encode false 1 6111) := by
  rw [parse_fraction (i0 := 48) (I := []) (h := 0) (l := 1) (fun c hc => by rw [List.mem_singleton.mp hc]; exact digit_zero) (digits_zeros_one _)
    (by rw [value_zeros_one]; decide) (by rw [value_zeros_one]; decide)]
  rw [List.length_append, List.length_replicate]
  decide +kernel

end Birch.Props
