import Verif.Proofs.DecimalPrint

/-
Reading decimal numbers: the scanning loop computes the value of the digits as long as there are at most 34 of them.
-/

namespace Birch.Proofs.Decimal
open Birch Spec Model.Decimal Spec.Decimal

theorem isDigit_iff {c : UInt8} : isDigit c = true ↔ Digit c := by
  unfold isDigit Digit; simp

/-- what the variables of the scanning loop stand for -/
structure Inv (p : Scan) (v : Nat) : Prop where
  val : num p.h p.l * p.mul.toNat + p.add.toNat = v
  mul : ∃ k, k ≤ 9 ∧ p.mul.toNat = 10 ^ k
  add : p.add.toNat < p.mul.toNat
  lt : v < 10 ^ p.digits
  ge : 0 < p.digits → 10 ^ (p.digits - 1) ≤ v

theorem Inv.digits_le {p : Scan} {v : Nat} (h : Inv p v) (hv : v < 10 ^ 34) : p.digits ≤ 34 := by
  rcases Nat.eq_zero_or_pos p.digits with h0 | h0
  · omega
  · have h1 := h.ge h0
    have h2 : 10 ^ (p.digits - 1) < 10 ^ 34 := Nat.lt_of_le_of_lt h1 hv
    have := (Nat.pow_lt_pow_iff_right (by decide : 1 < 10)).mp h2
    omega

theorem tooLarge_false {h : UInt64} (hh : h.toNat < 2 ^ 49) : tooLarge h 0 = false := by
  unfold tooLarge
  have : h &&& ((0x7FFF : UInt64) <<< 49) = 0 := by
    rw [uint_eq, UInt64.toNat_and]
    have e1 : ((0x7FFF : UInt64) <<< 49).toNat = 2 ^ 49 * 32767 := rfl
    rw [e1]
    have e0 : UInt64.toNat 0 = 0 := rfl
    rw [e0]
    apply Nat.eq_of_testBit_eq
    intro i
    rw [Nat.testBit_and, Nat.zero_testBit]
    by_cases hi : i < 49
    · rw [Nat.testBit_two_pow_mul, decide_eq_false (by omega)]; simp
    · rw [Nat.testBit_lt_two_pow (Nat.lt_of_lt_of_le hh (Nat.pow_le_pow_right (by decide) (by omega)))]; simp
  rw [this]
  decide

theorem flush_ok {p : Scan} {v : Nat} (h : Inv p v) (hv : v < 10 ^ 34) :
    ∃ p', p.flush = some p' ∧ Inv p' v ∧ p'.mul = 1 ∧ p'.add = 0 ∧ p'.e = p.e ∧ p'.dot = p.dot ∧ p'.i = p.i ∧ p'.digits = p.digits := by
  obtain ⟨h1, _, h3⟩ := muladd_spec p.h p.l p.mul p.add
  have hx : exact p.h p.l p.mul p.add = v := h.val
  rw [hx] at h1 h3
  have h3 := h3 (by omega)
  unfold Scan.flush
  generalize muladd p.h p.l p.mul p.add = r at *
  obtain ⟨a, b, o⟩ := r
  simp only at h1 h3 ⊢
  subst h3
  rw [Nat.mod_eq_of_lt (by omega)] at h1
  have ha : a.toNat < 2 ^ 49 := by
    unfold num at h1
    have := b.toNat_lt
    omega
  rw [tooLarge_false ha]
  refine ⟨_, rfl, ⟨?_, ⟨0, by omega, rfl⟩, (by show (0 : UInt32).toNat < (1 : UInt32).toNat; decide), h.lt, h.ge⟩, rfl, rfl, rfl, rfl, rfl, rfl⟩
  simp [h1]

theorem mul_u32 {a : UInt32} {k : Nat} (ha : a.toNat = 10 ^ k) (hk : k < 9) : (a * 10).toNat = 10 ^ (k + 1) := by
  have : 10 ^ k ≤ 10 ^ 8 := Nat.pow_le_pow_right (by decide) (by omega)
  rw [UInt32.toNat_mul, ha, show UInt32.toNat 10 = 10 from rfl, Nat.mod_eq_of_lt (by omega), Nat.pow_succ]

theorem mul_full {p : Scan} {v : Nat} (h : Inv p v) (hm : ¬ p.mul = 1000000000) : ∃ k, k < 9 ∧ p.mul.toNat = 10 ^ k := by
  obtain ⟨k, h1, h2⟩ := h.mul
  refine ⟨k, ?_, h2⟩
  rcases Nat.lt_or_ge k 9 with h3 | h3
  · exact h3
  · obtain rfl : k = 9 := by omega
    exact absurd (UInt32.toNat_inj.mp (by rw [h2]; rfl)) hm

/-- the flush at the beginning of a round -/
theorem pre {p : Scan} {v : Nat} (h : Inv p v) (hv : v < 10 ^ 34) :
    ∃ p', (if p.mul = 1000000000 then p.flush else some p) = some p' ∧ Inv p' v ∧ (∃ k, k < 9 ∧ p'.mul.toNat = 10 ^ k) ∧
      p'.e = p.e ∧ p'.dot = p.dot ∧ p'.i = p.i ∧ p'.digits = p.digits := by
  by_cases hm : p.mul = 1000000000
  · obtain ⟨p', h1, h2, h3, _, h4, h5, h6, h7⟩ := flush_ok h hv
    rw [if_pos hm]
    exact ⟨p', h1, h2, ⟨0, by omega, by rw [h3]; rfl⟩, h4, h5, h6, h7⟩
  · rw [if_neg hm]
    exact ⟨p, rfl, h, mul_full h hm, rfl, rfl, rfl, rfl⟩

theorem digit_step {n : Nat} {c : UInt8} {rest : Bytes} {p : Scan} {v : Nat} (hc : Digit c) (h : Inv p v) (hv : v * 10 + (c.toNat - 48) < 10 ^ 34) :
    ∃ p', scan n (c :: rest) p = scan n rest p' ∧ Inv p' (v * 10 + (c.toNat - 48)) ∧ p'.e = p.e ∧ p'.dot = p.dot ∧ p'.i = p.i + 1 := by
  obtain ⟨q, h1, h2, ⟨k, hk, hmul⟩, h4, h5, h6, h7⟩ := pre h (by omega)
  have hd : isDigit c = true := isDigit_iff.mpr hc
  unfold Digit at hc
  have hsub : (c - 48).toUInt32.toNat = c.toNat - 48 := by
    rw [UInt8.toNat_toUInt32, UInt8.toNat_sub_of_le _ _ (UInt8.le_iff_toNat_le.mpr (show (48 : UInt8).toNat ≤ c.toNat from hc.1))]; rfl
  have hgt : c > 48 ↔ 48 < c.toNat := UInt8.lt_iff_toNat_lt
  have hm := mul_u32 hmul hk
  have hk8 : 10 ^ k ≤ 10 ^ 8 := Nat.pow_le_pow_right (by decide) (by omega)
  have hadd := h2.add
  have hadd' : (q.add * 10 + (c - 48).toUInt32).toNat = q.add.toNat * 10 + (c.toNat - 48) := by
    rw [UInt32.toNat_add, UInt32.toNat_mul, hsub, show UInt32.toNat 10 = 10 from rfl, Nat.mod_eq_of_lt (a := q.add.toNat * 10) (by omega), Nat.mod_eq_of_lt (by omega)]
  let p' : Scan := ⟨q.h, q.l, q.e, q.mul * 10, q.add * 10 + (c - 48).toUInt32, q.dot, if c > 48 ∨ q.digits > 0 then q.digits + 1 else q.digits, q.i + 1⟩
  have hinv : Inv p' (v * 10 + (c.toNat - 48)) := by
    refine ⟨?_, ⟨k + 1, by omega, hm⟩, ?_, ?_, ?_⟩
    · show num q.h q.l * (q.mul * 10).toNat + (q.add * 10 + (c - 48).toUInt32).toNat = _
      rw [hm, hadd', ← h2.val, hmul, Nat.pow_succ]
      rw [Nat.add_mul]
      rw [Nat.mul_assoc]
      omega
    · show (q.add * 10 + (c - 48).toUInt32).toNat < (q.mul * 10).toNat
      rw [hadd', hm, Nat.pow_succ]; omega
    · show _ < 10 ^ (if c > 48 ∨ q.digits > 0 then q.digits + 1 else q.digits)
      have := h2.lt
      split
      · rw [Nat.pow_succ]; omega
      · rename_i hx
        have h0 : q.digits = 0 := by omega
        rw [h0] at this ⊢
        have : ¬ 48 < c.toNat := fun hh => hx (.inl (hgt.mpr hh))
        simp at *; omega
    · show 0 < (if c > 48 ∨ q.digits > 0 then q.digits + 1 else q.digits) → 10 ^ ((if c > 48 ∨ q.digits > 0 then q.digits + 1 else q.digits) - 1) ≤ _
      split
      · rename_i hx
        intro _
        rw [Nat.add_sub_cancel]
        rcases Nat.eq_zero_or_pos q.digits with h0 | h0
        · rw [h0] at hx ⊢
          have : 48 < c.toNat := by rcases hx with hx | hx; exact hgt.mp hx; omega
          simp; omega
        · have := h2.ge h0
          rw [show q.digits = (q.digits - 1) + 1 by omega, Nat.pow_succ]
          omega
      · intro hx; omega
  have hle : p'.digits ≤ 34 := hinv.digits_le hv
  refine ⟨p', ?_, hinv, h4, h5, by show q.i + 1 = _; rw [h6]⟩
  rw [scan, h1]
  dsimp only
  rw [if_pos hd, if_neg (show ¬ (if c > 48 ∨ q.digits > 0 then q.digits + 1 else q.digits) > 34 from Nat.not_lt.mpr hle)]

/-- the value after more digits -/
def more (v : Nat) (ds : Bytes) : Nat := ds.foldl (fun v c => v * 10 + (c.toNat - 48)) v

theorem more_ge : ∀ (ds : Bytes) (v : Nat), v ≤ more v ds
  | [], v => Nat.le_refl _
  | c :: ds, v => by
    have := more_ge ds (v * 10 + (c.toNat - 48))
    unfold more at *
    rw [List.foldl_cons]
    omega

theorem digits_scan {n : Nat} {rest : Bytes} : ∀ (ds : Bytes) (p : Scan) (v : Nat), (∀ c ∈ ds, Digit c) → Inv p v → more v ds < 10 ^ 34 →
    ∃ p', scan n (ds ++ rest) p = scan n rest p' ∧ Inv p' (more v ds) ∧ p'.e = p.e ∧ p'.dot = p.dot ∧ p'.i = p.i + ds.length
  | [], p, v, _, h, _ => ⟨p, rfl, h, rfl, rfl, rfl⟩
  | c :: ds, p, v, hc, h, hv => by
    have hle := more_ge ds (v * 10 + (c.toNat - 48))
    obtain ⟨p1, h1, h2, h3, h4, h5⟩ := digit_step (n := n) (rest := ds ++ rest) (hc c (List.mem_cons_self ..)) h (Nat.lt_of_le_of_lt hle hv)
    obtain ⟨p2, g1, g2, g3, g4, g5⟩ := digits_scan (n := n) (rest := rest) ds p1 _ (fun c hm => hc c (List.mem_cons_of_mem _ hm)) h2 hv
    refine ⟨p2, ?_, g2, g3.trans h3, g4.trans h4, ?_⟩
    · rw [List.cons_append, h1, g1]
    · rw [g5, h5, List.length_cons]; omega

theorem Inv.of {p q : Scan} {v : Nat} (h : Inv p v) (h1 : q.h = p.h) (h2 : q.l = p.l) (h3 : q.mul = p.mul) (h4 : q.add = p.add) (h5 : q.digits = p.digits) : Inv q v := by
  obtain ⟨a, b, c, d, e⟩ := h
  exact ⟨by rw [h1, h2, h3, h4]; exact a, by rw [h3]; exact b, by rw [h3, h4]; exact c, by rw [h5]; exact d, by rw [h5]; exact e⟩

theorem dot_step {n : Nat} {c : UInt8} {rest : Bytes} {p : Scan} {v : Nat} (hc : Digit c) (h : Inv p v) (hv : v < 10 ^ 34)
    (he : p.e = 0) (hdot : p.dot = -1) (hi : 0 < p.i) :
    ∃ p', scan n (46 :: c :: rest) p = scan n (c :: rest) p' ∧ Inv p' v ∧ p'.e = 0 ∧ p'.dot = p.i + 1 ∧ p'.i = p.i + 1 := by
  obtain ⟨q, h1, h2, _, h4, h5, h6, h7⟩ := pre h hv
  refine ⟨{ q with i := q.i + 1, dot := (q.i + 1 : Nat) }, ?_, h2.of rfl rfl rfl rfl rfl, by show q.e = 0; rw [h4, he], by show ((q.i + 1 : Nat) : Int) = _; rw [h6]; rfl, by show q.i + 1 = _; rw [h6]⟩
  rw [scan, h1]
  dsimp only
  rw [if_neg (by decide), if_pos rfl, if_neg (by omega), if_neg (by
    rintro (h | h)
    · exact h (isDigit_iff.mpr hc)
    · omega)]

theorem end_step {n : Nat} {c : UInt8} {rest : Bytes} {p : Scan} {v : Nat} (hc : c = 69) (h : Inv p v) (hv : v < 10 ^ 34) :
    ∃ p', scan n (c :: rest) p = some (p', c :: rest) ∧ Inv p' v ∧ p'.e = p.e ∧ p'.dot = p.dot ∧ p'.i = p.i := by
  subst hc
  obtain ⟨q, h1, h2, _, h4, h5, h6, h7⟩ := pre h hv
  refine ⟨q, ?_, h2, h4, h5, h6⟩
  rw [scan, h1]
  dsimp only
  rw [if_neg (by decide), if_neg (by decide)]

/-- the flush after the loop -/
theorem post {p : Scan} {v : Nat} (h : Inv p v) (hv : v < 10 ^ 34) :
    ∃ p', (if p.mul > 1 then p.flush else some p) = some p' ∧ num p'.h p'.l = v ∧ p'.e = p.e ∧ p'.dot = p.dot ∧ p'.i = p.i := by
  by_cases hm : p.mul > 1
  · obtain ⟨p', h1, h2, h3, h3', h4, h5, h6, h7⟩ := flush_ok h hv
    rw [if_pos hm]
    refine ⟨p', h1, ?_, h4, h5, h6⟩
    have := h2.val
    rw [h3, h3'] at this
    simpa using this
  · rw [if_neg hm]
    refine ⟨p, rfl, ?_, rfl, rfl, rfl⟩
    have hm : p.mul.toNat ≤ 1 := Nat.not_lt.mp (fun h => hm (UInt32.lt_iff_toNat_lt.mpr h))
    have ha := h.add
    have h1 : p.mul.toNat = 1 := by omega
    have := h.val
    rw [h1] at this
    omega

theorem exp_digits : ∀ (ds : Bytes) (n : Nat), (∀ c ∈ ds, Digit c) → more n ds < 10000 → expDigits ds n = some (more n ds, [])
  | [], n, _, _ => rfl
  | c :: ds, n, hc, h => by
    have hle := more_ge ds (n * 10 + (c.toNat - 48))
    have h' : more (n * 10 + (c.toNat - 48)) ds < 10000 := h
    rw [expDigits, if_pos (by omega), if_pos (isDigit_iff.mpr (hc c (List.mem_cons_self ..)))]
    exact exp_digits ds _ (fun c hm => hc c (List.mem_cons_of_mem _ hm)) h'

/-! ### the digits of a number -/

theorem dig_toNat (r : Nat) : (dig r).toNat = 48 + r % 10 := by
  unfold dig
  rw [UInt8.toNat_ofNat']
  omega

theorem low_digit : ∀ (m c : Nat), ∀ x ∈ low m c, Digit x
  | 0, _, x, h => by cases h
  | m + 1, c, x, h => by
    rcases List.mem_cons.mp h with rfl | h
    · unfold Digit; rw [dig_toNat]; omega
    · exact low_digit m c x h

theorem more_low : ∀ (m c v : Nat), more v (low m c) = v * 10 ^ m + c % 10 ^ m
  | 0, c, v => by simp [low, more, Nat.mod_one]
  | m + 1, c, v => by
    have := more_low m c (v * 10 + c / 10 ^ m % 10)
    unfold more at this ⊢
    rw [low, List.foldl_cons, dig_toNat, Nat.add_sub_cancel_left, this, Nat.add_mul, Nat.pow_succ, Nat.mod_mul, Nat.mul_assoc, Nat.mul_comm 10, Nat.mul_comm (10 ^ m) (c / 10 ^ m % 10)]
    omega

theorem more_append (v : Nat) (a b : Bytes) : more v (a ++ b) = more (more v a) b := List.foldl_append ..

theorem key_digit (c : Nat) : ∀ x ∈ decimalKey c, Digit x := by rw [decimalKey_low]; exact low_digit _ _

theorem key_value (c : Nat) : value (decimalKey c) = c := by
  show more 0 (decimalKey c) = c
  rw [decimalKey_low, more_low, Nat.mod_eq_of_lt (lt_ndig c)]; omega

theorem key_ne (c : Nat) : decimalKey c ≠ [] := fun h => by
  have := ndig_pos c
  unfold ndig at this
  rw [h] at this
  simp at this

/-! ### the exponent and the whole number -/

theorem exponent_none {h l : UInt64} {e : Int} : exponent h l e [] = some (h, l, e, []) := rfl

theorem exponent_some {h l : UInt64} {e x : Int} (hx : -10000 < x ∧ x < 10000) (he : -6176 ≤ e + x) (he' : e + x ≤ 6111) :
    exponent h l e (69 :: expText x) = some (h, l, e + x, []) := by
  have key : ∀ (sign : UInt8) (n : Nat), n < 10000 → (sign = 45 ∨ sign = 43) → e + (if sign = 45 then -(n : Int) else n) = e + x →
      exponent h l e (69 :: sign :: decimalKey n) = some (h, l, e + x, []) := by
    intro sign n hn hs hex
    have hval : more 0 (decimalKey n) = n := key_value n
    rw [exponent]
    dsimp only
    rw [if_pos (.inl rfl), if_neg (fun h => key_ne n h.2), if_pos hs, exp_digits _ _ (key_digit n) (by rw [hval]; exact hn), hval]
    dsimp only
    rw [hex, subnormal, dif_neg (by omega)]
    dsimp only
    rw [clamped, dif_neg (by omega)]
    dsimp only
    rw [if_neg (by omega)]
  unfold expText
  by_cases h0 : x < 0
  · rw [if_pos h0]
    exact key 45 _ (by omega) (.inl rfl) (by rw [if_pos rfl]; omega)
  · rw [if_neg h0]
    exact key 43 _ (by omega) (.inr rfl) (by rw [if_neg (by decide)]; omega)

/-- the mantissa -/
theorem scan_mantissa {n : Nat} {I F tail : Bytes} (hI : I ≠ []) (hId : ∀ c ∈ I, Digit c) (hFd : ∀ c ∈ F, Digit c)
    (hv : value (I ++ F) < 10 ^ 34) (ht : tail = [] ∨ ∃ r, tail = 69 :: r) :
    ∃ p, scan n (I ++ (if F = [] then [] else 46 :: F) ++ tail) {} = some (p, tail) ∧ Inv p (value (I ++ F)) ∧ p.i ≠ 0 ∧
      (if p.dot ≥ 0 then p.e + (p.dot - p.i) else p.e) = -(F.length : Int) := by
  have hv' : more 0 (I ++ F) < 10 ^ 34 := hv
  rw [more_append] at hv'
  have h0 : Inv {} 0 := ⟨by simp [num], ⟨0, by omega, rfl⟩, by decide, by decide, by simp⟩
  have hIpos : 0 < I.length := List.length_pos_iff.mpr hI
  have finish : ∀ (p : Scan) (v : Nat), Inv p v → v < 10 ^ 34 → ∃ p', scan n tail p = some (p', tail) ∧ Inv p' v ∧ p'.e = p.e ∧ p'.dot = p.dot ∧ p'.i = p.i := by
    intro p v hp hv
    rcases ht with rfl | ⟨r, rfl⟩
    · exact ⟨p, by rw [scan], hp, rfl, rfl, rfl⟩
    · exact end_step rfl hp hv
  have e1 : value (I ++ F) = more (more 0 I) F := more_append 0 I F
  rw [e1]
  cases F with
  | nil =>
    rw [if_pos rfl, List.append_nil]
    obtain ⟨p1, h1, h2, h3, h4, h5⟩ := digits_scan (n := n) (rest := tail) I {} 0 hId h0 hv'
    obtain ⟨p2, g1, g2, g3, g4, g5⟩ := finish p1 _ h2 hv'
    refine ⟨p2, by rw [h1, g1], g2, by rw [g5, h5]; simp; omega, ?_⟩
    rw [g4, h4, if_neg (by decide), g3, h3]; rfl
  | cons f F =>
    rw [if_neg (by simp)]
    have hle := more_ge (f :: F) (more 0 I)
    obtain ⟨p1, h1, h2, h3, h4, h5⟩ := digits_scan (n := n) (rest := 46 :: f :: F ++ tail) I {} 0 hId h0 (by omega)
    have hi1 : p1.i = I.length := by rw [h5]; simp
    obtain ⟨p2, g1, g2, g3, g4, g5⟩ := dot_step (n := n) (rest := F ++ tail) (hFd f (List.mem_cons_self ..)) h2 (by omega) h3 h4 (by omega)
    obtain ⟨p3, k1, k2, k3, k4, k5⟩ := digits_scan (n := n) (rest := tail) (f :: F) p2 _ hFd g2 hv'
    obtain ⟨p4, l1, l2, l3, l4, l5⟩ := finish p3 _ k2 hv'
    refine ⟨p4, ?_, l2, by omega, ?_⟩
    · rw [List.append_assoc, h1, List.cons_append, List.cons_append, g1]
      rw [List.cons_append] at k1
      rw [k1, l1]
    · rw [l4, k4, g4, l3, k3, g3, l5, k5, g5, if_pos (by omega)]
      omega

theorem or_eq_add {a b k : Nat} (h : a < 2 ^ k) : a ||| (b * 2 ^ k) = b * 2 ^ k + a := by
  rw [Nat.or_comm, ← Nat.shiftLeft_eq, Nat.shiftLeft_add_eq_or_of_lt h]

theorem join_bits {neg : Bool} {c : Nat} {e : Int} {h l : UInt64} (hr : Representable c e) (hn : num h l = c) :
    (⟨if neg then (h ||| ((UInt64.ofNat (u64i (e + 6176)) &&& 16383) <<< 49)) ||| ((1 : UInt64) <<< 63) else h ||| ((UInt64.ofNat (u64i (e + 6176)) &&& 16383) <<< 49), l⟩ : Dec) =
      encode neg c e := by
  obtain ⟨g1, g2, g3, g4⟩ := encode_h (neg := neg) hr
  obtain ⟨hc, he1, he2⟩ := hr
  have hl := l.toNat_lt
  have hh : h.toNat = c / 2 ^ 64 := by unfold num at hn; omega
  have hl' : l.toNat = c % 2 ^ 64 := by unfold num at hn; omega
  have hx : u64i (e + 6176) = (e + 6176).toNat := by unfold u64i; omega
  have hs : ((UInt64.ofNat (u64i (e + 6176)) &&& 16383) <<< 49).toNat = (e + 6176).toNat * 2 ^ 49 := by
    rw [UInt64.toNat_shiftLeft, UInt64.toNat_and, UInt64.toNat_ofNat_of_lt' (by rw [hx]; simp [UInt64.size]; omega), hx,
      show (16383 : UInt64).toNat = 2 ^ 14 - 1 from rfl, Nat.and_two_pow_sub_one_eq_mod, show (49 : UInt64).toNat % 64 = 49 from rfl, Nat.shiftLeft_eq]
    omega
  have hb : (h ||| ((UInt64.ofNat (u64i (e + 6176)) &&& 16383) <<< 49)).toNat = (e + 6176).toNat * 2 ^ 49 + c / 2 ^ 64 := by
    rw [UInt64.toNat_or, hs, hh, or_eq_add g2]
  generalize h ||| ((UInt64.ofNat (u64i (e + 6176)) &&& 16383) <<< 49) = w at hb
  have key : ∀ d : Dec, d.h.toNat = (encode neg c e).h.toNat → d.l.toNat = (encode neg c e).l.toNat → d = encode neg c e := by
    intro d h1 h2
    obtain ⟨a, b⟩ := d
    generalize encode neg c e = d' at h1 h2
    obtain ⟨a', b'⟩ := d'
    obtain rfl : a = a' := UInt64.toNat_inj.mp h1
    obtain rfl : b = b' := UInt64.toNat_inj.mp h2
    rfl
  apply key
  · rw [g1]
    cases neg
    · simp [hb]
    · show (w ||| ((1 : UInt64) <<< 63)).toNat = _
      rw [UInt64.toNat_or, hb, show ((1 : UInt64) <<< 63).toNat = 1 * 2 ^ 63 from rfl, or_eq_add (by omega), if_pos rfl]
      omega
  · rw [g4]; exact hl'

theorem parse_numeral {neg : Bool} {I F : Bytes} {exp : Option Int} (hI : I ≠ []) (hId : ∀ c ∈ I, Digit c) (hFd : ∀ c ∈ F, Digit c)
    (hx : ∀ x, exp = some x → -10000 < x ∧ x < 10000) (hr : Representable (value (I ++ F)) (exp.getD 0 - F.length)) :
    parse (numeral neg I F exp) = some (encode neg (value (I ++ F)) (exp.getD 0 - F.length)) := by
  let tail : Bytes := expPart exp
  let body := I ++ (if F = [] then [] else 46 :: F) ++ tail
  obtain ⟨i0, I', rfl⟩ : ∃ i0 I', I = i0 :: I' := by
    cases I with
    | nil => exact absurd rfl hI
    | cons a b => exact ⟨a, b, rfl⟩
  have hi0 : Digit i0 := hId i0 (List.mem_cons_self ..)
  have hne : ∀ b : UInt8, (b.toNat < 48 ∨ 57 < b.toNat) → i0 ≠ b := by
    intro b hb h; subst h; unfold Digit at hi0; omega
  have e1 : numeral neg (i0 :: I') F exp = (if neg then [45] else []) ++ body := by
    unfold numeral; simp only [body, tail, List.append_assoc]
  have hbody : body = i0 :: (I' ++ (if F = [] then [] else 46 :: F) ++ tail) := by simp [body]
  have hnum : parseNumber neg body = some (encode neg (value (i0 :: I' ++ F)) (exp.getD 0 - F.length)) := by
    have ht : tail = [] ∨ ∃ r, tail = 69 :: r := by
      cases exp with
      | none => exact .inl rfl
      | some x => exact .inr ⟨_, rfl⟩
    obtain ⟨p, h1, h2, h3, h4⟩ := scan_mantissa (n := body.length) hI hId hFd hr.1 ht
    obtain ⟨q, g1, g2, g3, g4, g5⟩ := post h2 hr.1
    unfold parseNumber
    rw [h1]
    dsimp only
    rw [if_neg h3, g1]
    dsimp only
    rw [g3, g4, g5, h4]
    have hexp : exponent q.h q.l (-(F.length : Int)) tail = some (q.h, q.l, exp.getD 0 - F.length, []) := by
      cases exp with
      | none =>
        show exponent q.h q.l _ [] = _
        rw [exponent_none]; simp
      | some x =>
        have hr' : Representable (value (i0 :: I' ++ F)) (x - F.length) := hr
        obtain ⟨_, r2, r3⟩ := hr'
        show exponent q.h q.l _ (69 :: expText x) = _
        rw [exponent_some (hx x rfl) (by omega) (by omega)]
        simp; omega
    rw [hexp]
    dsimp only
    rw [if_neg (by simp)]
    rw [join_bits hr g2]
  rw [e1]
  have hspecial : ¬ ((body.length = 3 ∨ body.length = 8) ∧ (body.head? = some 78 ∨ body.head? = some 110 ∨ body.head? = some 73 ∨ body.head? = some 105)) := by
    rintro ⟨_, h⟩
    rw [hbody, List.head?_cons] at h
    simp only [Option.some.injEq] at h
    rcases h with h | h | h | h <;> exact hne _ (by decide) h
  cases neg
  · show parse ([] ++ body) = _
    rw [List.nil_append]
    have : parse body = if (body.length = 3 ∨ body.length = 8) ∧ (body.head? = some 78 ∨ body.head? = some 110 ∨ body.head? = some 73 ∨ body.head? = some 105) then
      (if equalFold body [110, 97, 110] then some nan
      else if equalFold body [105, 110, 102] ∨ equalFold body [105, 110, 102, 105, 110, 105, 116, 121] then some posInf
      else none) else parseNumber false body := by
      rw [hbody]
      unfold parse
      dsimp only
      have d1 : decide (i0 = 45) = false := decide_eq_false (hne 45 (by decide))
      rw [d1, if_neg (show ¬ (false = true ∨ i0 = 43) from by rintro (h | h); cases h; exact hne 43 (by decide) h)]
      rfl
    rw [this, if_neg hspecial, hnum]
  · show parse ([45] ++ body) = _
    rw [List.cons_append, List.nil_append, parse]
    rw [if_pos (show decide ((45 : UInt8) = 45) = true ∨ (45 : UInt8) = 43 from .inl (by decide)), if_neg hspecial]
    exact hnum

theorem digit_zero : Digit 48 := by unfold Digit; decide

/-- the printed text is a numeral for the number -/
theorem text_numeral (neg : Bool) (c : Nat) (e : Int) : ∃ I F exp, text neg c e = numeral neg I F exp ∧ I ≠ [] ∧ (∀ x ∈ I, Digit x) ∧ (∀ x ∈ F, Digit x) ∧
    value (I ++ F) = c ∧ exp.getD 0 - F.length = e ∧ (∀ x, exp = some x → x = e + ((decimalKey c).length - 1 : Int)) := by
  have hd := key_digit c
  have hv := key_value c
  have hpos : 0 < (decimalKey c).length := List.length_pos_iff.mpr (key_ne c)
  unfold text numeral
  generalize decimalKey c = ds at *
  dsimp only
  by_cases h1 : e ≤ 0 ∧ -6 ≤ e + ((ds.length : Int) - 1)
  · rw [if_pos h1]
    by_cases h2 : e = 0
    · rw [if_pos h2]
      refine ⟨ds, [], none, by simp [expPart], ?_, hd, by simp, by simp [hv], by simp [h2], by simp⟩
      exact List.length_pos_iff.mp hpos
    · rw [if_neg h2]
      by_cases h3 : (-e).toNat < ds.length
      · rw [if_pos h3]
        refine ⟨ds.take (ds.length - (-e).toNat), ds.drop (ds.length - (-e).toNat), none, ?_, ?_, fun x hx => hd x (List.mem_of_mem_take hx), fun x hx => hd x (List.mem_of_mem_drop hx),
          by rw [List.take_append_drop]; exact hv, ?_, by simp⟩
        · have hF : ds.drop (ds.length - (-e).toNat) ≠ [] := fun h => by
            have := congrArg List.length h
            simp at this
            omega
          generalize ds.drop (ds.length - (-e).toNat) = F at hF ⊢
          rw [if_neg hF]
          simp [expPart]
        · intro h
          have := congrArg List.length h
          simp at this
          omega
        · simp; omega
      · rw [if_neg h3]
        refine ⟨[48], List.replicate ((-e).toNat - ds.length) 48 ++ ds, none, ?_, by simp, ?_, ?_, ?_, ?_, by simp⟩
        · have hF : List.replicate ((-e).toNat - ds.length) 48 ++ ds ≠ [] := fun h => by
            have := congrArg List.length h
            simp at this
            have := List.length_pos_iff.mp hpos
            simp_all
          rw [if_neg hF]
          simp [expPart]
        · intro x hx
          rw [List.mem_singleton.mp hx]; exact digit_zero
        · intro x hx
          rcases List.mem_append.mp hx with hx | hx
          · rw [List.eq_of_mem_replicate hx]; exact digit_zero
          · exact hd x hx
        · show more 0 ([48] ++ (List.replicate _ 48 ++ ds)) = c
          have hz : ∀ k, more 0 (List.replicate k 48) = 0 := by
            intro k
            induction k with
            | zero => rfl
            | succ k ih => rw [List.replicate_succ]; exact ih
          rw [more_append, more_append, show more 0 [48] = 0 from rfl, hz]
          exact hv
        · simp; omega
  · rw [if_neg h1]
    refine ⟨ds.take 1, ds.drop 1, some (e + (ds.length - 1)), ?_, ?_, fun x hx => hd x (List.mem_of_mem_take hx), fun x hx => hd x (List.mem_of_mem_drop hx),
      by rw [List.take_append_drop]; exact hv, ?_, by simp⟩
    · have : ds.length = 1 ↔ ds.drop 1 = [] := by
        rw [List.eq_nil_iff_length_eq_zero, List.length_drop]; omega
      by_cases h2 : ds.length = 1
      · rw [if_pos h2, if_pos (this.mp h2)]; simp [expPart]
      · rw [if_neg h2, if_neg (fun h => h2 (this.mpr h))]; simp [expPart]
    · intro h
      have := congrArg List.length h
      rw [List.length_take, List.length_nil] at this
      omega
    · simp; omega

/-- reading the printed text gives the number back, bit for bit -/
theorem parse_text {neg : Bool} {c : Nat} {e : Int} (h : Representable c e) : parse (text neg c e) = some (encode neg c e) := by
  obtain ⟨I, F, exp, h1, h2, h3, h4, h5, h6, h7⟩ := text_numeral neg c e
  have hlen : (decimalKey c).length ≤ 34 := (ndig_le (by decide)).mpr h.1
  obtain ⟨_, r1, r2⟩ := id h
  rw [h1, parse_numeral h2 h3 h4 (fun x hx => by have := h7 x hx; omega) (by rw [h5, h6]; exact h), h5, h6]

/-! ### for the counterexamples -/

theorem parse_head {c : UInt8} {r : Bytes} (h : Digit c) : parse (c :: r) = parseNumber false (c :: r) := by
  have hne : ∀ b : UInt8, (b.toNat < 48 ∨ 57 < b.toNat) → c ≠ b := by
    intro b hb h'; subst h'; unfold Digit at h; omega
  unfold parse
  dsimp only
  have d1 : decide (c = 45) = false := decide_eq_false (hne 45 (by decide))
  rw [d1, if_neg (show ¬ (false = true ∨ c = 43) from by rintro (h | h); cases h; exact hne 43 (by decide) h), if_neg]
  rintro ⟨_, h⟩
  rw [List.head?_cons] at h
  simp only [Option.some.injEq] at h
  rcases h with h | h | h | h <;> exact hne _ (by decide) h

theorem num_inj {h l h' l' : UInt64} (e : num h l = num h' l') : h = h' ∧ l = l' := by
  unfold num at e
  have h1 := l.toNat_lt
  have h2 := l'.toNat_lt
  rw [uint_eq, uint_eq]
  omega

/-- without an exponent part -/
theorem parse_fraction {i0 : UInt8} {I F : Bytes} {h l : UInt64} (hId : ∀ c ∈ i0 :: I, Digit c) (hFd : ∀ c ∈ F, Digit c)
    (hv : value (i0 :: I ++ F) < 10 ^ 34) (hn : num h l = value (i0 :: I ++ F)) :
    parse (numeral false (i0 :: I) F none) = some ⟨h ||| ((UInt64.ofNat (u64i (-(F.length : Int) + 6176)) &&& 16383) <<< 49), l⟩ := by
  have e1 : numeral false (i0 :: I) F none = i0 :: I ++ (if F = [] then [] else 46 :: F) ++ [] := rfl
  obtain ⟨p, h1, h2, h3, h4⟩ := scan_mantissa (n := (i0 :: I ++ (if F = [] then [] else 46 :: F) ++ []).length) (by simp) hId hFd hv (.inl rfl)
  obtain ⟨q, g1, g2, g3, g4, g5⟩ := post h2 hv
  rw [e1, List.cons_append, List.cons_append, parse_head (hId i0 (List.mem_cons_self ..)), ← List.cons_append, ← List.cons_append]
  unfold parseNumber
  rw [h1]
  dsimp only
  rw [if_neg h3, g1]
  dsimp only
  rw [g3, g4, g5, h4, exponent_none]
  obtain ⟨k1, k2⟩ := num_inj (g2.trans hn.symm)
  rw [k1, k2]
  rfl

theorem overflow_clamped : clamped 18446744073 13088917067439035464 6120 = some (0, 231788544, 6111) := by
  have hm : mulUp 1 6120 = (1000000000, 6111) := by
    have step : ∀ (m : UInt32) (e : Int), m < 1000000000 → e > 6111 → mulUp m e = mulUp (m * 10) (e - 1) := fun m e h1 h2 => by
      rw [mulUp, if_pos ⟨h1, h2⟩]
    rw [step 1 6120 (by decide) (by decide), step _ _ (by decide) (by decide), step _ _ (by decide) (by decide), step _ _ (by decide) (by decide),
      step _ _ (by decide) (by decide), step _ _ (by decide) (by decide), step _ _ (by decide) (by decide), step _ _ (by decide) (by decide),
      step _ _ (by decide) (by decide), mulUp, if_neg (by decide)]
    decide
  have hma : muladd 18446744073 13088917067439035464 1000000000 0 = (0, 231788544, 0) := by decide +kernel
  rw [clamped, dif_pos (by decide), hm]
  dsimp only
  rw [hma]
  dsimp only
  rw [if_neg (by decide), clamped, dif_neg (by decide)]

theorem overflow_parse : parse (numeral false "340282366920938463463374607432".toUTF8.toList [] (some 6120)) = some ⟨6916966077687660544, 231788544⟩ := by
  have hs : "340282366920938463463374607432".toUTF8.toList =
    [51, 52, 48, 50, 56, 50, 51, 54, 54, 57, 50, 48, 57, 51, 56, 52, 54, 51, 52, 54, 51, 51, 55, 52, 54, 48, 55, 52, 51, 50] := by decide +kernel
  rw [hs]
  have hId : ∀ c ∈ ([51, 52, 48, 50, 56, 50, 51, 54, 54, 57, 50, 48, 57, 51, 56, 52, 54, 51, 52, 54, 51, 51, 55, 52, 54, 48, 55, 52, 51, 50] : Bytes), Digit c := by
    unfold Digit; decide +kernel
  have hval : value [51, 52, 48, 50, 56, 50, 51, 54, 54, 57, 50, 48, 57, 51, 56, 52, 54, 51, 52, 54, 51, 51, 55, 52, 54, 48, 55, 52, 51, 50] = 340282366920938463463374607432 := by
    decide +kernel
  generalize hI : ([51, 52, 48, 50, 56, 50, 51, 54, 54, 57, 50, 48, 57, 51, 56, 52, 54, 51, 52, 54, 51, 51, 55, 52, 54, 48, 55, 52, 51, 50] : Bytes) = I at *
  obtain ⟨i0, I', rfl⟩ : ∃ i0 I', I = i0 :: I' := ⟨_, _, hI.symm⟩
  have hv : value (i0 :: I' ++ []) < 10 ^ 34 := by rw [List.append_nil, hval]; decide
  have e1 : numeral false (i0 :: I') [] (some 6120) = i0 :: I' ++ (if ([] : Bytes) = [] then [] else 46 :: []) ++ (69 :: expText 6120) := rfl
  obtain ⟨p, h1, h2, h3, h4⟩ := scan_mantissa (n := (i0 :: I' ++ (if ([] : Bytes) = [] then [] else 46 :: []) ++ (69 :: expText 6120)).length)
    (by simp) hId (by simp) hv (.inr ⟨_, rfl⟩)
  obtain ⟨q, g1, g2, g3, g4, g5⟩ := post h2 hv
  rw [List.append_nil, hval] at g2
  rw [e1, List.cons_append, List.cons_append, parse_head (hId i0 (List.mem_cons_self ..)), ← List.cons_append, ← List.cons_append]
  unfold parseNumber
  rw [h1]
  dsimp only
  rw [if_neg h3, g1]
  dsimp only
  rw [g3, g4, g5, h4]
  obtain ⟨k1, k2⟩ := num_inj (h := q.h) (l := q.l) (h' := 18446744073) (l' := 13088917067439035464) (g2.trans (by unfold num; decide))
  rw [k1, k2]
  have hex : exponent 18446744073 13088917067439035464 (-(([] : Bytes).length : Int)) (69 :: expText 6120) = some (0, 231788544, 6111, []) := by
    have ht : expText 6120 = 43 :: [54, 49, 50, 48] := by decide +kernel
    rw [ht, exponent, if_pos (.inl rfl)]
    dsimp only
    have hd : expDigits [54, 49, 50, 48] 0 = some (6120, []) := by decide +kernel
    rw [if_neg (by decide), if_pos (.inr rfl), hd]
    dsimp only
    rw [if_neg (by decide), show (-(([] : Bytes).length : Int) + ((6120 : Nat) : Int)) = 6120 from rfl, subnormal, dif_neg (by decide)]
    dsimp only
    rw [overflow_clamped]
    rfl
  rw [hex]
  dsimp only
  rw [if_neg (by simp), if_neg (by simp)]
  congr 1

theorem digits_zeros_one (n : Nat) : ∀ c ∈ List.replicate n 48 ++ [(49 : UInt8)], Digit c := by
  intro c hc
  rcases List.mem_append.mp hc with hc | hc
  · rw [List.eq_of_mem_replicate hc]; exact digit_zero
  · rw [List.mem_singleton.mp hc]; unfold Digit; decide

theorem value_zeros_one (n : Nat) : value (48 :: [] ++ (List.replicate n 48 ++ [49])) = 1 := by
  show more 0 ([48] ++ (List.replicate n 48 ++ [49])) = 1
  have hz : ∀ k, more 0 (List.replicate k 48) = 0 := by
    intro k
    induction k with
    | zero => rfl
    | succ k ih => rw [List.replicate_succ]; exact ih
  rw [more_append, more_append, show more 0 [48] = 0 from rfl, hz]
  rfl

end Birch.Proofs.Decimal
