import Verif.Proofs.DecimalExact

/-
Reading decimal numbers: exponents out of range are brought into it, and the whole of `ParseDecimal128`.
-/

namespace Birch.Proofs.Decimal
open Birch Spec Model.Decimal Spec.Decimal

/-! ### exponents below the range -/

theorem divUp_spec (d : UInt32) (j : Nat) (m : Nat) (hd : d.toNat = 10 ^ j) (hj : j ≤ 9) :
    (divUp d (-6176 - (m : Int))).1.toNat = 10 ^ (j + min m (9 - j)) ∧ (divUp d (-6176 - (m : Int))).2 = -6176 - ((m - min m (9 - j) : Nat) : Int) := by
  induction m generalizing d j with
  | zero =>
    rw [divUp, if_neg (by omega)]
    simp [hd]
  | succ m ih =>
    rw [divUp]
    by_cases h : j = 9
    · have : ¬ d < 1000000000 := by rw [UInt32.lt_iff_toNat_lt, hd, h]; decide
      rw [if_neg (fun hx => this hx.1)]
      simp [hd, h]
    · have hlt : d < 1000000000 := by
        rw [UInt32.lt_iff_toNat_lt, hd]
        exact (Nat.pow_lt_pow_iff_right (by decide : 1 < 10)).mpr (show j < 9 by omega)
      rw [if_pos ⟨hlt, by omega⟩, show (-6176 - ((m + 1 : Nat) : Int)) + 1 = -6176 - (m : Int) by omega]
      obtain ⟨h1, h2⟩ := ih (d * 10) (j + 1) (mul_u32 hd (by omega)) (by omega)
      rw [h1, h2]
      refine ⟨?_, ?_⟩
      · congr 1; omega
      · omega

theorem pow_min_ne {d : UInt32} {k : Nat} (h : d.toNat = 10 ^ k) : d ≠ 0 := by
  rintro rfl
  have : 0 < 10 ^ k := Nat.pow_pos (by decide)
  rw [← h] at this
  exact absurd this (by decide)

theorem subnormal_spec (m : Nat) (h l : UInt64) :
    (10 ^ m ∣ num h l → ∃ h' l', subnormal h l (-6176 - (m : Int)) = some (h', l', -6176) ∧ num h' l' = num h l / 10 ^ m) ∧
    (¬ 10 ^ m ∣ num h l → subnormal h l (-6176 - (m : Int)) = none) := by
  induction m using Nat.strongRecOn generalizing h l with
  | _ m ih =>
    rw [subnormal]
    by_cases h0 : m = 0
    · subst h0
      rw [dif_neg (by omega)]
      exact ⟨fun _ => ⟨h, l, by simp, by simp⟩, fun hn => absurd (by simp) hn⟩
    · rw [dif_pos (by omega)]
      obtain ⟨d1, d2⟩ := divUp_spec 1 0 m rfl (by omega)
      have hk : min m (9 - 0) ≤ m := by omega
      have hk0 : 0 < min m (9 - 0) := by omega
      rw [Nat.zero_add] at d1
      generalize min m (9 - 0) = k at *
      have hd0 := pow_min_ne d1
      have hspec := divmod_spec h l _ hd0
      rw [d2]
      generalize divmod h l (divUp 1 (-6176 - (m : Int))).1 = r at *
      obtain ⟨a, b, c⟩ := r
      rw [d1] at hspec
      obtain ⟨s1, s2⟩ := hspec
      change num a b = num h l / 10 ^ k at s1
      change c.toNat = num h l % 10 ^ k at s2
      dsimp only
      have hpow : 10 ^ m = 10 ^ k * 10 ^ (m - k) := by rw [← Nat.pow_add]; congr 1; omega
      by_cases hc : c > 0
      · rw [if_pos hc]
        have hc' : 0 < c.toNat := UInt32.lt_iff_toNat_lt.mp hc
        have hnd : ¬ 10 ^ m ∣ num h l := fun hdvd => by
          have := Nat.mod_eq_zero_of_dvd (Nat.dvd_trans ⟨_, hpow⟩ hdvd)
          omega
        exact ⟨fun hd => absurd hd hnd, fun _ => rfl⟩
      · rw [if_neg hc]
        have hc' : c.toNat = 0 := by
          have : ¬ 0 < c.toNat := fun h => hc (UInt32.lt_iff_toNat_lt.mpr h)
          omega
        have hdvd : 10 ^ k ∣ num h l := Nat.dvd_of_mod_eq_zero (by omega)
        have hiff : 10 ^ m ∣ num h l ↔ 10 ^ (m - k) ∣ num h l / 10 ^ k := by
          obtain ⟨q, hq⟩ := hdvd
          rw [hq, hpow, Nat.mul_div_cancel_left _ (Nat.pow_pos (by decide)), Nat.mul_dvd_mul_iff_left (Nat.pow_pos (by decide))]
        obtain ⟨i1, i2⟩ := ih (m - k) (by omega) a b
        rw [s1] at i1 i2
        refine ⟨fun hd => ?_, fun hd => i2 (fun h => hd (hiff.mpr h))⟩
        obtain ⟨h', l', e1, e2⟩ := i1 (hiff.mp hd)
        refine ⟨h', l', e1, ?_⟩
        rw [e2, Nat.div_div_eq_div_mul, hpow]

/-! ### exponents above the range -/

theorem mulUp_spec (d : UInt32) (j : Nat) (m : Nat) (hd : d.toNat = 10 ^ j) (hj : j ≤ 9) :
    (mulUp d (6111 + (m : Int))).1.toNat = 10 ^ (j + min m (9 - j)) ∧ (mulUp d (6111 + (m : Int))).2 = 6111 + ((m - min m (9 - j) : Nat) : Int) := by
  induction m generalizing d j with
  | zero =>
    rw [mulUp, if_neg (by omega)]
    simp [hd]
  | succ m ih =>
    rw [mulUp]
    by_cases h : j = 9
    · have : ¬ d < 1000000000 := by rw [UInt32.lt_iff_toNat_lt, hd, h]; decide
      rw [if_neg (fun hx => this hx.1)]
      simp [hd, h]
    · have hlt : d < 1000000000 := by
        rw [UInt32.lt_iff_toNat_lt, hd]
        exact (Nat.pow_lt_pow_iff_right (by decide : 1 < 10)).mpr (show j < 9 by omega)
      rw [if_pos ⟨hlt, by omega⟩, show (6111 + ((m + 1 : Nat) : Int)) - 1 = 6111 + (m : Int) by omega]
      obtain ⟨h1, h2⟩ := ih (d * 10) (j + 1) (mul_u32 hd (by omega)) (by omega)
      rw [h1, h2]
      refine ⟨?_, ?_⟩
      · congr 1; omega
      · omega

theorem tooLarge_true {h : UInt64} {o : UInt32} (hh : 2 ^ 49 ≤ h.toNat) : tooLarge h o = true := by
  unfold tooLarge
  have : h &&& ((0x7FFF : UInt64) <<< 49) > 0 := by
    show (0 : UInt64) < _
    rw [UInt64.lt_iff_toNat_lt, UInt64.toNat_and]
    have e1 : ((0x7FFF : UInt64) <<< 49).toNat = 2 ^ 49 * (2 ^ 15 - 1) := rfl
    rw [e1]
    obtain ⟨i, hi, hb⟩ := Nat.exists_ge_and_testBit_of_ge_two_pow hh
    have hi64 : i < 64 := by
      rcases Nat.lt_or_ge i 64 with h1 | h1
      · exact h1
      · rw [Nat.testBit_lt_two_pow (Nat.lt_of_lt_of_le h.toNat_lt (Nat.pow_le_pow_right (by decide) h1))] at hb
        cases hb
    refine Nat.pos_of_ne_zero fun h0 => ?_
    have : (h.toNat &&& 2 ^ 49 * (2 ^ 15 - 1)).testBit i = true := by
      rw [Nat.testBit_and, hb, Nat.testBit_two_pow_mul, Nat.testBit_two_pow_sub_one]
      simp
      omega
    rw [h0] at this
    simp at this
  simp [this]

theorem clamped_spec (m : Nat) (h l : UInt64) (hlt : num h l * 10 ^ m < 2 ^ 113) :
    ∃ h' l', clamped h l (6111 + (m : Int)) = some (h', l', 6111) ∧ num h' l' = num h l * 10 ^ m := by
  induction m using Nat.strongRecOn generalizing h l with
  | _ m ih =>
    rw [clamped]
    by_cases h0 : m = 0
    · subst h0
      rw [dif_neg (by omega)]
      exact ⟨h, l, by simp, by simp⟩
    · rw [dif_pos (by omega)]
      obtain ⟨d1, d2⟩ := mulUp_spec 1 0 m rfl (by omega)
      have hk : min m (9 - 0) ≤ m := by omega
      have hk0 : 0 < min m (9 - 0) := by omega
      rw [Nat.zero_add] at d1
      generalize min m (9 - 0) = k at *
      have hpow : 10 ^ m = 10 ^ k * 10 ^ (m - k) := by rw [← Nat.pow_add]; congr 1; omega
      have hle : num h l * 10 ^ k < 2 ^ 113 := by
        refine Nat.lt_of_le_of_lt (Nat.mul_le_mul_left _ ?_) hlt
        exact Nat.pow_le_pow_right (by decide) hk
      obtain ⟨h1, _, h3⟩ := muladd_spec h l (mulUp 1 (6111 + (m : Int))).1 0
      have hx : exact h l (mulUp 1 (6111 + (m : Int))).1 0 = num h l * 10 ^ k := by
        unfold exact
        rw [d1]; rfl
      rw [hx] at h1 h3
      have h3 := h3 (by omega)
      rw [d2]
      generalize muladd h l (mulUp 1 (6111 + (m : Int))).1 0 = r at *
      obtain ⟨a, b, o⟩ := r
      simp only at h1 h3 ⊢
      subst h3
      rw [Nat.mod_eq_of_lt (by omega)] at h1
      have ha : a.toNat < 2 ^ 49 := by
        unfold num at h1 hle
        have := b.toNat_lt
        omega
      rw [tooLarge_false ha]
      have h1' : num a b = num h l * 10 ^ k := h1
      obtain ⟨h', l', e1, e2⟩ := ih (m - k) (by omega) a b (by rw [h1', Nat.mul_assoc, ← hpow]; exact hlt)
      refine ⟨h', l', ?_, ?_⟩
      · rw [if_neg (by simp)]; exact e1
      · rw [e2, h1', Nat.mul_assoc, ← hpow]

theorem clamped_reject {m : Nat} (h0 : 0 < m) (hm : m ≤ 4) (h l : UInt64) (hv : num h l < 2 ^ 113) (hge : 2 ^ 113 ≤ num h l * 10 ^ m) :
    clamped h l (6111 + (m : Int)) = none := by
  rw [clamped, dif_pos (by omega)]
  obtain ⟨d1, _⟩ := mulUp_spec 1 0 m rfl (by omega)
  rw [Nat.zero_add, show min m (9 - 0) = m by omega] at d1
  obtain ⟨h1, _, h3⟩ := muladd_spec h l (mulUp 1 (6111 + (m : Int))).1 0
  have hx : exact h l (mulUp 1 (6111 + (m : Int))).1 0 = num h l * 10 ^ m := by
    unfold exact
    rw [d1]; rfl
  have hp : 10 ^ m ≤ 10 ^ 4 := Nat.pow_le_pow_right (by decide) hm
  have hlt : num h l * 10 ^ m < 2 ^ 128 := by
    refine Nat.lt_of_le_of_lt (Nat.mul_le_mul_left _ hp) ?_
    omega
  rw [hx] at h1 h3
  generalize muladd h l (mulUp 1 (6111 + (m : Int))).1 0 = r at *
  obtain ⟨a, b, o⟩ := r
  simp only at h1 ⊢
  rw [Nat.mod_eq_of_lt (by omega)] at h1
  have ha : 2 ^ 49 ≤ a.toNat := by
    unfold num at h1 hge
    have := b.toNat_lt
    omega
  rw [if_pos (tooLarge_true ha)]

theorem adjust_in {h l : UInt64} {e : Int} (h1 : -6176 ≤ e) (h2 : e ≤ 6111) : adjust h l e = some (h, l, e) := by
  unfold adjust
  rw [subnormal, dif_neg (by omega)]
  dsimp only
  rw [clamped, dif_neg (by omega)]
  dsimp only
  rw [if_neg (by omega)]

theorem adjust_small {h l : UInt64} {e : Int} (he : e < -6176) :
    (10 ^ (-6176 - e).toNat ∣ num h l → ∃ h' l', adjust h l e = some (h', l', -6176) ∧ num h' l' = num h l / 10 ^ (-6176 - e).toNat) ∧
    (¬ 10 ^ (-6176 - e).toNat ∣ num h l → adjust h l e = none) := by
  obtain ⟨m, rfl⟩ : ∃ m : Nat, e = -6176 - (m : Int) := ⟨(-6176 - e).toNat, by omega⟩
  rw [show (-6176 - (-6176 - (m : Int))).toNat = m by omega]
  obtain ⟨s1, s2⟩ := subnormal_spec m h l
  unfold adjust
  refine ⟨fun hd => ?_, fun hd => by rw [s2 hd]⟩
  obtain ⟨h', l', e1, e2⟩ := s1 hd
  refine ⟨h', l', ?_, e2⟩
  rw [e1]
  dsimp only
  rw [clamped, dif_neg (by omega)]
  dsimp only
  rw [if_neg (by omega)]

theorem adjust_large {h l : UInt64} {e : Int} (he : 6111 < e) :
    (num h l * 10 ^ (e - 6111).toNat < 2 ^ 113 → ∃ h' l', adjust h l e = some (h', l', 6111) ∧ num h' l' = num h l * 10 ^ (e - 6111).toNat) ∧
    (e ≤ 6115 → num h l < 2 ^ 113 → ¬ num h l * 10 ^ (e - 6111).toNat < 2 ^ 113 → adjust h l e = none) := by
  obtain ⟨m, rfl⟩ : ∃ m : Nat, e = 6111 + (m : Int) := ⟨(e - 6111).toNat, by omega⟩
  rw [show (6111 + (m : Int) - 6111).toNat = m by omega]
  unfold adjust
  rw [subnormal, dif_neg (by omega)]
  dsimp only
  refine ⟨fun hlt => ?_, fun h1 h2 h3 => ?_⟩
  · obtain ⟨h', l', e1, e2⟩ := clamped_spec m h l hlt
    refine ⟨h', l', ?_, e2⟩
    rw [e1]
    dsimp only
    rw [if_neg (by omega)]
  · rw [clamped_reject (by omega) (by omega) h l h2 (by omega)]

/-! ### the encoding -/

theorem encode_fields {neg : Bool} {c : Nat} {e : Int} (hc : c < 2 ^ 113) (h1 : -6176 ≤ e) (h2 : e < 10208) :
    (encode neg c e).h.toNat = (if neg then 2 ^ 63 else 0) + (e + 6176).toNat * 2 ^ 49 + c / 2 ^ 64 ∧ c / 2 ^ 64 < 2 ^ 49 ∧
      (encode neg c e).l.toNat = c % 2 ^ 64 := by
  have h4 : c / 2 ^ 64 < 2 ^ 49 := Nat.div_lt_of_lt_mul (by omega)
  refine ⟨?_, h4, ?_⟩
  · unfold encode
    rw [UInt64.toNat_ofNat_of_lt']
    cases neg <;> simp [UInt64.size] <;> omega
  · unfold encode
    rw [UInt64.toNat_ofNat_of_lt']
    simp [UInt64.size]; omega

/-- the exponent that 14 bits leave -/
def wrap (e : Int) : Int := (e + 6176) % 16384 - 6176

theorem wrap_in {e : Int} (h1 : -6176 ≤ e) (h2 : e ≤ 6111) : wrap e = e := by unfold wrap; omega

theorem join_wrap {neg : Bool} {c : Nat} {e : Int} {h l : UInt64} (hc : c < 2 ^ 113) (hn : num h l = c) :
    (⟨if neg then (h ||| ((UInt64.ofNat (u64i (e + 6176)) &&& 16383) <<< 49)) ||| ((1 : UInt64) <<< 63) else h ||| ((UInt64.ofNat (u64i (e + 6176)) &&& 16383) <<< 49), l⟩ : Dec) =
      encode neg c (wrap e) := by
  have hw : -6176 ≤ wrap e ∧ wrap e < 10208 := by unfold wrap; omega
  obtain ⟨g1, g2, g4⟩ := encode_fields (neg := neg) hc hw.1 hw.2
  have hl := l.toNat_lt
  have hh : h.toNat = c / 2 ^ 64 := by unfold num at hn; omega
  have hl' : l.toNat = c % 2 ^ 64 := by unfold num at hn; omega
  have hx : u64i (e + 6176) % 16384 = (wrap e + 6176).toNat := by unfold u64i wrap; omega
  have hx' : u64i (e + 6176) < 2 ^ 64 := by unfold u64i; omega
  have hs : ((UInt64.ofNat (u64i (e + 6176)) &&& 16383) <<< 49).toNat = (wrap e + 6176).toNat * 2 ^ 49 := by
    rw [UInt64.toNat_shiftLeft, UInt64.toNat_and, UInt64.toNat_ofNat_of_lt' (by simpa [UInt64.size] using hx'),
      show (16383 : UInt64).toNat = 2 ^ 14 - 1 from rfl, Nat.and_two_pow_sub_one_eq_mod, show (49 : UInt64).toNat % 64 = 49 from rfl, Nat.shiftLeft_eq,
      show 2 ^ 14 = 16384 from rfl, hx]
    omega
  have hb : (h ||| ((UInt64.ofNat (u64i (e + 6176)) &&& 16383) <<< 49)).toNat = (wrap e + 6176).toNat * 2 ^ 49 + c / 2 ^ 64 := by
    rw [UInt64.toNat_or, hs, hh, or_eq_add g2]
  generalize h ||| ((UInt64.ofNat (u64i (e + 6176)) &&& 16383) <<< 49) = w at hb
  have key : ∀ d d' : Dec, d.h.toNat = d'.h.toNat → d.l.toNat = d'.l.toNat → d = d' := by
    rintro ⟨a, b⟩ ⟨a', b'⟩ h1 h2
    obtain rfl : a = a' := UInt64.toNat_inj.mp h1
    obtain rfl : b = b' := UInt64.toNat_inj.mp h2
    rfl
  apply key
  · rw [g1]
    cases neg
    · simp [hb]
    · show (w ||| ((1 : UInt64) <<< 63)).toNat = _
      rw [UInt64.toNat_or, hb, show ((1 : UInt64) <<< 63).toNat = 1 * 2 ^ 63 from rfl, or_eq_add (by omega), if_pos rfl]
      omega
  · rw [g4]; exact hl'

/-! ### the whole text -/

/-- the text without its sign -/
def _root_.Birch.Spec.Decimal.Written.body (w : Written) : Bytes := w.int ++ (Written.fracText w.frac ++ Written.expText w.exp)

theorem body_head {w : Written} (hw : w.Ok) : ∃ c r, w.body = c :: r ∧ (Digit c ∨ c = 46) := by
  have hne := hw.digits
  have hI := hw.int
  unfold Written.body Written.digits Written.fraction at *
  cases hI' : w.int with
  | cons c r =>
    rw [hI'] at hI
    exact ⟨c, _, rfl, .inl (hI c (List.mem_cons_self ..))⟩
  | nil =>
    rw [hI'] at hne
    cases hF : w.frac with
    | none => rw [hF] at hne; exact absurd rfl hne
    | some F => exact ⟨46, _, rfl, .inr rfl⟩

/-- neither a sign nor a letter -/
theorem head_ne {c : UInt8} (h : Digit c ∨ c = 46) : c ≠ 45 ∧ c ≠ 43 ∧ c ≠ 78 ∧ c ≠ 110 ∧ c ≠ 73 ∧ c ≠ 105 := by
  refine ⟨?_, ?_, ?_, ?_, ?_, ?_⟩ <;>
  · rintro rfl
    revert h
    unfold Digit
    decide

/-- the part of `parse` after the sign -/
def unsigned (neg : Bool) (s : Bytes) : Option Dec :=
  if (s.length = 3 ∨ s.length = 8) ∧ (s.head? = some 78 ∨ s.head? = some 110 ∨ s.head? = some 73 ∨ s.head? = some 105) then
    if equalFold s [110, 97, 110] then some nan
    else if equalFold s [105, 110, 102] ∨ equalFold s [105, 110, 102, 105, 110, 105, 116, 121] then
      some (if neg then negInf else posInf)
    else none
  else parseNumber neg s

theorem parse_signed (neg : Bool) (s : Bytes) : parse ((if neg then 45 else 43) :: s) = unsigned neg s := by
  cases neg <;> rfl

theorem parse_plain {c : UInt8} {r : Bytes} (h1 : c ≠ 45) (h2 : c ≠ 43) : parse (c :: r) = unsigned false (c :: r) := by
  rw [parse]
  rw [if_neg (show ¬ (decide (c = 45) = true ∨ c = 43) by rintro (h | h); exact h1 (of_decide_eq_true h); exact h2 h), decide_eq_false h1]
  rfl

theorem parse_sign {sign : Option Bool} {s : Bytes} (h : ∀ c r, s = c :: r → c ≠ 45 ∧ c ≠ 43) (hne : s ≠ []) : parse (signText sign ++ s) = unsigned (sign = some true) s := by
  obtain _ | _ | _ := sign
  · obtain _ | ⟨c, r⟩ := s
    · exact absurd rfl hne
    · obtain ⟨h1, h2⟩ := h c r rfl
      exact parse_plain h1 h2
  · exact parse_signed false s
  · exact parse_signed true s

theorem parse_body {w : Written} (hw : w.Ok) : parse w.text = parseNumber w.neg w.body := by
  obtain ⟨c, r, hb, hc⟩ := body_head hw
  obtain ⟨n1, n2, n3, n4, n5, n6⟩ := head_ne hc
  have ht : w.text = signText w.sign ++ w.body := rfl
  have hsp : ¬ ((w.body.length = 3 ∨ w.body.length = 8) ∧ (w.body.head? = some 78 ∨ w.body.head? = some 110 ∨ w.body.head? = some 73 ∨ w.body.head? = some 105)) := by
    rintro ⟨_, h⟩
    rw [hb, List.head?_cons] at h
    simp only [Option.some.injEq] at h
    rcases h with h | h | h | h
    · exact n3 h
    · exact n4 h
    · exact n5 h
    · exact n6 h
  rw [ht, parse_sign (fun c' r' h => by rw [hb] at h; injection h with h _; subst h; exact ⟨n1, n2⟩) (by rw [hb]; simp), unsigned, if_neg hsp]
  rfl

/-- putting the parts together -/
def finish (neg : Bool) : Option (UInt64 × UInt64 × Int × Bytes) → Option Dec
  | none => none
  | some (h, l, e, rest) =>
    if rest ≠ [] then none
    else
      let h := h ||| ((UInt64.ofNat (u64i (e + 6176)) &&& 16383) <<< 49)
      some ⟨if neg then h ||| ((1 : UInt64) <<< 63) else h, l⟩

theorem finish_ok {neg : Bool} {h l : UInt64} {e : Int} {c : Nat} (hc : c < 2 ^ 113) (hn : num h l = c) :
    finish neg (some (h, l, e, [])) = some (encode neg c (wrap e)) := by
  unfold finish
  dsimp only
  rw [if_neg (by simp)]
  exact congrArg some (join_wrap hc hn)

theorem parse_read {w : Written} (hw : w.Ok) (h1 : Zeros (cut w.digits)) (h2 : cut w.int = [] ∨ w.fraction = []) :
    ∃ h l, num h l = w.coeff ∧ parse w.text = finish w.neg (exponent h l ((cut w.digits).length - w.fraction.length) (Written.expText w.exp)) := by
  obtain ⟨p, k1, k2, k3, k4⟩ := (mantissa hw _ rfl).1 h1 h2
  obtain ⟨q, q1, q2, q3, q4, q5⟩ := k2.post
  refine ⟨q.h, q.l, q2, ?_⟩
  rw [parse_body hw]
  unfold parseNumber
  rw [show scan w.body.length w.body {} = _ from k1]
  dsimp only
  rw [if_neg k3, q1]
  dsimp only
  rw [q3, q4, q5, k4]
  unfold finish
  cases exponent q.h q.l ((cut w.digits).length - w.fraction.length) (Written.expText w.exp) with
  | none => rfl
  | some r => rfl

theorem parse_unread {w : Written} (hw : w.Ok) (h : ¬ (Zeros (cut w.digits) ∧ (cut w.int = [] ∨ w.fraction = []))) : parse w.text = none := by
  rw [parse_body hw]
  unfold parseNumber
  rw [show scan w.body.length w.body {} = _ from (mantissa hw _ rfl).2 h]

theorem coeff_lt {w : Written} (hw : w.Ok) : w.coeff < 10 ^ 34 := by
  apply kept_lt
  intro c hc
  rcases List.mem_append.mp hc with hc | hc
  · exact hw.int c hc
  · exact hw.frac c hc

/-- what is not readable is rejected -/
theorem parse_unreadable {w : Written} (hw : w.Ok) (h : ¬ w.Readable) : parse w.text = none := by
  by_cases h1 : Zeros (cut w.digits) ∧ (cut w.int = [] ∨ w.fraction = [])
  · obtain ⟨a, b, hn, hp⟩ := parse_read hw h1.1 h1.2
    have hpow : ¬ (-100000 < w.power ∧ w.power < 100000) := fun hx => h ⟨h1.1, h1.2, hx⟩
    have hex := hw.exp
    unfold Written.power at hpow
    rw [hp]
    rcases hexp : w.exp with _ | ⟨c, s, ds⟩ <;> rw [hexp] at hpow
    · exact absurd ⟨by decide, by decide⟩ hpow
    · obtain ⟨x1, x2, x3⟩ := hex c s ds hexp
      dsimp only at hpow
      have hbig : ¬ more 0 ds < 100000 := by
        intro hlt
        change value ds < 100000 at hlt
        apply hpow
        split <;> omega
      obtain ⟨m, r, hr, hne⟩ := exp_long ds 0 x3 (by decide) hbig
      show finish _ (exponent _ _ _ (c :: (signText s ++ ds))) = none
      rw [exponent_adjust x1 x2 x3, hr]
      dsimp only
      cases adjust a b ((cut w.digits).length - w.fraction.length + if s = some true then -(m : Int) else m) with
      | none => rfl
      | some t => 
        show (if r ≠ [] then none else _) = none
        rw [if_pos hne]
  · exact parse_unread hw h1

/-- a readable text, with or without exponent -/
theorem parse_readable {w : Written} (hw : w.Ok) (h : w.Readable) :
    ∃ a b, num a b = w.coeff ∧ parse w.text =
      if w.exp = none then some (encode w.neg w.coeff (wrap w.scale))
      else finish w.neg ((adjust a b w.scale).map fun r => (r.1, r.2.1, r.2.2, [])) := by
  obtain ⟨a, b, hn, hp⟩ := parse_read hw h.cut h.point
  refine ⟨a, b, hn, ?_⟩
  rw [hp]
  have hex := hw.exp
  have hpow := h.power
  have hlt := coeff_lt hw
  unfold Written.scale
  unfold Written.power at *
  rcases hexp : w.exp with _ | ⟨c, s, ds⟩ <;> rw [hexp] at hpow
  · rw [if_pos rfl]
    show finish _ (exponent _ _ _ []) = _
    rw [exponent_none, finish_ok (by omega) hn]
    congr 2
    congr 1
    dsimp only
    omega
  · rw [if_neg (by simp)]
    obtain ⟨x1, x2, x3⟩ := hex c s ds hexp
    dsimp only at *
    have hsmall : more 0 ds < 100000 := by
      change value ds < 100000
      split at hpow <;> omega
    show finish _ (exponent _ _ _ (c :: (signText s ++ ds))) = _
    rw [exponent_adjust x1 x2 x3, exp_read ds 0 x3 hsmall]
    dsimp only
    rw [show more 0 ds = value ds from rfl]
    rw [show ((cut w.digits).length : Int) - w.fraction.length + (if s = some true then -(value ds : Int) else value ds) =
      (if s = some true then -(value ds : Int) else value ds) - w.fraction.length + (cut w.digits).length by omega]

/-! ### nothing else is read -/

theorem split_digits : ∀ s : Bytes, ∃ I t, s = I ++ t ∧ (∀ c ∈ I, Digit c) ∧ ∀ c r, t = c :: r → ¬ Digit c
  | [] => ⟨[], [], rfl, (by intro c h; cases h), by intro c r h; cases h⟩
  | c :: s => by
    obtain ⟨I, t, h1, h2, h3⟩ := split_digits s
    by_cases hc : isDigit c = true
    · refine ⟨c :: I, t, by rw [h1]; rfl, ?_, h3⟩
      intro x hx
      rcases List.mem_cons.mp hx with rfl | hx
      · exact isDigit_iff.mp hc
      · exact h2 x hx
    · refine ⟨[], c :: s, rfl, (by intro c h; cases h), ?_⟩
      intro x r h
      injection h with h h'
      subst h
      exact fun hd => hc (isDigit_iff.mpr hd)

theorem number_sound {neg : Bool} {s : Bytes} {d : Dec} {sign : Option Bool} (h : parseNumber neg s = some d) :
    ∃ w : Written, w.Ok ∧ w.sign = sign ∧ w.body = s := by
  -- what comes after the loop
  have after : ∀ {p : Scan} {tail : Bytes} {ds : Bytes}, scan s.length s {} = some (p, tail) → St p ds →
      p.i ≠ 0 ∧ ∃ exp, tail = Written.expText exp ∧ ∀ c s ds, exp = some (c, s, ds) → (c = 69 ∨ c = 101) ∧ ds ≠ [] ∧ ∀ c ∈ ds, Digit c := by
    intro p tail ds hs hst
    unfold parseNumber at h
    rw [hs] at h
    dsimp only at h
    by_cases hi : p.i = 0
    · rw [if_pos hi] at h; cases h
    · rw [if_neg hi] at h
      obtain ⟨q, q1, _⟩ := hst.post
      rw [q1] at h
      dsimp only at h
      refine ⟨hi, ?_⟩
      generalize (if q.dot ≥ 0 then q.e + (q.dot - q.i) else q.e) = e at h
      cases hx : exponent q.h q.l e tail with
      | none => rw [hx] at h; cases h
      | some r =>
        obtain ⟨a, b, e', rest⟩ := r
        rw [hx] at h
        dsimp only at h
        by_cases hr : rest = []
        · subst hr
          exact exponent_sound hx
        · rw [if_pos hr] at h; cases h
  have hnone : scan s.length s {} ≠ none := by
    intro hn
    unfold parseNumber at h
    rw [hn] at h
    cases h
  obtain ⟨I, t, hsplit, hI, ht⟩ := split_digits s
  obtain ⟨r1, r2⟩ := St.start.run (n := s.length) (rest := t) I hI
  rw [List.nil_append, ← hsplit] at r1 r2
  have hz : Zeros (cut I) := Classical.byContradiction fun hz => hnone (r2 hz)
  obtain ⟨p, k1, k2, k3, k4⟩ := r1 hz
  have hi : p.i = I.length := by rw [k4]; simp
  have hd : p.dot = -1 := k3
  by_cases hpt : ∃ r, t = 46 :: r
  · obtain ⟨r, rfl⟩ := hpt
    obtain ⟨q, q1, q2, q3, q4⟩ := k2.point (n := s.length) (rest := r)
    by_cases hx : p.dot ≥ 0 ∨ (p.i + 1 = 1 ∧ s.length = 1)
    · rw [if_pos hx] at q4
      exact absurd (k1.trans q4) hnone
    · rw [if_neg hx] at q4
      obtain _ | ⟨f, r⟩ := r
      · have hIne : I ≠ [] := by
          rintro rfl
          apply hx
          right
          rw [hi, hsplit]
          simp
        exact ⟨⟨sign, I, some [], none⟩, ⟨hI, (by intro c hc; cases hc), by simpa [Written.digits] using fun h _ => hIne h, fun _ => rfl, by intro c s ds h; cases h⟩, rfl, by rw [hsplit]; rfl⟩
      · dsimp only at q4
        by_cases hy : ¬ isDigit f = true ∨ cut I ≠ []
        · rw [if_pos hy] at q4
          exact absurd (k1.trans q4) hnone
        · rw [if_neg hy] at q4
          have hq : St { q with i := p.i + 1, dot := (p.i + 1 : Nat) } I := q1.of rfl q1.mul q1.add rfl rfl
          obtain ⟨F, t2, hsplit2, hF, ht2⟩ := split_digits (f :: r)
          have hf : Digit f := isDigit_iff.mp (Classical.byContradiction fun h => hy (.inl h))
          have hFne : F ≠ [] := by
            rintro rfl
            exact ht2 f r hsplit2.symm hf
          obtain ⟨s1, s2⟩ := hq.run (n := s.length) (rest := t2) F hF
          rw [← hsplit2] at s1 s2
          have hz2 : Zeros (cut (I ++ F)) := Classical.byContradiction fun hz => hnone (by rw [k1, q4]; exact s2 hz)
          obtain ⟨p2, m1, m2, m3, m4⟩ := s1 hz2
          have hend : Ends t2 := by
            intro c r' hc
            refine ⟨ht2 c r' hc, ?_⟩
            rintro rfl
            obtain ⟨q', _, _, _, z4⟩ := m2.point (n := s.length) (rest := r')
            rw [if_pos (.inl (by rw [m3]; show (0 : Int) ≤ ((p.i + 1 : Nat) : Int); omega))] at z4
            apply hnone
            rw [k1, q4, m1, hc, z4]
          obtain ⟨p3, u1, u2, u3, u4⟩ := m2.stop (n := s.length) hend
          obtain ⟨_, exp, ht, hexp⟩ := after (by rw [k1, q4, m1, u1]) u2
          refine ⟨⟨sign, I, some F, exp⟩, ⟨hI, hF, ?_, ?_, hexp⟩, rfl, ?_⟩
          · simp [Written.digits, Written.fraction, hFne]
          · intro h
            exact absurd (Option.some.inj h) hFne
          · show I ++ (46 :: F ++ Written.expText exp) = s
            rw [hsplit, hsplit2, ht, List.cons_append]
  · have hend : Ends t := by
      intro c r hc
      exact ⟨ht c r hc, by rintro rfl; exact hpt ⟨r, hc⟩⟩
    obtain ⟨q, q1, q2, q3, q4⟩ := k2.stop (n := s.length) hend
    obtain ⟨hi0, exp, ht, hexp⟩ := after (k1.trans q1) q2
    refine ⟨⟨sign, I, none, exp⟩, ⟨hI, (by intro c hc; cases hc), ?_, (by intro h; cases h), hexp⟩, rfl, ?_⟩
    · intro h
      simp [Written.digits, Written.fraction] at h
      rw [q4, hi, h] at hi0
      exact hi0 rfl
    · show I ++ ([] ++ Written.expText exp) = s
      rw [hsplit, ht]; rfl

/-! ### words -/

theorem lower_eq {c w : UInt8} (hw : 97 ≤ w.toNat ∧ w.toNat ≤ 122) : lower c = w ↔ c = w ∨ c + 32 = w := by
  unfold lower
  rw [← UInt8.toNat_inj, ← UInt8.toNat_inj, ← UInt8.toNat_inj, UInt8.toNat_add, show (32 : UInt8).toNat = 32 from rfl]
  have := c.toNat_lt
  split
  · rw [UInt8.toNat_add, show (32 : UInt8).toNat = 32 from rfl]
    omega
  · omega

theorem fold_cased {word s : Bytes} (hw : ∀ c ∈ word, 97 ≤ c.toNat ∧ c.toNat ≤ 122) : equalFold s word = true ↔ Cased word s := by
  unfold equalFold Cased
  rw [decide_eq_true_iff]
  constructor
  · rintro rfl
    refine ⟨by simp, fun i h h' => ?_⟩
    have := (lower_eq (c := s[i]) (hw _ (List.getElem_mem h'))).mp (by simp)
    exact this
  · rintro ⟨hl, hc⟩
    refine List.ext_getElem (by simpa using hl) fun i h h' => ?_
    rw [List.getElem_map]
    exact (lower_eq (hw _ (List.getElem_mem h'))).mpr (hc i _ h')

theorem nan_word : "nan".toUTF8.toList = [110, 97, 110] := by decide +kernel
theorem inf_word : "inf".toUTF8.toList = [105, 110, 102] := by decide +kernel
theorem infinity_word : "infinity".toUTF8.toList = [105, 110, 102, 105, 110, 105, 116, 121] := by decide +kernel

theorem cased_first {w : UInt8} {ws s : Bytes} (h : Cased (w :: ws) s) : ∃ c r, s = c :: r ∧ (c = w ∨ c + 32 = w) := by
  obtain ⟨hl, hc⟩ := h
  obtain _ | ⟨c, r⟩ := s
  · simp at hl
  · exact ⟨c, r, rfl, hc 0 (by simp) (by simp)⟩

theorem add32 {c w v : UInt8} (h : c + 32 = w) (hv : v + 32 = w) : c = v := by
  rw [← UInt8.toNat_inj] at h hv ⊢
  rw [UInt8.toNat_add, show (32 : UInt8).toNat = 32 from rfl] at h hv
  have := c.toNat_lt
  have := v.toNat_lt
  omega

theorem unsigned_nan {neg : Bool} {s : Bytes} (h : Cased "nan".toUTF8.toList s) : unsigned neg s = some nan := by
  rw [nan_word] at h
  obtain ⟨c, r, rfl, hc⟩ := cased_first h
  have hf := (fold_cased (s := c :: r) (word := [110, 97, 110]) (by decide)).mpr h
  unfold unsigned
  rw [if_pos, if_pos hf]
  refine ⟨.inl h.1, ?_⟩
  rw [List.head?_cons]
  rcases hc with rfl | hc
  · exact .inr (.inl rfl)
  · exact .inl (congrArg some (add32 hc (by decide)))

theorem unsigned_inf {neg : Bool} {s : Bytes} (h : Cased "inf".toUTF8.toList s ∨ Cased "infinity".toUTF8.toList s) :
    unsigned neg s = some (if neg then negInf else posInf) := by
  rw [inf_word, infinity_word] at h
  obtain ⟨c, r, rfl, hc⟩ : ∃ c r, s = c :: r ∧ (c = 105 ∨ c + 32 = 105) := by
    rcases h with h | h
    · exact cased_first h
    · exact cased_first h
  have hf : equalFold (c :: r) [105, 110, 102] = true ∨ equalFold (c :: r) [105, 110, 102, 105, 110, 105, 116, 121] = true := by
    rcases h with h | h
    · exact .inl ((fold_cased (by decide)).mpr h)
    · exact .inr ((fold_cased (by decide)).mpr h)
  have hn : ¬ equalFold (c :: r) [110, 97, 110] = true := by
    intro h
    obtain ⟨c', r', e, hc'⟩ := cased_first ((fold_cased (by decide)).mp h)
    injection e with e e'
    subst e
    rcases hc with rfl | hc <;> rcases hc' with hc' | hc'
    · exact absurd hc' (by decide)
    · exact absurd hc' (by decide)
    · rw [hc'] at hc; exact absurd hc (by decide)
    · rw [hc'] at hc; exact absurd hc (by decide)
  have hl : (c :: r).length = 3 ∨ (c :: r).length = 8 := by
    rcases h with h | h
    · exact .inl h.1
    · exact .inr h.1
  unfold unsigned
  rw [if_pos, if_neg hn, if_pos hf]
  refine ⟨hl, ?_⟩
  rw [List.head?_cons]
  rcases hc with rfl | hc
  · exact .inr (.inr (.inr rfl))
  · exact .inr (.inr (.inl (congrArg some (add32 hc (by decide)))))

theorem special_head {s : Bytes} (h : Cased "nan".toUTF8.toList s ∨ Cased "inf".toUTF8.toList s ∨ Cased "infinity".toUTF8.toList s) :
    (∀ c r, s = c :: r → c ≠ 45 ∧ c ≠ 43) ∧ s ≠ [] := by
  rw [nan_word, inf_word, infinity_word] at h
  obtain ⟨c, r, rfl, hc⟩ : ∃ c r, s = c :: r ∧ (c = 110 ∨ c + 32 = 110 ∨ c = 105 ∨ c + 32 = 105) := by
    rcases h with h | h | h
    · obtain ⟨c, r, e, hc⟩ := cased_first h
      exact ⟨c, r, e, by rcases hc with h | h; exact .inl h; exact .inr (.inl h)⟩
    · obtain ⟨c, r, e, hc⟩ := cased_first h
      exact ⟨c, r, e, .inr (.inr hc)⟩
    · obtain ⟨c, r, e, hc⟩ := cased_first h
      exact ⟨c, r, e, .inr (.inr hc)⟩
  refine ⟨?_, by simp⟩
  intro c' r' e
  injection e with e e'
  subst e
  constructor <;>
  · rintro rfl
    revert hc
    decide

theorem parse_special {s : Bytes} {d : Dec} (h : Special s d) : parse s = some d := by
  obtain h | ⟨hs, h⟩ | h := h
  · have := special_head (.inl h)
    rw [parse_sign this.1 this.2, unsigned_nan h]
    rfl
  · have := special_head (.inr h)
    rw [parse_sign this.1 this.2, unsigned_inf h, decide_eq_false hs]
    rfl
  · have := special_head (.inr h)
    rename_i t
    show parse (signText (some true) ++ t) = _
    rw [parse_sign this.1 this.2, unsigned_inf h]
    rfl

theorem unsigned_sound {sign : Option Bool} {s : Bytes} {d : Dec} (h : unsigned (sign = some true) s = some d) :
    (∃ w : Written, w.Ok ∧ w.text = signText sign ++ s) ∨ Special (signText sign ++ s) d := by
  unfold unsigned at h
  by_cases h1 : (s.length = 3 ∨ s.length = 8) ∧ (s.head? = some 78 ∨ s.head? = some 110 ∨ s.head? = some 73 ∨ s.head? = some 105)
  · right
    rw [if_pos h1] at h
    by_cases h2 : equalFold s [110, 97, 110] = true
    · rw [if_pos h2] at h
      injection h with h
      subst h
      refine Special.nan ?_
      rw [nan_word]
      exact (fold_cased (by decide)).mp h2
    · rw [if_neg h2] at h
      by_cases h3 : equalFold s [105, 110, 102] = true ∨ equalFold s [105, 110, 102, 105, 110, 105, 116, 121] = true
      · rw [if_pos h3] at h
        injection h with h
        subst h
        have hc : Cased "inf".toUTF8.toList s ∨ Cased "infinity".toUTF8.toList s := by
          rw [inf_word, infinity_word]
          rcases h3 with h3 | h3
          · exact .inl ((fold_cased (by decide)).mp h3)
          · exact .inr ((fold_cased (by decide)).mp h3)
        by_cases hs : sign = some true
        · subst hs
          exact Special.negInf hc
        · rw [decide_eq_false hs]
          exact Special.inf hs hc
      · rw [if_neg h3] at h
        cases h
  · left
    rw [if_neg h1] at h
    obtain ⟨w, h1, h2, h3⟩ := number_sound (sign := sign) h
    exact ⟨w, h1, by rw [← h2, ← h3]; rfl⟩

/-- Every text that is read is a number as it should be written, or one of the words. -/
theorem parse_sound {s : Bytes} {d : Dec} (h : parse s = some d) : (∃ w : Written, w.Ok ∧ w.text = s) ∨ Special s d := by
  obtain _ | ⟨c, r⟩ := s
  · cases h
  · by_cases h1 : c = 45
    · subst h1
      exact unsigned_sound (sign := some true) (by rw [← h]; exact (parse_signed true r).symm)
    · by_cases h2 : c = 43
      · subst h2
        exact unsigned_sound (sign := some false) (by rw [← h]; exact (parse_signed false r).symm)
      · exact unsigned_sound (sign := none) (by rw [← h]; exact (parse_plain h1 h2).symm)

end Birch.Proofs.Decimal
