import Verif.Proofs.FtdcLayout
import Verif.Proofs.FtdcViews
import Verif.Spec.FtdcDamage

/- Reading chunks of any bytes. -/

namespace Birch.Proofs.Ftdc
open Birch Model Model.Ftdc Spec

/-! ### numbers -/

theorem low7' {c : UInt8} (h : 128 ≤ c.toNat) : (c &&& 127).toUInt64.toNat = c.toNat - 128 := by
  have : ∀ n : Fin 256, 128 ≤ n.val → (UInt8.ofNat n.val &&& 127).toNat = n.val - 128 := by decide +kernel
  have hb := this ⟨c.toNat, c.toNat_lt⟩ h
  rw [UInt8.toNat_toUInt64]
  simpa using hb

theorem pow7_le {i j : Nat} (h : i ≤ j) : 2 ^ (7 * i) ≤ 2 ^ (7 * j) := Nat.pow_le_pow_right (by decide) (by omega)

theorem readLoop_sound : ∀ (b : Bytes) (i : Nat) (x s : UInt64), i ≤ 9 → s.toNat = 7 * i → x.toNat < 2 ^ (7 * i) → ∀ y rest,
    readUvarintLoop i x s b = .ok (y, rest) → ∃ a n, b = a ++ rest ∧ Varint a n ∧ y.toNat = x.toNat + n * 2 ^ (7 * i) ∧ a.length ≤ 10 - i
  | [], i, x, s, hi, _, _, y, rest, h => by
    unfold readUvarintLoop at h
    split at h <;> cases h
  | c :: b, i, x, s, hi, hs, hx, y, rest, h => by
    unfold readUvarintLoop at h
    rw [if_neg (by omega)] at h
    have hp9 : (2 : Nat) ^ (7 * 9) = 9223372036854775808 := by decide
    have hp8 : (2 : Nat) ^ (7 * 8) = 72057594037927936 := by decide
    by_cases hc : c < 128
    · rw [if_pos hc] at h
      split at h
      · cases h
      rename_i hok
      cases h
      have hc' : c.toNat < 128 := hc
      have hv : c.toUInt64.toNat * 2 ^ (7 * i) < 2 ^ 64 := by
        rw [UInt8.toNat_toUInt64]
        by_cases h9 : i = 9
        · subst h9
          have : ¬ c > 1 := fun h => hok ⟨rfl, h⟩
          have : c.toNat ≤ 1 := by
            have : ¬ (1 : UInt8).toNat < c.toNat := this
            simpa using this
          have := Nat.mul_le_mul_right (2 ^ (7 * 9)) this
          omega
        · have h1 : c.toNat * 2 ^ (7 * i) ≤ 127 * 2 ^ (7 * 8) := Nat.mul_le_mul (by omega) (pow7_le (by omega))
          omega
      refine ⟨[c], c.toNat, rfl, .last c hc', ?_, by simp; omega⟩
      rw [or_shift hs (by omega) hx hv, UInt8.toNat_toUInt64]
    · rw [if_neg hc] at h
      have hc' : 128 ≤ c.toNat := Nat.le_of_not_lt hc
      by_cases h9 : i = 9
      · subst h9
        unfold readUvarintLoop at h
        split at h
        · cases h
        · rw [if_pos (by omega)] at h; cases h
      · have hl := low7' hc'
        have hcl := c.toNat_lt
        have hv : (c &&& 127).toUInt64.toNat * 2 ^ (7 * i) < 2 ^ 64 := by
          rw [hl]
          have h1 : (c.toNat - 128) * 2 ^ (7 * i) ≤ 127 * 2 ^ (7 * 8) := Nat.mul_le_mul (by omega) (pow7_le (by omega))
          omega
        have e := or_shift hs (by omega) hx hv
        have hpow : (2 : Nat) ^ (7 * (i + 1)) = 128 * 2 ^ (7 * i) := by rw [Nat.mul_add, Nat.pow_add, Nat.mul_comm]
        have hlt : (c &&& 127).toUInt64.toNat * 2 ^ (7 * i) ≤ 127 * 2 ^ (7 * i) := Nat.mul_le_mul_right _ (by omega)
        obtain ⟨a, n, h1, h2, h3, h4⟩ := readLoop_sound b (i + 1) _ _ (by omega) (by rw [UInt64.toNat_add, hs]; simp; omega) (by rw [e, hpow]; omega) y rest h
        refine ⟨c :: a, _, by rw [h1]; rfl, .more c a n hc' h2, ?_, by simp; omega⟩
        rw [h3, e, hl, hpow, Nat.add_mul, Nat.add_assoc, ← Nat.mul_assoc, Nat.mul_comm n 128]

theorem readLoop_complete : ∀ {a : Bytes} {n : Nat}, Varint a n → ∀ (i : Nat) (x s : UInt64) (rest : Bytes), i ≤ 9 → s.toNat = 7 * i → x.toNat < 2 ^ (7 * i) →
    x.toNat + n * 2 ^ (7 * i) < 2 ^ 64 → a.length ≤ 10 - i → ∃ y, readUvarintLoop i x s (a ++ rest) = .ok (y, rest) ∧ y.toNat = x.toNat + n * 2 ^ (7 * i) := by
  intro a n h
  induction h with
  | last c hc =>
    intro i x s rest hi hs hx hb _
    show ∃ y, readUvarintLoop i x s (c :: rest) = _ ∧ _
    unfold readUvarintLoop
    rw [if_neg (by omega), if_pos (show c < 128 from hc), if_neg]
    · exact ⟨_, rfl, by rw [or_shift hs (by omega) hx (by rw [UInt8.toNat_toUInt64]; omega), UInt8.toNat_toUInt64]⟩
    · rintro ⟨rfl, h1⟩
      have h1 : (1 : UInt8).toNat < c.toNat := h1
      have h2 : 2 ≤ c.toNat := h1
      have := Nat.mul_le_mul_right (2 ^ (7 * 9)) h2
      have hp9 : (2 : Nat) ^ (7 * 9) = 9223372036854775808 := by decide
      omega
  | more c b n hc hv ih =>
    intro i x s rest hi hs hx hb hl
    have hb1 : 1 ≤ b.length := by cases hv <;> simp
    simp only [List.length_cons] at hl
    show ∃ y, readUvarintLoop i x s (c :: (b ++ rest)) = _ ∧ _
    unfold readUvarintLoop
    rw [if_neg (by omega), if_neg (by intro h; have : c.toNat < 128 := h; omega)]
    have hl7 := low7' hc
    have hpow : (2 : Nat) ^ (7 * (i + 1)) = 128 * 2 ^ (7 * i) := by rw [Nat.mul_add, Nat.pow_add, Nat.mul_comm]
    rw [Nat.add_mul, Nat.mul_comm 128 n, Nat.mul_assoc, ← hpow] at hb
    have hcl := c.toNat_lt
    have e := or_shift (v := (c &&& 127).toUInt64) hs (by omega) hx (by rw [hl7]; omega)
    have hlt : (c.toNat - 128) * 2 ^ (7 * i) ≤ 127 * 2 ^ (7 * i) := Nat.mul_le_mul_right _ (by omega)
    obtain ⟨y, h1, h2⟩ := ih (i + 1) (x ||| ((c &&& 127).toUInt64 <<< s)) (s + 7) rest (by omega) (by rw [UInt64.toNat_add, hs]; simp; omega)
      (by rw [e, hl7, hpow]; omega) (by rw [e, hl7]; omega) (by omega)
    refine ⟨y, h1, ?_⟩
    rw [h2, e, hl7, Nat.add_mul, Nat.mul_comm 128 n, Nat.mul_assoc, ← hpow]
    omega

theorem read_iff (b : Bytes) (x : UInt64) (rest : Bytes) : readUvarint b = .ok (x, rest) ↔ ∃ a, b = a ++ rest ∧ Number64 a x.toNat := by
  constructor
  · intro h
    obtain ⟨a, n, h1, h2, h3, h4⟩ := readLoop_sound b 0 0 0 (by omega) rfl (by decide) x rest h
    have : x.toNat = n := by simpa using h3
    exact ⟨a, h1, by rw [this]; exact h2, x.toNat_lt, h4⟩
  · rintro ⟨a, rfl, h1, h2, h3⟩
    obtain ⟨y, h4, h5⟩ := readLoop_complete h1 0 0 0 rest (by omega) rfl (by decide) (by simpa using h2) h3
    have : y = x := UInt64.toNat_inj.mp (by simpa using h5)
    unfold readUvarint
    rw [h4, this]

theorem readLoop_noPanic : ∀ (b : Bytes) (i : Nat) (x s : UInt64), (∃ r, readUvarintLoop i x s b = .ok r) ∨ ∃ e, readUvarintLoop i x s b = .err e
  | [], i, x, s => by unfold readUvarintLoop; split <;> exact .inr ⟨_, rfl⟩
  | c :: b, i, x, s => by
    unfold readUvarintLoop
    split
    · exact .inr ⟨_, rfl⟩
    split
    · split
      · exact .inr ⟨_, rfl⟩
      · exact .inl ⟨_, rfl⟩
    · exact readLoop_noPanic b _ _ _

theorem readUvarint_noPanic (b : Bytes) : (∃ r, readUvarint b = .ok r) ∨ ∃ e, readUvarint b = .err e := readLoop_noPanic b 0 0 0

/-! ### differences -/

theorem signed64_i64 {n : Nat} (h : n < 18446744073709551616) : signed64 n = i64 n := by unfold signed64 i64; split <;> omega

theorem coded_append {a b : Bytes} {l m : List Nat} (h : Coded a l) (h' : Coded b m) : Coded (a ++ b) (l ++ m) := by
  induction h with
  | nil => exact h'
  | number h1 h2 _ ih => rw [List.append_assoc]; exact .number h1 h2 ih
  | zeros h1 h2 _ ih => rw [List.append_assoc, List.append_assoc, List.append_assoc]; exact .zeros h1 h2 ih

theorem readDeltas_noPanic : ∀ (n : Nat) (nz : UInt64) (b : Bytes), (∃ r, readDeltas n nz b = .ok r) ∨ ∃ e, readDeltas n nz b = .err e
  | 0, nz, b => .inl ⟨_, rfl⟩
  | n + 1, nz, b => by
    unfold readDeltas
    split
    · rcases readDeltas_noPanic n (nz - 1) b with ⟨r, h⟩ | ⟨e, h⟩ <;> rw [h]
      · exact .inl ⟨_, rfl⟩
      · exact .inr ⟨_, rfl⟩
    · rcases readUvarint_noPanic b with ⟨⟨d, b1⟩, h⟩ | ⟨e, h⟩ <;> rw [h]
      · simp only [Res.bind_ok]
        split
        · rcases readUvarint_noPanic b1 with ⟨⟨z, b2⟩, h⟩ | ⟨e, h⟩ <;> rw [h]
          · simp only [Res.bind_ok]
            rcases readDeltas_noPanic n z b2 with ⟨r, h⟩ | ⟨e, h⟩ <;> rw [h]
            · exact .inl ⟨_, rfl⟩
            · exact .inr ⟨_, rfl⟩
          · exact .inr ⟨_, rfl⟩
        · rcases readDeltas_noPanic n 0 b1 with ⟨r, h⟩ | ⟨e, h⟩ <;> rw [h]
          · exact .inl ⟨_, rfl⟩
          · exact .inr ⟨_, rfl⟩
      · exact .inr ⟨_, rfl⟩

theorem replicate_sub {nz : UInt64} (h : nz ≠ 0) : List.replicate nz.toNat 0 = 0 :: List.replicate (nz - 1).toNat (0 : Nat) := by
  have hpos : 0 < nz.toNat := by
    rcases Nat.eq_zero_or_pos nz.toNat with h' | h'
    · exact absurd (UInt64.toNat_inj.mp h') h
    · exact h'
  have e1 : (nz - 1).toNat = nz.toNat - 1 := by
    rw [UInt64.toNat_sub_of_le _ _ (by rw [UInt64.le_iff_toNat_le]; simp; omega)]; rfl
  rw [e1, ← List.replicate_succ]; congr 1; omega

theorem readDeltas_sound : ∀ (n : Nat) (nz : UInt64) (b : Bytes) (ds : List Int) (nz' : UInt64) (r : Bytes), readDeltas n nz b = .ok (ds, nz', r) →
    ∃ a l ns, b = a ++ r ∧ Coded a l ∧ ns.length = n ∧ ds = ns.map signed64 ∧ List.replicate nz.toNat 0 ++ l = ns ++ List.replicate nz'.toNat 0
  | 0, nz, b, ds, nz', r, h => by
    simp only [readDeltas, Res.ok.injEq, Prod.mk.injEq] at h
    obtain ⟨rfl, rfl, rfl⟩ := h
    exact ⟨[], [], [], rfl, .nil, rfl, rfl, by simp⟩
  | n + 1, nz, b, ds, nz', r, h => by
    unfold readDeltas at h
    split at h
    · rename_i hz
      obtain ⟨⟨ds1, nz1, r1⟩, h1, h⟩ := Res.bind_eq_ok.mp h
      simp only [Res.ok.injEq, Prod.mk.injEq] at h
      obtain ⟨rfl, rfl, rfl⟩ := h
      obtain ⟨a, l, ns, e1, e2, e3, e4, e5⟩ := readDeltas_sound n (nz - 1) b ds1 nz1 r1 h1
      refine ⟨a, l, 0 :: ns, e1, e2, by simp [e3], by simp [e4, signed64], ?_⟩
      rw [replicate_sub hz, List.cons_append, e5]; rfl
    · rename_i hz
      have hz : nz = 0 := by simpa using hz
      subst hz
      obtain ⟨⟨d, b1⟩, h1, h2⟩ := Res.bind_eq_ok.mp h
      clear h
      have h := h2
      clear h2
      obtain ⟨a1, rfl, g1⟩ := (read_iff _ _ _).mp h1
      have hsig : i64 (d.toNat : Int) = signed64 d.toNat := (signed64_i64 d.toNat_lt).symm
      simp only at h
      by_cases hd : d = 0
      · rw [if_pos hd] at h
        obtain ⟨⟨z, b2⟩, h2, h⟩ := Res.bind_eq_ok.mp h
        obtain ⟨⟨ds1, nz1, r1⟩, h3, h⟩ := Res.bind_eq_ok.mp h
        simp only [Res.ok.injEq, Prod.mk.injEq] at h
        obtain ⟨rfl, rfl, rfl⟩ := h
        obtain ⟨a2, rfl, g2⟩ := (read_iff _ _ _).mp h2
        obtain ⟨a, l, ns, e1, e2, e3, e4, e5⟩ := readDeltas_sound n z b2 ds1 nz1 r1 h3
        subst hd
        refine ⟨a1 ++ (a2 ++ a), _, 0 :: ns, by rw [e1]; simp, .zeros g1 g2 e2, by simp [e3], by rw [hsig, e4]; rfl, ?_⟩
        simp only [UInt64.toNat_zero, List.replicate_zero, List.nil_append]
        rw [List.replicate_succ, List.cons_append, e5]; rfl
      · rw [if_neg hd] at h
        obtain ⟨⟨z, b2⟩, h2, h⟩ := Res.bind_eq_ok.mp h
        cases h2
        obtain ⟨⟨ds1, nz1, r1⟩, h3, h⟩ := Res.bind_eq_ok.mp h
        simp only [Res.ok.injEq, Prod.mk.injEq] at h
        obtain ⟨rfl, rfl, rfl⟩ := h
        obtain ⟨a, l, ns, e1, e2, e3, e4, e5⟩ := readDeltas_sound n 0 b1 ds1 nz1 r1 h3
        refine ⟨a1 ++ a, d.toNat :: l, d.toNat :: ns, by rw [e1]; simp, .number g1 (fun h => hd (UInt64.toNat_inj.mp h)) e2, by simp [e3], by rw [hsig, e4]; rfl, ?_⟩
        simp only [UInt64.toNat_zero, List.replicate_zero, List.nil_append] at e5 ⊢
        rw [e5]; rfl

theorem readDeltas_complete (rest : Bytes) : ∀ (n : Nat) (nz : UInt64) (a : Bytes) (l ns m : List Nat), Coded a l → ns.length = n →
    List.replicate nz.toNat 0 ++ l = ns ++ m →
    ∃ nz' a' l', readDeltas n nz (a ++ rest) = .ok (ns.map signed64, nz', a' ++ rest) ∧ Coded a' l' ∧ List.replicate nz'.toNat 0 ++ l' = m
  | 0, nz, a, l, ns, m, hc, hn, h => by
    obtain rfl := List.length_eq_zero_iff.mp hn
    exact ⟨nz, a, l, rfl, hc, by simpa using h⟩
  | n + 1, nz, a, l, [], m, hc, hn, h => by simp at hn
  | n + 1, nz, a, l, x :: ns, m, hc, hn, h => by
    replace hn : ns.length = n := by simpa using hn
    unfold readDeltas
    by_cases hz : nz = 0
    · subst hz
      simp only [UInt64.toNat_zero, List.replicate_zero, List.nil_append] at h
      rw [if_neg (by simp)]
      cases hc with
      | nil => cases h
      | @number a b y l g1 g2 g3 =>
        rw [List.cons_append, List.cons.injEq] at h
        obtain ⟨rfl, h⟩ := h
        have e : (UInt64.ofNat y).toNat = y := by rw [UInt64.toNat_ofNat']; exact Nat.mod_eq_of_lt g1.2.1
        rw [List.append_assoc, (read_iff (a ++ (b ++ rest)) (UInt64.ofNat y) (b ++ rest)).mpr ⟨a, rfl, by rw [e]; exact g1⟩]
        simp only [Res.bind_ok]
        rw [if_neg (by intro h0; rw [h0] at e; exact g2 e.symm)]
        obtain ⟨nz', a', l', e1, e2, e3⟩ := readDeltas_complete rest n 0 b l ns m g3 hn (by simpa using h)
        rw [e1]
        exact ⟨nz', a', l', by simp only [Res.bind_ok, e, List.map_cons, signed64_i64 g1.2.1], e2, e3⟩
      | @zeros a b c y l g1 g2 g3 =>
        rw [List.replicate_succ, List.cons_append, List.cons_append, List.cons.injEq] at h
        obtain ⟨rfl, h⟩ := h
        have e : (UInt64.ofNat y).toNat = y := by rw [UInt64.toNat_ofNat']; exact Nat.mod_eq_of_lt g2.2.1
        rw [List.append_assoc, List.append_assoc, (read_iff (a ++ (b ++ (c ++ rest))) 0 (b ++ (c ++ rest))).mpr ⟨a, rfl, g1⟩]
        simp only [Res.bind_ok]
        rw [if_pos trivial, (read_iff (b ++ (c ++ rest)) (UInt64.ofNat y) (c ++ rest)).mpr ⟨b, rfl, by rw [e]; exact g2⟩]
        simp only [Res.bind_ok]
        obtain ⟨nz', a', l', e1, e2, e3⟩ := readDeltas_complete rest n (UInt64.ofNat y) c l ns m g3 hn (by rw [e]; exact h)
        rw [e1]
        refine ⟨nz', a', l', ?_, e2, e3⟩
        simp only [Res.bind_ok, List.map_cons, UInt64.toNat_zero, signed64, i64]
        simp
    · rw [if_pos hz]
      rw [replicate_sub hz, List.cons_append, List.cons_append, List.cons.injEq] at h
      obtain ⟨rfl, h⟩ := h
      obtain ⟨nz', a', l', e1, e2, e3⟩ := readDeltas_complete rest n (nz - 1) a l ns m hc hn h
      rw [e1]
      exact ⟨nz', a', l', rfl, e2, e3⟩

/-! ### series -/

theorem readSeries_noPanic (n : Nat) : ∀ (ms : List Metric) (nz : UInt64) (b : Bytes), (∃ r, readSeries n ms nz b = .ok r) ∨ ∃ e, readSeries n ms nz b = .err e
  | [], nz, b => .inl ⟨_, rfl⟩
  | m :: ms, nz, b => by
    unfold readSeries
    rcases readDeltas_noPanic n nz b with ⟨⟨ds, nz1, b1⟩, h⟩ | ⟨e, h⟩ <;> rw [h]
    · simp only [Res.bind_ok]
      rcases readSeries_noPanic n ms nz1 b1 with ⟨⟨ms', nz2, b2⟩, h⟩ | ⟨e, h⟩ <;> rw [h]
      · exact .inl ⟨_, rfl⟩
      · exact .inr ⟨_, rfl⟩
    · exact .inr ⟨_, rfl⟩

/-- the rows of a matrix given as one list -/
def split (n : Nat) : Nat → List Nat → List (List Nat)
  | 0, _ => []
  | k + 1, l => l.take n :: split n k (l.drop n)

theorem split_get (n : Nat) : ∀ (k i : Nat) (l : List Nat), i < k → (split n k l)[i]? = some ((l.drop (i * n)).take n)
  | 0, i, l, h => by omega
  | k + 1, 0, l, h => by simp [split]
  | k + 1, i + 1, l, h => by
    simp only [split, List.getElem?_cons_succ]
    rw [split_get n k i (l.drop n) (by omega), List.drop_drop, Nat.add_mul, Nat.one_mul, Nat.add_comm]

theorem readSeries_sound (n : Nat) : ∀ (ms : List Metric) (nz : UInt64) (b : Bytes) (ms' : List Metric) (nz' : UInt64) (r : Bytes),
    readSeries n ms nz b = .ok (ms', nz', r) → ∃ a l ns, b = a ++ r ∧ Coded a l ∧ ns.length = ms.length * n ∧
      List.replicate nz.toNat 0 ++ l = ns ++ List.replicate nz'.toNat 0
  | [], nz, b, ms', nz', r, h => by
    simp only [readSeries, Res.ok.injEq, Prod.mk.injEq] at h
    obtain ⟨rfl, rfl, rfl⟩ := h
    exact ⟨[], [], [], rfl, .nil, by simp, by simp⟩
  | m :: ms, nz, b, ms', nz', r, h => by
    unfold readSeries at h
    obtain ⟨⟨ds, nz1, b1⟩, h1, h⟩ := Res.bind_eq_ok.mp h
    obtain ⟨⟨ms1, nz2, b2⟩, h2, h⟩ := Res.bind_eq_ok.mp h
    simp only [Res.ok.injEq, Prod.mk.injEq] at h
    obtain ⟨_, rfl, rfl⟩ := h
    obtain ⟨a, l, ns, e1, e2, e3, e4, e5⟩ := readDeltas_sound n nz b ds nz1 b1 h1
    obtain ⟨a', l', ns', f1, f2, f3, f4⟩ := readSeries_sound n ms nz1 b1 ms1 nz2 b2 h2
    refine ⟨a ++ a', l ++ l', ns ++ ns', by rw [e1, f1]; simp, coded_append e2 f2, by simp [e3, f3, Nat.add_mul, Nat.add_comm], ?_⟩
    rw [← List.append_assoc, e5, List.append_assoc, f4, List.append_assoc]

theorem readSeries_complete (rest : Bytes) (n : Nat) : ∀ (ms : List Metric) (nz : UInt64) (a : Bytes) (l ns m : List Nat), Coded a l → ns.length = ms.length * n →
    List.replicate nz.toNat 0 ++ l = ns ++ m →
    ∃ nz' a' l', readSeries n ms nz (a ++ rest) = .ok (List.zipWith series ms ((split n ms.length ns).map (List.map signed64)), nz', a' ++ rest) ∧ Coded a' l' ∧
      List.replicate nz'.toNat 0 ++ l' = m
  | [], nz, a, l, ns, m, hc, hn, h => by
    obtain rfl : ns = [] := List.length_eq_zero_iff.mp (by simpa using hn)
    exact ⟨nz, a, l, rfl, hc, by simpa using h⟩
  | x :: ms, nz, a, l, ns, m, hc, hn, h => by
    rw [List.length_cons, Nat.add_mul, Nat.one_mul] at hn
    obtain ⟨nz1, a1, l1, e1, e2, e3⟩ := readDeltas_complete rest n nz a l (ns.take n) (ns.drop n ++ m) hc (by simp; omega) (by rw [h, ← List.append_assoc, List.take_append_drop])
    obtain ⟨nz2, a2, l2, f1, f2, f3⟩ := readSeries_complete rest n ms nz1 a1 l1 (ns.drop n) m e2 (by simp; omega) e3
    refine ⟨nz2, a2, l2, ?_, f2, f3⟩
    unfold readSeries
    rw [e1]
    simp only [Res.bind_ok]
    rw [f1]
    rfl

/-! ### payloads -/

theorem cells_count (fs : Fields) : fs.cells.length = countF fs := by rw [cellsF_nums, List.length_map, length_numsF]

/-- what is read after the first sample -/
def tailOf (fs : Fields) (ref : Doc) (md : Option Doc) (tail : Bytes) : Res Chunk :=
  if (tail.take 8).length < 8 then .err (if tail.take 8 = [] then .eof else .unexpectedEOF) else do
  let nmetrics ← rdU32 (tail.take 8)
  let ndeltas ← rdU32 ((tail.take 8).drop 4)
  if nmetrics ≠ countF fs then .err .other else do
  let (metrics, _, _) ← readSeries ndeltas (metsF [] fs) 0 (tail.drop 8)
  .ok ⟨metrics, ndeltas + 1, md, ref⟩

theorem payload_eq {fs : Fields} (wf : fs.WF) (hl : (encDoc fs).length < 2147483648) :
    ∃ ref, RepFields ref fs ∧ ∀ fuel, (encDoc fs).length < fuel → ∀ tail md, readPayload fuel md (encDoc fs ++ tail) = tailOf fs ref md tail := by
  have h3 := readDocument_enc 2147483648 fs wf [] (by omega) (by simpa using hl)
  rw [List.append_nil] at h3
  obtain ⟨ref, h4, h5⟩ := h3
  refine ⟨ref, h5, fun fuel hf tail md => ?_⟩
  obtain ⟨s', h1, h2⟩ := Props.readFrom_enc fs hl ⟨[encDoc fs ++ tail], false⟩ tail (by simp [Stream.Source.left])
  have h6 := readDocument_enc fuel fs wf [] hf (by simpa using hl)
  rw [List.append_nil] at h6
  obtain ⟨ref', h7, h8⟩ := h6
  have : ref' = ref := by
    have a := Proofs.Returns.unique (readDocument_returns h4 (by simp)) (readDocument_returns h7 (by simp))
    cases a; rfl
  subst this
  unfold readPayload tailOf
  simp only [h2, h7, Res.bind_ok, h1]
  simp only [encDoc, wrapDoc_length] at hl hf
  rw [metricsOf_rep fuel h8 (by omega) (by omega)]
  simp only [Res.bind_ok, length_metsF]

theorem le32_split {t : Bytes} (h : 4 ≤ t.length) : ∃ n, n < 4294967296 ∧ t = le32 n ++ t.drop 4 := by
  match t, h with
  | a :: b :: c :: d :: r, _ =>
    refine ⟨a.toNat + b.toNat * 256 + c.toNat * 65536 + d.toNat * 16777216, ?_, ?_⟩
    · have := a.toNat_lt; have := b.toNat_lt; have := c.toNat_lt; have := d.toNat_lt; omega
    · have := a.toNat_lt; have := b.toNat_lt; have := c.toNat_lt; have := d.toNat_lt
      have e : ∀ (x : UInt8) (n : Nat), n % 256 = x.toNat → UInt8.ofNat n = x := fun x n h => by
        apply UInt8.toNat_inj.mp; rw [UInt8.toNat_ofNat', h]
      simp only [le32, List.drop_succ_cons, List.drop_zero, List.cons_append, List.nil_append, List.cons.injEq, and_true]
      refine ⟨(e _ _ ?_).symm, (e _ _ ?_).symm, (e _ _ ?_).symm, (e _ _ ?_).symm⟩ <;> omega

theorem tailOf_counts (fs : Fields) (ref : Doc) (md : Option Doc) {m n : Nat} (hm : m < 4294967296) (hn : n < 4294967296) (b : Bytes) :
    tailOf fs ref md (le32 m ++ le32 n ++ b) = if m ≠ countF fs then .err .other else
      (readSeries n (metsF [] fs) 0 b).bind fun r => .ok ⟨r.1, n + 1, md, ref⟩ := by
  have h8 : (le32 m ++ le32 n).length = 8 := by simp
  have ht : (le32 m ++ le32 n ++ b).take 8 = le32 m ++ le32 n := by rw [← h8, List.take_left]
  have hd : (le32 m ++ le32 n ++ b).drop 8 = b := by rw [← h8, List.drop_left]
  have hd4 : (le32 m ++ le32 n).drop 4 = le32 n := List.drop_left (l₁ := le32 m)
  unfold tailOf
  rw [ht, hd, if_neg (by rw [h8]; omega), rdU32_le32 hm, Res.bind_ok, hd4, rdU32_le32' hn, Res.bind_ok]
  split
  · rfl
  · rfl

theorem tailOf_cases (fs : Fields) (ref : Doc) (md : Option Doc) (tail : Bytes) :
    (tail.length < 8 ∧ ∃ e, tailOf fs ref md tail = .err e) ∨
    ∃ m n b, m < 4294967296 ∧ n < 4294967296 ∧ tail = le32 m ++ le32 n ++ b := by
  by_cases h : tail.length < 8
  · left
    refine ⟨h, ?_⟩
    unfold tailOf
    rw [if_pos (by simp; omega)]
    exact ⟨_, rfl⟩
  · right
    obtain ⟨m, hm, e1⟩ := le32_split (t := tail) (by omega)
    obtain ⟨n, hn, e2⟩ := le32_split (t := tail.drop 4) (by simp; omega)
    exact ⟨m, n, (tail.drop 4).drop 4, hm, hn, by rw [List.append_assoc, ← e2, ← e1]⟩

theorem tailOf_noPanic (fs : Fields) (ref : Doc) (md : Option Doc) (tail : Bytes) : (∃ c, tailOf fs ref md tail = .ok c) ∨ ∃ e, tailOf fs ref md tail = .err e := by
  rcases tailOf_cases fs ref md tail with ⟨_, h⟩ | ⟨m, n, b, hm, hn, rfl⟩
  · exact .inr h
  · rw [tailOf_counts fs ref md hm hn]
    split
    · exact .inr ⟨_, rfl⟩
    · rcases readSeries_noPanic n (metsF [] fs) 0 b with ⟨r, h⟩ | ⟨e, h⟩ <;> rw [h]
      · exact .inl ⟨_, rfl⟩
      · exact .inr ⟨_, rfl⟩

theorem tail_ok {fs : Fields} {n : Nat} {l : List Nat} {tail : Bytes} (h : Tail fs.cells.length n l tail) (ref : Doc) (md : Option Doc) :
    tailOf fs ref md tail = .ok ⟨List.zipWith series (metsF [] fs) ((split n (countF fs) l).map (List.map signed64)), n + 1, md, ref⟩ := by
  obtain ⟨hm, hn, hl, b, z, rest, rfl, hc⟩ := h
  rw [cells_count] at hm hl ⊢
  rw [List.append_assoc, tailOf_counts fs ref md hm hn, if_neg (by simp)]
  obtain ⟨nz', a', l', h1, h2, h3⟩ := readSeries_complete rest n (metsF [] fs) 0 b _ l (List.replicate z 0) hc (by rw [length_metsF, hl]) (by simp)
  rw [h1, length_metsF]
  rfl

theorem tail_iff (fs : Fields) (ref : Doc) (md : Option Doc) (tail : Bytes) : (∃ c, tailOf fs ref md tail = .ok c) ↔ ∃ n l, Tail fs.cells.length n l tail := by
  constructor
  · rintro ⟨c, h⟩
    rcases tailOf_cases fs ref md tail with ⟨_, e, h'⟩ | ⟨m, n, b, hm, hn, rfl⟩
    · rw [h'] at h; cases h
    · rw [tailOf_counts fs ref md hm hn] at h
      split at h
      · cases h
      · rename_i hmc
        have hmc : m = countF fs := by simpa using hmc
        obtain ⟨⟨ms, nz, r⟩, h1, h2⟩ := Res.bind_eq_ok.mp h
        obtain ⟨a, l, ns, e1, e2, e3, e4⟩ := readSeries_sound n _ _ _ _ _ _ h1
        rw [length_metsF] at e3
        simp only [UInt64.toNat_zero, List.replicate_zero, List.nil_append] at e4
        rw [e4] at e2
        refine ⟨n, ns, by rw [cells_count, ← hmc]; exact hm, hn, by rw [cells_count, e3], a, nz.toNat, r, ?_, e2⟩
        rw [cells_count, e1, hmc]; simp
  · rintro ⟨n, l, h⟩
    exact ⟨_, tail_ok h ref md⟩

/-! ### values -/

def startOf : Metric → Cell → Prop
  | m, .int a => m.originalType ≠ 0x01 ∧ m.startingValue = a
  | m, .dbl b => m.originalType = 0x01 ∧ m.startingValue = signed64 b

/-- both lists have the same length, and their members correspond -/
def Pairs {α β : Type} (R : α → β → Prop) : List α → List β → Prop
  | [], [] => True
  | a :: l, b :: m => R a b ∧ Pairs R l m
  | _, _ => False

theorem pairs_append {α β : Type} {R : α → β → Prop} : ∀ {l : List α} {m : List β} {l' : List α} {m' : List β}, Pairs R l m → Pairs R l' m' → Pairs R (l ++ l') (m ++ m')
  | [], [], _, _, _, h => h
  | [], _ :: _, _, _, h, _ => h.elim
  | _ :: _, [], _, _, h, _ => h.elim
  | _ :: _, _ :: _, _, _, h, h' => ⟨h.1, pairs_append h.2 h'⟩

theorem pairs_map {α β : Type} {R : α → β → Prop} {f : α → α} (hf : ∀ a b, R a b → R (f a) b) : ∀ {l : List α} {m : List β}, Pairs R l m → Pairs R (l.map f) m
  | [], [], h => h
  | [], _ :: _, h => h.elim
  | _ :: _, [], h => h.elim
  | _ :: _, _ :: _, h => ⟨hf _ _ h.1, pairs_map hf h.2⟩

theorem pairs_get {α β : Type} {R : α → β → Prop} : ∀ {l : List α} {m : List β}, Pairs R l m → ∀ (i : Nat) (b : β), m[i]? = some b → ∃ a, l[i]? = some a ∧ R a b
  | [], [], _, i, b, h => by simp at h
  | [], _ :: _, h, _, _, _ => h.elim
  | _ :: _, [], h, _, _, _ => h.elim
  | a :: l, b :: m, h, 0, c, hc => by simp at hc; subst hc; exact ⟨a, rfl, h.1⟩
  | a :: l, b :: m, h, i + 1, c, hc => by
    simp only [List.getElem?_cons_succ] at hc ⊢
    exact pairs_get h.2 i c hc

mutual
theorem mets_starts : ∀ (t : BVal) (k : Bytes) (p : List Bytes), t.WF → Pairs startOf (mets k p t) t.starts
  | .doc fs, k, p, h => pairs_map (fun a b h => by cases b <;> exact h) (metsF_starts fs (p ++ [k]) h)
  | .array vs, k, p, h => metsV_starts vs k p 0 h
  | .double b, _, _, h => ⟨⟨rfl, (signed64_i64 h).symm⟩, trivial⟩
  | .bool _, _, _, _ | .datetime _, _, _, _ | .int32 _, _, _, _ | .int64 _, _, _, _ => ⟨⟨by simp, rfl⟩, trivial⟩
  | .timestamp _ _, _, _, _ => ⟨⟨by simp, rfl⟩, ⟨by simp, rfl⟩, trivial⟩
  | .string _, _, _, _ | .binary _ _, _, _, _ | .undefined, _, _, _ | .oid _, _, _, _ | .null, _, _, _ | .regex _ _, _, _, _ | .dbpointer _ _, _, _, _ | .js _, _, _, _
  | .symbol _, _, _, _ | .codeScope _ _, _, _, _ | .decimal _ _, _, _, _ | .minKey, _, _, _ | .maxKey, _, _, _ => trivial
theorem metsF_starts : ∀ (fs : Fields) (p : List Bytes), fs.WF → Pairs startOf (metsF p fs) fs.starts
  | .nil, _, _ => trivial
  | .cons k v rest, p, h => pairs_append (mets_starts v k p h.2.1) (metsF_starts rest p h.2.2)
theorem metsV_starts : ∀ (vs : Vals) (k : Bytes) (p : List Bytes) (i : Nat), vs.WF → Pairs startOf (metsV k p i vs) vs.starts
  | .nil, _, _, _, _ => trivial
  | .cons v rest, k, p, i, h => pairs_append (mets_starts v _ p h.1) (metsV_starts rest k p (i + 1) h.2)
end

mutual
theorem starts_length : ∀ t : BVal, t.starts.length = t.cells.length
  | .doc fs => by simp only [BVal.starts, BVal.cells]; exact startsF_length fs
  | .array vs => by simp only [BVal.starts, BVal.cells]; exact startsV_length vs
  | .timestamp _ _ => rfl
  | .double _ | .bool _ | .datetime _ | .int32 _ | .int64 _ | .string _ | .binary _ _ | .undefined | .oid _ | .null | .regex _ _ | .dbpointer _ _ | .js _ | .symbol _ | .codeScope _ _
  | .decimal _ _ | .minKey | .maxKey => by simp [BVal.starts]
theorem startsF_length : ∀ fs : Fields, fs.starts.length = fs.cells.length
  | .nil => rfl
  | .cons _ v rest => by simp only [Fields.starts, Fields.cells, List.length_append, starts_length v, startsF_length rest]
theorem startsV_length : ∀ vs : Vals, vs.starts.length = vs.cells.length
  | .nil => rfl
  | .cons v rest => by simp only [Vals.starts, Vals.cells, List.length_append, starts_length v, startsV_length rest]
end

theorem series_column {m : Metric} {c : Cell} (h : startOf m c) (ds : List Nat) : Column c ds (series m (ds.map signed64)).values := by
  cases c with
  | int a =>
    obtain ⟨h1, h2⟩ := h
    unfold series Column
    simp only [if_neg h1, h2]
    exact undelta_totals _ _
  | dbl b =>
    obtain ⟨h1, h2⟩ := h
    unfold series Column
    simp [h1, h2, undeltaFloats]

theorem tail_values {fs : Fields} (wf : fs.WF) (n : Nat) (l : List Nat) (i : Nat) (c : Cell) (hc : fs.starts[i]? = some c) :
    ∃ m, (List.zipWith series (metsF [] fs) ((split n (countF fs) l).map (List.map signed64)))[i]? = some m ∧ Column c (diffsOf i n l) m.values := by
  obtain ⟨m, h1, h2⟩ := pairs_get (metsF_starts fs [] wf) i c hc
  have hi : i < countF fs := by
    have := (List.getElem?_eq_some_iff.mp hc).1
    rw [startsF_length, cells_count] at this; exact this
  refine ⟨series m ((diffsOf i n l).map signed64), ?_, series_column h2 _⟩
  rw [List.getElem?_zipWith, h1, List.getElem?_map, split_get n _ i l hi]
  rfl

/-! ### prefixes -/

theorem varint_prefix : ∀ {a : Bytes} {n : Nat}, Varint a n → ∀ {a' : Bytes} {n' : Nat} {x y : Bytes}, Varint a' n' → a ++ x = a' ++ y → a = a' ∧ n = n' ∧ x = y := by
  intro a n h
  induction h with
  | last c hc =>
    intro a' n' x y h' e
    cases h' with
    | last c' hc' => simp at e; obtain ⟨rfl, rfl⟩ := e; exact ⟨rfl, rfl, rfl⟩
    | more c' b' n' hc' hv' => simp at e; obtain ⟨rfl, _⟩ := e; omega
  | more c b n hc hv ih =>
    intro a' n' x y h' e
    cases h' with
    | last c' hc' => simp at e; obtain ⟨rfl, _⟩ := e; omega
    | more c' b' n' hc' hv' =>
      simp only [List.cons_append, List.cons.injEq] at e
      obtain ⟨rfl, e⟩ := e
      obtain ⟨rfl, rfl, rfl⟩ := ih hv' e
      exact ⟨rfl, rfl, rfl⟩

theorem varint_ne {a : Bytes} {n : Nat} (h : Varint a n) : a ≠ [] := by cases h <;> simp

theorem coded_nil {a : Bytes} {l : List Nat} (h : Coded a l) (hl : l = []) : a = [] := by
  cases h with
  | nil => rfl
  | number => cases hl
  | zeros => rw [List.replicate_succ] at hl; cases hl

theorem coded_prefix {b : Bytes} {l' : List Nat} (h : Coded b l') : ∀ {r : Bytes} {l : List Nat}, Coded (b ++ r) l → ∃ l'', l = l' ++ l'' ∧ Coded r l'' := by
  induction h with
  | nil => intro r l h; exact ⟨l, rfl, h⟩
  | @number a b n l1 g1 g2 g3 ih =>
    intro r l h
    generalize hx : a ++ b ++ r = x at h
    cases h with
    | nil => exact absurd hx (by simp [varint_ne g1.1])
    | @number a' b' n' l' k1 k2 k3 =>
      rw [List.append_assoc] at hx
      obtain ⟨rfl, rfl, rfl⟩ := varint_prefix g1.1 k1.1 hx
      obtain ⟨l'', rfl, h2⟩ := ih k3
      exact ⟨l'', rfl, h2⟩
    | @zeros a' b' c' n' l' k1 k2 k3 =>
      rw [List.append_assoc] at hx
      exact absurd (varint_prefix g1.1 k1.1 hx).2.1 g2
  | @zeros a b c n l1 g1 g2 g3 ih =>
    intro r l h
    generalize hx : a ++ (b ++ c) ++ r = x at h
    cases h with
    | nil => exact absurd hx (by simp [varint_ne g1.1])
    | @number a' b' n' l' k1 k2 k3 =>
      rw [List.append_assoc] at hx
      exact absurd (varint_prefix g1.1 k1.1 hx).2.1.symm k2
    | @zeros a' b' c' n' l' k1 k2 k3 =>
      rw [List.append_assoc] at hx
      obtain ⟨rfl, _, hx⟩ := varint_prefix g1.1 k1.1 hx
      rw [List.append_assoc] at hx
      obtain ⟨rfl, rfl, rfl⟩ := varint_prefix g2.1 k2.1 hx
      obtain ⟨l'', rfl, h2⟩ := ih k3
      exact ⟨l'', by simp, h2⟩

theorem varint_leb (n : Nat) : Varint (leb128 n) n := by
  induction n using Nat.strongRecOn with
  | ind n ih =>
    unfold leb128
    split
    · rename_i h
      have := Varint.last (UInt8.ofNat n) (by rw [UInt8.toNat_ofNat']; omega)
      rw [UInt8.toNat_ofNat', Nat.mod_eq_of_lt (by omega)] at this
      exact this
    · rename_i h
      have e : (UInt8.ofNat (n % 128 + 128)).toNat = n % 128 + 128 := by rw [UInt8.toNat_ofNat']; omega
      have := Varint.more (UInt8.ofNat (n % 128 + 128)) _ _ (by rw [e]; omega) (ih (n / 128) (by omega))
      rw [e] at this
      have h2 : n % 128 + 128 - 128 + 128 * (n / 128) = n := by omega
      rw [h2] at this
      exact this

theorem leb_length : ∀ (k n : Nat), n < 128 ^ (k + 1) → (leb128 n).length ≤ k + 1
  | 0, n, h => by unfold leb128; rw [if_pos (by simpa using h)]; simp
  | k + 1, n, h => by
    unfold leb128
    split
    · simp
    · have := leb_length k (n / 128) (Nat.div_lt_of_lt_mul (by rw [Nat.mul_comm]; simpa [Nat.pow_succ] using h))
      simp only [List.length_cons]; omega

theorem number_leb {n : Nat} (h : n < 18446744073709551616) : Number64 (leb128 n) n :=
  ⟨varint_leb n, h, leb_length 9 n (by omega)⟩

theorem coded_runs : ∀ (k : Nat) (l : List Nat), l.length ≤ k → k < 18446744073709551616 → (∀ x ∈ l, x < 18446744073709551616) → Coded ((runs l).flatMap leb128) l
  | _, [], _, _, _ => by simp [runs]; exact .nil
  | 0, _ :: _, h, _, _ => by simp at h
  | k + 1, d :: l, h, hk, hl => by
    simp only [List.length_cons] at h
    rw [runs]
    split
    · rename_i h0
      subst h0
      have e : l.takeWhile (· = 0) = List.replicate (l.takeWhile (· = 0)).length 0 := by
        apply List.eq_replicate_iff.mpr
        refine ⟨rfl, fun x hx => ?_⟩
        have : ∀ (l : List Nat), ∀ x ∈ l.takeWhile (· = 0), x = 0 := by
          intro l
          induction l with
          | nil => simp
          | cons y l ih => intro x hx; rw [List.takeWhile_cons] at hx; split at hx <;> simp at hx; rcases hx with rfl | hx; (· simp_all); exact ih x hx
        exact this l x hx
      have hs := List.takeWhile_append_dropWhile (p := (· = 0)) (l := l)
      have hlen := congrArg List.length hs
      rw [List.length_append] at hlen
      have ih := coded_runs k (l.dropWhile (· = 0)) (by omega) (by omega) (fun x hx => hl x (List.mem_cons_of_mem _ (List.dropWhile_subset _ hx)))
      have := Coded.zeros (number_leb (n := 0) (by omega)) (number_leb (n := (l.takeWhile (· = 0)).length) (by omega)) ih
      rw [List.replicate_succ, ← e, List.cons_append, hs] at this
      simpa using this
    · rename_i h0
      have ih := coded_runs k l (by omega) (by omega) (fun x hx => hl x (List.mem_cons_of_mem _ hx))
      have := Coded.number (number_leb (hl d (by simp))) h0 ih
      simpa using this

theorem byMetric_length (m : Nat) (rows : List (List Nat)) : (byMetric m rows).length = m * rows.length := by
  unfold byMetric
  rw [List.length_flatten, List.map_map]
  have : (List.length ∘ fun i => rows.map fun r => r.getD i 0) = fun _ : Nat => rows.length := by funext i; simp
  rw [this, List.map_const', List.length_range, List.sum_replicate_nat]

theorem byMetric_lt {m : Nat} {rows : List (List Nat)} (h : ∀ r ∈ rows, ∀ x ∈ r, x < 18446744073709551616) : ∀ x ∈ byMetric m rows, x < 18446744073709551616 := by
  intro x hx
  unfold byMetric at hx
  obtain ⟨l, hl, hx⟩ := List.mem_flatten.mp hx
  obtain ⟨i, _, rfl⟩ := List.mem_map.mp hl
  obtain ⟨r, hr, rfl⟩ := List.mem_map.mp hx
  rw [List.getD_eq_getElem?_getD]
  cases e : r[i]? with
  | none => simp
  | some y => exact h r hr y (List.mem_of_getElem? e)

def CellBits (l : List Cell) : Prop := ∀ b, Cell.dbl b ∈ l → b < 18446744073709551616

theorem cells_bits {fs : Fields} (wf : fs.WF) : CellBits fs.cells := by
  intro b hb
  rw [cellsF_nums] at hb
  obtain ⟨p, hp, e⟩ := List.mem_map.mp hb
  refine numsF_bits fs wf p hp b ?_
  cases hp2 : p.2 with
  | int i => rw [hp2] at e; cases e
  | dbl c => rw [hp2] at e; cases e; rfl

theorem diff_lt {fsub : Nat → Nat → Nat} (hsub : ∀ a b, a < 18446744073709551616 → b < 18446744073709551616 → fsub a b < 18446744073709551616) :
    ∀ {r r' : List Cell}, CellBits r → CellBits r' → ∀ x ∈ List.zipWith (Cell.diff fsub) r r', x < 18446744073709551616
  | [], _, _, _, x, hx => by simp at hx
  | _ :: _, [], _, _, x, hx => by simp at hx
  | a :: r, b :: r', h, h', x, hx => by
    rw [List.zipWith_cons_cons, List.mem_cons] at hx
    rcases hx with rfl | hx
    · cases a with
      | int a => cases b with
        | int b => simp only [Cell.diff]; omega
        | dbl b => simp only [Cell.diff]; omega
      | dbl a => cases b with
        | int b => simp only [Cell.diff]; omega
        | dbl b => exact hsub a b (h a (by simp)) (h' b (by simp))
    · exact diff_lt hsub (fun b hb => h b (List.mem_cons_of_mem _ hb)) (fun b hb => h' b (List.mem_cons_of_mem _ hb)) x hx

theorem diffRows_lt {fsub : Nat → Nat → Nat} (hsub : ∀ a b, a < 18446744073709551616 → b < 18446744073709551616 → fsub a b < 18446744073709551616) :
    ∀ (rs : List (List Cell)) (r0 : List Cell), CellBits r0 → (∀ r ∈ rs, CellBits r) → ∀ r ∈ diffRows fsub r0 rs, ∀ x ∈ r, x < 18446744073709551616
  | [], _, _, _, r, hr => by simp [diffRows] at hr
  | c :: rs, r0, h0, h, r, hr => by
    simp only [diffRows, List.mem_cons] at hr
    rcases hr with rfl | hr
    · exact diff_lt hsub (h c (by simp)) h0
    · exact diffRows_lt hsub rs c (h c (by simp)) (fun r hr => h r (List.mem_cons_of_mem _ hr)) r hr

theorem payload_tail {fsub : Nat → Nat → Nat} (hsub : ∀ a b, a < 18446744073709551616 → b < 18446744073709551616 → fsub a b < 18446744073709551616)
    {f0 : Fields} {fss : List Fields} (wf : ∀ f ∈ f0 :: fss, f.WF) (hl : (encDoc f0).length < 2147483648) (hn : fss.length < 4294967296) :
    let ds := byMetric f0.cells.length (diffRows fsub f0.cells (fss.map Fields.cells))
    f0.cells.length < 2147483648 ∧ ds.length = f0.cells.length * fss.length ∧ Coded ((runs ds).flatMap leb128) ds := by
  have hc : f0.cells.length < 2147483648 := by
    have := countF_le f0
    rw [cells_count]
    simp only [encDoc, wrapDoc_length] at hl
    omega
  have hlen : (byMetric f0.cells.length (diffRows fsub f0.cells (fss.map Fields.cells))).length = f0.cells.length * fss.length := by
    rw [byMetric_length, diffRows_length, List.length_map]
  refine ⟨hc, hlen, coded_runs _ _ (Nat.le_refl _) ?_ (byMetric_lt (diffRows_lt hsub _ _ (cells_bits (wf f0 (by simp))) ?_))⟩
  · rw [hlen]
    calc f0.cells.length * fss.length ≤ 2147483648 * 4294967296 := Nat.mul_le_mul (by omega) (by omega)
      _ < _ := by decide
  · intro r hr
    obtain ⟨f, hf, rfl⟩ := List.mem_map.mp hr
    exact cells_bits (wf f (List.mem_cons_of_mem _ hf))

theorem le32_inj {m m' : Nat} (h : m < 4294967296) (h' : m' < 4294967296) {x y : Bytes} (e : le32 m ++ x = le32 m' ++ y) : m = m' ∧ x = y := by
  have h1 := rdU32_le32 h x
  rw [e, rdU32_le32 h' y] at h1
  cases h1
  exact ⟨rfl, List.append_cancel_left e⟩

/-- no part of the bytes after the first sample will do, unless it has all differences -/
theorem tail_short {m n : Nat} {ds : List Nat} {b : Bytes} (hm : m < 4294967296) (hn : n < 4294967296) (hlen : ds.length = m * n) (hc : Coded b ds) {t r : Bytes}
    (e : le32 m ++ le32 n ++ b = t ++ r) (hr : r ≠ []) : ¬ ∃ n' l, Tail m n' l t := by
  rintro ⟨n', l, h1, h2, h3, b', z, rest, rfl, h5⟩
  simp only [List.append_assoc] at e
  obtain ⟨rfl, rfl⟩ := le32_inj hn h2 (le32_inj hm hm e).2
  clear e
  obtain ⟨l'', rfl, hx⟩ := coded_prefix h5 hc
  have : l''.length = 0 := by simp only [List.length_append, List.length_replicate] at hlen; omega
  have := coded_nil hx (List.length_eq_zero_iff.mp this)
  simp at this
  exact hr this.2

/-! ### files -/

theorem readDiagnostic_cut : ∀ (fss : List Fields) (f : Fields) (t r : Bytes) (fuel : Nat) (s : Stream.Source), (∀ fs ∈ fss, fs.WF ∧ (encDoc fs).length < 2147483648) →
    (encDoc f).length < 2147483648 → encDoc f = t ++ r → r ≠ [] →
    (∀ fs ∈ fss, (encDoc fs).length + fss.length < fuel) → fss.length < fuel → s.left = (fss.map encDoc).flatten ++ t →
    ∃ ds, readDiagnostic fuel s = (ds, if t.length = 0 ∨ t.length = 4 then .ok () else .err .unexpectedEOF) ∧ RepDocs ds fss ∧
      ∀ s' : Stream.Source, s'.left = (fss.map encDoc).flatten → readDiagnostic fuel s' = (ds, .ok ())
  | _, _, _, _, 0, _, _, _, _, _, _, h, _ => by omega
  | [], f, t, r, fuel + 1, s, _, hfl, he, hr, _, _, h => by
    simp only [List.map_nil, List.flatten_nil, List.nil_append] at h
    obtain ⟨_, h1⟩ := Props.C11_truncated f hfl s r (by rw [h]; exact he) hr (fuel + 1)
    rw [h] at h1
    refine ⟨[], ?_, trivial, fun s' hs' => ?_⟩
    · unfold readDiagnostic
      simp only [h1]
      by_cases ht : t.length = 0 ∨ t.length = 4
      · simp only [if_pos ht]
      · simp only [if_neg ht]
    · obtain ⟨_, h2⟩ := Props.C11_truncated f hfl s' (encDoc f) (by rw [hs']; rfl) (by rw [he]; simp [hr]) (fuel + 1)
      rw [hs'] at h2
      unfold readDiagnostic
      simp only [h2]
      rfl
  | fs :: fss, f, t, r, fuel + 1, s, wf, hfl, he, hr, hf, _, h => by
    obtain ⟨w, hl⟩ := wf fs (by simp)
    obtain ⟨s1, h1, h2⟩ := Props.readFrom_enc fs hl s ((fss.map encDoc).flatten ++ t) (by rw [h]; simp)
    have hfs := hf fs (by simp)
    have h3 := readDocument_enc (fuel + 1) fs w [] (by omega) (by simpa using hl)
    rw [List.append_nil] at h3
    obtain ⟨d, h4, h5⟩ := h3
    obtain ⟨ds, h6, h7, h8⟩ := readDiagnostic_cut fss f t r fuel s1 (fun f hm => wf f (List.mem_cons_of_mem _ hm)) hfl he hr
      (fun f hm => by have := hf f (List.mem_cons_of_mem _ hm); simp only [List.length_cons] at this; omega)
      (by simp only [List.length_cons] at *; omega) h1
    refine ⟨d :: ds, ?_, ⟨h5, h7⟩, fun s' hs' => ?_⟩
    · unfold readDiagnostic
      simp only [h2, h4, h6]
    · obtain ⟨s2, k1, k2⟩ := Props.readFrom_enc fs hl s' ((fss.map encDoc).flatten) (by rw [hs']; simp)
      unfold readDiagnostic
      simp only [k2, h4, h8 s2 k1]

end Birch.Proofs.Ftdc
