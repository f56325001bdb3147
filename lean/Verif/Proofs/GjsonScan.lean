import Verif.Spec.JsonText

/-
Scanning of strings, numbers and nested values (helper lemmas).
-/

namespace Birch.Proofs.Gjson
open Birch Model.Json Model.Gjson Spec.JsonText

/-! ### strings -/

/-- characters and escapes -/
inductive Esc : Bytes → Prop
  | nil : Esc []
  | chr {c s} : c ≠ 34 → c ≠ 92 → Esc s → Esc (c :: s)
  | esc {e s} : Esc s → Esc (92 :: e :: s)

theorem Esc.append {s t : Bytes} (hs : Esc s) (ht : Esc t) : Esc (s ++ t) := by
  induction hs with
  | nil => exact ht
  | chr h1 h2 _ ih => exact .chr h1 h2 ih
  | esc _ ih => exact .esc ih

theorem hexDigit_range {c : UInt8} {n : Nat} (h : Spec.JsonText.hexDigit c = some n) :
    (48 ≤ c ∧ c ≤ 57) ∨ (97 ≤ c ∧ c ≤ 102) ∨ (65 ≤ c ∧ c ≤ 70) := by
  unfold Spec.JsonText.hexDigit at h
  split at h
  · next k => exact Or.inl k
  · split at h
    · next k => exact Or.inr (Or.inr k)
    · split at h
      · next k => exact Or.inr (Or.inl k)
      · cases h

theorem hex_ne {c : UInt8} (h : (48 ≤ c ∧ c ≤ 57) ∨ (97 ≤ c ∧ c ≤ 102) ∨ (65 ≤ c ∧ c ≤ 70)) : c ≠ 34 ∧ c ≠ 92 ∧ ¬ c < 32 := by
  simp only [UInt8.le_iff_toNat_le, UInt8.lt_iff_toNat_lt, ne_eq, ← UInt8.toNat_inj] at *
  simp at *
  omega

theorem hex4_esc {h : Bytes} {n : Nat} (hh : Hex4 h n) {s : Bytes} (hs : Esc s) : Esc (92 :: 117 :: (h ++ s)) := by
  obtain ⟨a, b, c, d, a', b', c', d', rfl, ha, hb, hc, hd, rfl⟩ := hh
  have A := hex_ne (hexDigit_range ha); have B := hex_ne (hexDigit_range hb)
  have C := hex_ne (hexDigit_range hc); have D := hex_ne (hexDigit_range hd)
  exact .esc (.chr A.1 A.2.1 (.chr B.1 B.2.1 (.chr C.1 C.2.1 (.chr D.1 D.2.1 hs))))

theorem chars_esc {lax : Bool} {s u : Bytes} (h : Chars lax s u) : Esc s := by
  induction h with
  | nil => exact .nil
  | plain _ h1 h2 _ ih => exact .chr h1 h2 ih
  | short _ _ ih => exact .esc ih
  | point hh _ _ _ ih => exact hex4_esc hh ih
  | pair hh _ hh' _ _ ih => exact hex4_esc hh (hex4_esc hh' ih)
  | mismatch _ hh _ hh' _ _ ih => exact hex4_esc hh (hex4_esc hh' ih)
  | lone _ hh _ _ _ ih => exact hex4_esc hh ih

/-- the number of backslashes at the end of what was read -/
def run (b : Bytes) : Nat := (b.takeWhile (· = 92)).length

theorem quoteEnds_eq (b : Bytes) : quoteEnds b = (run b % 2 = 0 : Bool) := by
  unfold quoteEnds
  split
  · next b =>
    have : run (92 :: b) = run b + 1 := by simp [run]
    rw [this]
    unfold run
    simp only [ne_eq, decide_eq_decide]
    omega
  · next h =>
    cases b with
    | nil => rfl
    | cons c b =>
      have : c ≠ 92 := by rintro rfl; exact h b rfl
      simp [run, this]

theorem run_ne {c : UInt8} {b : Bytes} (h : c ≠ 92) : run (c :: b) = 0 := by simp [run, h]

theorem run_bs (b : Bytes) : run (92 :: b) = run b + 1 := by simp [run]

theorem run_esc {e : UInt8} {b : Bytes} (h : run b % 2 = 0) : run (e :: 92 :: b) % 2 = 0 := by
  by_cases he : e = 92
  · subst he
    rw [run_bs, run_bs]
    omega
  · rw [run_ne he]

theorem scanQuote_esc {s : Bytes} (hs : Esc s) (r : Bytes) : ∀ b, run b % 2 = 0 → scanQuote b (s ++ 34 :: r) = some (b.reverse ++ s, r) := by
  induction hs with
  | nil =>
    intro b hb
    simp [scanQuote, quoteEnds_eq, hb]
  | @chr c s h1 h2 _ ih =>
    intro b _
    simp only [List.cons_append, scanQuote, h1, false_and, if_false]
    rw [ih _ (by rw [run_ne h2])]
    simp
  | @esc e s _ ih =>
    intro b hb
    have hq : quoteEnds (92 :: b) = false := by
      rw [quoteEnds_eq, run_bs]
      simp only [decide_eq_false_iff_not]
      omega
    simp only [List.cons_append, scanQuote, hq]
    rw [if_neg (fun h => absurd h.1 (by decide)), if_neg (by simp), ih _ (run_esc hb)]
    simp

theorem parseString_esc {s : Bytes} (hs : Esc s) (r : Bytes) :
    ∀ b, run b % 2 = 0 → parseString b (s ++ 34 :: r) = some (b.reverse ++ s, decide (92 ∈ s), r) := by
  induction hs with
  | nil => intro b _; simp [parseString]
  | @chr c s h1 h2 _ ih =>
    intro b _
    simp only [List.cons_append, parseString, h1, h2, if_false]
    rw [ih _ (by rw [run_ne h2])]
    simp [Ne.symm h2]
  | @esc e s hs _ =>
    intro b hb
    have hq : quoteEnds (92 :: b) = false := by
      rw [quoteEnds_eq, run_bs]
      simp only [decide_eq_false_iff_not]
      omega
    have hp : parseString b (92 :: e :: s ++ 34 :: r) = (scanQuote (92 :: b) (e :: (s ++ 34 :: r))).map fun x => (x.1, true, x.2) := rfl
    rw [hp, scanQuote, hq, if_neg (by simp), scanQuote_esc hs r _ (run_esc hb)]
    simp

theorem squash_str {s : Bytes} (hs : Esc s) (d : Nat) (r : Bytes) :
    ∀ b, run b % 2 = 0 → squash d (some b) (s ++ 34 :: r) = (s ++ 34 :: (squash d none r).1, (squash d none r).2) := by
  induction hs with
  | nil =>
    intro b hb
    simp [squash, quoteEnds_eq, hb]
  | @chr c s h1 h2 _ ih =>
    intro b _
    simp only [List.cons_append, squash, h1, false_and, if_false]
    rw [ih _ (by rw [run_ne h2])]
  | @esc e s _ ih =>
    intro b hb
    have hq : quoteEnds (92 :: b) = false := by
      rw [quoteEnds_eq, run_bs]
      simp only [decide_eq_false_iff_not]
      omega
    simp only [List.cons_append, squash, hq]
    rw [if_neg (fun h => absurd h.1 (by decide)), if_neg (by simp), ih _ (run_esc hb)]

/-! ### escapes -/

theorem hexVal_eq (c : UInt8) : hexVal c = Spec.JsonText.hexDigit c := by
  unfold hexVal Spec.JsonText.hexDigit
  by_cases h1 : 48 ≤ c ∧ c ≤ 57
  · rw [if_pos h1, if_pos h1]
  · rw [if_neg h1, if_neg h1]
    by_cases h2 : 97 ≤ c ∧ c ≤ 102
    · have : ¬ (65 ≤ c ∧ c ≤ 70) := by
        simp only [UInt8.le_iff_toNat_le] at *
        simp at *
        omega
      rw [if_pos h2, if_neg this, if_pos h2]
    · rw [if_neg h2]
      split
      · rfl
      · rfl

theorem hexDigit_lt {c : UInt8} {n : Nat} (h : Spec.JsonText.hexDigit c = some n) : n < 16 := by
  unfold Spec.JsonText.hexDigit at h
  split at h
  · next k => cases h; simp only [UInt8.le_iff_toNat_le] at k; simp at k; omega
  · split at h
    · next k => cases h; simp only [UInt8.le_iff_toNat_le] at k; simp at k; omega
    · split at h
      · next k => cases h; simp only [UInt8.le_iff_toNat_le] at k; simp at k; omega
      · cases h

theorem hex4_lt {h : Bytes} {n : Nat} (hh : Hex4 h n) : n < 0x10000 := by
  obtain ⟨a, b, c, d, a', b', c', d', rfl, ha, hb, hc, hd, rfl⟩ := hh
  have := hexDigit_lt ha; have := hexDigit_lt hb; have := hexDigit_lt hc; have := hexDigit_lt hd
  omega

theorem runeit_hex {a b c d : UInt8} {n : Nat} (h : Hex4 [a, b, c, d] n) : runeit a b c d = n := by
  obtain ⟨_, _, _, _, a', b', c', d', e, ha, hb, hc, hd, rfl⟩ := h
  cases e
  simp only [runeit, hexVal_eq, ha, hb, hc, hd]
  omega

theorem hex4_four {h : Bytes} {n : Nat} (hh : Hex4 h n) : ∃ a b c d, h = [a, b, c, d] ∧ runeit a b c d = n := by
  have hh' := hh
  obtain ⟨a, b, c, d, _, _, _, _, rfl, _⟩ := hh
  exact ⟨a, b, c, d, rfl, runeit_hex hh'⟩

theorem surrogate_iff (n : Nat) : isSurrogate n = true ↔ High n ∨ Low n := by
  simp only [isSurrogate, High, Low, decide_eq_true_eq]
  omega

theorem encodeRune_eq {n : Nat} (h1 : ¬ High n) (h2 : ¬ Low n) : encodeRune n = utf8 n := by
  have : isSurrogate n = false := by
    rw [Bool.eq_false_iff, ne_eq, surrogate_iff]
    exact fun h => h.elim h1 h2
  simp only [encodeRune, utf8, this]
  simp

theorem encodeRune_surrogate {n : Nat} (h : High n ∨ Low n) : encodeRune n = utf8 0xFFFD := by
  have hs : isSurrogate n = true := (surrogate_iff n).mpr h
  have : ¬ n < 0x80 ∧ ¬ n < 0x800 := by
    unfold High Low at h
    omega
  simp only [encodeRune, this, hs, if_false, if_true]
  rfl

theorem unescape_chars {lax : Bool} {s u : Bytes} (h : Chars lax s u) : unescape s = u := by
  induction h with
  | nil => rfl
  | @plain c s u h0 h1 h2 _ ih =>
    have : ¬ c < 32 := by
      simp only [UInt8.le_iff_toNat_le, UInt8.lt_iff_toNat_lt] at *
      omega
    rw [unescape.eq_def]
    simp [this, h2, ih]
  | @short e c s u h _ ih =>
    cases h <;> rw [unescape.eq_def] <;> simp [ih]
  | @point h n s u hh hn hl _ ih =>
    obtain ⟨a, b, c, d, rfl, rfl⟩ := hex4_four hh
    have hs : isSurrogate (runeit a b c d) = false := by
      rw [Bool.eq_false_iff, ne_eq, surrogate_iff]
      exact fun h => h.elim hn hl
    simp only [List.cons_append, List.nil_append]
    rw [unescape.eq_def]
    simp [hs, ih, encodeRune_eq hn hl]
  | @pair h n h' n' s u hh hn hh' hl _ ih =>
    obtain ⟨a, b, c, d, rfl, rfl⟩ := hex4_four hh
    obtain ⟨a', b', c', d', rfl, rfl⟩ := hex4_four hh'
    have hs : isSurrogate (runeit a b c d) = true := (surrogate_iff _).mpr (Or.inl hn)
    simp only [List.cons_append, List.nil_append]
    rw [unescape.eq_def]
    have hd : decodeRune (runeit a b c d) (runeit a' b' c' d') =
        0x10000 + (runeit a b c d - 0xD800) * 1024 + (runeit a' b' c' d' - 0xDC00) := by
      unfold High at hn
      unfold Low at hl
      rw [decodeRune, if_pos ⟨hn.1, hn.2, hl.1, hl.2⟩]
      omega
    have he : encodeRune (0x10000 + (runeit a b c d - 0xD800) * 1024 + (runeit a' b' c' d' - 0xDC00)) =
        utf8 (0x10000 + (runeit a b c d - 0xD800) * 1024 + (runeit a' b' c' d' - 0xDC00)) :=
      encodeRune_eq (by unfold High; omega) (by unfold Low; omega)
    simp [hs, ih, hd, he]
  | @mismatch h n h' n' s u _ hh hn hh' hl _ ih =>
    obtain ⟨a, b, c, d, rfl, rfl⟩ := hex4_four hh
    obtain ⟨a', b', c', d', rfl, rfl⟩ := hex4_four hh'
    have hs : isSurrogate (runeit a b c d) = true := (surrogate_iff _).mpr hn
    simp only [List.cons_append, List.nil_append]
    rw [unescape.eq_def]
    have hd : decodeRune (runeit a b c d) (runeit a' b' c' d') = 0xFFFD := by
      rw [decodeRune, if_neg]
      rintro ⟨h1, h2, h3, h4⟩
      exact hl ⟨⟨h1, h2⟩, h3, h4⟩
    have he : encodeRune 0xFFFD = utf8 0xFFFD := rfl
    simp [hs, ih, hd, he]
  | @lone h n s u _ hh hn h2 _ ih =>
    obtain ⟨a, b, c, d, rfl, rfl⟩ := hex4_four hh
    have hs : isSurrogate (runeit a b c d) = true := (surrogate_iff _).mpr hn
    have he := encodeRune_surrogate hn
    simp only [List.cons_append, List.nil_append]
    rw [unescape.eq_def]
    simp only [hs, ↓reduceIte, show ¬ ((92 : UInt8) < 32) by decide]
    simp
    split
    · next x y k1 k2 k3 k4 r' =>
      rw [if_neg (by rintro ⟨rfl, rfl⟩; exact h2 rfl), ih, he]
    · rw [ih, he]

theorem chars_noesc {lax : Bool} {s u : Bytes} (h : Chars lax s u) (hn : 92 ∉ s) : u = s := by
  induction h with
  | nil => rfl
  | plain _ _ _ _ ih => rw [ih (fun hm => hn (List.mem_cons_of_mem _ hm))]
  | short _ _ _ => simp at hn
  | point _ _ _ _ _ => simp at hn
  | pair _ _ _ _ _ _ => simp at hn
  | mismatch _ _ _ _ _ _ _ => simp at hn
  | lone _ _ _ _ _ _ => simp at hn

theorem decoded {lax : Bool} {s u : Bytes} (h : Chars lax s u) : (if decide (92 ∈ s) = true then unescape s else s) = u := by
  by_cases hm : 92 ∈ s
  · simp [hm, unescape_chars h]
  · simp [hm, chars_noesc h hm]

end Birch.Proofs.Gjson
