import Verif.Proofs.GjsonParts

/-
The validator accepts exactly the texts of the grammar (helper lemmas).
-/

namespace Birch.Proofs.Gjson
open Birch Model.Json Model.Gjson Spec.JsonText

/-! ### strings -/

theorem isHex_some {c : UInt8} {n : Nat} (h : Spec.JsonText.hexDigit c = some n) : isHex c = true := by
  have := hexDigit_range h
  simpa [isHex] using this

theorem isHex_digit {c : UInt8} (h : isHex c = true) : ∃ n, Spec.JsonText.hexDigit c = some n := by
  unfold Spec.JsonText.hexDigit
  simp only [isHex, decide_eq_true_eq] at h
  split
  · exact ⟨_, rfl⟩
  · split
    · exact ⟨_, rfl⟩
    · split
      · exact ⟨_, rfl⟩
      · next h1 h2 h3 => exact absurd h (fun h => h.elim h1 (fun h => h.elim h3 h2))

theorem validString_hex {h : Bytes} {n : Nat} (hh : Hex4 h n) (s : Bytes) : validString (92 :: 117 :: (h ++ s)) = validString s := by
  obtain ⟨a, b, c, d, a', b', c', d', rfl, ha, hb, hc, hd, rfl⟩ := hh
  rw [validString.eq_def]
  simp [isHex_some ha, isHex_some hb, isHex_some hc, isHex_some hd]

theorem validString_chars {lax : Bool} {s u : Bytes} (h : Chars lax s u) (r : Bytes) : validString (s ++ 34 :: r) = some r := by
  induction h with
  | nil => rw [List.nil_append, validString.eq_def]; simp
  | plain h0 h1 h2 _ ih =>
    rw [List.cons_append, validString.eq_def]
    have : ¬ _ < (32 : UInt8) := UInt8.not_lt.mpr h0
    simp [this, h1, h2, ih]
  | short h _ ih =>
    rw [List.cons_append, List.cons_append, validString.eq_def]
    cases h <;> simp [ih]
  | point h _ _ _ ih =>
    simp only [List.cons_append, List.append_assoc]
    rw [validString_hex h, ih]
  | pair h _ h' _ _ ih =>
    simp only [List.cons_append, List.append_assoc]
    rw [validString_hex h, validString_hex h', ih]
  | mismatch _ h _ h' _ _ ih =>
    simp only [List.cons_append, List.append_assoc]
    rw [validString_hex h, validString_hex h', ih]
  | lone _ h _ _ _ ih =>
    simp only [List.cons_append, List.append_assoc]
    rw [validString_hex h, ih]

/-- what the validator accepts, character by character -/
inductive VChars : Bytes → Prop
  | nil : VChars []
  | plain {c s} : 32 ≤ c → c ≠ 34 → c ≠ 92 → VChars s → VChars (c :: s)
  | short {e c s} : Short e c → VChars s → VChars (92 :: e :: s)
  | hex {h n s} : Hex4 h n → VChars s → VChars (92 :: 117 :: (h ++ s))

theorem validString_vchars {r : Bytes} : ∀ k (t : Bytes), t.length ≤ k → validString t = some r → ∃ s, t = s ++ 34 :: r ∧ VChars s := by
  intro k
  induction k with
  | zero =>
    intro t hk h
    cases t with
    | nil => rw [validString.eq_def] at h; cases h
    | cons c t => simp at hk
  | succ k ih =>
    intro t hk h
    rw [validString.eq_def] at h
    cases t with
    | nil => cases h
    | cons c t =>
      simp only at h
      simp only [List.length_cons] at hk
      split at h
      · cases h
      next h32 =>
      split at h
      · next hb =>
        subst hb
        cases t with
        | nil => cases h
        | cons e t =>
          simp only at h
          simp only [List.length_cons] at hk
          split at h
          · next he =>
            obtain ⟨s, rfl, hs⟩ := ih t (by omega) h
            have : ∃ c, Short e c := by
              rcases he with rfl | rfl | rfl | rfl | rfl | rfl | rfl | rfl
              · exact ⟨_, .quote⟩
              · exact ⟨_, .backslash⟩
              · exact ⟨_, .slash⟩
              · exact ⟨_, .b⟩
              · exact ⟨_, .f⟩
              · exact ⟨_, .n⟩
              · exact ⟨_, .r⟩
              · exact ⟨_, .t⟩
            obtain ⟨c, hc⟩ := this
            exact ⟨92 :: e :: s, rfl, .short hc hs⟩
          · split at h
            · next hu =>
              subst hu
              split at h
              · next h1 h2 h3 h4 t =>
                split at h
                · next hx =>
                  obtain ⟨x1, x2, x3, x4⟩ := hx
                  obtain ⟨s, rfl, hs⟩ := ih t (by simp only [List.length_cons] at hk; omega) h
                  obtain ⟨a, ha⟩ := isHex_digit x1
                  obtain ⟨b, hb⟩ := isHex_digit x2
                  obtain ⟨c, hc⟩ := isHex_digit x3
                  obtain ⟨d, hd⟩ := isHex_digit x4
                  exact ⟨92 :: 117 :: ([h1, h2, h3, h4] ++ s), rfl, .hex ⟨h1, h2, h3, h4, a, b, c, d, rfl, ha, hb, hc, hd, rfl⟩ hs⟩
                · cases h
              · cases h
            · cases h
      · next hb =>
        split at h
        · next hq =>
          cases h
          subst hq
          exact ⟨[], rfl, .nil⟩
        · next hq =>
          obtain ⟨s, rfl, hs⟩ := ih t (by omega) h
          exact ⟨c :: s, rfl, .plain (UInt8.not_lt.mp h32) hq hb hs⟩

theorem vchars_chars : ∀ k (s : Bytes), s.length ≤ k → VChars s → ∃ u, Chars true s u := by
  intro k
  induction k with
  | zero =>
    intro s hk h
    cases s with
    | nil => exact ⟨[], .nil⟩
    | cons c t => simp at hk
  | succ k ih =>
    intro s hk h
    cases h with
    | nil => exact ⟨[], .nil⟩
    | plain h0 h1 h2 h =>
      simp only [List.length_cons] at hk
      obtain ⟨u, hu⟩ := ih _ (by omega) h
      exact ⟨_, .plain h0 h1 h2 hu⟩
    | short he h =>
      simp only [List.length_cons] at hk
      obtain ⟨u, hu⟩ := ih _ (by omega) h
      exact ⟨_, .short he hu⟩
    | @hex x n s hx h =>
      simp only [List.length_cons, List.length_append] at hk
      by_cases hs : High n ∨ Low n
      · by_cases h2 : s.take 2 = [92, 117]
        · cases h with
          | nil => simp at h2
          | plain h0 h1 hb h =>
            cases h <;> simp_all
          | short he h =>
            simp only [List.take_succ_cons, List.cons.injEq, true_and] at h2
            rw [h2.1] at he
            cases he
          | @hex x' n' s' hx' h' =>
            obtain ⟨u, hu⟩ := ih s' (by simp only [List.length_cons, List.length_append] at hk; omega) h'
            by_cases hp : High n ∧ Low n'
            · exact ⟨_, .pair hx hp.1 hx' hp.2 hu⟩
            · exact ⟨_, .mismatch rfl hx hs hx' hp hu⟩
        · obtain ⟨u, hu⟩ := ih s (by omega) h
          exact ⟨_, .lone rfl hx hs h2 hu⟩
      · obtain ⟨u, hu⟩ := ih s (by omega) h
        exact ⟨_, .point hx (fun h => hs (.inl h)) (fun h => hs (.inr h)) hu⟩

theorem validString_complete {t r : Bytes} (h : validString t = some r) : ∃ s u, t = s ++ 34 :: r ∧ Chars true s u := by
  obtain ⟨s, h1, h2⟩ := validString_vchars _ t (Nat.le_refl _) h
  obtain ⟨u, hu⟩ := vchars_chars _ s (Nat.le_refl _) h2
  exact ⟨s, u, h1, hu⟩

/-! ### every text of the grammar is accepted -/

theorem skipWs_idem (t : Bytes) : skipWs (skipWs t) = skipWs t := by
  induction t with
  | nil => rfl
  | cons c r ih =>
    rw [skipWs]
    split
    · exact ih
    · next h => rw [skipWs, if_neg h]

theorem validAny_skipWs (n : Nat) (t : Bytes) : validAny n (skipWs t) = validAny n t := by
  cases n with
  | zero => rfl
  | succ n => rw [validAny, validAny, skipWs_idem]

theorem validItems_skipWs (n : Nat) (t : Bytes) : validItems n (skipWs t) = validItems n t := by
  cases n with
  | zero => rfl
  | succ n => rw [validItems, validItems, validAny_skipWs]

theorem digit_gt {c : UInt8} (h : Digit c) : 32 < c ∧ c ≠ 93 ∧ c ≠ 34 ∧ c ≠ 123 ∧ c ≠ 91 := by
  rw [digit_nat] at h
  simp only [UInt8.lt_iff_toNat_lt, ne_eq, ← UInt8.toNat_inj]
  simp
  omega

theorem val_head {lax : Bool} {t : Bytes} {j : J} (h : Val lax t j) : ∃ c r, t = c :: r ∧ 32 < c ∧ c ≠ 93 := by
  cases h with
  | num h =>
    obtain ⟨c, r, e, hc⟩ := number_head h
    rcases hc with hc | hc
    · subst hc; exact ⟨45, r, e, by decide, by decide⟩
    · exact ⟨c, r, e, (digit_gt hc).1, (digit_gt hc).2.1⟩
  | _ => exact ⟨_, _, rfl, by decide, by decide⟩

theorem skipWs_val {lax : Bool} {t : Bytes} {j : J} (h : Val lax t j) {w : Bytes} (hw : Ws w) (r : Bytes) : skipWs (w ++ (t ++ r)) = t ++ r := by
  rw [skipWs_ws hw]
  obtain ⟨c, r', rfl, h1, _⟩ := val_head h
  exact skipWs_cons h1 _

theorem delim_close {c : UInt8} (h : c = 44 ∨ c = 93 ∨ c = 125) (r : Bytes) : Delim (c :: r) :=
  .cons (by rcases h with rfl | rfl | rfl <;> simp [Stop])

theorem skipWs_close {w : Bytes} (hw : Ws w) {c : UInt8} (h : c = 44 ∨ c = 93 ∨ c = 125) (r : Bytes) : skipWs (w ++ c :: r) = c :: r := by
  rw [skipWs_ws hw]
  exact skipWs_cons (by rcases h with rfl | rfl | rfl <;> decide) _

theorem validColon_ws {w : Bytes} (hw : Ws w) (r : Bytes) : validColon (w ++ 58 :: r) = some r := by
  unfold validColon
  rw [skipWs_ws hw, skipWs_cons (by decide)]
  simp

mutual
theorem val_valid {lax : Bool} {t : Bytes} {j : J} : Val lax t j → ∀ {n : Nat} {w rest : Bytes}, Ws w → Delim rest → (t = [45] → rest ≠ []) →
    3 * t.length ≤ n → validAny n (w ++ (t ++ rest)) = some rest
  | .null, n + 1, w, rest, hw, _, _, _ => by rw [validAny, skipWs_val (.null (lax := lax)) hw]; simp [isDigit]
  | .tru, n + 1, w, rest, hw, _, _, _ => by rw [validAny, skipWs_val (.tru (lax := lax)) hw]; simp [isDigit]
  | .fals, n + 1, w, rest, hw, _, _, _ => by rw [validAny, skipWs_val (.fals (lax := lax)) hw]; simp [isDigit]
  | .num h, n, w, rest, hw, hr, hm, hn => by
    obtain ⟨n, rfl⟩ : ∃ k, n = k + 1 := by
      obtain ⟨c, r, e, _⟩ := number_head h
      rw [e, List.length_cons] at hn
      exact ⟨n - 1, by omega⟩
    rw [validAny, skipWs_val (.num h) hw]
    have hv := validNumber_number h hr (fun _ => (Decidable.em (t = [45])).elim (fun e => .inr (hm e)) .inl)
    obtain ⟨c, r, rfl, hc⟩ := number_head h
    simp only [List.cons_append] at hv ⊢
    have hd : c = 45 ∨ isDigit c = true := hc.imp id (isDigit_iff c).mpr
    have hne : c ≠ 123 ∧ c ≠ 91 ∧ c ≠ 34 := by
      rcases hc with rfl | hc
      · decide
      · have := digit_gt hc; exact ⟨this.2.2.2.1, this.2.2.2.2, this.2.2.1⟩
    simp only [hne.1, hne.2.1, hne.2.2, hd, if_false, if_true, hv]
  | .str h, n + 1, w, rest, hw, hr, hm, hn => by
    rw [validAny, skipWs_val (.str h) hw]
    simp [validString_chars h]
  | .emptyArr h, n + 1, w, rest, hw, hr, hm, hn => by
    rw [validAny, skipWs_val (.emptyArr (lax := lax) h) hw]
    simp only [List.length_cons, List.length_append] at hn
    obtain ⟨n, rfl⟩ : ∃ k, n = k + 1 := ⟨n - 1, by simp at hn; omega⟩
    simp only [List.cons_append, List.append_assoc, List.nil_append]
    simp [validArray, skipWs_close h (.inr (.inl rfl))]
  | .arr (t := ts) h, n + 1, w, rest, hw, hr, hm, hn => by
    rw [validAny, skipWs_val (.arr h) hw]
    simp only [List.length_cons, List.length_append, List.length_nil] at hn
    obtain ⟨n, rfl⟩ : ∃ k, n = k + 1 := ⟨n - 1, by omega⟩
    simp only [List.cons_append, List.append_assoc, List.nil_append]
    have hi := items_valid h (n := n) (rest := rest) (by omega)
    obtain ⟨c, r, hs, hc⟩ := items_head h (93 :: rest)
    rw [← validItems_skipWs, hs] at hi
    simp [validArray, hs, hc, hi]
  | .emptyObj h, n + 1, w, rest, hw, hr, hm, hn => by
    rw [validAny, skipWs_val (.emptyObj (lax := lax) h) hw]
    simp only [List.length_cons, List.length_append] at hn
    obtain ⟨n, rfl⟩ : ∃ k, n = k + 1 := ⟨n - 1, by simp at hn; omega⟩
    simp only [List.cons_append, List.append_assoc, List.nil_append]
    simp [validObject, skipWs_close h (.inr (.inr rfl))]
  | .obj h, n + 1, w, rest, hw, hr, hm, hn => by
    rw [validAny, skipWs_val (.obj h) hw]
    simp only [List.length_cons, List.length_append, List.length_nil] at hn
    obtain ⟨n, rfl⟩ : ∃ k, n = k + 1 := ⟨n - 1, by omega⟩
    simp only [List.cons_append, List.append_assoc, List.nil_append]
    obtain ⟨w', b, rfl, hw', hb⟩ := members_valid h
    have := hb n rest (by omega)
    simp [validObject, skipWs_ws hw', skipWs_cons (show (32 : UInt8) < 34 by decide), this]
theorem items_valid {lax : Bool} {t : Bytes} {vs : Js} : Items lax t vs → ∀ {n : Nat} {rest : Bytes}, 3 * t.length + 1 ≤ n →
    validItems n (t ++ 93 :: rest) = some rest
  | .last (w := w) (t := t) (w' := w') h1 h2 h3, n + 1, rest, hn => by
    simp only [List.length_append] at hn
    have := val_valid h2 (n := n) h1 (rest := w' ++ 93 :: rest) (.ws h3 (delim_close (.inr (.inl rfl)) _)) (by simp) (by omega)
    simp only [List.append_assoc]
    rw [validItems, this]
    simp [skipWs_close h3 (.inr (.inl rfl))]
  | .cons (w := w) (t := t) (w' := w') (ts := ts) h1 h2 h3 h4, n + 1, rest, hn => by
    simp only [List.length_append, List.length_cons] at hn
    have := val_valid h2 (n := n) h1 (rest := w' ++ 44 :: (ts ++ 93 :: rest)) (.ws h3 (delim_close (.inl rfl) _)) (by simp) (by omega)
    simp only [List.append_assoc, List.cons_append]
    rw [validItems, this]
    simp [skipWs_close h3 (.inl rfl), items_valid h4 (n := n) (rest := rest) (by omega)]
theorem items_head {lax : Bool} {t : Bytes} {vs : Js} : Items lax t vs → ∀ r : Bytes, ∃ c r', skipWs (t ++ r) = c :: r' ∧ c ≠ 93
  | .last h1 h2 h3, r => by
    have := skipWs_val h2 h1 (by assumption)
    simp only [List.append_assoc]
    rw [skipWs_val h2 h1]
    obtain ⟨c, r', rfl, _, h⟩ := val_head h2
    exact ⟨c, _, rfl, h⟩
  | .cons h1 h2 h3 h4, r => by
    simp only [List.append_assoc]
    rw [skipWs_val h2 h1]
    obtain ⟨c, r', rfl, _, h⟩ := val_head h2
    exact ⟨c, _, rfl, h⟩
theorem members_valid {lax : Bool} {t : Bytes} {es : Jes} : Members lax t es → ∃ w b, t = w ++ 34 :: b ∧ Ws w ∧
    ∀ (n : Nat) (rest : Bytes), 3 * t.length + 1 ≤ n → validKey n (b ++ 125 :: rest) = some rest
  | .last (w := w) (s := s) (w1 := w1) (w2 := w2) (t := t) (w3 := w3) h1 h2 h3 h4 h5 h6 => by
    refine ⟨w, _, rfl, h1, ?_⟩
    intro n rest hn
    obtain ⟨n, rfl⟩ : ∃ k, n = k + 1 := ⟨n - 1, by omega⟩
    simp only [List.length_append, List.length_cons] at hn
    have := val_valid h5 (n := n) h4 (rest := w3 ++ 125 :: rest) (.ws h6 (delim_close (.inr (.inr rfl)) _)) (by simp) (by omega)
    simp only [List.append_assoc, List.cons_append]
    rw [validKey, validString_chars h2]
    simp only [validColon_ws h3, this]
    simp [skipWs_close h6 (.inr (.inr rfl))]
  | .cons (w := w) (s := s) (w1 := w1) (w2 := w2) (t := t) (w3 := w3) (ts := ts) h1 h2 h3 h4 h5 h6 h7 => by
    refine ⟨w, _, rfl, h1, ?_⟩
    intro n rest hn
    obtain ⟨n, rfl⟩ : ∃ k, n = k + 1 := ⟨n - 1, by omega⟩
    simp only [List.length_append, List.length_cons] at hn
    have := val_valid h5 (n := n) h4 (rest := w3 ++ 44 :: (ts ++ 125 :: rest)) (.ws h6 (delim_close (.inl rfl) _)) (by simp) (by omega)
    obtain ⟨w', b, rfl, hw', hb⟩ := members_valid h7
    have hb := hb n rest (by omega)
    simp only [List.append_assoc, List.cons_append] at this ⊢
    rw [validKey, validString_chars h2]
    simp only [validColon_ws h3, this]
    simp [skipWs_close h6 (.inl rfl), skipWs_ws hw', skipWs_cons (show (32 : UInt8) < 34 by decide), hb]
end

/-! ### every accepted text is in the grammar -/

theorem items_ws {lax : Bool} {t : Bytes} {vs : Js} {w : Bytes} (hw : Ws w) : Items lax t vs → Items lax (w ++ t) vs
  | .last h1 h2 h3 => by rw [← List.append_assoc]; exact .last (ws_append hw h1) h2 h3
  | .cons h1 h2 h3 h4 => by rw [← List.append_assoc]; exact .cons (ws_append hw h1) h2 h3 h4
where ws_append {w v : Bytes} (hw : Ws w) (hv : Ws v) : Ws (w ++ v) := fun c hc => (List.mem_append.mp hc).elim (hw c) (hv c)

theorem take_drop_eq {r l : Bytes} {k : Nat} (h : r.take k = l) : r = l ++ r.drop k := by rw [← h, List.take_append_drop]

/-- what is known if a function of the validator accepts -/
structure Complete (n : Nat) : Prop where
  any : ∀ {t r : Bytes}, validAny n t = some r → ∃ w t' j, t = w ++ (t' ++ r) ∧ Ws w ∧ Val true t' j ∧ (t' = [45] → r ≠ [])
  object : ∀ {t r : Bytes}, validObject n t = some r → ∃ b j, t = b ++ r ∧ Val true (123 :: b) j
  key : ∀ {t r : Bytes}, validKey n t = some r → ∃ b es, t = b ++ 125 :: r ∧ ∀ w, Ws w → Members true (w ++ 34 :: b) es
  array : ∀ {t r : Bytes}, validArray n t = some r → ∃ b j, t = b ++ r ∧ Val true (91 :: b) j
  items : ∀ {t r : Bytes}, validItems n t = some r → ∃ ts vs, t = ts ++ 93 :: r ∧ Items true ts vs

theorem complete : ∀ n, Complete n := by
  intro n
  induction n with
  | zero =>
    refine ⟨?_, ?_, ?_, ?_, ?_⟩ <;> intro t r h
    · rw [validAny] at h; cases h
    · rw [validObject] at h; cases h
    · rw [validKey] at h; cases h
    · rw [validArray] at h; cases h
    · rw [validItems] at h; cases h
  | succ n ih =>
    refine ⟨?_, ?_, ?_, ?_, ?_⟩ <;> intro t r h
    · rw [validAny] at h
      obtain ⟨w, hw, hws⟩ := skipWs_split t
      revert h
      generalize hsk : skipWs t = s at hw
      intro h
      cases s with
      | nil => cases h
      | cons c s =>
        simp only at h
        have fin : ∀ {t' : Bytes} {j : J}, c :: s = t' ++ r → Val true t' j → t' ≠ [45] →
            ∃ w t' j, t = w ++ (t' ++ r) ∧ Ws w ∧ Val true t' j ∧ (t' = [45] → r ≠ []) :=
          fun e hv hne => ⟨w, _, _, by rw [← e]; exact hw, hws, hv, fun h => absurd h hne⟩
        split at h
        · next hc =>
          subst hc
          obtain ⟨b, j, rfl, hv⟩ := ih.object h
          exact fin (t' := 123 :: b) rfl hv (by simp)
        split at h
        · next hc =>
          subst hc
          obtain ⟨b, j, rfl, hv⟩ := ih.array h
          exact fin (t' := 91 :: b) rfl hv (by simp)
        split at h
        · next hc =>
          subst hc
          obtain ⟨s', u, rfl, hv⟩ := validString_complete h
          exact fin (t' := 34 :: (s' ++ [34])) (by simp) (.str hv) (by simp)
        split at h
        · next hc =>
          obtain ⟨raw, e, hv, hm⟩ := validNumber_complete hc h
          exact ⟨w, raw, _, by rw [← e]; exact hw, hws, .num hv, hm⟩
        split at h
        · next hc =>
          subst hc
          split at h
          · next hk =>
            cases h
            exact fin (t' := [116, 114, 117, 101]) (congrArg (116 :: ·) (take_drop_eq hk)) .tru (by simp)
          · cases h
        split at h
        · next hc =>
          subst hc
          split at h
          · next hk =>
            cases h
            exact fin (t' := [102, 97, 108, 115, 101]) (congrArg (102 :: ·) (take_drop_eq hk)) .fals (by simp)
          · cases h
        split at h
        · next hc =>
          subst hc
          split at h
          · next hk =>
            cases h
            exact fin (t' := [110, 117, 108, 108]) (congrArg (110 :: ·) (take_drop_eq hk)) .null (by simp)
          · cases h
        · cases h
    · rw [validObject] at h
      obtain ⟨w, hw, hws⟩ := skipWs_split t
      revert h
      generalize hsk : skipWs t = s at hw
      intro h
      cases s with
      | nil => cases h
      | cons c s =>
        simp only at h
        split at h
        · next hc =>
          subst hc
          cases h
          exact ⟨w ++ [125], _, by rw [hw]; simp, .emptyObj hws⟩
        split at h
        · next hc =>
          subst hc
          obtain ⟨b, es, rfl, hm⟩ := ih.key h
          exact ⟨w ++ 34 :: b ++ [125], _, by rw [hw]; simp, .obj (hm w hws)⟩
        · cases h
    · rw [validKey] at h
      split at h
      · cases h
      next t1 e1 =>
      split at h
      · cases h
      next t2 e2 =>
      split at h
      · cases h
      next t3 e3 =>
      obtain ⟨s, k, rfl, hk⟩ := validString_complete e1
      obtain ⟨w2, t', j, rfl, hw2, hv, hm⟩ := ih.any e3
      obtain ⟨w1, e1', hw1⟩ : ∃ w1, t1 = w1 ++ 58 :: (w2 ++ (t' ++ t3)) ∧ Ws w1 := by
        unfold validColon at e2
        obtain ⟨w1, hw, hws⟩ := skipWs_split t1
        revert e2
        generalize skipWs t1 = s at hw
        intro e2
        cases s with
        | nil => cases e2
        | cons c s =>
          simp only at e2
          split at e2
          · next hc => cases e2; subst hc; exact ⟨w1, hw, hws⟩
          · cases e2
      obtain ⟨w3, hw3, hws3⟩ := skipWs_split t3
      revert h
      generalize skipWs t3 = s3 at hw3
      intro h
      cases s3 with
      | nil => cases h
      | cons c s3 =>
        simp only at h
        split at h
        · next hc =>
          subst hc
          cases h
          refine ⟨s ++ 34 :: (w1 ++ 58 :: (w2 ++ (t' ++ w3))), _, ?_, fun w hw => .last hw hk hw1 hw2 hv hws3⟩
          rw [e1', hw3]; simp
        split at h
        · next hc =>
          subst hc
          obtain ⟨w4, hw4, hws4⟩ := skipWs_split s3
          revert h
          generalize skipWs s3 = s4 at hw4
          intro h
          cases s4 with
          | nil => cases h
          | cons q s4 =>
            simp only at h
            split at h
            · next hq =>
              subst hq
              obtain ⟨b, es, rfl, hb⟩ := ih.key h
              refine ⟨s ++ 34 :: (w1 ++ 58 :: (w2 ++ (t' ++ (w3 ++ 44 :: (w4 ++ 34 :: b))))), _, ?_, fun w hw => .cons hw hk hw1 hw2 hv hws3 (hb w4 hws4)⟩
              rw [e1', hw3, hw4]; simp
            · cases h
        · cases h
    · rw [validArray] at h
      obtain ⟨w, hw, hws⟩ := skipWs_split t
      revert h
      generalize hsk : skipWs t = s at hw
      intro h
      cases s with
      | nil => cases h
      | cons c s =>
        simp only at h
        split at h
        · next hc =>
          subst hc
          cases h
          exact ⟨w ++ [93], _, by rw [hw]; simp, .emptyArr hws⟩
        · obtain ⟨ts, vs, e, hi⟩ := ih.items h
          exact ⟨w ++ ts ++ [93], _, by rw [hw, e]; simp, .arr (items_ws hws hi)⟩
    · rw [validItems] at h
      split at h
      · cases h
      next t3 e3 =>
      obtain ⟨w, t', j, rfl, hw, hv, hm⟩ := ih.any e3
      obtain ⟨w3, hw3, hws3⟩ := skipWs_split t3
      revert h
      generalize skipWs t3 = s3 at hw3
      intro h
      cases s3 with
      | nil => cases h
      | cons c s3 =>
        simp only at h
        split at h
        · next hc =>
          subst hc
          cases h
          exact ⟨w ++ (t' ++ w3), _, by rw [hw3]; simp, .last hw hv hws3⟩
        split at h
        · next hc =>
          subst hc
          obtain ⟨ts, vs, rfl, hi⟩ := ih.items h
          exact ⟨w ++ (t' ++ (w3 ++ 44 :: ts)), _, by rw [hw3]; simp, .cons hw hv hws3 hi⟩
        · cases h

/-! ### the whole text -/

theorem skipWs_nil {w : Bytes} (hw : Ws w) : skipWs w = [] := by
  have := skipWs_ws hw []
  rwa [List.append_nil] at this

theorem validate_text {lax : Bool} {t : Bytes} {j : J} (h : Text lax t j) (hl : t.getLast? ≠ some 45) : validateJSON t = true := by
  obtain ⟨w, t', w', rfl, hw, hv, hw'⟩ := h
  unfold validateJSON
  rw [val_valid hv hw (rest := w') (by rw [← List.append_nil w']; exact .ws hw' .nil)
    (by rintro rfl rfl; exact hl (by simp)) (by simp only [List.length_append]; omega)]
  simp [skipWs_nil hw']

theorem ws_getLast {w : Bytes} (hw : Ws w) : w.getLast? ≠ some 45 := by
  intro h
  have := hw 45 (List.mem_of_getLast? h)
  revert this
  decide

theorem getLast?_append_ne {p d : Bytes} (h : d ≠ []) : (p ++ d).getLast? = d.getLast? := by
  rw [List.getLast?_append]
  cases hd : d.getLast? with
  | none => exact absurd (List.getLast?_eq_none_iff.mp hd) h
  | some x => rfl

theorem val_getLast {lax : Bool} {t : Bytes} {j : J} (h : Val lax t j) (hl : t.getLast? = some 45) : t = [45] := by
  have D : ∀ {ds : Bytes} {p : Bytes}, Digits ds → (p ++ ds).getLast? ≠ some 45 := by
    intro ds p hd h
    rw [getLast?_append_ne hd.1] at h
    exact digit_ne_minus (hd.2 45 (List.mem_of_getLast? h)) rfl
  have FE : ∀ {f e p : Bytes}, Frac f → Exp e → (p ++ (f ++ e)).getLast? = some 45 → f = [] ∧ e = [] := by
    intro f e p hf he h
    cases he with
    | none =>
      cases hf with
      | none => exact ⟨rfl, rfl⟩
      | @some ds hd => exact absurd h (by rw [List.append_nil, show p ++ 46 :: ds = (p ++ [46]) ++ ds by simp]; exact D hd)
    | @some x sg ds _ _ hd => exact absurd h (by rw [show p ++ (f ++ x :: (sg ++ ds)) = (p ++ (f ++ x :: sg)) ++ ds by simp]; exact D hd)
  have I : ∀ {i : Bytes}, IntPart i → Digits i := by
    intro i hi
    obtain ⟨d, ds, rfl, h1, h2⟩ := intPart_cons hi
    refine ⟨by simp, fun c hc => ?_⟩
    rcases List.mem_cons.mp hc with rfl | hc
    · exact h1
    · exact h2 c hc
  cases h with
  | num h =>
    cases h with
    | pos hi hf he =>
      obtain ⟨rfl, rfl⟩ := FE hf he hl
      exact absurd hl (by simpa using D (p := []) (I hi))
    | @neg i f e hi hf he =>
      obtain ⟨rfl, rfl⟩ := FE (p := 45 :: i) hf he (by simpa using hl)
      exact absurd hl (by simpa using D (p := [45]) (I hi))
    | @bare f e _ hf he =>
      obtain ⟨rfl, rfl⟩ := FE (p := [45]) hf he (by simpa using hl)
      rfl
  | null => simp at hl
  | tru => simp at hl
  | fals => simp at hl
  | str => rw [← List.cons_append, List.getLast?_concat] at hl; cases hl
  | emptyArr => rw [← List.cons_append, List.getLast?_concat] at hl; cases hl
  | arr => rw [← List.cons_append, List.getLast?_concat] at hl; cases hl
  | emptyObj => rw [← List.cons_append, List.getLast?_concat] at hl; cases hl
  | obj => rw [← List.cons_append, List.getLast?_concat] at hl; cases hl

theorem validate_complete {t : Bytes} (h : validateJSON t = true) : (∃ j, Text true t j) ∧ t.getLast? ≠ some 45 := by
  unfold validateJSON at h
  split at h
  · cases h
  next r e =>
  obtain ⟨w, t', j, rfl, hw, hv, hm⟩ := (complete _).any e
  obtain ⟨w', h1, h2⟩ := skipWs_split r
  simp only [decide_eq_true_eq] at h
  rw [h, List.append_nil] at h1
  subst h1
  refine ⟨⟨j, w, t', r, rfl, hw, hv, h2⟩, ?_⟩
  intro hl
  obtain ⟨c, x, hx, _⟩ := val_head hv
  rw [getLast?_append_ne (by rw [hx]; simp)] at hl
  cases r with
  | nil =>
    rw [List.append_nil] at hl
    exact hm (val_getLast hv hl) rfl
  | cons a r =>
    rw [getLast?_append_ne (by simp)] at hl
    exact ws_getLast h2 hl

end Birch.Proofs.Gjson
