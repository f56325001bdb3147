import Verif.Proofs.GjsonScan

/-
White space, numbers and balanced texts (helper lemmas).
-/

namespace Birch.Proofs.Gjson
open Birch Model.Json Model.Gjson Spec.JsonText

/-- white space or a character that ends a number or literal -/
def Stop (c : UInt8) : Prop := c = 32 ∨ c = 9 ∨ c = 10 ∨ c = 13 ∨ c = 44 ∨ c = 93 ∨ c = 125

def Delim (r : Bytes) : Prop := ∀ c r', r = c :: r' → Stop c

theorem Delim.nil : Delim [] := fun _ _ h => by cases h
theorem Delim.cons {c : UInt8} {r : Bytes} (h : Stop c) : Delim (c :: r) := fun _ _ e => by cases e; exact h

theorem Delim.ws {w r : Bytes} (hw : Ws w) (hr : Delim r) : Delim (w ++ r) := by
  cases w with
  | nil => exact hr
  | cons c w =>
    apply Delim.cons
    have := hw c (List.mem_cons_self ..)
    unfold Stop
    rcases this with h | h | h | h <;> simp [h]

theorem ws_cons {c : UInt8} {w : Bytes} (h : Ws (c :: w)) : (c = 32 ∨ c = 9 ∨ c = 10 ∨ c = 13) ∧ Ws w :=
  ⟨h c (List.mem_cons_self ..), fun x hx => h x (List.mem_cons_of_mem _ hx)⟩

theorem ws_le {c : UInt8} (h : c = 32 ∨ c = 9 ∨ c = 10 ∨ c = 13) : c ≤ 32 := by
  rcases h with rfl | rfl | rfl | rfl <;> decide

theorem skipWs_ws {w : Bytes} (hw : Ws w) (r : Bytes) : skipWs (w ++ r) = skipWs r := by
  induction w with
  | nil => rfl
  | cons c w ih =>
    obtain ⟨h, h'⟩ := ws_cons hw
    simp only [List.cons_append, skipWs, h, if_true]
    exact ih h'

theorem skipWs_cons {c : UInt8} (h : 32 < c) (r : Bytes) : skipWs (c :: r) = c :: r := by
  rw [skipWs, if_neg]
  intro h'
  have := ws_le h'
  simp only [UInt8.le_iff_toNat_le, UInt8.lt_iff_toNat_lt] at *
  omega

theorem skipWs_split (t : Bytes) : ∃ w, t = w ++ skipWs t ∧ Ws w := by
  induction t with
  | nil => exact ⟨[], rfl, fun _ h => by cases h⟩
  | cons c r ih =>
    rw [skipWs]
    split
    · next h =>
      obtain ⟨w, hw, h'⟩ := ih
      refine ⟨c :: w, by rw [List.cons_append, ← hw], ?_⟩
      intro x hx
      rcases List.mem_cons.mp hx with rfl | hx
      · exact h
      · exact h' x hx
    · exact ⟨[], rfl, fun _ h => by cases h⟩

theorem ws_nil : Ws [] := fun _ h => by cases h

/-! ### digits -/

theorem isDigit_iff (c : UInt8) : isDigit c = true ↔ Digit c := by simp [isDigit, Digit]

theorem digit_nat {c : UInt8} : Digit c ↔ 48 ≤ c.toNat ∧ c.toNat ≤ 57 := by
  simp [Digit, UInt8.le_iff_toNat_le]

theorem stop_not_digit {c : UInt8} (h : Stop c) : ¬ Digit c := by
  rw [digit_nat]
  rcases h with rfl | rfl | rfl | rfl | rfl | rfl | rfl <;> decide

/-- not followed by a digit -/
def NoDigit (r : Bytes) : Prop := ∀ c r', r = c :: r' → ¬ Digit c

theorem skipDigits_of {r : Bytes} (h : NoDigit r) : skipDigits r = r := by
  cases r with
  | nil => rfl
  | cons c r =>
    have := h c r rfl
    rw [← isDigit_iff] at this
    simp [skipDigits, this]

theorem skipDigits_append {ds : Bytes} (hd : ∀ c ∈ ds, Digit c) {r : Bytes} (h : NoDigit r) : skipDigits (ds ++ r) = r := by
  induction ds with
  | nil => exact skipDigits_of h
  | cons c ds ih =>
    have := hd c (List.mem_cons_self ..)
    rw [← isDigit_iff] at this
    simp only [List.cons_append, skipDigits, this, if_true]
    exact ih (fun x hx => hd x (List.mem_cons_of_mem _ hx))

theorem skipDigits_split (t : Bytes) : ∃ ds, t = ds ++ skipDigits t ∧ (∀ c ∈ ds, Digit c) ∧ NoDigit (skipDigits t) := by
  induction t with
  | nil => exact ⟨[], rfl, ⟨fun _ h => (by cases h), fun _ _ h => (by cases h)⟩⟩
  | cons c r ih =>
    rw [skipDigits]
    split
    · next h =>
      obtain ⟨ds, h1, h2, h3⟩ := ih
      refine ⟨c :: ds, by rw [List.cons_append, ← h1], ?_, h3⟩
      intro x hx
      rcases List.mem_cons.mp hx with rfl | hx
      · exact (isDigit_iff _).mp h
      · exact h2 x hx
    · next h =>
      refine ⟨[], rfl, fun _ h => (by cases h), ?_⟩
      intro x r' e
      cases e
      rw [isDigit_iff] at h
      exact h

/-! ### numbers: validation -/

theorem validExp_exp {e : Bytes} (he : Exp e) {r : Bytes} (hr : Delim r) : validExp (e ++ r) = some r := by
  have nd : NoDigit r := fun c r' h => stop_not_digit (hr c r' h)
  cases he with
  | none =>
    cases r with
    | nil => rfl
    | cons c r =>
      have := hr c r rfl
      have : ¬ (c = 101 ∨ c = 69) := by
        rcases this with rfl | rfl | rfl | rfl | rfl | rfl | rfl <;> decide
      simp [validExp, this]
  | @some e s ds h1 h2 h3 =>
    obtain ⟨hne, hd⟩ := h3
    cases ds with
    | nil => exact absurd rfl hne
    | cons d ds =>
      have hd' := hd d (List.mem_cons_self ..)
      have hds : ∀ c ∈ ds, Digit c := fun x hx => hd x (List.mem_cons_of_mem _ hx)
      have hs : isDigit d = true := (isDigit_iff _).mpr hd'
      have hn : ¬ (d = 43 ∨ d = 45) := by
        rw [digit_nat] at hd'
        rintro (rfl | rfl) <;> revert hd' <;> decide
      rcases h2 with rfl | rfl | rfl
      · simp [validExp, h1, hn, hs, skipDigits_append hds nd]
      · simp [validExp, h1, hs, skipDigits_append hds nd]
      · simp [validExp, h1, hs, skipDigits_append hds nd]

theorem exp_noDigit {e : Bytes} (he : Exp e) {r : Bytes} (hr : Delim r) : NoDigit (e ++ r) := by
  cases he with
  | none => exact fun c r' h => stop_not_digit (hr c r' h)
  | some h1 _ _ =>
    intro c r' h
    cases h
    rw [digit_nat]
    rcases h1 with rfl | rfl <;> decide

theorem validFrac_frac {f e : Bytes} (hf : Frac f) (he : Exp e) {r : Bytes} (hr : Delim r) : validFrac (f ++ (e ++ r)) = some r := by
  cases hf with
  | none =>
    have := validExp_exp he hr
    rw [List.nil_append]
    cases h : e ++ r with
    | nil => rw [h] at this; exact this
    | cons c t =>
      rw [h] at this
      have hc : c ≠ 46 := by
        cases he with
        | none =>
          have := hr c t h
          rcases this with rfl | rfl | rfl | rfl | rfl | rfl | rfl <;> decide
        | some h1 _ _ =>
          cases h
          rcases h1 with rfl | rfl <;> decide
      rw [validFrac.eq_def]; simp only [hc, if_false]
      exact this
  | @some ds h3 =>
    obtain ⟨hne, hd⟩ := h3
    cases ds with
    | nil => exact absurd rfl hne
    | cons d ds =>
      have hs : isDigit d = true := (isDigit_iff _).mpr (hd d (List.mem_cons_self ..))
      have hds : ∀ c ∈ ds, Digit c := fun x hx => hd x (List.mem_cons_of_mem _ hx)
      simp only [List.cons_append, validFrac, hs, if_true]
      rw [skipDigits_append hds (exp_noDigit he hr)]
      exact validExp_exp he hr

theorem frac_noDigit {f e : Bytes} (hf : Frac f) (he : Exp e) {r : Bytes} (hr : Delim r) : NoDigit (f ++ (e ++ r)) := by
  cases hf with
  | none => exact exp_noDigit he hr
  | some _ =>
    intro c r' h
    cases h
    rw [digit_nat]
    decide

/-- the part of `validnumber` after the sign -/
def afterSign (t : Bytes) : Option Bytes :=
  match t with
  | [] => none
  | c :: r => if c = 48 then validFrac r else validFrac (skipDigits (c :: r))

theorem validNumber_eq (c : UInt8) (r : Bytes) : validNumber (c :: r) = if c = 45 then afterSign r else afterSign (c :: r) := by
  unfold validNumber afterSign
  by_cases h : c = 45
  · simp only [h, if_true]
    cases r <;> rfl
  · simp only [h, if_false]

theorem afterSign_int {i f e : Bytes} (hi : IntPart i) (hf : Frac f) (he : Exp e) {r : Bytes} (hr : Delim r) :
    afterSign (i ++ (f ++ (e ++ r))) = some r := by
  cases hi with
  | zero => exact validFrac_frac hf he hr
  | @digits ds h hz =>
    obtain ⟨hne, hd⟩ := h
    cases i with
    | nil => exact absurd rfl hne
    | cons d ds =>
      have : d ≠ 48 := fun h => hz (by rw [h]; rfl)
      simp only [List.cons_append, afterSign, this, if_false]
      rw [← List.cons_append, skipDigits_append hd (frac_noDigit hf he hr)]
      exact validFrac_frac hf he hr

theorem intPart_cons {i : Bytes} (hi : IntPart i) : ∃ d ds, i = d :: ds ∧ Digit d ∧ ∀ c ∈ ds, Digit c := by
  cases hi with
  | zero => exact ⟨48, [], rfl, by unfold Digit; decide, fun _ h => by cases h⟩
  | @digits ds h hz =>
    obtain ⟨hne, hd⟩ := h
    cases i with
    | nil => exact absurd rfl hne
    | cons d ds => exact ⟨d, ds, rfl, hd d (List.mem_cons_self ..), fun x hx => hd x (List.mem_cons_of_mem _ hx)⟩

theorem digit_ne_minus {d : UInt8} (h : Digit d) : d ≠ 45 := by
  rw [digit_nat] at h
  rintro rfl
  revert h
  decide

theorem validNumber_number {lax : Bool} {t : Bytes} (h : Number lax t) {r : Bytes} (hr : Delim r) (hb : lax = true → t ≠ [45] ∨ r ≠ []) :
    validNumber (t ++ r) = some r := by
  cases h with
  | @pos i f e hi hf he =>
    obtain ⟨d, ds, rfl, hd, _⟩ := intPart_cons hi
    have := afterSign_int hi hf he hr
    simp only [List.cons_append, List.append_assoc] at this ⊢
    rw [validNumber_eq, if_neg (digit_ne_minus hd)]
    exact this
  | @neg i f e hi hf he =>
    have := afterSign_int hi hf he hr
    simp only [List.cons_append, List.append_assoc] at this ⊢
    rw [validNumber_eq, if_pos rfl]
    exact this
  | @bare f e hl hf he =>
    simp only [List.cons_append, List.append_assoc]
    rw [validNumber_eq, if_pos rfl]
    have nd := frac_noDigit hf he hr
    have hv := validFrac_frac hf he hr
    cases h : f ++ (e ++ r) with
    | nil =>
      simp only [List.append_eq_nil_iff] at h
      obtain ⟨rfl, rfl, rfl⟩ := h
      rcases hb hl with h | h
      · exact absurd rfl h
      · exact absurd rfl h
    | cons c t =>
      rw [h] at nd hv
      have hc : c ≠ 48 := by
        rintro rfl
        exact nd 48 t rfl (by unfold Digit; decide)
      rw [afterSign, if_neg hc, skipDigits_of nd]
      exact hv

theorem validExp_complete {t r : Bytes} (h : validExp t = some r) : ∃ e, t = e ++ r ∧ Exp e := by
  cases t with
  | nil => cases h; exact ⟨[], rfl, .none⟩
  | cons c t =>
    rw [validExp.eq_def] at h
    simp only at h
    split at h
    · next hc =>
      cases t with
      | nil => cases h
      | cons s t =>
        simp only at h
        have key : ∀ (sg : Bytes) (u : Bytes), (s :: t = sg ++ u) → (sg = [] ∨ sg = [43] ∨ sg = [45]) →
            (match u with | [] => none | d :: r => if isDigit d then some (skipDigits r) else none) = some r →
            ∃ e, c :: s :: t = e ++ r ∧ Exp e := by
          intro sg u hu hsg hm
          cases u with
          | nil => cases hm
          | cons d u =>
            simp only at hm
            split at hm
            · next hd =>
              cases hm
              obtain ⟨ds, h1, h2, _⟩ := skipDigits_split u
              refine ⟨c :: (sg ++ d :: ds), ?_, .some hc hsg ⟨by simp, ?_⟩⟩
              · rw [hu]; simp only [List.cons_append, List.append_assoc]; rw [← h1]
              · intro x hx
                rcases List.mem_cons.mp hx with rfl | hx
                · exact (isDigit_iff _).mp hd
                · exact h2 x hx
            · cases hm
        by_cases hs : s = 43 ∨ s = 45
        · rw [if_pos hs] at h
          refine key [s] t rfl ?_ h
          rcases hs with rfl | rfl <;> simp
        · rw [if_neg hs] at h
          exact key [] (s :: t) rfl (.inl rfl) h
    · cases h
      exact ⟨[], rfl, .none⟩

theorem validFrac_complete {t r : Bytes} (h : validFrac t = some r) : ∃ f e, t = f ++ (e ++ r) ∧ Frac f ∧ Exp e := by
  cases t with
  | nil => cases h; exact ⟨[], [], rfl, .none, .none⟩
  | cons c t =>
    rw [validFrac.eq_def] at h
    simp only at h
    split at h
    · next hc =>
      subst hc
      cases t with
      | nil => cases h
      | cons d t =>
        simp only at h
        split at h
        · next hd =>
          obtain ⟨e, h1, h2⟩ := validExp_complete h
          obtain ⟨ds, h3, h4, _⟩ := skipDigits_split t
          refine ⟨46 :: d :: ds, e, ?_, .some ⟨by simp, ?_⟩, h2⟩
          · rw [← h1]; simp only [List.cons_append]; rw [← h3]
          · intro x hx
            rcases List.mem_cons.mp hx with rfl | hx
            · exact (isDigit_iff _).mp hd
            · exact h4 x hx
        · cases h
    · obtain ⟨e, h1, h2⟩ := validExp_complete h
      exact ⟨[], e, h1, .none, h2⟩

theorem afterSign_complete {t r : Bytes} (h : afterSign t = some r) :
    ∃ i f e, t = i ++ (f ++ (e ++ r)) ∧ (IntPart i ∨ i = [] ∧ NoDigit t ∧ t ≠ []) ∧ Frac f ∧ Exp e := by
  cases t with
  | nil => cases h
  | cons c t =>
    rw [afterSign] at h
    split at h
    · next hc =>
      subst hc
      obtain ⟨f, e, h1, h2, h3⟩ := validFrac_complete h
      exact ⟨[48], f, e, by rw [← h1]; rfl, .inl .zero, h2, h3⟩
    · next hc =>
      obtain ⟨f, e, h1, h2, h3⟩ := validFrac_complete h
      obtain ⟨ds, h4, h5, h6⟩ := skipDigits_split (c :: t)
      refine ⟨ds, f, e, by rw [← h1]; exact h4, ?_, h2, h3⟩
      cases ds with
      | nil => exact .inr ⟨rfl, by rw [List.nil_append] at h4; rw [h4]; exact h6, by simp⟩
      | cons d ds =>
        refine .inl (.digits ⟨by simp, h5⟩ ?_)
        simp only [List.cons_append, List.cons.injEq] at h4
        rw [← h4.1]
        simpa using hc

theorem validNumber_complete {c : UInt8} {t r : Bytes} (hc : c = 45 ∨ isDigit c) (h : validNumber (c :: t) = some r) :
    ∃ raw, c :: t = raw ++ r ∧ Number true raw ∧ (raw = [45] → r ≠ []) := by
  rw [validNumber_eq] at h
  split at h
  · next hm =>
    subst hm
    obtain ⟨i, f, e, h1, h2, h3, h4⟩ := afterSign_complete h
    rcases h2 with h2 | ⟨rfl, h2, hne⟩
    · refine ⟨45 :: (i ++ (f ++ e)), by rw [h1]; simp, .neg h2 h3 h4, ?_⟩
      intro h
      obtain ⟨d, ds, rfl, _⟩ := intPart_cons h2
      simp at h
    · refine ⟨45 :: (f ++ e), by rw [h1]; simp, .bare rfl h3 h4, ?_⟩
      intro h hr
      simp only [List.cons.injEq, true_and] at h
      rw [← List.append_assoc, ← List.append_assoc, List.nil_append, h, hr] at h1
      exact hne h1
  · next hm =>
    obtain ⟨i, f, e, h1, h2, h3, h4⟩ := afterSign_complete h
    rcases h2 with h2 | ⟨rfl, h2, hne⟩
    · refine ⟨i ++ (f ++ e), by rw [h1]; simp, .pos h2 h3 h4, ?_⟩
      intro h
      obtain ⟨d, ds, rfl, hd, _⟩ := intPart_cons h2
      simp only [List.cons_append, List.cons.injEq] at h
      exact absurd h.1 (digit_ne_minus hd)
    · exact absurd ((isDigit_iff _).mp (hc.resolve_left hm)) (h2 c t rfl)

/-! ### numbers: reading -/

/-- the characters of numbers -/
def NumCh (c : UInt8) : Prop := Digit c ∨ c = 46 ∨ c = 101 ∨ c = 69 ∨ c = 43 ∨ c = 45

theorem number_chars {lax : Bool} {t : Bytes} (h : Number lax t) : ∀ c ∈ t, NumCh c := by
  have D : ∀ {ds : Bytes}, (∀ c ∈ ds, Digit c) → ∀ c ∈ ds, NumCh c := fun h c hc => .inl (h c hc)
  have I : ∀ {i : Bytes}, IntPart i → ∀ c ∈ i, NumCh c := by
    intro i hi
    obtain ⟨d, ds, rfl, h1, h2⟩ := intPart_cons hi
    intro c hc
    rcases List.mem_cons.mp hc with rfl | hc
    · exact .inl h1
    · exact .inl (h2 c hc)
  have F : ∀ {f : Bytes}, Frac f → ∀ c ∈ f, NumCh c := by
    intro f hf
    cases hf with
    | none => intro c hc; cases hc
    | some h =>
      intro c hc
      rcases List.mem_cons.mp hc with rfl | hc
      · simp [NumCh]
      · exact .inl (h.2 c hc)
  have E : ∀ {e : Bytes}, Exp e → ∀ c ∈ e, NumCh c := by
    intro e he
    cases he with
    | none => intro c hc; cases hc
    | some h1 h2 h =>
      intro c hc
      rcases List.mem_cons.mp hc with rfl | hc
      · rcases h1 with rfl | rfl <;> simp [NumCh]
      · rcases List.mem_append.mp hc with hc | hc
        · rcases h2 with rfl | rfl | rfl
          · cases hc
          · simp only [List.mem_singleton] at hc; subst hc; simp [NumCh]
          · simp only [List.mem_singleton] at hc; subst hc; simp [NumCh]
        · exact .inl (h.2 c hc)
  have M : NumCh 45 := by simp [NumCh]
  intro c hc
  cases h with
  | pos hi hf he =>
    rcases List.mem_append.mp hc with hc | hc
    · exact I hi c hc
    · rcases List.mem_append.mp hc with hc | hc
      · exact F hf c hc
      · exact E he c hc
  | neg hi hf he =>
    rcases List.mem_cons.mp hc with rfl | hc
    · exact M
    rcases List.mem_append.mp hc with hc | hc
    · exact I hi c hc
    · rcases List.mem_append.mp hc with hc | hc
      · exact F hf c hc
      · exact E he c hc
  | bare _ hf he =>
    rcases List.mem_cons.mp hc with rfl | hc
    · exact M
    · rcases List.mem_append.mp hc with hc | hc
      · exact F hf c hc
      · exact E he c hc

theorem number_head {lax : Bool} {t : Bytes} (h : Number lax t) : ∃ c r, t = c :: r ∧ (c = 45 ∨ Digit c) := by
  cases h with
  | pos hi hf he =>
    obtain ⟨d, ds, rfl, h1, h2⟩ := intPart_cons hi
    exact ⟨d, _, rfl, .inr h1⟩
  | neg hi hf he => exact ⟨45, _, rfl, .inl rfl⟩
  | bare _ hf he => exact ⟨45, _, rfl, .inl rfl⟩

theorem upTo_append {p : UInt8 → Bool} {t r : Bytes} (ht : ∀ c ∈ t, p c = false) (hr : ∀ c r', r = c :: r' → p c = true) : upTo p (t ++ r) = (t, r) := by
  induction t with
  | nil =>
    cases r with
    | nil => rfl
    | cons c r => simp [upTo, hr c r rfl]
  | cons c t ih =>
    have := ih (fun x hx => ht x (List.mem_cons_of_mem _ hx))
    simp [upTo, ht c (List.mem_cons_self ..), this]

theorem numCh_nat {c : UInt8} (h : NumCh c) : 48 ≤ c.toNat ∧ c.toNat ≤ 57 ∨ c.toNat = 46 ∨ c.toNat = 101 ∨ c.toNat = 69 ∨ c.toNat = 43 ∨ c.toNat = 45 := by
  rcases h with h | rfl | rfl | rfl | rfl | rfl
  · exact .inl (digit_nat.mp h)
  all_goals simp

theorem parseNumber_append {t r : Bytes} (ht : ∀ c ∈ t, NumCh c) (hr : Delim r) : parseNumber (t ++ r) = (t, r) := by
  apply upTo_append
  · intro c hc
    have := numCh_nat (ht c hc)
    simp only [decide_eq_false_iff_not, UInt8.le_iff_toNat_le, ← UInt8.toNat_inj]
    simp
    omega
  · intro c r' e
    rcases hr c r' e with rfl | rfl | rfl | rfl | rfl | rfl | rfl <;> decide

theorem tonum_append {t r : Bytes} (ht : ∀ c ∈ t, NumCh c) (hr : Delim r) : tonum (t ++ r) = (t, r) := by
  apply upTo_append
  · intro c hc
    have := numCh_nat (ht c hc)
    have h1 : ¬ (c ≤ 32 ∨ c = 44) := by
      simp only [UInt8.le_iff_toNat_le, ← UInt8.toNat_inj]
      simp
      omega
    have h2 : ¬ c < 93 → c = 101 ∨ c = 69 := by
      simp only [UInt8.lt_iff_toNat_lt, ← UInt8.toNat_inj]
      simp
      omega
    by_cases h3 : c < 93
    · simp [h1, h3]
    · simp [h1, h3, h2 h3]
  · intro c r' e
    rcases hr c r' e with rfl | rfl | rfl | rfl | rfl | rfl | rfl <;> decide

theorem parseLiteral_append {t r : Bytes} (ht : ∀ c ∈ t, 97 ≤ c ∧ c ≤ 122) (hr : Delim r) : parseLiteral (t ++ r) = (t, r) := by
  apply upTo_append
  · intro c hc
    have := ht c hc
    simp only [decide_eq_false_iff_not, UInt8.le_iff_toNat_le, UInt8.lt_iff_toNat_lt, GT.gt] at *
    simp at *
    omega
  · intro c r' e
    rcases hr c r' e with rfl | rfl | rfl | rfl | rfl | rfl | rfl <;> decide

/-! ### brackets -/

/-- `squash` passes over the text and comes back to the same depth -/
def Bal (t : Bytes) : Prop := ∀ d r, 1 ≤ d → squash d none (t ++ r) = (t ++ (squash d none r).1, (squash d none r).2)

theorem Bal.nil : Bal [] := fun _ _ _ => rfl

theorem Bal.append {s t : Bytes} (hs : Bal s) (ht : Bal t) : Bal (s ++ t) := by
  intro d r hd
  rw [List.append_assoc, hs d _ hd, ht d _ hd]
  simp

/-- a character that is no quotation mark and no bracket -/
def Flat (c : UInt8) : Prop := c ≠ 34 ∧ c ≠ 123 ∧ c ≠ 91 ∧ c ≠ 40 ∧ c ≠ 125 ∧ c ≠ 93 ∧ c ≠ 41

theorem Bal.flat {t : Bytes} (h : ∀ c ∈ t, Flat c) : Bal t := by
  induction t with
  | nil => exact .nil
  | cons c t ih =>
    intro d r hd
    obtain ⟨h1, h2, h3, h4, h5, h6, h7⟩ := h c (List.mem_cons_self ..)
    have := ih (fun x hx => h x (List.mem_cons_of_mem _ hx)) d r hd
    simp only [List.cons_append, squash, h1, h2, h3, h4, h5, h6, h7, or_self, if_false, this]

theorem Bal.quoted {s : Bytes} (h : Esc s) : Bal (34 :: (s ++ [34])) := by
  intro d r hd
  have := squash_str h d r [] rfl
  simp only [List.cons_append, List.append_assoc, List.nil_append, squash, if_true, this]

theorem Bal.brackets {t : Bytes} (h : Bal t) {o c : UInt8} (ho : o = 123 ∧ c = 125 ∨ o = 91 ∧ c = 93) : Bal (o :: (t ++ [c])) := by
  intro d r hd
  have h1 := h (d + 1) (c :: r) (by omega)
  have h2 : squash (d + 1) none (c :: r) = (c :: (squash d none r).1, (squash d none r).2) := by
    have : ¬ d = 0 := by omega
    rcases ho with ⟨rfl, rfl⟩ | ⟨rfl, rfl⟩ <;> simp [squash, this]
  rw [h2] at h1
  rcases ho with ⟨rfl, rfl⟩ | ⟨rfl, rfl⟩ <;> simp [squash, h1]

theorem squash_close {t : Bytes} (h : Bal t) {c : UInt8} (hc : c = 125 ∨ c = 93) (r : Bytes) : squash 1 none (t ++ c :: r) = (t ++ [c], r) := by
  rw [h 1 _ (by omega)]
  rcases hc with rfl | rfl <;> simp [squash]

theorem flat_ws {w : Bytes} (hw : Ws w) : ∀ c ∈ w, Flat c := by
  intro c hc
  rcases hw c hc with rfl | rfl | rfl | rfl <;> simp [Flat]

theorem flat_num {t : Bytes} (ht : ∀ c ∈ t, NumCh c) : ∀ c ∈ t, Flat c := by
  intro c hc
  have := numCh_nat (ht c hc)
  simp only [Flat, ne_eq, ← UInt8.toNat_inj]
  simp
  omega

mutual
theorem val_bal {lax : Bool} {t : Bytes} {j : J} : Val lax t j → Bal t
  | .null => .flat (by simp [Flat])
  | .tru => .flat (by simp [Flat])
  | .fals => .flat (by simp [Flat])
  | .num h => .flat (flat_num (number_chars h))
  | .str h => .quoted (chars_esc h)
  | .emptyArr h => Bal.brackets (.flat (flat_ws h)) (.inr ⟨rfl, rfl⟩)
  | .arr h => Bal.brackets (items_bal h) (.inr ⟨rfl, rfl⟩)
  | .emptyObj h => Bal.brackets (.flat (flat_ws h)) (.inl ⟨rfl, rfl⟩)
  | .obj h => Bal.brackets (members_bal h) (.inl ⟨rfl, rfl⟩)
theorem items_bal {lax : Bool} {t : Bytes} {vs : Js} : Items lax t vs → Bal t
  | .last h1 h2 h3 => .append (.flat (flat_ws h1)) (.append (val_bal h2) (.flat (flat_ws h3)))
  | .cons h1 h2 h3 h4 => .append (.flat (flat_ws h1)) (.append (val_bal h2) (.append (.flat (flat_ws h3))
      (.append (s := [44]) (.flat (by simp [Flat])) (items_bal h4))))
theorem members_bal {lax : Bool} {t : Bytes} {es : Jes} : Members lax t es → Bal t
  | .last (s := s) h1 h2 h3 h4 h5 h6 => .append (.flat (flat_ws h1)) (by
      have h := Bal.append (.quoted (chars_esc h2)) (.append (.flat (flat_ws h3)) (.append (s := [58]) (.flat (by simp [Flat]))
        (.append (.flat (flat_ws h4)) (.append (val_bal h5) (.flat (flat_ws h6))))))
      simpa using h)
  | .cons (s := s) h1 h2 h3 h4 h5 h6 h7 => .append (.flat (flat_ws h1)) (by
      have h := Bal.append (.quoted (chars_esc h2)) (.append (.flat (flat_ws h3)) (.append (s := [58]) (.flat (by simp [Flat]))
        (.append (.flat (flat_ws h4)) (.append (val_bal h5) (.append (.flat (flat_ws h6))
          (.append (s := [44]) (.flat (by simp [Flat])) (members_bal h7)))))))
      simpa using h)
end

end Birch.Proofs.Gjson
