import Verif.Spec.JsonValue
import Verif.Proofs.DecimalParse
import Verif.Proofs.Reader

/-
JSON text: reading back what is written.
-/

namespace Birch.Proofs.Json
open Birch Spec Spec.Json Model.Json Proofs.Decimal

theorem forall_byte {P : UInt8 → Prop} (h : ∀ n < 256, P (UInt8.ofNat n)) (b : UInt8) : P b := by
  have := h b.toNat b.toNat_lt
  rwa [UInt8.ofNat_toNat] at this

/-! ### strings -/

/-- what is written for one byte -/
def esc1 (b : UInt8) : Bytes := if 128 ≤ b ∨ safe b then [b] else escaped b

def esc : Bytes → Bytes
  | [] => []
  | b :: r => esc1 b ++ esc r

theorem slow_eq : ∀ (rest out pend : Bytes), slow out pend rest = out ++ pend ++ esc rest ++ [34]
  | [], out, pend => by simp [slow, esc]
  | b :: rest, out, pend => by
    rw [slow, esc, esc1]
    by_cases h : b < 128
    · have hn : ¬ 128 ≤ b := by rw [UInt8.lt_iff_toNat_lt] at h; rw [UInt8.le_iff_toNat_le]; omega
      rw [if_pos h]
      by_cases hs : safe b = true
      · rw [if_pos hs, if_pos (.inr hs), slow_eq]; simp
      · rw [if_neg hs, if_neg (show ¬ (128 ≤ b ∨ safe b = true) from fun h' => h'.elim hn hs), slow_eq]
        by_cases hp : pend = [] <;> simp [hp]
    · have hn : 128 ≤ b := by rw [UInt8.lt_iff_toNat_lt] at h; rw [UInt8.le_iff_toNat_le]; omega
      rw [if_neg h, if_pos (.inl hn), slow_eq]; simp

theorem fast_eq : ∀ (rest out : Bytes), fast out rest = out ++ esc rest ++ [34]
  | [], out => by simp [fast, esc]
  | c :: rest, out => by
    rw [fast]
    by_cases h : c > 31 ∧ c ≠ 34 ∧ c ≠ 92
    · have hs : safe c = true := by
        unfold safe
        have h1 := UInt8.lt_iff_toNat_lt.mp h.1
        have : (32 : UInt8) ≤ c := by rw [UInt8.le_iff_toNat_le]; have : (31 : UInt8).toNat = 31 := rfl; have : (32 : UInt8).toNat = 32 := rfl; omega
        simp [this, h.2.1, h.2.2]
      rw [if_pos h, fast_eq, esc, esc1, if_pos (.inr hs)]; simp
    · rw [if_neg h, slow_eq]; simp

theorem write_eq (s : Bytes) : writeString s = [34] ++ esc s ++ [34] := fast_eq s [34]

/-- every byte below 32 is read back from its escape sequence -/
theorem escape_byte (b : UInt8) (h : ¬ (128 ≤ b ∨ safe b = true)) (r : Bytes) : ∃ u, escaped b = 92 :: u ∧ escape (u ++ r) = some ([b], r) := by
  have key : ∀ b : UInt8, (128 ≤ b ∨ safe b = true) ∨ (b = 92 ∨ b = 34) ∨ b = 10 ∨ b = 13 ∨ b = 9 ∨ (b < 32 ∧ b ≠ 10 ∧ b ≠ 13 ∧ b ≠ 9 ∧
      hexDigit (hexChar (b >>> 4)) = some (b.toNat / 16) ∧ hexDigit (hexChar (b &&& 15)) = some (b.toNat % 16)) := forall_byte (by decide +kernel)
  rcases key b with h1 | h1 | rfl | rfl | rfl | ⟨h1, h2, h3, h4, h5, h6⟩
  · exact absurd h1 h
  · refine ⟨[b], ?_, ?_⟩
    · unfold escaped; rw [if_pos h1]
    · rw [List.cons_append, List.nil_append, escape, if_pos (by rcases h1 with h | h <;> simp [h])]
  · exact ⟨[110], rfl, rfl⟩
  · exact ⟨[114], rfl, rfl⟩
  · exact ⟨[116], rfl, rfl⟩
  · have hlt := UInt8.lt_iff_toNat_lt.mp h1
    have e32 : (32 : UInt8).toNat = 32 := rfl
    have hne : ¬ (b = 92 ∨ b = 34) := by rintro (rfl | rfl) <;> simp at hlt
    refine ⟨[117, 48, 48, hexChar (b >>> 4), hexChar (b &&& 15)], ?_, ?_⟩
    · unfold escaped; rw [if_neg hne, if_neg h2, if_neg h3, if_neg h4]
    · have e0 : hexDigit 48 = some 0 := by decide
      have hh : hex4 (48 :: 48 :: hexChar (b >>> 4) :: hexChar (b &&& 15) :: r) = some (b.toNat, r) := by
        rw [hex4, e0, h5, h6]
        simp; omega
      show escape (117 :: 48 :: 48 :: hexChar (b >>> 4) :: hexChar (b &&& 15) :: r) = _
      rw [escape, if_neg (by decide), if_neg (by decide), if_neg (by decide), if_neg (by decide), if_neg (by decide), if_neg (by decide), if_pos rfl, hh]
      show (if 0xDC00 ≤ b.toNat ∧ b.toNat < 0xE000 then none else if 0xD800 ≤ b.toNat ∧ b.toNat < 0xDC00 then _ else some (utf8 b.toNat, r)) = _
      rw [if_neg (by omega), if_neg (by omega), utf8, if_pos (by omega)]
      simp

theorem plain_byte (b : UInt8) (h : 128 ≤ b ∨ safe b = true) : b ≠ 34 ∧ ¬ b < 32 ∧ b ≠ 92 := by
  have key : ∀ b : UInt8, (128 ≤ b ∨ safe b = true) → b ≠ 34 ∧ ¬ b < 32 ∧ b ≠ 92 := forall_byte (by decide +kernel)
  exact key b h

theorem chars_esc (rest : Bytes) : ∀ (s : Bytes) (fuel : Nat), s.length < fuel → chars fuel (esc s ++ 34 :: rest) = some (s, rest)
  | [], fuel + 1, _ => by simp [esc, chars]
  | b :: s, fuel + 1, h => by
    have ih := chars_esc rest s fuel (by simpa using h)
    rw [esc, esc1]
    by_cases hb : 128 ≤ b ∨ safe b = true
    · obtain ⟨h1, h2, h3⟩ := plain_byte b hb
      rw [if_pos hb]
      show chars (fuel + 1) (b :: (esc s ++ 34 :: rest)) = _
      rw [chars, if_neg h1, if_neg h2, if_neg h3, ih]; rfl
    · rw [if_neg hb]
      obtain ⟨u, hu1, hu2⟩ := escape_byte b hb (esc s ++ 34 :: rest)
      rw [hu1]
      show chars (fuel + 1) (92 :: (u ++ esc s) ++ 34 :: rest) = _
      rw [List.cons_append, List.append_assoc, chars, if_neg (by decide), if_neg (by decide), if_pos rfl, hu2]
      show (chars fuel (esc s ++ 34 :: rest)).bind _ = _
      rw [ih]; rfl

theorem esc_length : ∀ s : Bytes, s.length ≤ (esc s).length
  | [] => by simp [esc]
  | b :: s => by
    have ih := esc_length s
    have : 1 ≤ (esc1 b).length := by
      unfold esc1 escaped
      repeat' split
      all_goals simp
    rw [esc, List.length_append, List.length_cons]
    omega

theorem string_write (s rest : Bytes) : string (writeString s ++ rest) = some (s, rest) := by
  rw [write_eq]
  show string (34 :: (esc s ++ [34]) ++ rest) = _
  rw [List.cons_append, List.append_assoc]
  show chars (34 :: (esc s ++ ([34] ++ rest))).length (esc s ++ 34 :: rest) = _
  refine chars_esc rest s _ ?_
  have := esc_length s
  simp
  omega

theorem esc_plain : ∀ {k : Bytes}, PlainKey k → esc k = k
  | [], _ => rfl
  | c :: k, h => by
    obtain ⟨h1, h2, h3⟩ := h c (List.mem_cons_self ..)
    have ih := esc_plain (k := k) (fun x hx => h x (List.mem_cons_of_mem _ hx))
    have hs : safe c = true := by
      unfold safe
      have a1 : (32 : UInt8) ≤ c := UInt8.le_iff_toNat_le.mpr h1
      have a2 : c ≠ 34 := fun hc => h2 (by rw [hc]; rfl)
      have a3 : c ≠ 92 := fun hc => h3 (by rw [hc]; rfl)
      simp [a1, a2, a3]
    rw [esc, ih, esc1, if_pos (.inr hs)]
    rfl

/-! ### UTF-8 -/

theorem esc_ascii {c : UInt8} (h : c.toNat < 128) {r : Bytes} (hr : Utf8 r) : Utf8 (esc1 c ++ r) := by
  have key : ∀ c : UInt8, c.toNat < 128 → ∀ x ∈ esc1 c, x.toNat < 128 := forall_byte (by decide +kernel)
  have := key c h
  generalize esc1 c = u at this
  induction u with
  | nil => exact hr
  | cons x u ih =>
    exact .one (this x (List.mem_cons_self ..)) (ih (fun y hy => this y (List.mem_cons_of_mem _ hy)))

theorem esc_high {c : UInt8} (h : 128 ≤ c.toNat) : esc1 c = [c] := by
  unfold esc1
  rw [if_pos (.inl (UInt8.le_iff_toNat_le.mpr h))]

theorem esc_utf8 {s : Bytes} (h : Utf8 s) : Utf8 (esc s ++ [34]) := by
  induction h with
  | nil => exact .one (by decide) .nil
  | one hc _ ih => rw [esc, List.append_assoc]; exact esc_ascii hc ih
  | two h1 h2 h3 _ ih =>
    rw [esc, esc, esc_high (by omega), esc_high (by unfold cont at h3; omega)]
    exact .two h1 h2 h3 ih
  | three h1 h2 h3 h4 h5 h6 _ ih =>
    rw [esc, esc, esc, esc_high (by omega), esc_high (by unfold cont at h3; omega), esc_high (by unfold cont at h6; omega)]
    exact .three h1 h2 h3 h4 h5 h6 ih
  | four h1 h2 h3 h4 h5 h6 h7 _ ih =>
    rw [esc, esc, esc, esc, esc_high (by omega), esc_high (by unfold cont at h3; omega), esc_high (by unfold cont at h6; omega), esc_high (by unfold cont at h7; omega)]
    exact .four h1 h2 h3 h4 h5 h6 h7 ih

/-! ### numbers -/

/-- the text after a value -/
def Stop (r : Bytes) : Prop := r = [] ∨ ∃ c t, r = c :: t ∧ (c = 44 ∨ c = 125 ∨ c = 93)

theorem digit_iff {c : UInt8} : Spec.Json.isDigit c = true ↔ Spec.Decimal.Digit c := by
  unfold Spec.Json.isDigit Spec.Decimal.Digit
  simp [UInt8.le_iff_toNat_le]

theorem digits_append {r : Bytes} (hr : ∀ c t, r = c :: t → Spec.Json.isDigit c = false) :
    ∀ ds : Bytes, (∀ c ∈ ds, Spec.Decimal.Digit c) → Spec.Json.digits (ds ++ r) = (ds, r)
  | [], _ => by
    cases r with
    | nil => rfl
    | cons c t => rw [List.nil_append, Spec.Json.digits, hr c t rfl]; rfl
  | c :: ds, h => by
    rw [List.cons_append, Spec.Json.digits, if_pos (digit_iff.mpr (h c (List.mem_cons_self ..))), digits_append hr ds (fun x hx => h x (List.mem_cons_of_mem _ hx))]

theorem stop_digit {r : Bytes} (h : Stop r) : ∀ c t, r = c :: t → Spec.Json.isDigit c = false := by
  rintro c t rfl
  rcases h with h | ⟨c', t', h, hc⟩
  · cases h
  · cases h
    rcases hc with rfl | rfl | rfl <;> decide

theorem stop_fraction {r : Bytes} (h : Stop r) : Spec.Json.fraction r = some ([], r) := by
  rcases h with rfl | ⟨c', t', rfl, hc⟩
  · rfl
  · rcases hc with rfl | rfl | rfl <;> rfl

theorem stop_exponent {r : Bytes} (h : Stop r) : Spec.Json.exponent r = some (0, r) := by
  rcases h with rfl | ⟨c', t', rfl, hc⟩
  · rfl
  · rcases hc with rfl | rfl | rfl <;> rfl

theorem key_head (x : Nat) : ¬ (decimalKey x = [] ∨ ((decimalKey x).head? = some 48 ∧ decimalKey x ≠ [48])) := by
  rintro (h | ⟨h1, h2⟩)
  · exact key_ne x h
  · by_cases hx : x = 0
    · subst hx; exact h2 rfl
    · rw [decimalKey_low] at h1
      obtain ⟨k, hk⟩ : ∃ k, ndig x = k + 1 := ⟨ndig x - 1, by have := ndig_pos x; omega⟩
      rw [hk, low, List.head?_cons] at h1
      obtain ⟨g1, g2⟩ := lead (c := x) (k := k) hk.symm
      exact dig_ne (g2 hx) g1 (Option.some.inj h1)

theorem natValue_key (x : Nat) : Spec.Json.natValue (decimalKey x) = x := key_value x

theorem unsigned_int (x : Nat) {r : Bytes} (h : Stop r) : unsigned (decimalKey x ++ r) = some (x, 0, r) := by
  unfold unsigned
  rw [digits_append (stop_digit h) _ (key_digit x)]
  dsimp only
  rw [if_neg (key_head x), stop_fraction h]
  show (Spec.Json.exponent r).bind _ = _
  rw [stop_exponent h]
  simp [natValue_key]

theorem lowDigits_eq : ∀ n x, lowDigits n x = low n x
  | 0, _ => rfl
  | n + 1, x => by rw [lowDigits, lowDigits_eq n, low_append]; rfl

theorem unsigned_float (s : Nat) {r : Bytes} (h : Stop r) :
    unsigned (decimalKey (s / 1000000) ++ (46 :: (low 6 s ++ r))) = some (s, -6, r) := by
  unfold unsigned
  rw [digits_append (by rintro c t h; cases h; decide) _ (key_digit _)]
  dsimp only
  have hf : Spec.Json.fraction (46 :: (low 6 s ++ r)) = some (low 6 s, r) := by
    rw [Spec.Json.fraction, digits_append (stop_digit h) _ (low_digit 6 s), if_neg]
    intro h
    have := congrArg List.length h
    rw [low_length] at this
    cases this
  rw [if_neg (key_head _), hf]
  show (Spec.Json.exponent r).bind _ = _
  rw [stop_exponent h]
  have hv : Spec.Json.natValue (decimalKey (s / 1000000) ++ low 6 s) = s := by
    show more 0 _ = s
    rw [more_append, more_low]
    have : more 0 (decimalKey (s / 1000000)) = s / 1000000 := key_value _
    rw [this]
    omega
  simp [hv, low_length]

theorem key_cons (x : Nat) : ∃ c t, decimalKey x = c :: t ∧ Spec.Decimal.Digit c := by
  cases h : decimalKey x with
  | nil => exact absurd h (key_ne x)
  | cons c t => exact ⟨c, t, rfl, key_digit x c (by rw [h]; exact List.mem_cons_self ..)⟩

theorem number_pos {t : Bytes} {m : Nat} {e : Int} {r : Bytes} (h : unsigned t = some (m, e, r)) (hh : ∀ u, t ≠ 45 :: u) :
    number t = some (.num m e, r) := by
  unfold number
  split
  · rename_i u; exact absurd rfl (hh u)
  · rw [h]; rfl

theorem number_neg {t : Bytes} {m : Nat} {e : Int} {r : Bytes} (h : unsigned t = some (m, e, r)) :
    number (45 :: t) = some (.num (-(m : Int)) e, r) := by
  rw [number, h]; rfl

theorem digit_ne_minus {x : Nat} {r : Bytes} : ∀ u, decimalKey x ++ r ≠ 45 :: u := by
  intro u h
  obtain ⟨c, t, hk, hc⟩ := key_cons x
  rw [hk] at h
  cases h
  unfold Spec.Decimal.Digit at hc
  simp at hc

theorem number_int (n : Int) {r : Bytes} (h : Stop r) : number (formatInt n ++ r) = some (.num n 0, r) := by
  unfold formatInt
  by_cases hn : n < 0
  · rw [if_pos hn, itoa_eq, List.cons_append, number_neg (unsigned_int _ h)]
    congr 3; omega
  · rw [if_neg hn, itoa_eq, number_pos (unsigned_int _ h) digit_ne_minus]
    congr 3; omega

theorem double_fields {b : UInt64} {neg : Bool} {m : Nat} {k : Int} (h : Double b neg m k) :
    sign b = neg ∧ expField b ≠ 2047 ∧ mant b = m ∧ exp2 b = k := by
  cases h with
  | subnormal h1 h2 =>
    have hx : expField b = 0 := by unfold expField; cases neg <;> simp at h1 <;> omega
    refine ⟨?_, by omega, ?_, ?_⟩
    · unfold sign; cases neg <;> simp at h1 ⊢ <;> omega
    · unfold mant; rw [if_pos hx]; unfold frac; cases neg <;> simp at h1 <;> omega
    · unfold exp2; rw [if_pos hx]
  | @normal x f h1 h2 h3 h4 =>
    have hx : expField b = x := by unfold expField; cases neg <;> simp at h1 <;> omega
    refine ⟨?_, by omega, ?_, ?_⟩
    · unfold sign; cases neg <;> simp at h1 ⊢ <;> omega
    · unfold mant; rw [if_neg (by omega)]; unfold frac; cases neg <;> simp at h1 <;> omega
    · unfold exp2; rw [if_neg (by omega), hx]

theorem nearest {b : UInt64} {neg : Bool} {m : Nat} {k : Int} (h : Double b neg m k) : Nearest6 m k (scaled b) := by
  obtain ⟨_, _, h3, h4⟩ := double_fields h
  unfold Nearest6 scaled
  rw [h3, h4]
  by_cases hk : 0 ≤ k
  · rw [if_pos hk, if_pos hk]
  · rw [if_neg hk, if_neg hk]
    have hd : 0 < 2 ^ (-k).toNat := Nat.pow_pos (by decide)
    generalize 2 ^ (-k).toNat = d at *
    generalize hx : m * 1000000 = x
    unfold roundDiv
    have h1 := Nat.div_add_mod x d
    have h2 := Nat.mod_lt x hd
    generalize x / d = q at *
    generalize x % d = r at *
    have h3 : (q + 1) * d = d * q + d := by rw [Nat.add_mul, Nat.one_mul, Nat.mul_comm]
    have h4 : q * d = d * q := Nat.mul_comm ..
    split
    · rw [h3]; omega
    · rw [h4]; omega

theorem number_float {b : UInt64} {neg : Bool} {m : Nat} {k : Int} (h : Double b neg m k) {r : Bytes} (hr : Stop r) :
    number (formatFloat b ++ r) = some (.num (if neg then -(scaled b : Int) else scaled b) (-6), r) := by
  obtain ⟨h1, h2, _, _⟩ := double_fields h
  unfold formatFloat
  rw [if_neg h2, h1, lowDigits_eq, itoa_eq]
  have e1 : decimalKey (scaled b / 1000000) ++ [46] ++ low 6 (scaled b) ++ r = decimalKey (scaled b / 1000000) ++ (46 :: (low 6 (scaled b) ++ r)) := by simp
  cases neg
  · show number ([] ++ decimalKey _ ++ [46] ++ low 6 _ ++ r) = _
    rw [List.nil_append, e1, number_pos (unsigned_float _ hr) digit_ne_minus]
    rfl
  · show number ([45] ++ decimalKey _ ++ [46] ++ low 6 _ ++ r) = _
    rw [List.append_assoc [45], List.append_assoc [45], List.append_assoc [45], e1, List.cons_append, List.nil_append, number_neg (unsigned_float _ hr)]
    rfl

/-! ### values -/

theorem ws_cons {c : UInt8} {r : Bytes} (h : ¬ (c = 32 ∨ c = 9 ∨ c = 10 ∨ c = 13)) : ws (c :: r) = c :: r := by rw [ws, if_neg h]

theorem marshalElems_false : ∀ {d : JElems} {u : Bytes}, marshalElems false d = some u →
    (d = .nil ∧ u = []) ∨ ∃ k v r u', d = .cons k v r ∧ marshalElems true d = some u' ∧ u = 44 :: u'
  | .nil, u, h => by rw [marshalElems] at h; exact .inl ⟨rfl, (Option.some.inj h).symm⟩
  | .cons k v r, u, h => by
    rw [marshalElems] at h
    refine .inr ⟨k, v, r, ?_⟩
    rw [marshalElems]
    cases hv : marshal v with
    | none => rw [hv] at h; cases h
    | some t =>
      cases hr : marshalElems false r with
      | none => rw [hv, hr] at h; cases h
      | some w =>
        rw [hv, hr] at h
        refine ⟨_, rfl, rfl, ?_⟩
        rw [← Option.some.inj h]
        simp

theorem marshalVals_false : ∀ {d : JVals} {u : Bytes}, marshalVals false d = some u →
    (d = .nil ∧ u = []) ∨ ∃ v r u', d = .cons v r ∧ marshalVals true d = some u' ∧ u = 44 :: u'
  | .nil, u, h => by rw [marshalVals] at h; exact .inl ⟨rfl, (Option.some.inj h).symm⟩
  | .cons v r, u, h => by
    rw [marshalVals] at h
    refine .inr ⟨v, r, ?_⟩
    rw [marshalVals]
    cases hv : marshal v with
    | none => rw [hv] at h; cases h
    | some t =>
      cases hr : marshalVals false r with
      | none => rw [hv, hr] at h; cases h
      | some w =>
        rw [hv, hr] at h
        refine ⟨_, rfl, rfl, ?_⟩
        rw [← Option.some.inj h]
        simp

/-- the first byte of a number -/
def NumStart (c : UInt8) : Prop := c = 45 ∨ Spec.Decimal.Digit c

theorem value_number {c : UInt8} {t r : Bytes} {j : J} {fuel : Nat} (hc : NumStart c) (h : number (c :: t) = some (j, r)) :
    value (fuel + 1) (c :: t) = some (j, r) := by
  have hn : ∀ b : UInt8, NumStart b → b ≠ 123 ∧ b ≠ 91 ∧ b ≠ 34 ∧ b ≠ 116 ∧ b ≠ 102 ∧ b ≠ 110 ∧ ¬ (b = 32 ∨ b = 9 ∨ b = 10 ∨ b = 13) := by
    unfold NumStart Spec.Decimal.Digit
    exact forall_byte (by decide +kernel)
  obtain ⟨h1, h2, h3, h4, h5, h6, h7⟩ := hn c hc
  rw [value, ws_cons h7]
  dsimp only
  rw [if_neg h1, if_neg h2, if_neg h3, if_neg (by intro hh; exact h4 (List.cons.inj hh).1), if_neg (by intro hh; exact h5 (List.cons.inj hh).1),
    if_neg (by intro hh; exact h6 (List.cons.inj hh).1), h]

theorem formatInt_start (n : Int) : ∃ c t, formatInt n = c :: t ∧ NumStart c := by
  unfold formatInt
  by_cases hn : n < 0
  · rw [if_pos hn]; exact ⟨_, _, rfl, .inl rfl⟩
  · rw [if_neg hn]
    obtain ⟨c, t, h1, h2⟩ := key_cons n.toNat
    exact ⟨c, t, h1, .inr h2⟩

theorem formatFloat_start {b : UInt64} (h : expField b ≠ 2047) : ∃ c t, formatFloat b = c :: t ∧ NumStart c := by
  unfold formatFloat
  rw [if_neg h]
  by_cases hs : sign b = true
  · rw [if_pos hs]; exact ⟨_, _, rfl, .inl rfl⟩
  · rw [if_neg hs]
    obtain ⟨c, t, h1, h2⟩ := key_cons (scaled b / 1000000)
    rw [itoa_eq, h1]
    exact ⟨c, _, rfl, .inr h2⟩

theorem string_key {k r : Bytes} (h : PlainKey k) : string (34 :: (k ++ 34 :: r)) = some (k, r) := by
  have := string_write k r
  rw [write_eq, esc_plain h] at this
  simpa using this

theorem text_pos : ∀ {v : JVal} {t : Bytes}, marshal v = some t → Plain v → ∃ c u, t = c :: u ∧ ¬ (c = 32 ∨ c = 9 ∨ c = 10 ∨ c = 13) ∧ c ≠ 93 := by
  intro v t h hp
  have hn : ∀ b : UInt8, NumStart b → ¬ (b = 32 ∨ b = 9 ∨ b = 10 ∨ b = 13) ∧ b ≠ 93 := by
    unfold NumStart Spec.Decimal.Digit
    exact forall_byte (by decide +kernel)
  cases v with
  | nil => rw [marshal] at h; cases h
  | str s => rw [marshal] at h; cases h; rw [write_eq]; exact ⟨34, esc s ++ [34], rfl, by decide, by decide⟩
  | int n =>
    rw [marshal] at h; cases h
    obtain ⟨c, u, h1, h2⟩ := formatInt_start n
    exact ⟨c, u, h1, (hn c h2).1, (hn c h2).2⟩
  | dbl b =>
    rw [marshal] at h; cases h
    rw [Plain] at hp
    obtain ⟨_, _, _, hd⟩ := hp
    obtain ⟨c, u, h1, h2⟩ := formatFloat_start (double_fields hd).2.1
    exact ⟨c, u, h1, (hn c h2).1, (hn c h2).2⟩
  | bool b => rw [marshal] at h; cases h; cases b <;> exact ⟨_, _, rfl, by decide, by decide⟩
  | null => rw [marshal] at h; cases h; exact ⟨_, _, rfl, by decide, by decide⟩
  | obj d =>
    rw [marshal] at h
    cases hm : marshalElems true d with
    | none => rw [hm] at h; cases h
    | some u => rw [hm] at h; cases h; exact ⟨123, u ++ [125], rfl, by decide, by decide⟩
  | arr d =>
    rw [marshal] at h
    cases hm : marshalVals true d with
    | none => rw [hm] at h; cases h
    | some u => rw [hm] at h; cases h; exact ⟨91, u ++ [93], rfl, by decide, by decide⟩

theorem members_last {fuel : Nat} {t k r r' : Bytes} {v : J} (h1 : string (ws t) = some (k, 58 :: r)) (h2 : value fuel r = some (v, 125 :: r')) :
    members (fuel + 1) t = some (.cons k v .nil, r') := by
  simp [members, h1, h2, ws]

theorem members_more {fuel : Nat} {t k r r' r'' : Bytes} {v : J} {es : Jes} (h1 : string (ws t) = some (k, 58 :: r))
    (h2 : value fuel r = some (v, 44 :: r')) (h3 : members fuel r' = some (es, r'')) : members (fuel + 1) t = some (.cons k v es, r'') := by
  simp [members, h1, h2, h3, ws]

theorem items_last {fuel : Nat} {t r' : Bytes} {v : J} (h2 : value fuel t = some (v, 93 :: r')) :
    items (fuel + 1) t = some (.cons v .nil, r') := by
  simp [items, h2, ws]

theorem items_more {fuel : Nat} {t r' r'' : Bytes} {v : J} {es : Js}
    (h2 : value fuel t = some (v, 44 :: r')) (h3 : items fuel r' = some (es, r'')) : items (fuel + 1) t = some (.cons v es, r'') := by
  simp [items, h2, h3, ws]

mutual
theorem read_value : ∀ (v : JVal), Plain v → ∃ t j, marshal v = some t ∧ Shows v j ∧
    ∀ r fuel, Stop r → t.length ≤ fuel → value fuel (t ++ r) = some (j, r)
  | .nil, h => by rw [Plain] at h; exact h.elim
  | .str s, _ => by
    refine ⟨_, _, by rw [marshal], .str, fun r fuel hr hf => ?_⟩
    have hs := string_write s r
    rw [write_eq] at hs hf ⊢
    obtain ⟨fuel, rfl⟩ : ∃ k, fuel = k + 1 := ⟨fuel - 1, by simp at hf; omega⟩
    have e1 : [34] ++ esc s ++ [34] ++ r = 34 :: (esc s ++ [34] ++ r) := rfl
    rw [e1] at hs ⊢
    rw [value, ws_cons (by decide)]
    dsimp only
    rw [if_neg (by decide), if_neg (by decide), if_pos rfl, hs]
    rfl
  | .int n, _ => by
    refine ⟨_, _, by rw [marshal], .int, fun r fuel hr hf => ?_⟩
    obtain ⟨c, u, h1, h2⟩ := formatInt_start n
    have hnum := number_int n hr
    rw [h1] at hnum hf ⊢
    obtain ⟨fuel, rfl⟩ : ∃ k, fuel = k + 1 := ⟨fuel - 1, by simp at hf; omega⟩
    exact value_number h2 hnum
  | .dbl b, h => by
    rw [Plain] at h
    obtain ⟨neg, m, k, hd⟩ := h
    refine ⟨_, _, by rw [marshal], .dbl hd (nearest hd), fun r fuel hr hf => ?_⟩
    obtain ⟨c, u, h1, h2⟩ := formatFloat_start (double_fields hd).2.1
    have hnum := number_float hd hr
    rw [h1] at hnum hf ⊢
    obtain ⟨fuel, rfl⟩ : ∃ k, fuel = k + 1 := ⟨fuel - 1, by simp at hf; omega⟩
    exact value_number h2 hnum
  | .bool b, _ => by
    refine ⟨_, _, by rw [marshal], .bool, fun r fuel hr hf => ?_⟩
    obtain ⟨fuel, rfl⟩ : ∃ k, fuel = k + 1 := ⟨fuel - 1, by cases b <;> simp at hf <;> omega⟩
    cases b <;> rfl
  | .null, _ => by
    refine ⟨_, _, by rw [marshal], .null, fun r fuel hr hf => ?_⟩
    obtain ⟨fuel, rfl⟩ : ∃ k, fuel = k + 1 := ⟨fuel - 1, by simp at hf; omega⟩
    rfl
  | .obj d, h => by
    rw [Plain] at h
    obtain ⟨u, js, h1, h2, h3⟩ := read_elems d h
    refine ⟨[123] ++ u ++ [125], .obj js, by rw [marshal, h1]; rfl, .obj h2, fun r fuel hr hf => ?_⟩
    obtain ⟨fuel, rfl⟩ : ∃ k, fuel = k + 1 := ⟨fuel - 1, by simp at hf; omega⟩
    have e1 : [123] ++ u ++ [125] ++ r = 123 :: (u ++ 125 :: r) := by simp
    rw [e1, value, ws_cons (by decide)]
    dsimp only
    rw [if_pos rfl]
    cases d with
    | nil =>
      rw [marshalElems] at h1
      cases h1
      cases h2
      rfl
    | cons k v rest =>
      have h3 := h3 (by simp) r fuel (by simp at hf; omega)
      obtain ⟨w, hw⟩ : ∃ w, u = 34 :: w := by
        rw [marshalElems] at h1
        cases hv : marshal v with
        | none => rw [hv] at h1; cases h1
        | some t =>
          cases hr' : marshalElems false rest with
          | none => rw [hv, hr'] at h1; cases h1
          | some w => rw [hv, hr'] at h1; cases h1; exact ⟨k ++ [34, 58] ++ t ++ w, by simp⟩
      subst hw
      rw [List.cons_append] at h3 ⊢
      rw [ws_cons (by decide)]
      split
      · rename_i heq; cases heq
      · rw [h3]; rfl
  | .arr d, h => by
    rw [Plain] at h
    obtain ⟨u, js, h1, h2, h3⟩ := read_vals d h
    refine ⟨[91] ++ u ++ [93], .arr js, by rw [marshal, h1]; rfl, .arr h2, fun r fuel hr hf => ?_⟩
    obtain ⟨fuel, rfl⟩ : ∃ k, fuel = k + 1 := ⟨fuel - 1, by simp at hf; omega⟩
    have e1 : [91] ++ u ++ [93] ++ r = 91 :: (u ++ 93 :: r) := by simp
    rw [e1, value, ws_cons (by decide)]
    dsimp only
    rw [if_neg (by decide), if_pos rfl]
    cases d with
    | nil =>
      rw [marshalVals] at h1
      cases h1
      cases h2
      rfl
    | cons v rest =>
      have h3 := h3 (by simp) r fuel (by simp at hf; omega)
      obtain ⟨c, w, hw, hc1, hc2⟩ : ∃ c w, u = c :: w ∧ ¬ (c = 32 ∨ c = 9 ∨ c = 10 ∨ c = 13) ∧ c ≠ 93 := by
        rw [marshalVals] at h1
        rw [PlainVals] at h
        cases hv : marshal v with
        | none => rw [hv] at h1; cases h1
        | some t =>
          cases hr' : marshalVals false rest with
          | none => rw [hv, hr'] at h1; cases h1
          | some w =>
            obtain ⟨c, x, g1, g2, g3⟩ := text_pos hv h.1
            rw [hv, hr'] at h1; cases h1
            exact ⟨c, x ++ w, by simp [g1], g2, g3⟩
      subst hw
      rw [List.cons_append] at h3 ⊢
      rw [ws_cons hc1]
      split
      · rename_i heq; exact absurd (List.cons.inj heq).1 hc2
      · rw [h3]; rfl
theorem read_elems : ∀ (d : JElems), PlainElems d → ∃ u js, marshalElems true d = some u ∧ ShowsElems d js ∧
    (d ≠ .nil → ∀ r fuel, u.length ≤ fuel → members fuel (u ++ 125 :: r) = some (js, r))
  | .nil, _ => ⟨[], .nil, by rw [marshalElems], .nil, fun h => absurd rfl h⟩
  | .cons k v rest, h => by
    rw [PlainElems] at h
    obtain ⟨hk, hv, hr⟩ := h
    obtain ⟨t, j, h1, h2, h3⟩ := read_value v hv
    obtain ⟨u, js, g1, g2, g3⟩ := read_elems rest hr
    have hfalse : ∃ w, marshalElems false rest = some w ∧ ((rest = .nil ∧ w = []) ∨ (rest ≠ .nil ∧ w = 44 :: u)) := by
      cases rest with
      | nil => exact ⟨[], by rw [marshalElems], .inl ⟨rfl, rfl⟩⟩
      | cons k' v' r' =>
        refine ⟨44 :: u, ?_, .inr ⟨by simp, rfl⟩⟩
        rw [marshalElems] at g1 ⊢
        cases hv' : marshal v' with
        | none => rw [hv'] at g1; cases g1
        | some t' =>
          cases hr' : marshalElems false r' with
          | none => rw [hv', hr'] at g1; cases g1
          | some w' => rw [hv', hr'] at g1; cases g1; simp
    obtain ⟨w, hw, hw'⟩ := hfalse
    refine ⟨[] ++ ([34] ++ k ++ [34, 58]) ++ t ++ w, .cons k j js, by rw [marshalElems, h1, hw]; rfl, .cons h2 g2, fun _ r fuel hf => ?_⟩
    obtain ⟨fuel, rfl⟩ : ∃ k, fuel = k + 1 := ⟨fuel - 1, by simp at hf; omega⟩
    have e1 : [] ++ ([34] ++ k ++ [34, 58]) ++ t ++ w ++ 125 :: r = 34 :: (k ++ 34 :: (58 :: (t ++ (w ++ 125 :: r)))) := by simp
    have hkey : string (ws (34 :: (k ++ 34 :: (58 :: (t ++ (w ++ 125 :: r)))))) = some (k, 58 :: (t ++ (w ++ 125 :: r))) := by
      rw [ws_cons (by decide), string_key hk]
    rw [e1]
    have hstop : Stop (w ++ 125 :: r) := by
      rcases hw' with ⟨_, rfl⟩ | ⟨_, rfl⟩
      · exact .inr ⟨125, r, rfl, .inr (.inl rfl)⟩
      · exact .inr ⟨44, _, rfl, .inl rfl⟩
    have hfl : t.length ≤ fuel ∧ w.length ≤ fuel + 0 := by simp at hf; omega
    have hval := h3 _ fuel hstop hfl.1
    rcases hw' with ⟨rfl, rfl⟩ | ⟨hne, rfl⟩
    · cases g2
      exact members_last hkey hval
    · exact members_more hkey hval (g3 hne r fuel (by simp at hfl; omega))
theorem read_vals : ∀ (d : JVals), PlainVals d → ∃ u js, marshalVals true d = some u ∧ ShowsVals d js ∧
    (d ≠ .nil → ∀ r fuel, u.length + 1 ≤ fuel → items fuel (u ++ 93 :: r) = some (js, r))
  | .nil, _ => ⟨[], .nil, by rw [marshalVals], .nil, fun h => absurd rfl h⟩
  | .cons v rest, h => by
    rw [PlainVals] at h
    obtain ⟨hv, hr⟩ := h
    obtain ⟨t, j, h1, h2, h3⟩ := read_value v hv
    obtain ⟨u, js, g1, g2, g3⟩ := read_vals rest hr
    have hfalse : ∃ w, marshalVals false rest = some w ∧ ((rest = .nil ∧ w = []) ∨ (rest ≠ .nil ∧ w = 44 :: u)) := by
      cases rest with
      | nil => exact ⟨[], by rw [marshalVals], .inl ⟨rfl, rfl⟩⟩
      | cons v' r' =>
        refine ⟨44 :: u, ?_, .inr ⟨by simp, rfl⟩⟩
        rw [marshalVals] at g1 ⊢
        cases hv' : marshal v' with
        | none => rw [hv'] at g1; cases g1
        | some t' =>
          cases hr' : marshalVals false r' with
          | none => rw [hv', hr'] at g1; cases g1
          | some w' => rw [hv', hr'] at g1; cases g1; simp
    obtain ⟨w, hw, hw'⟩ := hfalse
    refine ⟨[] ++ t ++ w, .cons j js, by rw [marshalVals, h1, hw]; rfl, .cons h2 g2, fun _ r fuel hf => ?_⟩
    obtain ⟨fuel, rfl⟩ : ∃ k, fuel = k + 1 := ⟨fuel - 1, by omega⟩
    have e1 : [] ++ t ++ w ++ 93 :: r = t ++ (w ++ 93 :: r) := by simp
    have hstop : Stop (w ++ 93 :: r) := by
      rcases hw' with ⟨_, rfl⟩ | ⟨_, rfl⟩
      · exact .inr ⟨93, r, rfl, .inr (.inr rfl)⟩
      · exact .inr ⟨44, _, rfl, .inl rfl⟩
    obtain ⟨c0, u0, ht0, _, _⟩ := text_pos h1 hv
    have htpos : 1 ≤ t.length := by rw [ht0]; simp
    have hfl : t.length ≤ fuel ∧ t.length + w.length ≤ fuel := by simp at hf; omega
    rw [e1]
    have hval := h3 _ fuel hstop hfl.1
    rcases hw' with ⟨rfl, rfl⟩ | ⟨hne, rfl⟩
    · cases g2
      exact items_last hval
    · exact items_more hval (g3 hne r fuel (by simp at hfl; omega))
end

theorem read_marshal {v : JVal} (h : Plain v) : ∃ t j, marshal v = some t ∧ Spec.Json.read t = some j ∧ Shows v j := by
  obtain ⟨t, j, h1, h2, h3⟩ := read_value v h
  refine ⟨t, j, h1, ?_, h2⟩
  have := h3 [] (2 * t.length + 2) (.inl rfl) (by omega)
  rw [List.append_nil] at this
  unfold Spec.Json.read
  rw [this]
  rfl

end Birch.Proofs.Json
