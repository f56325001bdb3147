import Verif.Proofs.GjsonRead
import Verif.Proofs.Json

/-
What `jsonx` writes is in the grammar (helper lemmas).
-/

namespace Birch.Proofs.Gjson
open Birch Model.Json Spec.JsonText Proofs.Json
open Birch.Model.Gjson (Strconv)
open Birch.Spec (decimalKey)
open Birch.Model (itoa)
open Birch.Proofs.Decimal (key_ne key_digit key_value low low_length low_digit)
open Birch.Spec.Json (Plain PlainVals PlainElems PlainKey)

/-! ### strings -/

theorem esc1_chars (b : UInt8) {s u : Bytes} (h : Chars false s u) : Chars false (esc1 b ++ s) (b :: u) := by
  unfold esc1
  split
  · next hp =>
    obtain ⟨h1, h2, h3⟩ := plain_byte b hp
    exact .plain (UInt8.not_lt.mp h2) h1 h3 h
  · next hp =>
    have key : ∀ b : UInt8, (128 ≤ b ∨ safe b = true) ∨ (b = 92 ∨ b = 34) ∨ b = 10 ∨ b = 13 ∨ b = 9 ∨ (b < 32 ∧ b ≠ 10 ∧ b ≠ 13 ∧ b ≠ 9 ∧
      Spec.JsonText.hexDigit (hexChar (b >>> 4)) = some (b.toNat / 16) ∧ Spec.JsonText.hexDigit (hexChar (b &&& 15)) = some (b.toNat % 16)) :=
      forall_byte (by decide +kernel)
    rcases key b with h1 | h1 | rfl | rfl | rfl | ⟨h1, h2, h3, h4, h5, h6⟩
    · exact absurd h1 hp
    · rcases h1 with rfl | rfl
      · exact .short .backslash h
      · exact .short .quote h
    · exact .short .n h
    · exact .short .r h
    · exact .short .t h
    · have hlt : b.toNat < 32 := by simpa [UInt8.lt_iff_toNat_lt] using h1
      have hb : b ≠ 92 ∧ b ≠ 34 := by
        constructor <;> (rintro rfl; revert h1; decide)
      unfold escaped
      rw [if_neg (fun h => h.elim hb.1 hb.2), if_neg h2, if_neg h3, if_neg h4]
      have hx : Hex4 [48, 48, hexChar (b >>> 4), hexChar (b &&& 15)] b.toNat :=
        ⟨_, _, _, _, 0, 0, _, _, rfl, rfl, rfl, h5, h6, by omega⟩
      have := Chars.point hx (by unfold High; omega) (by unfold Low; omega) h
      have hu : Spec.JsonText.utf8 b.toNat = [b] := by
        unfold Spec.JsonText.utf8
        rw [if_pos (by omega), UInt8.ofNat_toNat]
      rw [hu] at this
      exact this

theorem esc_chars : ∀ s : Bytes, Chars false (esc s) s
  | [] => .nil
  | b :: s => by rw [esc]; exact esc1_chars b (esc_chars s)

theorem write_val (s : Bytes) : Val false (writeString s) (.str s) := by
  rw [write_eq]
  exact .str (esc_chars s)

theorem key_chars {k : Bytes} (h : PlainKey k) : Chars false k k := by
  have := esc_chars k
  rwa [esc_plain h] at this

/-! ### numbers -/

theorem decDigit {c : UInt8} : Spec.Decimal.Digit c ↔ Spec.JsonText.Digit c := by
  unfold Spec.Decimal.Digit Spec.JsonText.Digit
  simp [UInt8.le_iff_toNat_le]

theorem key_digits (x : Nat) : Digits (decimalKey x) := ⟨key_ne x, fun c hc => decDigit.mp (key_digit x c hc)⟩

theorem key_intPart (x : Nat) : IntPart (decimalKey x) := by
  by_cases h : decimalKey x = [48]
  · rw [h]; exact .zero
  · exact .digits (key_digits x) (fun hh => key_head x (.inr ⟨hh, h⟩))

theorem natValue_key' (x : Nat) : Spec.JsonText.natValue (decimalKey x) = x := key_value x

theorem formatInt_number (n : Int) : Number false (formatInt n) := by
  have key : ∀ x, Number false (itoa x) ∧ Number false (45 :: itoa x) := by
    intro x
    rw [itoa_eq]
    have h1 := Number.pos (lax := false) (key_intPart x) .none .none
    have h2 := Number.neg (lax := false) (key_intPart x) .none .none
    simp only [List.append_nil] at h1 h2
    exact ⟨h1, h2⟩
  unfold formatInt
  split
  · exact (key _).2
  · exact (key _).1

theorem formatInt_int (n : Int) (h1 : -2 ^ 63 ≤ n) (h2 : n < 2 ^ 63) : Integral (formatInt n) ∧ Int64Text (formatInt n) n := by
  unfold formatInt
  rw [itoa_eq, itoa_eq]
  split
  · refine ⟨.inr ⟨_, rfl, (key_digits _).2⟩, ?_⟩
    have := Int64Text.neg (key_digits (-n).toNat) (by rw [natValue_key']; omega)
    rw [natValue_key'] at this
    rwa [show -(((-n).toNat : Nat) : Int) = n by omega] at this
  · refine ⟨.inl (key_digits _), ?_⟩
    have := Int64Text.pos (key_digits n.toNat) (by rw [natValue_key']; omega)
    rw [natValue_key'] at this
    rwa [show ((n.toNat : Nat) : Int) = n by omega] at this

theorem int64Text_unique {s : Bytes} {i k : Int} (h1 : Int64Text s i) (h2 : Int64Text s k) : i = k := by
  have := parseInt_eq.mpr h1
  rw [parseInt_eq.mpr h2] at this
  exact (Option.some.inj this).symm

theorem formatFloat_number {b : UInt64} (h : expField b ≠ 2047) : Number false (Model.Json.formatFloat b) := by
  unfold Model.Json.formatFloat
  rw [if_neg h, itoa_eq, lowDigits_eq]
  have hf : Frac (46 :: low 6 (scaled b)) := by
    refine .some ⟨?_, fun c hc => decDigit.mp (low_digit _ _ c hc)⟩
    intro h
    have := congrArg List.length h
    rw [low_length] at this
    cases this
  split
  · have := Number.neg (lax := false) (key_intPart (scaled b / 1000000)) hf .none
    simpa using this
  · have := Number.pos (lax := false) (key_intPart (scaled b / 1000000)) hf .none
    simpa using this

/-! ### values -/

mutual
/-- what is written -/
def jOf : JVal → J
  | .nil => .null
  | .str s => .str s
  | .int n => .num (formatInt n)
  | .dbl b => .num (Model.Json.formatFloat b)
  | .bool b => .bool b
  | .null => .null
  | .obj d => .obj (jOfElems d)
  | .arr a => .arr (jOfVals a)
def jOfVals : JVals → Js
  | .nil => .nil
  | .cons v r => .cons (jOf v) (jOfVals r)
def jOfElems : JElems → Jes
  | .nil => .nil
  | .cons k v r => .cons k (jOf v) (jOfElems r)
end

mutual
theorem marshal_val : ∀ v : JVal, Plain v → ∃ t, marshal v = some t ∧ Val false t (jOf v)
  | .nil, h => by rw [Plain] at h; exact h.elim
  | .str s, _ => ⟨_, by rw [marshal], by rw [jOf]; exact write_val s⟩
  | .int n, _ => ⟨_, by rw [marshal], by rw [jOf]; exact .num (formatInt_number n)⟩
  | .dbl b, h => by
    rw [Plain] at h
    obtain ⟨_, _, _, hd⟩ := h
    exact ⟨_, by rw [marshal], by rw [jOf]; exact .num (formatFloat_number (double_fields hd).2.1)⟩
  | .bool b, _ => ⟨_, by rw [marshal], by rw [jOf]; cases b with | false => exact .fals | true => exact .tru⟩
  | .null, _ => ⟨_, by rw [marshal], by rw [jOf]; exact .null⟩
  | .obj d, h => by
    rw [Plain] at h
    rcases marshal_elems d h with rfl | ⟨t, h1, _, h2⟩
    · exact ⟨_, by rw [marshal, marshalElems]; rfl, by rw [jOf, jOfElems]; exact .emptyObj (w := []) ws_nil⟩
    · exact ⟨_, by rw [marshal, h1]; rfl, by rw [jOf]; exact .obj h2⟩
  | .arr a, h => by
    rw [Plain] at h
    rcases marshal_vals a h with rfl | ⟨t, h1, _, h2⟩
    · exact ⟨_, by rw [marshal, marshalVals]; rfl, by rw [jOf, jOfVals]; exact .emptyArr (w := []) ws_nil⟩
    · exact ⟨_, by rw [marshal, h1]; rfl, by rw [jOf]; exact .arr h2⟩
theorem marshal_vals : ∀ a : JVals, PlainVals a → a = .nil ∨ ∃ t, marshalVals true a = some t ∧ marshalVals false a = some (44 :: t) ∧
    Items false t (jOfVals a)
  | .nil, _ => .inl rfl
  | .cons v r, h => by
    rw [PlainVals] at h
    obtain ⟨t, h1, h2⟩ := marshal_val v h.1
    refine .inr ?_
    rcases marshal_vals r h.2 with rfl | ⟨u, _, h3, h4⟩
    · refine ⟨t, by simp [marshalVals, h1], by simp [marshalVals, h1], ?_⟩
      have := Items.last (w := []) (w' := []) ws_nil h2 ws_nil
      simpa [jOfVals] using this
    · refine ⟨t ++ 44 :: u, by rw [marshalVals]; simp [h1, h3], by rw [marshalVals]; simp [h1, h3], ?_⟩
      have := Items.cons (w := []) (w' := []) ws_nil h2 ws_nil h4
      rw [jOfVals]
      simpa using this
theorem marshal_elems : ∀ d : JElems, PlainElems d → d = .nil ∨ ∃ t, marshalElems true d = some t ∧ marshalElems false d = some (44 :: t) ∧
    Members false t (jOfElems d)
  | .nil, _ => .inl rfl
  | .cons k v r, h => by
    rw [PlainElems] at h
    obtain ⟨t, h1, h2⟩ := marshal_val v h.2.1
    refine .inr ?_
    rcases marshal_elems r h.2.2 with rfl | ⟨u, _, h3, h4⟩
    · refine ⟨34 :: (k ++ 34 :: 58 :: t), by simp [marshalElems, h1], by simp [marshalElems, h1], ?_⟩
      have := Members.last (w := []) (w1 := []) (w2 := []) (w3 := []) ws_nil (key_chars h.1) ws_nil ws_nil h2 ws_nil
      simpa [jOfElems] using this
    · refine ⟨34 :: (k ++ 34 :: 58 :: (t ++ 44 :: u)), by rw [marshalElems]; simp [h1, h3], by rw [marshalElems]; simp [h1, h3], ?_⟩
      have := Members.cons (w := []) (w1 := []) (w2 := []) (w3 := []) ws_nil (key_chars h.1) ws_nil ws_nil h2 ws_nil h4
      rw [jOfElems]
      simpa using this
end

mutual
theorem reread_conv (S : Strconv) : ∀ (v w : JVal), Plain v → Ints v → (Reread S v w ↔ Conv S (jOf v) w)
  | .nil, w, h, _ => by rw [Plain] at h; exact h.elim
  | .str s, w, _, _ => by rw [jOf]; exact ⟨fun h => by cases h; exact .str, fun h => by cases h; exact .str⟩
  | .int n, w, _, hi => by
    rw [Ints] at hi
    rw [jOf]
    obtain ⟨h1, h2⟩ := formatInt_int n hi.1 hi.2
    constructor
    · intro h
      cases h
      exact .int (.integral h1) h2
    · intro h
      cases h with
      | int hw hi' =>
        cases hw with
        | integral => rw [int64Text_unique hi' h2]; exact .int
        | float hn => exact absurd h1 hn
      | dbl hw hx _ =>
        cases hw with
        | integral => exact absurd ⟨n, h2⟩ hx
        | float hn => exact absurd h1 hn
  | .dbl b, w, _, _ => by rw [jOf]; exact ⟨fun h => by cases h with | dbl h => exact h, fun h => .dbl h⟩
  | .bool b, w, _, _ => by rw [jOf]; exact ⟨fun h => by cases h; exact .bool, fun h => by cases h; exact .bool⟩
  | .null, w, _, _ => by rw [jOf]; exact ⟨fun h => by cases h; exact .null, fun h => by cases h; exact .null⟩
  | .obj d, w, h, hi => by
    rw [Plain] at h
    rw [Ints] at hi
    rw [jOf]
    exact ⟨fun k => by cases k with | obj k => exact .obj ((rereadElems_conv S d _ h hi).mp k),
      fun k => by cases k with | obj k => exact .obj ((rereadElems_conv S d _ h hi).mpr k)⟩
  | .arr a, w, h, hi => by
    rw [Plain] at h
    rw [Ints] at hi
    rw [jOf]
    exact ⟨fun k => by cases k with | arr k => exact .arr ((rereadVals_conv S a _ h hi).mp k),
      fun k => by cases k with | arr k => exact .arr ((rereadVals_conv S a _ h hi).mpr k)⟩
theorem rereadVals_conv (S : Strconv) : ∀ (a b : JVals), PlainVals a → IntsVals a → (RereadVals S a b ↔ ConvVals S (jOfVals a) b)
  | .nil, b, _, _ => by rw [jOfVals]; exact ⟨fun h => by cases h; exact .nil, fun h => by cases h; exact .nil⟩
  | .cons v r, b, h, hi => by
    rw [PlainVals] at h
    rw [IntsVals] at hi
    rw [jOfVals]
    exact ⟨fun k => by cases k with | cons k1 k2 => exact .cons ((reread_conv S v _ h.1 hi.1).mp k1) ((rereadVals_conv S r _ h.2 hi.2).mp k2),
      fun k => by cases k with | cons k1 k2 => exact .cons ((reread_conv S v _ h.1 hi.1).mpr k1) ((rereadVals_conv S r _ h.2 hi.2).mpr k2)⟩
theorem rereadElems_conv (S : Strconv) : ∀ (a b : JElems), PlainElems a → IntsElems a → (RereadElems S a b ↔ ConvElems S (jOfElems a) b)
  | .nil, b, _, _ => by rw [jOfElems]; exact ⟨fun h => by cases h; exact .nil, fun h => by cases h; exact .nil⟩
  | .cons k v r, b, h, hi => by
    rw [PlainElems] at h
    rw [IntsElems] at hi
    rw [jOfElems]
    exact ⟨fun k => by cases k with | cons k1 k2 => exact .cons ((reread_conv S v _ h.2.1 hi.1).mp k1) ((rereadElems_conv S r _ h.2.2 hi.2).mp k2),
      fun k => by cases k with | cons k1 k2 => exact .cons ((reread_conv S v _ h.2.1 hi.1).mpr k1) ((rereadElems_conv S r _ h.2.2 hi.2).mpr k2)⟩
end

mutual
theorem reread_same (S : Strconv) : ∀ (v w : JVal), Plain v → NoFloat v → (Reread S v w ↔ w = v)
  | .nil, w, h, _ => by rw [Plain] at h; exact h.elim
  | .str s, w, _, _ => ⟨fun h => by cases h; rfl, fun h => by cases h; exact .str⟩
  | .int n, w, _, _ => ⟨fun h => by cases h; rfl, fun h => by cases h; exact .int⟩
  | .dbl b, w, _, h => by rw [NoFloat] at h; exact h.elim
  | .bool b, w, _, _ => ⟨fun h => by cases h; rfl, fun h => by cases h; exact .bool⟩
  | .null, w, _, _ => ⟨fun h => by cases h; rfl, fun h => by cases h; exact .null⟩
  | .obj d, w, h, hi => by
    rw [Plain] at h
    rw [NoFloat] at hi
    exact ⟨fun k => by cases k with | obj k => rw [(rereadElems_same S d _ h hi).mp k],
      fun k => by cases k; exact .obj ((rereadElems_same S d _ h hi).mpr rfl)⟩
  | .arr a, w, h, hi => by
    rw [Plain] at h
    rw [NoFloat] at hi
    exact ⟨fun k => by cases k with | arr k => rw [(rereadVals_same S a _ h hi).mp k],
      fun k => by cases k; exact .arr ((rereadVals_same S a _ h hi).mpr rfl)⟩
theorem rereadVals_same (S : Strconv) : ∀ (a b : JVals), PlainVals a → NoFloatVals a → (RereadVals S a b ↔ b = a)
  | .nil, b, _, _ => ⟨fun h => by cases h; rfl, fun h => by cases h; exact .nil⟩
  | .cons v r, b, h, hi => by
    rw [PlainVals] at h
    rw [NoFloatVals] at hi
    exact ⟨fun k => by cases k with | cons k1 k2 => rw [(reread_same S v _ h.1 hi.1).mp k1, (rereadVals_same S r _ h.2 hi.2).mp k2],
      fun k => by cases k; exact .cons ((reread_same S v _ h.1 hi.1).mpr rfl) ((rereadVals_same S r _ h.2 hi.2).mpr rfl)⟩
theorem rereadElems_same (S : Strconv) : ∀ (a b : JElems), PlainElems a → NoFloatElems a → (RereadElems S a b ↔ b = a)
  | .nil, b, _, _ => ⟨fun h => by cases h; rfl, fun h => by cases h; exact .nil⟩
  | .cons k v r, b, h, hi => by
    rw [PlainElems] at h
    rw [NoFloatElems] at hi
    exact ⟨fun k => by cases k with | cons k1 k2 => rw [(reread_same S v _ h.2.1 hi.1).mp k1, (rereadElems_same S r _ h.2.2 hi.2).mp k2],
      fun k => by cases k; exact .cons ((reread_same S v _ h.2.1 hi.1).mpr rfl) ((rereadElems_same S r _ h.2.2 hi.2).mpr rfl)⟩
end

theorem formatFloat_not_integral {b : UInt64} (h : expField b ≠ 2047) : ¬ Integral (Model.Json.formatFloat b) := by
  have h46 : (46 : UInt8) ∈ Model.Json.formatFloat b := by
    unfold Model.Json.formatFloat
    rw [if_neg h]
    simp
  have hd : ¬ Spec.JsonText.Digit 46 := by unfold Spec.JsonText.Digit; decide
  rintro (h | ⟨ds, he, h⟩)
  · exact hd (h.2 46 h46)
  · rw [he] at h46
    rcases List.mem_cons.mp h46 with h' | h'
    · cases h'
    · exact hd (h 46 h')

/-! ### what is not JSON -/

theorem strict_minus {t r : Bytes} {j : J} (h : Val false t j) (ht : t = 45 :: r) : ∃ d r', r = d :: r' ∧ Spec.JsonText.Digit d := by
  cases h with
  | num h =>
    cases h with
    | pos hi hf he =>
      obtain ⟨d, ds, rfl, h1, _⟩ := intPart_cons hi
      simp only [List.cons_append, List.cons.injEq] at ht
      exact absurd ht.1 (Gjson.digit_ne_minus h1)
    | neg hi hf he =>
      obtain ⟨d, ds, rfl, h1, _⟩ := intPart_cons hi
      simp only [List.cons.injEq, true_and] at ht
      exact ⟨d, _, ht.symm, h1⟩
    | bare hl => cases hl
  | _ => cases ht

/-- a text that starts with a minus sign and something other than a digit -/
theorem bare_not_json {c : UInt8} {r : Bytes} (_ : c ≠ 45) (hc : ¬ Spec.JsonText.Digit c) : ¬ ∃ j, Text false (45 :: c :: r) j := by
  rintro ⟨j, w, t', w', h, hw, hv, _⟩
  cases w with
  | cons a w =>
    simp only [List.cons_append, List.cons.injEq] at h
    have := hw a (List.mem_cons_self ..)
    rw [← h.1] at this
    revert this
    decide
  | nil =>
    rw [List.nil_append] at h
    obtain ⟨a, x, rfl, _⟩ := val_head hv
    simp only [List.cons_append, List.cons.injEq] at h
    obtain ⟨rfl, h⟩ := h
    obtain ⟨d, r', rfl, hd⟩ := strict_minus hv rfl
    simp only [List.cons_append, List.cons.injEq] at h
    rw [h.1] at hc
    exact hc hd

end Birch.Proofs.Gjson
