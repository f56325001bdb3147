import Verif.Spec.ObjectIDJson
import Verif.Proofs.ObjectID

/- ObjectIDs in JSON. -/

namespace Birch.Proofs
open Birch Model Spec

theorem jsonString_iff (v : JAny) (s : Bytes) : ObjectID.jsonString v = some s ↔ Carries v s := by
  unfold Carries
  show _ ↔ v = .str s ∨ ∃ m, v = .map m ∧ m.lookup [36, 111, 105, 100] = some (.str s)
  cases v with
  | str t => simp [ObjectID.jsonString]
  | other => simp [ObjectID.jsonString]
  | map m =>
    simp only [ObjectID.jsonString, reduceCtorEq, false_or, JAny.map.injEq]
    constructor
    · intro h
      split at h
      · cases h; exact ⟨m, rfl, ‹_›⟩
      · cases h
    · rintro ⟨m', rfl, h⟩
      rw [h]

/-- decoding pairs that are all hexadecimal -/
theorem decodeInto_ok : ∀ (dst s b : Bytes), s.length = 2 * dst.length → hexDecode s = some b → ObjectID.decodeInto dst s = (b, true)
  | dst, [], b, hl, h => by
    cases h
    have : dst = [] := List.length_eq_zero_iff.mp (by simp at hl; omega)
    subst this; rfl
  | dst, [_], b, hl, h => by cases h
  | [], c :: d :: r, b, hl, h => by simp at hl
  | x :: dst, c :: d :: r, b, hl, h => by
    unfold hexDecode at h
    split at h
    case h_2 => cases h
    case h_1 hx hy =>
      cases hr : hexDecode r with
      | none => rw [hr] at h; cases h
      | some b' =>
        rw [hr] at h; cases h
        unfold ObjectID.decodeInto; rw [hx, hy]
        simp only
        rw [decodeInto_ok dst r b' (by simp at hl; omega) hr]

/-- decoding stops at the first pair that is not hexadecimal -/
theorem decodeInto_bad : ∀ (dst pre : Bytes) (c d : UInt8) (r b : Bytes), hexDecode pre = some b → b.length < dst.length → ¬ (IsHex c ∧ IsHex d) →
    ObjectID.decodeInto dst (pre ++ c :: d :: r) = (b ++ dst.drop b.length, false)
  | dst, [], c, d, r, b, h, hl, hb => by
    cases h
    simp only [List.nil_append, List.length_nil, List.drop_zero]
    unfold ObjectID.decodeInto
    split
    · rename_i hx hy
      refine absurd ⟨(hexValue_isHex c).mpr ⟨_, ?_, hx⟩, (hexValue_isHex d).mpr ⟨_, ?_, hy⟩⟩ hb
      · unfold hexValue at hx; grind
      · unfold hexValue at hy; grind
    · rfl
  | dst, [_], c, d, r, b, h, hl, hb => by cases h
  | [], e :: f :: pre, c, d, r, b, h, hl, hb => by simp at hl
  | x :: dst, e :: f :: pre, c, d, r, b, h, hl, hb => by
    unfold hexDecode at h
    split at h
    case h_2 => cases h
    case h_1 hx hy =>
      cases hr : hexDecode pre with
      | none => rw [hr] at h; cases h
      | some b' =>
        rw [hr] at h; cases h
        simp only [List.cons_append]
        unfold ObjectID.decodeInto; rw [hx, hy]
        simp only
        rw [decodeInto_bad dst pre c d r b' hr (by simpa using hl) hb]
        simp

theorem decodeInto_iff (dst s : Bytes) (hl : s.length = 2 * dst.length) (b : Bytes) :
    ObjectID.decodeInto dst s = (b, true) ↔ hexDecode s = some b := by
  refine ⟨?_, decodeInto_ok dst s b hl⟩
  intro h
  cases hd : hexDecode s with
  | some b' => rw [decodeInto_ok dst s b' hl hd] at h; cases h; rfl
  | none =>
    exfalso
    revert hl hd h b
    suffices H : ∀ (dst s : Bytes), s.length = 2 * dst.length → hexDecode s = none → (ObjectID.decodeInto dst s).2 = false by
      intro hl b h hd
      have := H dst s hl hd
      rw [h] at this; cases this
    clear dst s
    intro dst s
    induction s using hexDecode.induct generalizing dst with
    | case1 => intro _ h; cases h
    | case2 => intro _ _; cases dst <;> rfl
    | case3 c d r a b hx hy ih =>
      intro hl h
      cases dst with
      | nil => simp at hl
      | cons x dst =>
        rw [hexDecode, hx, hy] at h
        simp only [Option.map_eq_none_iff] at h
        unfold ObjectID.decodeInto; rw [hx, hy]
        exact ih dst (by simp at hl; omega) h
    | case4 c d r hn =>
      intro _ _
      unfold ObjectID.decodeInto
      split
      · rename_i hx hy _; exact (hn _ _ ‹_› ‹_›).elim
      · rfl

theorem hexEncode_chars : ∀ b : Bytes, ∀ c ∈ hexEncode b, (48 ≤ c ∧ c ≤ 57) ∨ (97 ≤ c ∧ c ≤ 122) ∨ (65 ≤ c ∧ c ≤ 90)
  | [], c, h => by cases h
  | x :: b, c, h => by
    have hx := x.toNat_lt
    have H : ∀ n, n < 16 → (48 ≤ hexDigit n ∧ hexDigit n ≤ 57) ∨ (97 ≤ hexDigit n ∧ hexDigit n ≤ 122) ∨ (65 ≤ hexDigit n ∧ hexDigit n ≤ 90) := by decide
    simp only [hexEncode, List.mem_cons] at h
    rcases h with rfl | rfl | h
    · exact H _ (by omega)
    · exact H _ (by omega)
    · exact hexEncode_chars b c h

theorem hexEncode_len : ∀ b : Bytes, (hexEncode b).length = 2 * b.length
  | [] => rfl
  | _ :: b => by simp [hexEncode, hexEncode_len b]; omega

theorem hexEncode_inj {a b : Bytes} (h : hexEncode a = hexEncode b) : a = b := by
  have := congrArg hexDecode h
  rw [decode_encode, decode_encode] at this
  exact Option.some.inj this

end Birch.Proofs
