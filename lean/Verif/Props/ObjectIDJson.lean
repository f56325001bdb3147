import Verif.Proofs.ObjectIDJson

/-
C92: ObjectIDs in JSON and as text.
-/

namespace Birch.Props
open Birch Model Spec Proofs

/-- An id written as JSON is read back into any receiver. -/
theorem C92_round_trip (J : JDecode) (hJ : ReadsPlain J) (old id : Bytes) (ho : old.length = 12) (hi : id.length = 12) :
    ObjectID.unmarshalJSON J old (ObjectID.marshalJSON id) = (id, true) := by
  have hl : (hexEncode id).length = 24 := by rw [hexEncode_len, hi]
  unfold ObjectID.unmarshalJSON ObjectID.marshalJSON ObjectID.hex
  rw [if_neg (by simp [hl]), hJ _ (hexEncode_chars id)]
  simp only [ObjectID.jsonString, hl, ne_eq, not_true, if_false]
  exact decodeInto_ok _ _ _ (by omega) (decode_encode id)

/-- a decoder for quoted texts without quotes in them -/
def exDecode : JDecode
  | 34 :: r => if r.getLast? = some 34 ∧ 34 ∉ r.dropLast ∧ 92 ∉ r.dropLast then some (.str r.dropLast) else none
  | [110, 117, 108, 108] => some .other
  | _ => none

theorem exDecode_plain : ReadsPlain exDecode := by
  intro s hs
  have h : 34 ∉ s ∧ 92 ∉ s := ⟨fun h => by simpa using hs _ h, fun h => by simpa using hs _ h⟩
  simp [exDecode, h]

example := C92_round_trip exDecode exDecode_plain (List.replicate 12 1) [0x5A, 0, 1, 2, 3, 4, 5, 6, 7, 8, 0xFE, 0xFF] rfl rfl

/-- Bytes of any length but 12 are accepted exactly if they are JSON for a string, or an object with a string for "$oid", of 24 hexadecimal digits; the
    id is then the one of these digits, whatever the receiver held. -/
theorem C92_accepts (J : JDecode) (old b id : Bytes) (ho : old.length = 12) (hb : b.length ≠ 12) :
    ObjectID.unmarshalJSON J old b = (id, true) ↔ ∃ v s, J b = some v ∧ Carries v s ∧ ObjectID.fromHex s = some id := by
  have hfrom : ∀ s, ObjectID.fromHex s = some id ↔ s.length = 24 ∧ hexDecode s = some id := by
    intro s
    unfold ObjectID.fromHex
    cases hd : hexDecode s with
    | none => simp
    | some x =>
      have := (decode_iff s x hd).1
      simp only [ite_not]
      constructor
      · intro h
        split at h
        · cases h; exact ⟨by omega, rfl⟩
        · cases h
      · rintro ⟨h1, h2⟩
        rw [if_pos (by omega)]; exact h2
  unfold ObjectID.unmarshalJSON
  rw [if_neg hb]
  constructor
  · intro h
    cases hj : J b with
    | none => rw [hj] at h; cases h
    | some v =>
      rw [hj] at h
      simp only at h
      cases hs : ObjectID.jsonString v with
      | none => rw [hs] at h; cases h
      | some s =>
        rw [hs] at h
        simp only [ite_not] at h
        split at h
        · rename_i hl
          exact ⟨v, s, rfl, (jsonString_iff v s).mp hs, (hfrom s).mpr ⟨hl, (decodeInto_iff old s (by omega) id).mp h⟩⟩
        · cases h
  · rintro ⟨v, s, hv, hc, hf⟩
    obtain ⟨hl, hd⟩ := (hfrom s).mp hf
    rw [hv]
    simp only [(jsonString_iff v s).mpr hc, hl, ne_eq, not_true, if_false]
    exact (decodeInto_iff old s (by omega) id).mpr hd

/-- upper-case digits in an object -/
example := (C92_accepts (fun _ => some (.map [(ascii "$oid", .str (ascii "5A0001020304050607080A0B"))])) (List.replicate 12 1) [1, 2]
  [0x5A, 0, 1, 2, 3, 4, 5, 6, 7, 8, 0x0A, 0x0B] rfl (by decide)).mpr ⟨_, ascii "5A0001020304050607080A0B", rfl, .inr ⟨_, rfl, rfl⟩, by decide⟩

/-- In particular null is refused, which `encoding/json` asks to be ignored, and the receiver keeps its id. -/
theorem C92_null (J : JDecode) (old : Bytes) (h : J (ascii "null") = some .other) :
    ObjectID.unmarshalJSON J old (ascii "null") = (old, false) := by
  unfold ObjectID.unmarshalJSON
  rw [if_neg (by decide), h]
  rfl

example := C92_null exDecode [1] rfl

/-- The claim that only JSON of an id is accepted is false: any 12 bytes are, and become the id. -/
theorem C92_twelve (J : JDecode) (old b : Bytes) (hb : b.length = 12) : ObjectID.unmarshalJSON J old b = (b, true) := by
  unfold ObjectID.unmarshalJSON
  rw [if_pos hb]

/-- an object with a text that is no id, a string of ten characters, and no JSON at all -/
example (J : JDecode) (old : Bytes) := C92_twelve J old (ascii "{\"$oid\":\"a\"}") (by decide)
example (J : JDecode) (old : Bytes) := C92_twelve J old (ascii "\"0123456789\"") (by decide)
example (J : JDecode) (old : Bytes) := C92_twelve J old (ascii "[[[[[[[[[[[[") (by decide)

/-- The claim that an id is kept when an error is returned is false: the digits before the first pair that is not hexadecimal are written. -/
theorem C92_error_changes (J : JDecode) (old b : Bytes) (v : JAny) (pre written : Bytes) (c d : UInt8) (r : Bytes) (ho : old.length = 12) (hb : b.length ≠ 12)
    (hv : J b = some v) (hc : Carries v (pre ++ c :: d :: r)) (hl : (pre ++ c :: d :: r).length = 24) (hp : hexEncode written = pre)
    (hx : ¬ (IsHex c ∧ IsHex d)) :
    ObjectID.unmarshalJSON J old b = (written ++ old.drop written.length, false) := by
  subst hp
  unfold ObjectID.unmarshalJSON
  rw [if_neg hb, hv]
  simp only [(jsonString_iff _ _).mpr hc, hl, ne_eq, not_true, if_false]
  have h1 := hexEncode_len written
  simp only [List.length_append, List.length_cons] at hl
  exact decodeInto_bad _ _ _ _ _ _ (decode_encode written) (by omega) hx

/-- two good bytes, then "zz" -/
example := C92_error_changes exDecode (List.replicate 12 9) (34 :: ascii "abcdzz000000000000000000" ++ [34]) (.str (ascii "abcdzz000000000000000000"))
  (ascii "abcd") [0xAB, 0xCD] 122 122 (ascii "000000000000000000") rfl (by decide) (exDecode_plain _ (by decide)) (.inl rfl) (by decide) (by decide)
  (by unfold IsHex; decide)

/-- An error for another reason (no JSON, no string where one is needed, a string of another length) leaves the receiver alone. -/
theorem C92_error_keeps (J : JDecode) (old b : Bytes) (hb : b.length ≠ 12) (h : ∀ v s, J b = some v → Carries v s → s.length ≠ 24) :
    ObjectID.unmarshalJSON J old b = (old, false) := by
  unfold ObjectID.unmarshalJSON
  rw [if_neg hb]
  cases hj : J b with
  | none => rfl
  | some v =>
    simp only
    cases hs : ObjectID.jsonString v with
    | none => rfl
    | some s => simp only [if_pos (h v s hj ((jsonString_iff v s).mp hs))]

example := C92_error_keeps exDecode [1] (ascii "\"5a\"") (by decide) (by
  intro v s h hc
  have : v = .str (ascii "5a") := by
    have h' := exDecode_plain (ascii "5a") (by decide)
    rw [show (34 :: ascii "5a" ++ [34]) = ascii "\"5a\"" by decide, h] at h'
    exact Option.some.inj h'
  subst this
  rcases hc with hc | ⟨m, hm, _⟩
  · cases hc; decide
  · cases hm)

/-- `MustObjectIDFromHex` returns the id that `ObjectIDFromHex` returns, and panics exactly for the texts it refuses. -/
theorem C92_must (s : Bytes) :
    (∀ id, ObjectID.mustFromHex s = .ok id ↔ ObjectID.fromHex s = some id) ∧ (ObjectID.mustFromHex s = .panic ↔ ¬ (s.length = 24 ∧ ∀ c ∈ s, IsHex c)) := by
  have hx : (∃ id, ObjectID.fromHex s = some id) ↔ s.length = 24 ∧ ∀ c ∈ s, IsHex c := by
    unfold ObjectID.fromHex
    constructor
    · rintro ⟨id, h⟩
      cases hd : hexDecode s with
      | none => rw [hd] at h; cases h
      | some b =>
        rw [hd] at h
        simp only [ite_not] at h
        split at h
        · obtain ⟨h1, h2, _⟩ := decode_iff s b hd
          exact ⟨by omega, h2⟩
        · cases h
    · rintro ⟨hl, hh⟩
      obtain ⟨b, hb⟩ := decode_some s hh (by omega)
      obtain ⟨h1, _⟩ := decode_iff s b hb
      exact ⟨b, by simp [hb]; omega⟩
  rw [← hx]
  unfold ObjectID.mustFromHex
  cases ObjectID.fromHex s <;> simp

example := (C92_must (ascii "5a")).2.mpr (fun h => by simp [ascii] at h)

/-- `IsZero` tells whether all twelve bytes are zero. -/
theorem C92_zero (id : Bytes) (h : id.length = 12) : ObjectID.isZero id = true ↔ ∀ c ∈ id, c = 0 := by
  unfold ObjectID.isZero
  rw [beq_iff_eq, ← h]
  exact List.eq_replicate_iff.trans ⟨fun h => h.2, fun h => ⟨rfl, h⟩⟩

example := C92_zero [0, 0, 0, 0, 0, 0, 0, 0, 0, 0, 0, 1] rfl

/-- `String` and the JSON text tell ids apart. -/
theorem C92_distinct (a b : Bytes) :
    (ObjectID.string a = ObjectID.string b → a = b) ∧ (ObjectID.marshalJSON a = ObjectID.marshalJSON b → a = b) := by
  constructor
  · intro h
    unfold ObjectID.string at h
    exact hexEncode_inj (by simpa [ObjectID.hex] using h)
  · intro h
    unfold ObjectID.marshalJSON at h
    exact hexEncode_inj (by simpa [ObjectID.hex] using h)

/-- `String` is the digits that give the id back, between `ObjectID("` and `")`. -/
theorem C92_text (id : Bytes) (h : id.length = 12) :
    ∃ s, ObjectID.string id = ascii "ObjectID(\"" ++ s ++ ascii "\")" ∧ ObjectID.fromHex s = some id := by
  refine ⟨hexEncode id, ?_, ?_⟩
  · unfold ObjectID.string ObjectID.hex
    rw [show ascii "ObjectID(\"" = [79, 98, 106, 101, 99, 116, 73, 68, 40, 34] by decide, show ascii "\")" = [34, 41] by decide]
  · unfold ObjectID.fromHex
    rw [decode_encode id]
    simp [h]

example := C92_text [0x5A, 0, 1, 2, 3, 4, 5, 6, 7, 8, 0xFE, 0xFF] rfl

example : ObjectID.string [0x5A, 0, 1, 2, 3, 4, 5, 6, 7, 8, 0xFE, 0xFF] = ascii "ObjectID(\"5a000102030405060708feff\")" := by decide

end Birch.Props
