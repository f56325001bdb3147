import Verif.Proofs.ExtJsonSafe
import Verif.Props.ExtJsonRead

/-
C61: when reading JSON does not panic.
-/

namespace Birch.Props
open Birch Spec Spec.ExtJson Model Model.ExtJson Proofs Proofs.ExtJson

/-- Any text at all, unless it is an object in which a reserved key has a value of the wrong kind: `UnmarshalJSON` of a document returns, with or without an error, and only
    adds to the document. -/
theorem C61_safe (S : Gjson.Strconv) (C : Clock) (t : Bytes) (hl : t.length < 2 ^ 28) (ht : ∀ es, JsonText.Text true t (.obj es) → TameFields es) (e : Doc) :
    ∃ added err, Returns (fun n => unmarshalDocument S C e t n) (.ok (e ++ added, err)) := by
  by_cases h : ∃ es ws, JsonText.Text true t (.obj es) ∧ JsonText.ConvElems S es ws
  · obtain ⟨es, ws, h1, h2⟩ := h
    have := unmarshalDocument_text (C := C) h1 (fun hm => by cases C55_minus h1 hm) h2 e
    obtain ⟨w, t', w', he, -, hv, -⟩ := id h1
    have hs : SmallElems (2 ^ 28) ws := small_val hv (.obj h2) (by subst he; simp at hl; omega)
    obtain ⟨a, err, h⟩ := clean_appendAll _ e (clean_fields (C := C) es ws h2 (ht es h1) hs)
    rw [h] at this
    exact ⟨a, err, this⟩
  · exact ⟨[], some .other, by simpa using C61_error S C t h e⟩

/-- `{"a":{"$timestamp":{"i":"x"}}}` -/
def tameText : Bytes := ascii "{\"a\":{\"$timestamp\":{\"i\":\"x\"}}}"

def tameElems : JsonText.Jes := .cons [97] (.obj (.cons (ascii "$timestamp") (.obj (.cons [105] (.str [120]) .nil)) .nil)) .nil

theorem tameText_val : JsonText.Val false tameText (.obj tameElems) := by
  have e : tameText = 123 :: (([] ++ 34 :: ([97] ++ 34 :: ([] ++ 58 :: ([] ++ ((123 :: (([] ++ 34 :: ([36, 116, 105, 109, 101, 115, 116, 97, 109, 112] ++ 34 :: ([] ++ 58 :: ([] ++
    ((123 :: (([] ++ 34 :: ([105] ++ 34 :: ([] ++ 58 :: ([] ++ ((34 :: ([120] ++ [34])) ++ []))))) ++ [125])) ++ []))))) ++ [125])) ++ []))))) ++ [125]) := by decide
  have pl : ∀ {c : UInt8} {s u}, 35 ≤ c → c ≠ 92 → JsonText.Chars false s u → JsonText.Chars false (c :: s) (c :: u) := fun {c s u} h1 h2 h => .plain
    (by simp only [UInt8.le_iff_toNat_le] at *; simp at *; omega) (by rintro rfl; revert h1; decide) h2 h
  rw [e, tameElems, show ascii "$timestamp" = [36, 116, 105, 109, 101, 115, 116, 97, 109, 112] by decide]
  refine .obj (.last Gjson.ws_nil (pl (by decide) (by decide) .nil) Gjson.ws_nil Gjson.ws_nil (.obj (.last Gjson.ws_nil ?_ Gjson.ws_nil Gjson.ws_nil
    (.obj (.last Gjson.ws_nil (pl (by decide) (by decide) .nil) Gjson.ws_nil Gjson.ws_nil (.str (pl (by decide) (by decide) .nil)) Gjson.ws_nil)) Gjson.ws_nil)) Gjson.ws_nil)
  repeat refine pl (by decide) (by decide) ?_
  exact .nil

/-- the timestamp has no `t` and a string as `i` -/
example (S : Gjson.Strconv) (C : Clock) (e : Doc) : ∃ added err, Returns (fun n => unmarshalDocument S C e tameText n) (.ok (e ++ added, err)) :=
  C61_safe S C _ (by decide) (fun es h => by
    have hm : tameText.getLast? ≠ some 45 := by decide
    have h1 := Gjson.unmarshalDocument_obj S h hm (Nat.le_refl _)
    have h2 := Gjson.unmarshalDocument_obj S (val_text tameText_val) hm (Nat.le_refl _)
    have h3 : JsonText.ConvElems S tameElems _ := .cons (.obj (.cons (.obj (.cons .str .nil)) .nil)) .nil
    rw [(Gjson.convElems_iff S _ _).mp h3, h1, ← Gjson.convElems_iff] at h2
    cases h2 with | cons a b =>
    cases b
    cases a with | obj a =>
    cases a with | cons a b =>
    cases a
    refine ⟨⟨?_, fun _ => trivial, ?_, ?_⟩, trivial⟩ <;> intro h <;> exfalso <;> revert h <;> decide +kernel) e

/-- … of an array -/
theorem C61_safe_array (S : Gjson.Strconv) (C : Clock) (t : Bytes) (hl : t.length < 2 ^ 28) (ht : ∀ js, JsonText.Text true t (.arr js) → TameVals js) (e : Doc) :
    ∃ added err, Returns (fun n => unmarshalArray S C e t n) (.ok (e ++ added, err)) := by
  by_cases h : ∃ js ws, JsonText.Text true t (.arr js) ∧ JsonText.ConvVals S js ws
  · obtain ⟨es, ws, h1, h2⟩ := h
    have := unmarshalArray_text (C := C) h1 (fun hm => by cases C55_minus h1 hm) h2 e
    obtain ⟨w, t', w', he, -, hv, -⟩ := id h1
    have hs : SmallVals (2 ^ 28) ws := small_val hv (.arr h2) (by subst he; simp at hl; omega)
    obtain ⟨a, err, h⟩ := clean_appendAll _ e (clean_vals (C := C) es ws h2 (ht es h1) hs)
    rw [h] at this
    exact ⟨a, err, this⟩
  · exact ⟨[], some .other, by simpa using C61_array_error S C t h e⟩

/-- … of a value -/
theorem C61_safe_value (S : Gjson.Strconv) (C : Clock) (t : Bytes) (hl : t.length < 2 ^ 28) (ht : ∀ j, JsonText.Text true t j → Tame j) :
    (∃ v, Returns (fun n => unmarshalValue S C t n) (.ok v)) ∨ ∃ err, Returns (fun n => unmarshalValue S C t n) (.err err) := by
  by_cases h : ∃ j w, JsonText.Text true t j ∧ t.getLast? ≠ some 45 ∧ JsonText.Conv S j w
  · obtain ⟨j, w, h1, h2, h3⟩ := h
    have := unmarshalValue_conv (C := C) h1 h2 h3
    obtain ⟨w', t', w'', he, -, hv, -⟩ := id h1
    rcases clean_conv (C := C) j w [] h3 (ht j h1) (small_val hv h3 (by subst he; simp at hl; omega)) (by simp) with ⟨v, h⟩ | ⟨err, h⟩
    · rw [h] at this; exact .inl ⟨v, this⟩
    · rw [h] at this; exact .inr ⟨err, this⟩
  · exact .inr ⟨.other, C61_value_error S C t h⟩

end Birch.Props
