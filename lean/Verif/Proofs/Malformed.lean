import Verif.Proofs.Compare
import Verif.Proofs.DocView
import Verif.Model.BList

/- Values that are cut off or of no type, and nil elements. -/

namespace Birch.Proofs.Malformed
open Birch Model Spec Proofs

theorem readLength_prefix (p q : Bytes) : readLength p = none ∨ readLength p = readLength (p ++ q) := by
  match p with
  | [] => exact .inl rfl
  | [_] => exact .inl rfl
  | [_, _] => exact .inl rfl
  | [_, _, _] => exact .inl rfl
  | _ :: _ :: _ :: _ :: _ => exact .inr rfl

theorem indexNul_prefix (p q : Bytes) : indexNul p = none ∨ indexNul p = indexNul (p ++ q) := by
  cases h : indexNul p with
  | none => exact .inl rfl
  | some n =>
    right
    unfold indexNul at h ⊢
    rw [List.findIdx?_append, h]; rfl

theorem indexNul_lt {p : Bytes} {n : Nat} (h : indexNul p = some n) : n < p.length := by
  unfold indexNul at h
  exact (List.findIdx?_eq_some_iff_findIdx_eq.mp h).1

theorem valueLength_prefix (p q : Bytes) (t : UInt8) : valueLength p t = none ∨ valueLength p t = valueLength (p ++ q) t := by
  unfold valueLength
  by_cases h1 : t = 0x04 ∨ t = 0x03 ∨ t = 0x0F
  · simp only [if_pos h1]; exact readLength_prefix p q
  simp only [if_neg h1]
  by_cases h2 : t = 0x05
  · simp only [if_pos h2]; rcases readLength_prefix p q with h | h
    · left; rw [h]; rfl
    · right; rw [h]
  simp only [if_neg h2]
  by_cases h3 : t = 0x08
  · simp only [if_pos h3]; simp
  simp only [if_neg h3]
  by_cases h4 : t = 0x0C
  · simp only [if_pos h4]; rcases readLength_prefix p q with h | h
    · left; rw [h]; rfl
    · right; rw [h]
  simp only [if_neg h4]
  by_cases h5 : t = 0x09 ∨ t = 0x01 ∨ t = 0x12 ∨ t = 0x11
  · simp only [if_pos h5]; simp
  simp only [if_neg h5]
  by_cases h6 : t = 0x13
  · simp only [if_pos h6]; simp
  simp only [if_neg h6]
  by_cases h7 : t = 0x10
  · simp only [if_pos h7]; simp
  simp only [if_neg h7]
  by_cases h8 : t = 0x0D ∨ t = 0x02 ∨ t = 0x0E
  · simp only [if_pos h8]; rcases readLength_prefix p q with h | h
    · left; rw [h]; rfl
    · right; rw [h]
  simp only [if_neg h8]
  by_cases h9 : t = 0x7F ∨ t = 0xFF ∨ t = 0x0A ∨ t = 0x06
  · simp only [if_pos h9]; simp
  simp only [if_neg h9]
  by_cases h10 : t = 0x07
  · simp only [if_pos h10]; simp
  simp only [if_neg h10]
  by_cases h11 : t = 0x0B
  · simp only [if_pos h11]
    cases hp : indexNul p with
    | none => exact .inl rfl
    | some n =>
      have hn := indexNul_lt hp
      rcases indexNul_prefix p q with h | h
      · rw [hp] at h; cases h
      rw [hp] at h
      rw [← h]
      simp only
      cases hp' : indexNul (p.drop (n + 1)) with
      | none => exact .inl rfl
      | some k =>
        right
        rcases indexNul_prefix (p.drop (n + 1)) q with h' | h'
        · rw [hp'] at h'; cases h'
        rw [hp'] at h'
        rw [List.drop_append_of_le_length (by omega), ← h']
  · simp only [if_neg h11]; simp

theorem readValue_truncated {t : BVal} (wf : t.WF) (hl : t.enc.length < 2147483648) {p q : Bytes} (he : t.enc = p ++ q) (hq : q ≠ []) :
    readValue p t.tag = .ok none := by
  unfold readValue
  have hlen : p.length < t.enc.length := by
    rw [he]; have := List.length_pos_iff.mpr hq; simp; omega
  rcases valueLength_prefix p q t.tag with h | h
  · rw [h]
  · rw [h, ← he]
    have := valueLength_enc wf hl []
    rw [List.append_nil] at this
    rw [this]
    simp only
    rw [if_pos (by omega)]

theorem readValue_unknown {τ : UInt8} (h : ∀ t : BVal, t.tag ≠ τ) (b : Bytes) : readValue b τ = .ok none := by
  have e : valueLength b τ = none := by
    unfold valueLength
    have h1 := h (.double 0); have h2 := h (.string []); have h3 := h (.doc .nil); have h4 := h (.array .nil); have h5 := h (.binary 0 [])
    have h6 := h .undefined; have h7 := h (.oid []); have h8 := h (.bool true); have h9 := h (.datetime 0); have h10 := h .null
    have h11 := h (.regex [] []); have h12 := h (.dbpointer [] []); have h13 := h (.js []); have h14 := h (.symbol []); have h15 := h (.codeScope [] .nil)
    have h16 := h (.int32 0); have h17 := h (.timestamp 0 0); have h18 := h (.int64 0); have h19 := h (.decimal 0 0); have h20 := h .minKey; have h21 := h .maxKey
    simp only [BVal.tag, ne_eq, eq_comm (b := τ)] at *
    simp [*]
  unfold readValue; rw [e]

/-! ### nil elements -/

section
open Model.DocHeap Proofs.DocHeap
variable {E : Type}

theorem appendLoop_nil (grow : Nat → Nat) (src : Slice) (xs : List (Option E)) (hlen : src.len = xs.length) : ∀ (n i : Nat) (h : Heap E) (d : Slice),
    h[src.arr]? = some xs → d.arr ≠ src.arr → i + n = xs.length → none ∈ xs.drop i → appendLoop grow h d src i n = .panic
  | 0, i, h, d, _, _, hi, hn => by rw [List.drop_of_length_le (by omega)] at hn; simp at hn
  | n + 1, i, h, d, hs, hd, hi, hn => by
    have hlt : i < xs.length := by omega
    have hg : DocHeap.get h src i = .ok xs[i] := by
      unfold DocHeap.get
      rw [if_pos (by omega), array_eq hs, List.getElem?_eq_getElem hlt]
    unfold appendLoop
    rw [hg, Res.bind_ok]
    rw [List.drop_eq_getElem_cons hlt] at hn
    cases hx : xs[i] with
    | none => rfl
    | some e =>
      rw [hx] at hn
      simp only [List.mem_cons, reduceCtorEq, false_or] at hn
      simp only [append1]
      have hlt' := (List.getElem?_eq_some_iff.mp hs).1
      split
      · exact appendLoop_nil grow src xs hlen n (i + 1) _ _ (by simp only [List.getElem?_set]; rw [if_neg hd]; exact hs) hd (by omega) hn
      · exact appendLoop_nil grow src xs hlen n (i + 1) _ _ (by rw [List.getElem?_append_left hlt']; exact hs) (by simp only; omega) (by omega) hn

theorem blist_append_nil : ∀ (args : List (Option E)) (l : List E), none ∈ args → BList.append l args = .panic
  | none :: _, _, _ => rfl
  | some e :: es, l, h => blist_append_nil es _ (by simpa using h)

theorem blist_prepend_nil : ∀ (args : List (Option E)) (l : List E), none ∈ args → BList.prepend l args = .panic
  | none :: _, _, _ => rfl
  | some e :: es, l, h => blist_prepend_nil es _ (by simpa using h)

end

end Birch.Proofs.Malformed
