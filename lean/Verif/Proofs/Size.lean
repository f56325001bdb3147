import Verif.Proofs.Basic
import Verif.Model.Value
import Verif.Spec.Bson

/- The size computation and the reader loops on canonical bytes. -/

namespace Birch.Proofs
open Birch Model Spec

@[simp] theorem encString_length (s : Bytes) : (encString s).length = s.length + 5 := by
  simp [encString]; omega

@[simp] theorem wrapDoc_length (s : Bytes) : (wrapDoc s).length = s.length + 5 := by
  simp [wrapDoc]; omega

theorem takeWhile_nulFree {s : Bytes} (h : NulFree s) (r : Bytes) :
    (s ++ 0 :: r).takeWhile (· ≠ 0) = s := by
  rw [List.takeWhile_append_of_pos (by intro c hc; simpa using h c hc)]
  simp

theorem cstrAt_append {s : Bytes} (h : NulFree s) (hd r : Bytes) :
    cstrAt (hd ++ (s ++ 0 :: r)) hd.length = s := by
  unfold cstrAt
  rw [List.drop_left, takeWhile_nulFree h]

theorem slice_rd4 (hd tl : Bytes) (n : Nat) (h : hd.length + 4 < 4294967296) :
    slice (hd ++ (le32 n ++ tl)) hd.length (u32 (hd.length + 4)) = .ok (le32 n) :=
  slice_mid _ _ _ rfl (by rw [u32_small h]; simp)

/-- closes goals about wrapped integers: unfold the conversions, split, `omega` -/
macro "wrap_arith" : tactic =>
  `(tactic| ((repeat rw [if_neg (by (try simp only [u32, i32, u32i] at *); omega)])
             first
               | rfl
               | (congr 1; done)
               | (congr 1; (try simp only [u32, i32, u32i] at *); omega)))

set_option linter.unusedSimpArgs false
set_option linter.unusedVariables false

/-- `validate(true)` on a canonical value gives the length of its encoding. -/
theorem rawSize_enc (t : BVal) (wf : t.WF) (hd post : Bytes) (start : Nat)
    (hs : hd[start]? = some t.tag) (hlen : hd.length + t.enc.length + post.length < 2147483648) :
    rawSize (hd ++ (t.enc ++ post)) start hd.length = .ok t.enc.length := by
  have hne : hd ++ (t.enc ++ post) ≠ [] := by
    intro h; simp at h; simp [h.1] at hs
  have hi : idx (hd ++ (t.enc ++ post)) start = .ok t.tag := by
    apply idx_eq
    rw [List.getElem?_append_left, hs]
    rcases Nat.lt_or_ge start hd.length with h | h
    · exact h
    · simp [h] at hs
  unfold rawSize
  rw [if_neg hne, hi]
  simp only [List.length_append, Res.bind_ok]
  clear hi hne
  have str : ∀ s, t.enc = encString s → t.enc.length = s.length + 5 ∧
      slice (hd ++ (t.enc ++ post)) hd.length (u32 (hd.length + 4)) = .ok (le32 (s.length + 1)) := by
    intro s h
    rw [h] at hlen ⊢
    refine ⟨encString_length s, ?_⟩
    simp only [encString_length] at hlen
    rw [encString, List.append_assoc, List.append_assoc]
    exact slice_rd4 _ _ _ (by omega)
  generalize htag : t.tag = tg at *
  generalize hn : t.enc.length = n at *
  cases t with
  | string s =>
    obtain ⟨h2, h1⟩ := str s rfl
    subst htag
    simp only [BVal.tag]
    simp [h1, readi32_le32_nat' (n := s.length + 1) (by omega)]
    wrap_arith
  | js s =>
    obtain ⟨h2, h1⟩ := str s rfl
    subst htag
    simp only [BVal.tag]
    simp [h1, readi32_le32_nat' (n := s.length + 1) (by omega)]
    wrap_arith
  | symbol s =>
    obtain ⟨h2, h1⟩ := str s rfl
    subst htag
    simp only [BVal.tag]
    simp [h1, readi32_le32_nat' (n := s.length + 1) (by omega)]
    wrap_arith
  | doc fs =>
    clear str
    simp only [BVal.enc, wrapDoc_length] at *
    have h1 : slice (hd ++ (wrapDoc fs.enc ++ post)) hd.length (u32 (hd.length + 4)) = .ok (le32 (fs.enc.length + 5)) := by
      rw [wrapDoc, List.append_assoc, List.append_assoc]
      exact slice_rd4 _ _ _ (by omega)
    subst htag
    simp only [BVal.tag]
    simp [h1, readi32_le32_nat' (n := fs.enc.length + 5) (by omega)]
    wrap_arith
  | array fs =>
    clear str
    simp only [BVal.enc, wrapDoc_length] at *
    have h1 : slice (hd ++ (wrapDoc (fs.encFrom 0) ++ post)) hd.length (u32 (hd.length + 4)) = .ok (le32 ((fs.encFrom 0).length + 5)) := by
      rw [wrapDoc, List.append_assoc, List.append_assoc]
      exact slice_rd4 _ _ _ (by omega)
    subst htag
    simp only [BVal.tag]
    simp [h1, readi32_le32_nat' (n := (fs.encFrom 0).length + 5) (by omega)]
    wrap_arith
  | binary st b =>
    have hb : ∃ m, m + 5 = n ∧
        slice (hd ++ ((BVal.binary st b).enc ++ post)) hd.length (u32 (hd.length + 4)) = .ok (le32 m) ∧
        idx (hd ++ ((BVal.binary st b).enc ++ post)) (u32 (hd.length + 4)) = .ok st := by
      simp only [BVal.enc] at hn ⊢
      split at hn <;> rename_i h
      · rw [if_pos h]
        simp at hn
        refine ⟨b.length + 4, by omega, ?_, ?_⟩
        · simp only [List.append_assoc]; exact slice_rd4 _ _ _ (by omega)
        · rw [u32_small (by omega)]
          have := idx_append (hd ++ le32 (b.length + 4)) st (le32 b.length ++ b ++ post)
          simpa using this
      · rw [if_neg h]
        simp at hn
        refine ⟨b.length, by omega, ?_, ?_⟩
        · simp only [List.append_assoc]; exact slice_rd4 _ _ _ (by omega)
        · rw [u32_small (by omega)]
          have := idx_append (hd ++ le32 b.length) st (b ++ post)
          simpa using this
    obtain ⟨m, h1, h2, h3⟩ := hb
    have hst : ¬ (5 < st ∧ st < 128) := by
      simp only [BVal.WF, UInt8.lt_iff_toNat_lt, UInt8.le_iff_toNat_le] at *
      have e1 : (5 : UInt8).toNat = 5 := rfl
      have e2 : (128 : UInt8).toNat = 128 := rfl
      omega
    subst htag
    simp only [BVal.tag]
    simp [h2, h3, readi32_le32_nat' (n := m) (by omega)]
    rw [if_neg (by simp only [u32]; omega), if_neg hst]
    clear hst wf hs h2 h3 str
    wrap_arith
  | regex p o =>
    obtain ⟨wp, wo⟩ := wf
    simp only [BVal.enc] at hn
    have e1 : cstrAt (hd ++ ((BVal.regex p o).enc ++ post)) hd.length = p := by
      have := cstrAt_append wp hd (o ++ [0] ++ post); simpa [BVal.enc] using this
    have e2 : cstrAt (hd ++ ((BVal.regex p o).enc ++ post)) (hd.length + p.length + 1) = o := by
      have := cstrAt_append wo (hd ++ p ++ [0]) post
      simpa [BVal.enc, Nat.add_assoc] using this
    simp at hn
    subst htag
    simp only [BVal.tag, e1, e2]
    simp
    wrap_arith
  | dbpointer ns id =>
    simp only [BVal.WF] at wf
    simp only [BVal.enc, encString_length, List.length_append] at hn
    have h1 : slice (hd ++ ((BVal.dbpointer ns id).enc ++ post)) hd.length (u32 (hd.length + 4)) = .ok (le32 (ns.length + 1)) := by
      simp only [BVal.enc, encString, List.append_assoc]
      exact slice_rd4 _ _ _ (by omega)
    subst htag
    simp only [BVal.tag]
    simp [h1, readi32_le32_nat' (n := ns.length + 1) (by omega)]
    clear h1 str hs
    wrap_arith
  | codeScope c fs =>
    simp only [BVal.enc, encString_length, wrapDoc_length, le32_length, List.length_append] at hn
    have h1 : slice (hd ++ ((BVal.codeScope c fs).enc ++ post)) hd.length (u32 (hd.length + 4)) = .ok (le32 (c.length + 5 + (fs.enc.length + 5) + 4)) := by
      simp only [BVal.enc, List.append_assoc, List.length_append, encString_length, wrapDoc_length]
      exact slice_rd4 _ _ _ (by omega)
    subst htag
    simp only [BVal.tag]
    simp [h1, readi32_le32_nat' (n := c.length + 5 + (fs.enc.length + 5) + 4) (by omega)]
    clear h1 str hs
    wrap_arith
  | bool b =>
    have h1 : idx (hd ++ ((BVal.bool b).enc ++ post)) hd.length = .ok (if b = true then 1 else 0) := by
      simp only [BVal.enc]; exact idx_append _ _ _
    simp [BVal.enc] at hn
    subst htag
    simp only [BVal.tag]
    simp [h1]
    cases b <;> (try simp) <;> clear str hs h1 <;> wrap_arith
  | _ =>
    simp [BVal.enc, BVal.WF] at hn wf
    subst htag
    simp only [BVal.tag]
    simp
    try wrap_arith

end Birch.Proofs
