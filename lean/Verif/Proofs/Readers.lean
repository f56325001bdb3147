import Verif.Proofs.Access
import Verif.Proofs.Construct

/- The `Reader*` accessors on represented values. -/

namespace Birch.Proofs
open Birch Model Spec

attribute [local irreducible] i32 u32 u32i u64i i64
set_option linter.unusedSimpArgs false
set_option linter.unusedVariables false

theorem rawReader_wrap {hd post body : Bytes} (hl : hd.length + (body.length + 5) + post.length < 2147483648) :
    rawReader (hd ++ (wrapDoc body ++ post)) hd.length = .ok (wrapDoc body) := by
  unfold rawReader
  have s1 : slice (hd ++ (wrapDoc body ++ post)) hd.length (hd.length + 4) = .ok (le32 (body.length + 5)) := by
    rw [wrapDoc, List.append_assoc, List.append_assoc]; exact slice_mid _ _ _ rfl (by simp)
  have s2 : slice (hd ++ (wrapDoc body ++ post)) hd.length (hd.length + (body.length + 5)) = .ok (wrapDoc body) :=
    slice_mid _ _ _ rfl (by simp)
  rw [u32_small (n := hd.length + 4) (by omega), s1]
  simp only [Res.bind_ok]
  rw [readi32_le32_nat' (by omega)]
  simp only [Res.bind_ok]
  rw [u32i_nat (by omega), u32_small (by omega), s2]

theorem readerDocument_rep {fuel : Nat} {v : Value} {k : Bytes} {fs : Fields} (h : Rep v k (.doc fs))
    (hl : (encDoc fs).length < 2147483648) (hf : (encDoc fs).length < fuel) :
    readerDocument fuel v = .ok (encDoc fs) := by
  unfold readerDocument
  rw [expect_ok h (by rfl)]
  simp only [Res.bind_ok]
  cases v with
  | raw s o data =>
    simp only [Rep] at h
    obtain ⟨hk, wf, hl, pre, post, rfl, rfl, rfl⟩ := h
    simp only [BVal.enc, List.length_append, List.length_cons, wrapDoc_length] at hl
    rw [raw_form, raw_len (x := (BVal.doc fs).tag)]
    exact rawReader_wrap (by simp; omega)
  | withDoc s o data d =>
    simp only [Rep] at h
    obtain ⟨hk, hl', pre, post, rfl, rfl, rfl, h⟩ := h
    simp only [getReader]
    rw [docMarshal_rep fuel h hl hf]; rfl

/-- `ReaderArray` on an array still in its raw form -/
theorem readerArray_raw {fuel s o : Nat} {data : Bytes} {k : Bytes} {vs : Vals} (h : Rep (.raw s o data) k (.array vs)) :
    readerArray fuel (.raw s o data) = .ok (BVal.array vs).enc := by
  unfold readerArray
  rw [expect_ok h (by rfl)]
  simp only [Res.bind_ok]
  simp only [Rep] at h
  obtain ⟨hk, wf, hl, pre, post, rfl, rfl, rfl⟩ := h
  simp only [BVal.enc, List.length_append, List.length_cons, wrapDoc_length] at hl
  rw [raw_form, raw_len (x := (BVal.array vs).tag)]
  exact rawReader_wrap (by simp; omega)

theorem code_form {v : Value} {k c : Bytes} {fs : Fields} (h : Rep v k (.codeScope c fs)) :
    ∃ (hd l tl : Bytes), v.data = hd ++ (l ++ (encString c ++ tl)) ∧ v.offset = hd.length ∧ l.length = 4 ∧
      hd.length + 4 + c.length + 5 < 2147483648 ∧
      ∀ s o data, v = .raw s o data → ∃ post, l = le32 (c.length + 5 + (fs.enc.length + 5) + 4) ∧ tl = wrapDoc fs.enc ++ post ∧
        hd.length + 4 + c.length + 5 + (fs.enc.length + 5) < 2147483648 := by
  have hn : (BVal.codeScope c fs).enc.length = c.length + fs.enc.length + 14 := by simp [BVal.enc]; omega
  cases v with
  | raw s o data =>
    simp only [Rep] at h
    obtain ⟨hk, wf, hl, pre, post, rfl, rfl, rfl⟩ := h
    simp only [List.length_append, List.length_cons, hn] at hl
    refine ⟨pre ++ (BVal.codeScope c fs).tag :: (k ++ [0]), le32 (c.length + 5 + (fs.enc.length + 5) + 4), wrapDoc fs.enc ++ post, ?_, ?_, by simp, by simp; omega, ?_⟩
    · simp [Value.data, BVal.enc]
    · simp [Value.offset]; omega
    · intro _ _ _ _
      exact ⟨post, rfl, rfl, by simp; omega⟩
  | withDoc s o data d =>
    simp only [Rep] at h
    obtain ⟨hk, hl, pre, post, rfl, rfl, rfl, ⟨l, post', h4, rfl⟩, h⟩ := h
    simp only [List.length_append, List.length_cons, encString_length] at hl
    exact ⟨pre ++ (BVal.codeScope c fs).tag :: (k ++ [0]), l, post', by simp [Value.data], by simp [Value.offset]; omega, h4, by simp; omega,
      fun _ _ _ h => by cases h⟩

theorem readerCode_rep {fuel : Nat} {v : Value} {k c : Bytes} {fs : Fields} (h : Rep v k (.codeScope c fs))
    (hl : (encDoc fs).length < 2147483648) (hf : (encDoc fs).length < fuel) :
    readerCodeWithScope fuel v = .ok (c, encDoc fs) := by
  unfold readerCodeWithScope getCode
  rw [expect_ok h (by rfl)]
  simp only [Res.bind_ok]
  obtain ⟨hd, l, tl, e1, e2, h4, hlen, hraw⟩ := code_form h
  have s1 : slice v.data (hd.length + 4) (hd.length + 8) = .ok (le32 (c.length + 1)) := by
    have := slice_mid (hd ++ l) (le32 (c.length + 1)) (c ++ 0 :: tl) (lo := hd.length + 4) (hi := hd.length + 8) (by simp [h4]) (by simp [h4])
    rw [e1]; simpa [encString] using this
  have s2 : slice v.data (hd.length + 8) (hd.length + 8 + c.length) = .ok c := by
    have := slice_mid (hd ++ (l ++ le32 (c.length + 1))) c (0 :: tl) (lo := hd.length + 8) (hi := hd.length + 8 + c.length) (by simp [h4]) (by simp [h4])
    rw [e1]; simpa [encString] using this
  rw [e2, u32_small (n := hd.length + 4) (by omega), u32_small (n := hd.length + 8) (by omega), s1]
  simp only [Res.bind_ok]
  rw [readi32_le32_nat' (by omega)]
  simp only [Res.bind_ok]
  rw [u32i_nat (n := c.length + 1) (by omega), u32i_small (by omega) (by omega),
    show ((hd.length : Int) + 8 + ((c.length + 1 : Nat) : Int) - 1).toNat = hd.length + 8 + c.length by omega, s2]
  simp only [Res.bind_ok]
  cases v with
  | raw s o data =>
    obtain ⟨post, rfl, rfl, hl2⟩ := hraw s o data rfl
    simp only [Value.data, Value.offset] at e1 e2
    have s0 : slice data hd.length (hd.length + 4) = .ok (le32 (c.length + 5 + (fs.enc.length + 5) + 4)) := by
      rw [e1]; exact slice_mid _ _ _ rfl (by simp)
    have s5 : slice data (hd.length + 8 + (c.length + 1)) (hd.length + (c.length + 5 + (fs.enc.length + 5) + 4)) = .ok (encDoc fs) := by
      have := slice_mid (hd ++ (le32 (c.length + 5 + (fs.enc.length + 5) + 4) ++ encString c)) (encDoc fs) post
        (lo := hd.length + 8 + (c.length + 1)) (hi := hd.length + (c.length + 5 + (fs.enc.length + 5) + 4)) (by simp [encString_length]; omega) (by simp [encString_length, encDoc]; omega)
      rw [e1]; simpa [encDoc] using this
    simp only
    rw [e2, u32_small (n := hd.length + 4) (by omega), s0]
    simp only [Res.bind_ok]
    rw [readi32_le32_nat' (by omega)]
    simp only [Res.bind_ok]
    rw [u32i_nat (n := c.length + 1) (by omega), u32_small (n := hd.length + 8 + (c.length + 1)) (by omega), u32i_nat (by omega), u32_small (by omega), s5]
    rfl
  | withDoc s o data d =>
    simp only [Rep] at h
    obtain ⟨hk, hl', pre, post, rfl, rfl, rfl, _, h⟩ := h
    simp only
    rw [docMarshal_rep fuel h hl hf]; rfl

theorem subDocumentFromReader_rep (k : Bytes) (fs : Fields) (hk : NulFree k) (wf : fs.WF)
    (hl : k.length + 2 + (encDoc fs).length < 2147483648) :
    ∃ v, EC.subDocumentFromReader k (encDoc fs) = .ok v ∧ Rep v k (.doc fs) := by
  refine ⟨_, ?_, rep_raw0 (t := .doc fs) hk wf hl⟩
  unfold EC.subDocumentFromReader
  rw [u32_small (n := 1 + k.length + 1 + (encDoc fs).length) (by omega), (byte_atomic 3).fits 0 _ (by simp; omega)]
  simp only [Res.bind_ok, Bool.false_eq_true, if_false]
  rw [(cstring_atomic k).fits 1 _ (by rw [splice_length (by simp; omega)]; simp; omega)]
  simp only [Res.bind_ok, Bool.false_eq_true, if_false]
  rw [splice_splice (by simp) (by simp; omega)]
  rw [copyAt_splice (by rw [splice_length (by simp; omega)]; simp)]
  simp only [Res.bind_ok]
  rw [splice_splice (by simp; omega) (by simp), splice_all (by simp; omega), u32_small (by omega),
    show 1 + k.length + 1 = k.length + 2 by omega]
  simp [BVal.tag, BVal.enc, encDoc]

end Birch.Proofs
