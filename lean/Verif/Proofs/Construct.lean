import Verif.Proofs.Encoders
import Verif.Model.Programs

/- Constructors produce represented values. -/

namespace Birch.Proofs
open Birch Model Spec

set_option linter.unusedSimpArgs false
set_option linter.unusedVariables false

theorem mkElem_good {k e : Bytes} {t : UInt8} {f : Nat → Bytes → Res Elements.Out} {size : Nat}
    (h : Good (t :: (k ++ 0 :: e)) f) (hs : size = k.length + 2 + e.length) (hl : k.length + 2 + e.length < 2147483648) :
    mkElem size k f = .ok (.raw 0 (k.length + 2) (t :: (k ++ 0 :: e))) := by
  unfold mkElem
  rw [u32_small (n := size) (by omega), h.fits 0 _ (by simp; omega)]
  simp only [Res.bind_ok, Bool.false_eq_true, if_false]
  rw [splice_all (by simp; omega), u32_small (by omega), show 1 + k.length + 1 = k.length + 2 by omega]

theorem header_ok (t : UInt8) (k : Bytes) (hl : k.length + 2 < 2147483648) : EC.header t k = .ok (t :: (k ++ [0])) := by
  unfold EC.header
  rw [u32_small (n := 1 + k.length + 1) (by omega), (byte_atomic t).fits 0 _ (by simp)]
  simp only [Res.bind_ok, Bool.false_eq_true, if_false]
  rw [(cstring_atomic k).fits 1 _ (by rw [splice_length (by simp)]; simp; omega)]
  simp only [Res.bind_ok, Bool.false_eq_true, if_false]
  rw [splice_splice (by simp) (by simp; omega), splice_all (by simp; omega)]
  simp

/-- a scalar element built at position 0 -/
theorem rep_raw0 {k : Bytes} {t : BVal} (hk : NulFree k) (wf : t.WF) (hl : k.length + 2 + t.enc.length < 2147483648) :
    Rep (.raw 0 (k.length + 2) (t.tag :: (k ++ 0 :: t.enc))) k t := by
  simp only [Rep]
  exact ⟨hk, wf, by simp; omega, [], [], by simp, by simp, by simp⟩

theorem header_rep {k : Bytes} (t : BVal) (x : UInt8) (hx : t.tag = x) (he : t.enc = []) (hk : NulFree k) (wf : t.WF)
    (hl : k.length + 2 + t.enc.length < 2147483648) :
    ∃ v, (do Res.ok (Value.raw 0 (u32 (1 + k.length + 1)) (← EC.header x k))) = Res.ok v ∧ Rep v k t := by
  rw [header_ok x k (by omega), u32_small (by omega), show 1 + k.length + 1 = k.length + 2 by omega]
  refine ⟨_, rfl, ?_⟩
  have := rep_raw0 hk wf hl
  simpa [he, hx] using this

theorem codeWithScope_ok {k c : Bytes} (d : Doc) (hl : k.length + 2 + c.length + 9 < 2147483648) :
    ∃ l, l.length = 4 ∧ EC.codeWithScope k c d = .ok (.withDoc 0 (k.length + 2) (0x0F :: (k ++ 0 :: (l ++ encString c))) d) := by
  refine ⟨le32 (twos32 (i32 ((k.length + c.length + 11 : Nat) : Int))), by simp, ?_⟩
  unfold EC.codeWithScope
  have hs : u32 (1 + k.length + 1 + 4 + 4 + c.length + 1) = k.length + c.length + 11 := by rw [u32_small (by omega)]; omega
  simp only [hs]
  rw [(byte_atomic 0x0F).fits 0 _ (by simp)]
  simp only [Res.bind_ok, Bool.false_eq_true, if_false]
  rw [(cstring_atomic k).fits 1 _ (by rw [splice_length (by simp)]; simp; omega)]
  simp only [Res.bind_ok, Bool.false_eq_true, if_false]
  rw [splice_splice (by simp) (by simp; omega)]
  rw [(int32_atomic _).fits _ _ (by rw [splice_length (by simp; omega)]; simp; omega)]
  simp only [Res.bind_ok, Bool.false_eq_true, if_false]
  rw [splice_splice (by simp; omega) (by simp; omega)]
  rw [(string_good c).fits _ _ (by rw [splice_length (by simp; omega)]; simp [encString_length]; omega)]
  simp only [Res.bind_ok, Bool.false_eq_true, if_false]
  rw [splice_splice (by simp; omega) (by simp [encString_length]; omega), splice_all (by simp [encString_length]; omega),
    u32_small (by omega), show 1 + k.length + 1 = k.length + 2 by omega]
  simp

mutual
/-- every constructor, given a NUL-free key and a well-formed argument of encodable size, builds the value -/
theorem buildVal_rep : ∀ (k : Bytes) (t : BVal), NulFree k → t.WF → k.length + 2 + t.enc.length < 2147483648 →
    ∃ v, buildVal k t = .ok v ∧ Rep v k t
  | k, .double b, hk, wf, hl =>
    ⟨_, mkElem_good (element_good 1 k (double_atomic b).good) (by simp; omega) hl, rep_raw0 hk wf hl⟩
  | k, .string s, hk, wf, hl =>
    ⟨_, mkElem_good (element_good 2 k (string_good s)) (by simp [encString_length]; omega) hl, rep_raw0 hk wf hl⟩
  | k, .doc fs, hk, wf, hl => by
    simp only [BVal.enc, wrapDoc_length] at hl
    obtain ⟨d, hd, hr⟩ := buildDoc_rep fs wf (by omega)
    refine ⟨.withDoc 0 (k.length + 2) (3 :: (k ++ [0])) d, ?_, ?_⟩
    · simp only [buildVal, hd, Res.bind_ok, EC.subDocument]
      rw [header_ok 3 k (by omega), u32_small (by omega), show 1 + k.length + 1 = k.length + 2 by omega]; rfl
    · simp only [Rep]
      exact ⟨hk, by simp; omega, [], [], by simp [BVal.tag], by simp, by simp, hr⟩
  | k, .array vs, hk, wf, hl => by
    simp only [BVal.enc, wrapDoc_length] at hl
    obtain ⟨d, hd, hr⟩ := buildArr_rep vs 0 wf (by omega)
    refine ⟨.withDoc 0 (k.length + 2) (4 :: (k ++ [0])) d, ?_, ?_⟩
    · simp only [buildVal, hd, Res.bind_ok, EC.array]
      rw [header_ok 4 k (by omega), u32_small (by omega), show 1 + k.length + 1 = k.length + 2 by omega]; rfl
    · simp only [Rep]
      exact ⟨hk, by simp; omega, [], [], by simp [BVal.tag], by simp, by simp, hr⟩
  | k, .binary st b, hk, wf, hl =>
    ⟨_, mkElem_good (element_good 5 k (binary_atomic b st).good) (by simp only [BVal.enc]; split <;> simp <;> omega) hl, rep_raw0 hk wf hl⟩
  | k, .undefined, hk, wf, hl => header_rep _ _ rfl rfl hk wf hl
  | k, .oid id, hk, wf, hl =>
    ⟨_, mkElem_good (element_good 7 k (byteSlice_atomic id).good) (by simp only [BVal.WF] at wf; omega) hl, rep_raw0 hk wf hl⟩
  | k, .bool b, hk, wf, hl =>
    ⟨_, mkElem_good (element_good 8 k (boolean_atomic b).good) (by simp; omega) hl, rep_raw0 hk wf hl⟩
  | k, .datetime b, hk, wf, hl =>
    ⟨_, mkElem_good (element_good 9 k (int64_atomic b).good) (by simp; omega) hl, rep_raw0 hk wf hl⟩
  | k, .null, hk, wf, hl => header_rep _ _ rfl rfl hk wf hl
  | k, .regex p o, hk, wf, hl =>
    ⟨_, mkElem_good (regexElement_good k p o) (by simp [BVal.enc]; omega) hl, rep_raw0 hk wf hl⟩
  | k, .dbpointer ns id, hk, wf, hl =>
    ⟨_, mkElem_good (element_good 12 k (dbpointer_good ns id)) (by simp only [BVal.WF] at wf; simp [BVal.enc, encString_length]; omega) hl, rep_raw0 hk wf hl⟩
  | k, .js s, hk, wf, hl =>
    ⟨_, mkElem_good (element_good 13 k (string_good s)) (by simp [encString_length]; omega) hl, rep_raw0 hk wf hl⟩
  | k, .symbol s, hk, wf, hl =>
    ⟨_, mkElem_good (element_good 14 k (string_good s)) (by simp [encString_length]; omega) hl, rep_raw0 hk wf hl⟩
  | k, .codeScope c fs, hk, wf, hl => by
    simp only [BVal.enc, List.length_append, le32_length, encString_length, wrapDoc_length] at hl
    obtain ⟨d, hd, hr⟩ := buildDoc_rep fs wf (by omega)
    obtain ⟨l, h4, he⟩ := codeWithScope_ok (k := k) (c := c) d (by omega)
    refine ⟨_, by simp only [buildVal, hd, Res.bind_ok]; exact he, ?_⟩
    simp only [Rep]
    exact ⟨hk, by simp [encString_length]; omega, [], l ++ encString c, by simp [BVal.tag], by simp, by simp, ⟨l, [], h4, by simp⟩, hr⟩
  | k, .int32 b, hk, wf, hl =>
    ⟨_, mkElem_good (element_good 16 k (int32_atomic b).good) (by simp; omega) hl, rep_raw0 hk wf hl⟩
  | k, .timestamp t i, hk, wf, hl =>
    ⟨_, mkElem_good (element_good 17 k (timestamp_good t i)) (by simp [BVal.enc]; omega) hl, rep_raw0 hk wf hl⟩
  | k, .int64 b, hk, wf, hl =>
    ⟨_, mkElem_good (element_good 18 k (int64_atomic b).good) (by simp; omega) hl, rep_raw0 hk wf hl⟩
  | k, .decimal h l, hk, wf, hl =>
    ⟨_, mkElem_good (element_good 19 k (decimal128_good h l)) (by simp [BVal.enc]; omega) hl, rep_raw0 hk wf hl⟩
  | k, .minKey, hk, wf, hl => header_rep _ _ rfl rfl hk wf hl
  | k, .maxKey, hk, wf, hl => header_rep _ _ rfl rfl hk wf hl
theorem buildDoc_rep : ∀ (fs : Fields), fs.WF → fs.enc.length < 2147483648 →
    ∃ d, buildDoc fs = .ok d ∧ RepFields d fs
  | .nil, _, _ => ⟨[], by simp [buildDoc], by simp [RepFields]⟩
  | .cons k t rest, wf, hl => by
    obtain ⟨hk, ht, hr⟩ := wf
    rw [fieldsEnc_length] at hl
    obtain ⟨v, hv, rv⟩ := buildVal_rep k t hk ht (by omega)
    obtain ⟨d, hd, rd⟩ := buildDoc_rep rest hr (by omega)
    exact ⟨v :: d, by simp [buildDoc, hv, hd], by simp only [RepFields]; exact ⟨rv, rd⟩⟩
theorem buildArr_rep : ∀ (vs : Vals) (i : Nat), vs.WF → (vs.encFrom i).length < 2147483648 →
    ∃ d, buildArr vs = .ok d ∧ RepVals d vs
  | .nil, _, _, _ => ⟨[], by simp [buildArr], by simp [RepVals]⟩
  | .cons t rest, i, wf, hl => by
    obtain ⟨ht, hr⟩ := wf
    rw [encFrom_length] at hl
    obtain ⟨v, hv, rv⟩ := buildVal_rep [] t (by simp [NulFree]) ht (by simp; omega)
    obtain ⟨d, hd, rd⟩ := buildArr_rep rest (i + 1) hr (by omega)
    exact ⟨v :: d, by simp [buildArr, hv, hd], by simp only [RepVals]; exact ⟨⟨_, rv⟩, rd⟩⟩
end

end Birch.Proofs
