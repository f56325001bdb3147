import Verif.Proofs.Order
import Verif.Proofs.Decode

/- `IsEmpty`, `Less` and `Equal` on represented values. -/

namespace Birch.Proofs
open Birch Model Spec

attribute [local irreducible] i32 u32 u32i u64i i64

theorem repFields_len : ∀ {d : Doc} {fs : Fields}, RepFields d fs → d.length = fs.toList.length
  | [], .nil, _ => rfl
  | _ :: _, .cons _ _ _, h => by
    simp only [RepFields] at h
    simp [Fields.toList, repFields_len h.2]
  | [], .cons _ _ _, h => by simp [RepFields] at h
  | _ :: _, .nil, h => by simp [RepFields] at h

theorem repVals_len : ∀ {d : Doc} {vs : Vals}, RepVals d vs → d.length = vs.toList.length
  | [], .nil, _ => rfl
  | _ :: _, .cons _ _, h => by
    simp only [RepVals] at h
    simp [Vals.toList, repVals_len h.2]
  | [], .cons _ _, h => by simp [RepVals] at h
  | _ :: _, .nil, h => by simp [RepVals] at h

mutual
theorem rep_wf : ∀ {v : Value} {k : Bytes} {t : BVal}, Rep v k t → t.WF
  | .raw _ _ _, _, _, h => by simp only [Rep] at h; exact h.2.1
  | .withDoc _ _ _ d, _, t, h => by
    simp only [Rep] at h
    obtain ⟨_, _, _, _, _, _, _, h⟩ := h
    cases t with
    | doc fs => exact repFields_wf h
    | array vs => exact repVals_wf h
    | codeScope c fs => exact repFields_wf h.2
    | _ => exact h.elim
theorem repFields_wf : ∀ {d : List Value} {fs : Fields}, RepFields d fs → fs.WF
  | [], .nil, _ => by simp [Fields.WF]
  | v :: _, .cons k t _, h => by
    simp only [RepFields] at h
    simp only [Fields.WF]
    exact ⟨(rep_key h.1).2.2, rep_wf h.1, repFields_wf h.2⟩
  | [], .cons _ _ _, h => by simp [RepFields] at h
  | _ :: _, .nil, h => by simp [RepFields] at h
theorem repVals_wf : ∀ {d : List Value} {vs : Vals}, RepVals d vs → vs.WF
  | [], .nil, _ => by simp [Vals.WF]
  | v :: _, .cons t _, h => by
    simp only [RepVals] at h
    obtain ⟨⟨k, hk⟩, h2⟩ := h
    simp only [Vals.WF]
    exact ⟨rep_wf hk, repVals_wf h2⟩
  | [], .cons _ _, h => by simp [RepVals] at h
  | _ :: _, .nil, h => by simp [RepVals] at h
end

/-! ### IsEmpty -/

theorem isEmpty_rep {fuel : Nat} {v : Value} {k : Bytes} {t : BVal} (h : Rep v k t)
    (hl : t.enc.length < 2147483648) (hf : t.enc.length < fuel) :
    isEmpty fuel v = .ok (t.isZero || t.oddlyEmpty) := by
  unfold isEmpty
  rw [type_rep h, Res.bind_ok]
  cases t with
  | double b => rw [if_pos (by rfl), double_rep h, Res.bind_ok]; simp [BVal.isZero, BVal.oddlyEmpty, f64IsZero_eq]
  | string s => simp only [BVal.tag, stringValue_rep h, Res.bind_ok]; simp [BVal.isZero, BVal.oddlyEmpty]
  | doc fs =>
    obtain ⟨d, h1, h2⟩ := mutableDocument_rep h hl hf
    rw [if_neg (by simp [BVal.tag]), if_neg (by simp [BVal.tag]), if_pos (by rfl), h1, Res.bind_ok, repFields_len h2]
    simp [BVal.isZero, BVal.oddlyEmpty]
    cases fs.toList <;> simp
  | array vs =>
    obtain ⟨d, h1, h2⟩ := mutableArray_rep h hl hf
    simp only [BVal.tag]
    simp only [h1, Res.bind_ok, repVals_len h2]
    simp [BVal.isZero, BVal.oddlyEmpty]
    cases vs.toList <;> simp
  | codeScope c fs =>
    obtain ⟨d, h1, h2⟩ := mutableCode_rep h hl hf
    simp only [BVal.tag]
    simp only [h1, Res.bind_ok]
    cases c <;> cases hfs : fs.toList <;> simp [BVal.isZero, BVal.oddlyEmpty, hfs]
  | binary st b => simp only [BVal.tag, binary_rep h, Res.bind_ok]; simp [BVal.isZero, BVal.oddlyEmpty]
  | undefined => simp [BVal.tag, BVal.isZero, BVal.oddlyEmpty]
  | oid id =>
    simp only [BVal.tag]
    by_cases hz : id = zeroOid <;> simp [BVal.isZero, BVal.oddlyEmpty, hz]
  | bool b => simp only [BVal.tag, boolean_rep h, Res.bind_ok]; simp [BVal.isZero, BVal.oddlyEmpty]
  | datetime ms => simp only [BVal.tag, dateTime_rep h, Res.bind_ok]; simp [BVal.isZero, BVal.oddlyEmpty]
  | null => simp [BVal.tag, BVal.isZero, BVal.oddlyEmpty]
  | regex p o =>
    simp only [BVal.tag, regex_rep h, Res.bind_ok]
    cases p <;> cases o <;> simp [BVal.isZero, BVal.oddlyEmpty]
  | dbpointer ns id =>
    simp only [BVal.tag, dbPointer_rep h, Res.bind_ok]
    cases ns <;> by_cases hz : id = zeroOid <;> simp [BVal.isZero, BVal.oddlyEmpty, hz]
  | js c => simp only [BVal.tag, javaScript_rep h, Res.bind_ok]; simp [BVal.isZero, BVal.oddlyEmpty]
  | symbol c => simp only [BVal.tag, symbol_rep h, Res.bind_ok]; simp [BVal.isZero, BVal.oddlyEmpty]
  | int32 i => simp only [BVal.tag, int32_rep h, Res.bind_ok]; simp [BVal.isZero, BVal.oddlyEmpty]
  | timestamp t i => simp only [BVal.tag, timestamp_rep h, Res.bind_ok]; simp [BVal.isZero, BVal.oddlyEmpty]
  | int64 i => simp only [BVal.tag, int64_rep h, Res.bind_ok]; simp [BVal.isZero, BVal.oddlyEmpty]
  | decimal hi lo =>
    simp only [BVal.tag, decimal128_rep h, Res.bind_ok]
    by_cases h1 : hi = 0 <;> by_cases h2 : lo = 0 <;> simp [BVal.isZero, BVal.oddlyEmpty, h1, h2]
  | minKey => simp [BVal.tag, BVal.isZero, BVal.oddlyEmpty]
  | maxKey => simp [BVal.tag, BVal.isZero, BVal.oddlyEmpty]

/-! ### Less -/

theorem hexDigit_lt : ∀ m < 16, ∀ n < 16, (hexDigit m < hexDigit n ↔ m < n) ∧ (hexDigit m = hexDigit n ↔ m = n) := by decide

theorem strLt_hex : ∀ a b : Bytes, strLt (hexEncode a) (hexEncode b) = strLt a b
  | _, [] => by simp [hexEncode, strLt]
  | [], _ :: _ => by simp [hexEncode, strLt]
  | a :: as, b :: bs => by
    have ha := a.toNat_lt
    have hb := b.toNat_lt
    obtain ⟨h1, h2⟩ := hexDigit_lt (a.toNat / 16) (by omega) (b.toNat / 16) (by omega)
    obtain ⟨h3, h4⟩ := hexDigit_lt (a.toNat % 16) (by omega) (b.toNat % 16) (by omega)
    simp only [hexEncode, strLt, h1, h2, h3, h4, strLt_hex as bs, UInt8.lt_iff_toNat_lt, decide_eq_true_eq, ← UInt8.toNat_inj]
    congr 1
    cases strLt as bs <;> simp <;> omega

/-- nanoseconds since 1970 -/
def nanos (t : Time) : Int := t.sec * 1000000000 + t.nsec

theorem timeUnix_spec (s n : Int) : nanos (timeUnix s n) = s * 1000000000 + n ∧ 0 ≤ (timeUnix s n).nsec ∧ (timeUnix s n).nsec < 1000000000 := by
  unfold timeUnix nanos
  have h := Int.mul_tdiv_add_tmod n 1000000000
  have h1 := Int.tmod_lt_of_pos n (show (0 : Int) < 1000000000 by decide)
  have h2 : -1000000000 < n.tmod 1000000000 := by
    have := Int.lt_tmod_of_pos n (show (0 : Int) < 1000000000 by decide)
    omega
  split
  · simp only
    split <;> simp only <;> omega
  · next hn => simp only [not_or, ge_iff_le, Int.not_le] at hn ⊢; exact ⟨trivial, by omega, by omega⟩

theorem before_iff {t u : Time} (ht : 0 ≤ t.nsec ∧ t.nsec < 1000000000) (hu : 0 ≤ u.nsec ∧ u.nsec < 1000000000) :
    t.before u = decide (nanos t < nanos u) := by
  unfold Time.before nanos
  congr 1
  simp only [eq_iff_iff]
  omega

theorem time_rep {v : Value} {k : Bytes} {ms : Int} (h : Rep v k (.datetime ms)) :
    ∃ t, time v = .ok t ∧ nanos t = ms * 1000000 ∧ 0 ≤ t.nsec ∧ t.nsec < 1000000000 := by
  have e : i64 (ms.tmod 1000 * 1000000) = ms.tmod 1000 * 1000000 := by
    have h1 := Int.tmod_lt_of_pos ms (show (0 : Int) < 1000 by decide)
    have h2 := Int.lt_tmod_of_pos ms (show (0 : Int) < 1000 by decide)
    exact i64_small (by omega) (by omega)
  refine ⟨timeUnix (ms.tdiv 1000) (ms.tmod 1000 * 1000000), ?_, ?_, (timeUnix_spec _ _).2⟩
  · unfold time
    rw [dateTime_rep h, Res.bind_ok, e]
  · rw [(timeUnix_spec _ _).1]
    have := Int.mul_tdiv_add_tmod ms 1000
    omega

theorem less_rep {v w : Value} {k l : Bytes} {t u : BVal} (h : Rep v k t) (g : Rep w l u) :
    less v w = .ok (elemLess (k, t) (l, u)) := by
  unfold less elemLess
  rw [key_rep h, key_rep g]
  simp only [Res.bind_ok]
  by_cases hkl : k = l
  · simp only [hkl, ne_eq, not_true, if_false]
    rw [type_rep h, type_rep g]
    simp only [Res.bind_ok]
    by_cases htag : t.tag = u.tag
    · simp only [htag, not_true, if_false]
      cases t <;> cases u <;> first | (exfalso; revert htag; simp [BVal.tag]; done) | skip
      case double => simp only [BVal.tag, double_rep h, double_rep g, Res.bind_ok]; simp [valLess, f64Lt_eq]
      case string => simp only [BVal.tag, stringValue_rep h, stringValue_rep g, Res.bind_ok]; simp [valLess, strLt_eq]
      case oid => simp only [BVal.tag, objectID_rep h, objectID_rep g, Res.bind_ok]; simp only [valLess, strLt_hex]; simp [strLt_eq]
      case datetime =>
        obtain ⟨a, ha, na, ra⟩ := time_rep h
        obtain ⟨b, hb, nb, rb⟩ := time_rep g
        simp only [BVal.tag, ha, hb, Res.bind_ok]
        simp [valLess, before_iff ra rb, na, nb]
      case int32 => simp only [BVal.tag, int32_rep h, int32_rep g, Res.bind_ok]; simp [valLess]
      case int64 => simp only [BVal.tag, int64_rep h, int64_rep g, Res.bind_ok]; simp [valLess]
      all_goals (simp [BVal.tag, valLess])
    · simp [htag]
  · simp [hkl, strLt_eq]

/-! ### Equal -/

theorem readLength_le32 {n : Nat} (h : n < 2147483648) (r : Bytes) : readLength (le32 n ++ r) = some (n : Int) := by
  have := rdU32_le32 (n := n) (by omega) r
  simp only [le32, List.cons_append, List.nil_append, rdU32, Res.ok.injEq] at this
  simp only [le32, List.cons_append, List.nil_append, readLength, this]
  rw [i32_of_nat h]

theorem indexNul_cons {s : Bytes} (hs : NulFree s) (r : Bytes) : indexNul (s ++ 0 :: r) = some s.length := by
  unfold indexNul
  induction s with
  | nil => simp [List.findIdx?_cons]
  | cons x xs ih =>
    have hx : x ≠ 0 := hs x (by simp)
    have := ih (fun c hc => hs c (by simp [hc]))
    rw [List.cons_append, List.findIdx?_cons]
    simp [hx, this]

theorem valueLength_enc {t : BVal} (wf : t.WF) (hl : t.enc.length < 2147483648) (post : Bytes) :
    valueLength (t.enc ++ post) t.tag = some (t.enc.length : Int) := by
  unfold valueLength
  cases t with
  | double b => simp [BVal.tag, BVal.enc]
  | string s =>
    simp only [BVal.enc, encString_length] at hl ⊢
    simp only [encString, List.append_assoc, BVal.tag, readLength_le32 (n := s.length + 1) (by omega)]
    simp; rw [i32_small (by omega) (by omega)]; omega
  | js s =>
    simp only [BVal.enc, encString_length] at hl ⊢
    simp only [encString, List.append_assoc, BVal.tag, readLength_le32 (n := s.length + 1) (by omega)]
    simp; rw [i32_small (by omega) (by omega)]; omega
  | symbol s =>
    simp only [BVal.enc, encString_length] at hl ⊢
    simp only [encString, List.append_assoc, BVal.tag, readLength_le32 (n := s.length + 1) (by omega)]
    simp; rw [i32_small (by omega) (by omega)]; omega
  | doc fs =>
    simp only [BVal.enc, wrapDoc_length] at hl ⊢
    simp only [wrapDoc, List.append_assoc, BVal.tag, readLength_le32 (n := fs.enc.length + 5) (by omega)]
    simp
  | array vs =>
    simp only [BVal.enc, wrapDoc_length] at hl ⊢
    simp only [wrapDoc, List.append_assoc, BVal.tag, readLength_le32 (n := (vs.encFrom 0).length + 5) (by omega)]
    simp
  | codeScope c fs =>
    simp only [BVal.enc] at hl ⊢
    simp only [List.length_append, encString_length, wrapDoc_length, le32_length] at hl ⊢
    simp only [List.append_assoc, BVal.tag, readLength_le32 (n := c.length + 5 + (fs.enc.length + 5) + 4) (by omega)]
    simp; omega
  | binary st b =>
    simp only [BVal.enc] at hl ⊢
    by_cases h2 : st = 2
    · simp only [h2, if_true, List.length_append, le32_length, List.length_cons, List.length_nil] at hl ⊢
      simp only [List.append_assoc, BVal.tag, readLength_le32 (n := b.length + 4) (by omega)]
      simp; rw [i32_small (by omega) (by omega)]; omega
    · simp only [h2, if_false, List.length_append, le32_length, List.length_cons, List.length_nil] at hl ⊢
      simp only [List.append_assoc, BVal.tag, readLength_le32 (n := b.length) (by omega)]
      simp; rw [i32_small (by omega) (by omega)]; omega
  | dbpointer ns id =>
    simp only [BVal.enc, List.length_append, encString_length] at hl ⊢
    simp only [BVal.WF] at wf
    simp only [encString, List.append_assoc, BVal.tag, readLength_le32 (n := ns.length + 1) (by omega)]
    simp [wf]; rw [i32_small (by omega) (by omega)]; omega
  | regex p o =>
    simp only [BVal.WF] at wf
    simp only [BVal.enc, List.length_append, List.length_cons, List.length_nil] at hl ⊢
    have e : p ++ [0] ++ o ++ [0] ++ post = p ++ 0 :: (o ++ 0 :: post) := by simp
    have e2 : (p ++ 0 :: (o ++ 0 :: post)).drop (p.length + 1) = o ++ 0 :: post := by simp
    simp only [BVal.tag, e, indexNul_cons wf.1, e2, indexNul_cons wf.2]
    simp; rw [i32_small (by omega) (by omega)]
  | oid id => simp only [BVal.WF] at wf; simp [BVal.tag, BVal.enc, wf]
  | bool b => simp [BVal.tag, BVal.enc]
  | _ => simp [BVal.tag, BVal.enc]

theorem readValue_enc {t : BVal} (wf : t.WF) (hl : t.enc.length < 2147483648) (post : Bytes) :
    readValue (t.enc ++ post) t.tag = .ok (some t.enc) := by
  unfold readValue
  rw [valueLength_enc wf hl]
  simp only
  rw [if_neg (by simp; omega)]
  have := sliceI_mid [] t.enc post (lo := 0) (hi := t.enc.length) rfl (by simp)
  simp only [List.nil_append] at this
  rw [this]; rfl

theorem readstring_enc {c : Bytes} (hc : c.length + 1 < 2147483648) (post : Bytes) :
    readstring (encString c ++ post) = .ok (some c) := by
  unfold readstring
  simp only [encString, List.append_assoc, readLength_le32 hc]
  have e : (le32 (c.length + 1) ++ (c ++ ([0] ++ post))).drop 4 = c ++ 0 :: post := by
    rw [List.drop_append_of_le_length (by simp)]; simp [le32]
  rw [e, if_neg (by simp; omega), i32_small (by omega) (by omega)]
  have := sliceI_mid [] c (0 :: post) (lo := 0) (hi := ((c.length + 1 : Nat) : Int) - 1) rfl (by simp)
  simp only [List.nil_append] at this
  rw [this]; rfl

theorem docToBytes_rep {fuel : Nat} {v : Value} {k : Bytes} {t : BVal} (h : Rep v k t) (hl : t.enc.length < 2147483648)
    (hf : t.enc.length < fuel) : ∃ post, docToBytes fuel v t.tag = .ok (t.enc ++ post) := by
  cases v with
  | raw s o data =>
    simp only [Rep] at h
    obtain ⟨hk, wf, hd, pre, post, rfl, rfl, rfl⟩ := h
    refine ⟨post, ?_⟩
    simp only [docToBytes, sliceFrom]
    rw [if_pos (by simp; omega), raw_form, raw_len (x := t.tag), List.drop_left']
    rfl
  | withDoc s o data d =>
    simp only [Rep] at h
    obtain ⟨hk, hd, pre, post, rfl, rfl, rfl, h⟩ := h
    cases t with
    | doc fs =>
      refine ⟨[], ?_⟩
      simp only [docToBytes, BVal.tag, if_true, List.append_nil]
      exact docMarshal_rep fuel h hl hf
    | array vs =>
      refine ⟨[], ?_⟩
      simp only [docToBytes, BVal.tag, List.append_nil]
      simp only [show ¬ (4 : UInt8) = 3 by decide, if_true, if_false]
      exact arrMarshal_rep fuel h hl hf
    | codeScope c fs =>
      obtain ⟨⟨l, post', h4, rfl⟩, h⟩ := h
      refine ⟨[], ?_⟩
      have hn : (BVal.codeScope c fs).enc.length = c.length + fs.enc.length + 14 := by simp [BVal.enc]; omega
      rw [hn] at hl hf
      simp only [docToBytes, BVal.tag, List.append_nil]
      simp only [show ¬ (15 : UInt8) = 3 by decide, show ¬ (15 : UInt8) = 4 by decide, if_true, if_false]
      rw [docMarshal_rep fuel h (by simp [encDoc]; omega) (by simp [encDoc]; omega), Res.bind_ok]
      simp only [BVal.tag, List.length_append, List.length_cons, encString_length] at hd
      have e : sliceFrom (pre ++ 15 :: (k ++ 0 :: (l ++ (encString c ++ post')))) (u32 (pre.length + k.length + 2 + 4)) =
          .ok (encString c ++ post') := by
        rw [u32_small (by omega)]
        have e1 : pre ++ 15 :: (k ++ 0 :: (l ++ (encString c ++ post'))) = (pre ++ 15 :: (k ++ 0 :: l)) ++ (encString c ++ post') := by simp
        rw [sliceFrom, if_pos (by simp; omega), e1, List.drop_left' (by simp; omega)]
      rw [e, Res.bind_ok, readstring_enc (by omega), Res.bind_ok]
      simp only [appendCodeWithScope, BVal.enc, encString, encDoc]
      rw [u32_small (by simp; omega), u32_small (by omega)]
      simp [wrapDoc]
      congr 1
      omega
    | _ => exact h.elim

theorem enc_inj {t u : BVal} (wt : t.WF) (wu : u.WF) (hl : t.enc.length < 2147483640) (htag : t.tag = u.tag) (he : t.enc = u.enc) : t = u := by
  have := encDoc_inj (fs := .cons [] t .nil) (gs := .cons [] u .nil) (by simp [Fields.WF, NulFree, wt]) (by simp [Fields.WF, NulFree, wu])
    (by simp [encDoc, Fields.enc]; omega) (by simp [encDoc, Fields.enc, htag, he])
  injection this

theorem equal_rep {fuel : Nat} {v w : Value} {k l : Bytes} {t u : BVal} (h : Rep v k t) (g : Rep w l u)
    (hl : t.enc.length < 2147483648) (hf : t.enc.length < fuel) (gl : u.enc.length < 2147483648) (gf : u.enc.length < fuel) :
    equal fuel v w = .ok (decide (t.tag = u.tag ∧ t.enc = u.enc)) := by
  unfold equal
  rw [(rep_key h).2.1, (rep_key g).2.1]
  simp only [Res.bind_ok]
  by_cases htag : t.tag = u.tag
  · obtain ⟨p, hp⟩ := docToBytes_rep h hl hf
    obtain ⟨q, hq⟩ := docToBytes_rep g gl gf
    rw [if_neg (by simp [htag]), hp, hq]
    simp only [Res.bind_ok, checkEqualVal]
    rw [if_neg (by simp [htag]), readValue_enc (rep_wf h) hl, Res.bind_ok, readValue_enc (rep_wf g) gl]
    simp [orFalse, htag]
  · rw [if_pos htag]; simp [orFalse, htag]

end Birch.Proofs
