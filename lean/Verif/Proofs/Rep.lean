import Verif.Proofs.Reader
import Verif.Model.Write
import Verif.Spec.Rep

/- The size/validation functions on represented values. -/

namespace Birch.Proofs
open Birch Model Spec

set_option linter.unusedSimpArgs false
set_option linter.unusedVariables false

/-! ### validation of raw values -/

theorem idx_start {hd tl : Bytes} {start : Nat} {x : UInt8} (h : hd[start]? = some x) :
    idx (hd ++ tl) start = .ok x := by
  apply idx_eq
  rw [List.getElem?_append_left, h]
  rcases Nat.lt_or_ge start hd.length with h' | h'
  · exact h'
  · simp [h'] at h

theorem slice_rd4' (hd tl : Bytes) (n : Nat) {o : Nat} (ho : o = hd.length) (h : hd.length + 4 < 4294967296) :
    slice (hd ++ (le32 n ++ tl)) o (u32 (o + 4)) = .ok (le32 n) := by
  subst ho; exact slice_rd4 hd tl n h

/-- `validate(false)` on a canonical value -/
theorem rawValidate_enc (fuel : Nat) (t : BVal) (wf : t.WF) (hd post : Bytes) (start : Nat)
    (hs : hd[start]? = some t.tag) (hlen : hd.length + t.enc.length + post.length < 2147483648)
    (hf : t.enc.length < fuel) :
    rawValidate fuel (hd ++ (t.enc ++ post)) start hd.length = .ok t.enc.length := by
  have hsz := rawSize_enc t wf hd post start hs hlen
  have hne : hd ++ (t.enc ++ post) ≠ [] := by
    intro h; simp at h; simp [h.1] at hs
  have hi : idx (hd ++ (t.enc ++ post)) start = .ok t.tag := idx_start hs
  unfold rawValidate
  rw [if_neg hne, hi]
  simp only [List.length_append, Res.bind_ok]
  have str : ∀ s, t.enc = encString s → t.enc.length = s.length + 5 ∧
      slice (hd ++ (t.enc ++ post)) hd.length (u32 (hd.length + 4)) = .ok (le32 (s.length + 1)) ∧
      idx (hd ++ (t.enc ++ post)) (hd.length + s.length + 4) = .ok 0 := by
    intro s h
    rw [h] at hlen ⊢
    refine ⟨encString_length s, ?_, ?_⟩
    · simp only [encString_length] at hlen
      rw [encString, List.append_assoc, List.append_assoc]
      exact slice_rd4 _ _ _ (by omega)
    · have := idx_append (hd ++ (le32 (s.length + 1) ++ s)) 0 post
      simpa [encString, Nat.add_assoc, Nat.add_comm 4] using this
  have sub : ∀ fs : Fields, fs.WF → t.enc = wrapDoc fs.enc → t.enc.length = fs.enc.length + 5 ∧
      slice (hd ++ (t.enc ++ post)) hd.length (u32 (hd.length + 4)) = .ok (le32 (fs.enc.length + 5)) ∧
      slice (hd ++ (t.enc ++ post)) hd.length (hd.length + (fs.enc.length + 5)) = .ok (encDoc fs) ∧
      readerValidate fuel (encDoc fs) = .ok (fs.enc.length + 5) := by
    intro fs wfs h
    rw [h] at hlen hf ⊢
    simp only [wrapDoc_length] at hlen hf
    refine ⟨wrapDoc_length _, ?_, ?_, ?_⟩
    · rw [wrapDoc, List.append_assoc, List.append_assoc]
      exact slice_rd4 _ _ _ (by omega)
    · exact slice_mid _ _ _ rfl (by simp)
    · have := readerValidate_encDoc fuel fs wfs [] (by simpa [encDoc] using hf) (by simp [encDoc]; omega)
      simpa [encDoc] using this
  have same : (∀ x ∈ [2, 13, 14, 3, 4, 15], t.tag ≠ x) → 
    (if t.tag = 2 ∨ t.tag = 13 ∨ t.tag = 14 then
      (if hd.length + (t.enc.length + post.length) < u32 (hd.length + 4) then Res.err Err.tooSmall else Res.ok 0)
      else rawSize (hd ++ (t.enc ++ post)) start hd.length) = rawSize (hd ++ (t.enc ++ post)) start hd.length := by
    intro h; simp at h; simp [h]
  clear same
  generalize htag : t.tag = tg at *
  generalize hn : t.enc.length = n at *
  cases t with
  | string s =>
    obtain ⟨h2, h1, h3⟩ := str s rfl
    subst htag
    simp only [BVal.tag]
    simp [h1, readi32_le32_nat' (n := s.length + 1) (by omega)]
    rw [if_neg (by simp only [u32]; omega), if_neg (by simp only [i32]; omega),
      show u32i ((hd.length : Int) + 4 + ↑(u32i (↑s.length + 1)) - 1) = hd.length + s.length + 4 by simp only [u32i]; omega, h3]
    simp
    simp only [u32, u32i]; omega
  | js s =>
    obtain ⟨h2, h1, h3⟩ := str s rfl
    subst htag
    simp only [BVal.tag]
    simp [h1, readi32_le32_nat' (n := s.length + 1) (by omega)]
    rw [if_neg (by simp only [u32]; omega), if_neg (by simp only [i32]; omega),
      show u32i ((hd.length : Int) + 4 + ↑(u32i (↑s.length + 1)) - 1) = hd.length + s.length + 4 by simp only [u32i]; omega, h3]
    simp
    simp only [u32, u32i]; omega
  | symbol s =>
    obtain ⟨h2, h1, h3⟩ := str s rfl
    subst htag
    simp only [BVal.tag]
    simp [h1, readi32_le32_nat' (n := s.length + 1) (by omega)]
    rw [if_neg (by simp only [u32]; omega), if_neg (by simp only [i32]; omega),
      show u32i ((hd.length : Int) + 4 + ↑(u32i (↑s.length + 1)) - 1) = hd.length + s.length + 4 by simp only [u32i]; omega, h3]
    simp
    simp only [u32, u32i]; omega
  | doc fs =>
    obtain ⟨h1, h2, h3, h4⟩ := sub fs wf rfl
    subst htag
    simp only [BVal.tag]
    simp [h2, readi32_le32_nat' (n := fs.enc.length + 5) (by omega)]
    rw [if_neg (by simp only [u32]; omega), if_neg (by omega), if_neg (by simp only [i32]; omega),
      show u32 (hd.length + u32i (↑fs.enc.length + 5)) = hd.length + (fs.enc.length + 5) by simp only [u32, u32i]; omega, h3]
    simp [h4]
    simp only [u32, u32i]; omega
  | array vs =>
    obtain ⟨h1, h2, h3, h4⟩ := sub (toFields 0 vs) (toFields_wf 0 vs wf) (by rw [toFields_enc]; rfl)
    subst htag
    simp only [BVal.tag]
    simp [h2, readi32_le32_nat' (n := (toFields 0 vs).enc.length + 5) (by omega)]
    rw [if_neg (by simp only [u32]; omega), if_neg (by omega), if_neg (by simp only [i32]; omega),
      show u32 (hd.length + u32i (↑(toFields 0 vs).enc.length + 5)) = hd.length + ((toFields 0 vs).enc.length + 5) by simp only [u32, u32i]; omega, h3]
    simp [h4]
    simp only [u32, u32i]; omega
  | codeScope c fs =>
    clear str sub
    have hL : n = c.length + fs.enc.length + 14 := by
      rw [← hn]; simp [BVal.enc]; omega
    have e0 : (BVal.codeScope c fs).enc = le32 n ++ (le32 (c.length + 1) ++ (c ++ (0 :: (encDoc fs)))) := by
      simp [BVal.enc, encString, encDoc]; congr 1; omega
    rw [e0]
    have s1 : slice (hd ++ (le32 n ++ (le32 (c.length + 1) ++ (c ++ (0 :: (encDoc fs)))) ++ post)) hd.length (u32 (hd.length + 4)) = .ok (le32 n) := by
      rw [List.append_assoc]; exact slice_rd4 _ _ _ (by omega)
    have s2 : slice (hd ++ (le32 n ++ (le32 (c.length + 1) ++ (c ++ (0 :: (encDoc fs)))) ++ post)) (u32 (hd.length + 4)) (u32 (hd.length + 8)) = .ok (le32 (c.length + 1)) := by
      have := slice_mid (hd ++ le32 n) (le32 (c.length + 1)) ((c ++ (0 :: (encDoc fs))) ++ post)
        (lo := u32 (hd.length + 4)) (hi := u32 (hd.length + 8)) (by simp [u32]; omega) (by simp [u32]; omega)
      simpa using this
    have s3 : idx (hd ++ (le32 n ++ (le32 (c.length + 1) ++ (c ++ (0 :: (encDoc fs)))) ++ post)) (hd.length + c.length + 8) = .ok 0 := by
      have := idx_append (hd ++ (le32 n ++ (le32 (c.length + 1) ++ c))) 0 (encDoc fs ++ post)
      simpa [Nat.add_assoc, Nat.add_comm 4] using this
    have s4 : slice (hd ++ (le32 n ++ (le32 (c.length + 1) ++ (c ++ (0 :: (encDoc fs)))) ++ post)) (hd.length + c.length + 9) (hd.length + n) = .ok (encDoc fs) := by
      have := slice_mid (hd ++ (le32 n ++ (le32 (c.length + 1) ++ (c ++ [0])))) (encDoc fs) post
        (lo := hd.length + c.length + 9) (hi := hd.length + n) (by simp; omega) (by simp [encDoc]; omega)
      simpa using this
    have s5 : readerValidate fuel (encDoc fs) = .ok (fs.enc.length + 5) := by
      have := readerValidate_encDoc fuel fs wf [] (by simp [encDoc]; omega) (by simp [encDoc]; omega)
      simpa [encDoc] using this
    subst htag
    simp only [BVal.tag]
    simp only [List.append_assoc, List.cons_append] at s1 s2 s3 s4
    simp [s1, s2, readi32_le32_nat' (n := c.length + 1) (by omega), readi32_le32_nat' (n := n) (by omega)]
    rw [if_neg (by simp only [u32]; omega), if_neg (by simp only [i32]; omega), if_neg (by simp only [i32]; omega),
      show u32i ((hd.length : Int) + 8 + ↑(u32i (↑c.length + 1)) - 1) = hd.length + c.length + 8 by simp only [u32i]; omega,
      s3,
      show u32 (hd.length + 8 + u32i (↑c.length + 1)) = hd.length + c.length + 9 by simp only [u32, u32i]; omega,
      show u32 (hd.length + u32i ↑n) = hd.length + n by simp only [u32, u32i]; omega, s4]
    simp [s5]
    simp only [u32, u32i]; omega
  | _ =>
    subst htag
    simp only [BVal.tag] at hsz ⊢
    simpa using hsz

/-! ### validation of represented values -/

theorem elemKeyLen_rep {k : Bytes} (hk : NulFree k) (pre tl : Bytes) (x : UInt8)
    (hl : (pre ++ x :: (k ++ 0 :: tl)).length < 2147483648) :
    elemKeyLen (pre ++ x :: (k ++ 0 :: tl)) pre.length (pre.length + k.length + 2) = .ok (k.length + 1) := by
  simp only [List.length_append, List.length_cons] at hl
  unfold elemKeyLen
  rw [if_neg (by simp)]
  have e : (((pre ++ x :: (k ++ 0 :: tl)).take (min (pre.length + k.length + 2) (pre ++ x :: (k ++ 0 :: tl)).length)).drop (pre.length + 1)).takeWhile (· ≠ 0) = k := by
    have h1 : min (pre.length + k.length + 2) (pre ++ x :: (k ++ 0 :: tl)).length = pre.length + k.length + 2 := by
      simp; omega
    have h2 : pre ++ x :: (k ++ 0 :: tl) = (pre ++ [x]) ++ ((k ++ [0]) ++ tl) := by simp
    rw [h1, h2, ← List.append_assoc, List.take_left' (by simp; omega), List.drop_left' (by simp)]
    exact takeWhile_nulFree hk []
  simp only [e]
  have h1 : min (pre.length + k.length + 2) (pre ++ x :: (k ++ 0 :: tl)).length = pre.length + k.length + 2 := by
    simp; omega
  have h3 : (pre ++ x :: (k ++ 0 :: tl))[pre.length + 1 + k.length]? = some 0 := by
    rw [show pre ++ x :: (k ++ 0 :: tl) = (pre ++ x :: k) ++ 0 :: tl by simp,
      show pre.length + 1 + k.length = (pre ++ x :: k).length by simp; omega]
    simp
  rw [h1, h3, if_neg (by omega), if_pos (by simp; omega), if_pos rfl]

theorem encFrom_length (i : Nat) (t : BVal) (vs : Vals) : ((Vals.cons t vs).encFrom i).length =
    (decimalKey i).length + 2 + t.enc.length + (vs.encFrom (i + 1)).length := by
  simp [Vals.encFrom]; omega

theorem fieldsEnc_length (k : Bytes) (t : BVal) (fs : Fields) : (Fields.cons k t fs).enc.length =
    k.length + 2 + t.enc.length + fs.enc.length := by
  simp [Fields.enc]; omega

theorem rep_key {v : Value} {k : Bytes} {t : BVal} (h : Rep v k t) :
    elemKeyLen v.data v.start v.offset = .ok (k.length + 1) ∧ idx v.data v.start = .ok t.tag ∧ NulFree k := by
  cases v with
  | raw s o data =>
    simp only [Rep] at h
    obtain ⟨hk, wf, hl, pre, post, rfl, rfl, rfl⟩ := h
    exact ⟨elemKeyLen_rep hk _ _ _ hl, idx_append _ _ _, hk⟩
  | withDoc s o data d =>
    simp only [Rep] at h
    obtain ⟨hk, hl, pre, post, rfl, rfl, rfl, _⟩ := h
    exact ⟨elemKeyLen_rep hk _ _ _ hl, idx_append _ _ _, hk⟩

mutual
/-- `validate` on a represented value returns the encoded size -/
theorem valueValidate_rep (fuel : Nat) (so : Bool) : ∀ (v : Value) (k : Bytes) (t : BVal), Rep v k t →
    t.enc.length < 2147483648 → t.enc.length < fuel → valueValidate fuel so v = .ok t.enc.length
  | .raw s o data, k, t, h, hl, hf => by
    simp only [Rep] at h
    obtain ⟨hk, wf, hd, pre, post, rfl, rfl, rfl⟩ := h
    have e : pre ++ t.tag :: (k ++ 0 :: (t.enc ++ post)) = (pre ++ t.tag :: (k ++ [0])) ++ (t.enc ++ post) := by simp
    have e2 : pre.length + k.length + 2 = (pre ++ t.tag :: (k ++ [0])).length := by simp; omega
    simp only [List.length_append, List.length_cons] at hd
    unfold valueValidate
    rw [e, e2, rawSize_enc t wf _ post pre.length (by simp) (by simp; omega),
      rawValidate_enc fuel t wf _ post pre.length (by simp) (by simp; omega) hf]
    simp
  | .withDoc s o data d, k, t, h, hl, hf => by
    simp only [Rep] at h
    obtain ⟨hk, hd, pre, post, rfl, rfl, rfl, h⟩ := h
    unfold valueValidate
    rw [if_neg (by simp), idx_append]
    simp only [Res.bind_ok]
    cases t with
    | doc fs =>
      simp only [BVal.enc, wrapDoc_length] at hl hf ⊢
      have := elemsValidate_rep fuel d fs 5 h (by omega) (by omega)
      rw [if_pos (by rfl), this, Nat.add_comm]
    | array vs =>
      simp only [BVal.enc, wrapDoc_length] at hl hf ⊢
      have := arrElemsValidate_rep fuel d vs 5 0 h (by omega) (by omega)
      rw [if_neg (by rw [show (BVal.array vs).tag = 4 from rfl]; decide), if_pos (by rfl), this, Nat.add_comm]
    | codeScope c fs =>
      obtain ⟨⟨l, post', h4, rfl⟩, h⟩ := h
      have hL : (BVal.codeScope c fs).enc.length = c.length + fs.enc.length + 14 := by
        simp [BVal.enc]; omega
      rw [hL] at hl hf ⊢
      rw [show (BVal.codeScope c fs).tag = 15 from rfl] at hd ⊢
      have e := elemsValidate_rep fuel d fs 5 h (by omega) (by omega)
      have s2 : slice (pre ++ 15 :: (k ++ 0 :: (l ++ (encString c ++ post')))) (u32 (pre.length + k.length + 2 + 4)) (u32 (pre.length + k.length + 2 + 8))
          = .ok (le32 (c.length + 1)) := by
        simp [encString_length] at hd
        have := slice_mid (pre ++ 15 :: (k ++ 0 :: l)) (le32 (c.length + 1)) (c ++ 0 :: post')
          (lo := u32 (pre.length + k.length + 2 + 4)) (hi := u32 (pre.length + k.length + 2 + 8))
          (by simp [u32]; omega) (by simp [u32]; omega)
        simpa [encString] using this
      have s3 : idx (pre ++ 15 :: (k ++ 0 :: (l ++ (encString c ++ post')))) (pre.length + k.length + c.length + 10) = .ok 0 := by
        have := idx_append (pre ++ 15 :: (k ++ 0 :: (l ++ (le32 (c.length + 1) ++ c)))) 0 post'
        simp only [List.length_append, List.length_cons, le32_length, h4] at this
        rw [show pre.length + k.length + c.length + 10 = pre.length + (k.length + (4 + (4 + c.length) + 1) + 1) by omega]
        simpa [encString] using this
      have hlen : (pre ++ 15 :: (k ++ 0 :: (l ++ (encString c ++ post')))).length = pre.length + k.length + c.length + post'.length + 11 := by
        simp [encString_length, h4]; omega
      generalize (pre ++ 15 :: (k ++ 0 :: (l ++ (encString c ++ post')))) = D at *
      rw [if_neg (by decide), if_neg (by decide), if_pos rfl, s2]
      rw [hlen] at hd ⊢
      rw [if_neg (by simp only [u32]; omega)]
      simp only [Res.bind_ok]
      rw [readi32_le32_nat' (by omega)]
      simp only [Res.bind_ok]
      rw [if_neg (by omega), show u32i (((pre.length + k.length + 2 : Nat) : Int) + 8 + ↑(u32i ((c.length + 1 : Nat) : Int)) - 1) = pre.length + k.length + c.length + 10 by
          simp only [u32i]; omega, s3, e]
      cases so <;> (simp; simp only [u32, u32i]; omega)
    | _ => exact h.elim
theorem elemsValidate_rep (fuel : Nat) : ∀ (d : List Value) (fs : Fields) (size : Nat), RepFields d fs →
    size + fs.enc.length < 2147483648 → fs.enc.length < fuel →
    elemsValidate fuel size d = .ok (size + fs.enc.length)
  | [], .nil, size, h, _, _ => by simp [elemsValidate, Fields.enc]
  | [], .cons _ _ _, _, h, _, _ => by simp [RepFields] at h
  | _ :: _, .nil, _, h, _, _ => by simp [RepFields] at h
  | v :: d, .cons k t fs, size, h, hl, hf => by
    simp only [RepFields] at h
    rw [fieldsEnc_length] at hl hf ⊢
    unfold elemsValidate
    rw [(rep_key h.1).1, valueValidate_rep fuel false v k t h.1 (by omega) (by omega)]
    simp only [Res.bind_ok]
    rw [show u32 (size + u32 (1 + (k.length + 1) + t.enc.length)) = size + k.length + 2 + t.enc.length by
      simp only [u32]; omega, elemsValidate_rep fuel d fs _ h.2 (by omega) (by omega)]
    congr 1; omega
theorem arrElemsValidate_rep (fuel : Nat) : ∀ (d : List Value) (vs : Vals) (size i : Nat), RepVals d vs →
    size + (vs.encFrom i).length < 2147483648 → (vs.encFrom i).length < fuel →
    arrElemsValidate fuel size i d = .ok (size + (vs.encFrom i).length)
  | [], .nil, size, i, h, _, _ => by simp [arrElemsValidate, Vals.encFrom]
  | [], .cons _ _, _, _, h, _, _ => by simp [RepVals] at h
  | _ :: _, .nil, _, _, h, _, _ => by simp [RepVals] at h
  | v :: d, .cons t vs, size, i, h, hl, hf => by
    simp only [RepVals] at h
    obtain ⟨⟨k, h1⟩, h2⟩ := h
    rw [encFrom_length] at hl hf ⊢
    unfold arrElemsValidate
    rw [valueValidate_rep fuel false v k t h1 (by omega) (by omega), itoa_eq]
    simp only [Res.bind_ok]
    rw [show u32 (size + 1 + ((decimalKey i).length + 1) + t.enc.length) = size + (decimalKey i).length + 2 + t.enc.length by
      simp only [u32]; omega, arrElemsValidate_rep fuel d vs _ _ h2 (by omega) (by omega)]
    congr 1; omega
end

theorem rep_keyLen {v : Value} {k : Bytes} {t : BVal} (h : Rep v k t) : k.length + 2 < 2147483648 := by
  cases v with
  | raw s o data =>
    simp only [Rep] at h
    obtain ⟨hk, wf, hl, pre, post, rfl, rfl, rfl⟩ := h
    simp at hl; omega
  | withDoc s o data d =>
    simp only [Rep] at h
    obtain ⟨hk, hl, pre, post, rfl, rfl, rfl, _⟩ := h
    simp at hl; omega

theorem elemValidate_rep (fuel : Nat) {v : Value} {k : Bytes} {t : BVal} (h : Rep v k t)
    (hl : t.enc.length < 2147483648) (hf : t.enc.length < fuel) :
    elemValidate fuel v = .ok (k.length + 2 + t.enc.length) := by
  have := rep_keyLen h
  unfold elemValidate
  rw [(rep_key h).1, valueValidate_rep fuel false v k t h (by omega) hf]
  simp only [Res.bind_ok]
  rw [u32_small (by omega)]
  congr 1; omega

end Birch.Proofs
