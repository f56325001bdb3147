import Verif.Proofs.Size

/- The reader loops on canonical bytes. -/

namespace Birch.Proofs
open Birch Model Spec

set_option linter.unusedSimpArgs false
set_option linter.unusedVariables false

/-! ### array keys -/

theorem decimalKey_nulFree (n : Nat) : NulFree (decimalKey n) := by
  intro c hc
  simp only [decimalKey, List.mem_map] at hc
  obtain ⟨d, hd, rfl⟩ := hc
  have h := Nat.isDigit_of_mem_toDigits (by decide) (by decide) hd
  intro h0
  have h1 : (UInt8.ofNat d.toNat).toNat = 0 := by rw [h0]; rfl
  simp only [UInt8.toNat_ofNat'] at h1
  simp only [Char.isDigit, Bool.and_eq_true, decide_eq_true_eq, UInt32.le_iff_toNat_le] at h
  have e1 : (48 : UInt32).toNat = 48 := rfl
  have e2 : (57 : UInt32).toNat = 57 := rfl
  have e3 : d.toNat = d.val.toNat := rfl
  obtain ⟨h2, h3⟩ := h
  change (48 : UInt32).toNat ≤ _ at h2
  change _ ≤ (57 : UInt32).toNat at h3
  omega

theorem itoa_eq (n : Nat) : itoa n = decimalKey n := rfl

/-- the fields of an array document -/
def toFields : Nat → Vals → Fields
  | _, .nil => .nil
  | i, .cons v rest => .cons (decimalKey i) v (toFields (i + 1) rest)

theorem toFields_enc : ∀ (i : Nat) (vs : Vals), (toFields i vs).enc = vs.encFrom i
  | i, .nil => by simp [toFields, Fields.enc, Vals.encFrom]
  | i, .cons v rest => by simp [toFields, Fields.enc, Vals.encFrom, toFields_enc (i + 1) rest]

theorem toFields_wf : ∀ (i : Nat) (vs : Vals) (_ : vs.WF), (toFields i vs).WF
  | _, .nil, _ => by simp [toFields, Fields.WF]
  | i, .cons v rest, h => by
    simp only [Vals.WF] at h
    exact ⟨decimalKey_nulFree i, h.1, toFields_wf _ rest h.2⟩

/-! ### keys -/

theorem readerKey_enc {k : Bytes} (hk : NulFree k) (hd tl : Bytes) (end_ : Nat)
    (h1 : hd.length + k.length + 1 ≤ end_) (h2 : end_ ≤ (hd ++ (k ++ 0 :: tl)).length) :
    readerKey (hd ++ (k ++ 0 :: tl)) hd.length end_ = .ok (k.length + 1) := by
  have e : (((hd ++ (k ++ 0 :: tl)).take end_).drop hd.length).takeWhile (· ≠ 0) = k := by
    have : (hd ++ (k ++ 0 :: tl)).take end_ = hd ++ (k ++ 0 :: tl.take (end_ - hd.length - k.length - 1)) := by
      rw [List.take_append, List.take_of_length_le (by omega), List.take_append,
        List.take_of_length_le (by omega)]
      congr 2
      obtain ⟨m, hm⟩ : ∃ m, end_ - hd.length - k.length = m + 1 := ⟨end_ - hd.length - k.length - 1, by omega⟩
      rw [hm, List.take_succ_cons]; simp
    rw [this, List.drop_left, takeWhile_nulFree hk]
  unfold readerKey
  rw [e]
  simp only [List.length_append, List.length_cons] at h2 ⊢
  rw [if_neg (by omega), if_neg (by omega)]

/-! ### sub-documents -/

theorem readerEnd_wrapDoc (body post : Bytes) (h : body.length + 5 < 2147483648) :
    readerEnd (wrapDoc body ++ post) = .ok (body.length + 5) := by
  unfold readerEnd
  have e : readi32 (wrapDoc body ++ post) = .ok ((body.length + 5 : Nat) : Int) := by
    simp only [wrapDoc, List.append_assoc]
    exact readi32_le32_nat (by omega) _
  rw [e, if_neg (by simp; omega)]
  simp only [Res.bind_ok, List.length_append, wrapDoc_length]
  rw [if_neg (by omega), u32i_nat (by omega)]

theorem iterEnd_wrapDoc (body post : Bytes) (h : body.length + 5 < 2147483648) :
    iterEnd (wrapDoc body ++ post) = .ok (body.length + 5) := by
  unfold iterEnd
  have e : readi32 (wrapDoc body ++ post) = .ok ((body.length + 5 : Nat) : Int) := by
    simp only [wrapDoc, List.append_assoc]
    exact readi32_le32_nat (by omega) _
  rw [e, if_neg (by simp; omega)]
  simp only [Res.bind_ok, List.length_append, wrapDoc_length]
  rw [if_neg (by omega), u32i_nat (by omega)]

theorem rawReader_wrapDoc (hd body post : Bytes) (h : hd.length + body.length + 5 < 2147483648) :
    rawReader (hd ++ (wrapDoc body ++ post)) hd.length = .ok (wrapDoc body) := by
  unfold rawReader
  have e : slice (hd ++ (wrapDoc body ++ post)) hd.length (u32 (hd.length + 4)) = .ok (le32 (body.length + 5)) := by
    rw [wrapDoc, List.append_assoc, List.append_assoc]
    exact slice_rd4 _ _ _ (by omega)
  rw [e]
  simp only [Res.bind_ok]
  rw [readi32_le32_nat' (by omega)]
  simp only [Res.bind_ok]
  rw [u32i_nat (by omega), u32_small (by omega)]
  exact slice_mid _ _ _ rfl (by simp)

/-! ### the validation loop -/

/-- first step of the reader loops on an encoded field: the key and the value size -/
theorem field_step {k : Bytes} {t : BVal} (hk : NulFree k) (ht : t.WF) (hd post : Bytes) (end_ : Nat)
    (h1 : hd.length + k.length + t.enc.length + 2 ≤ end_)
    (h2 : end_ ≤ (hd ++ t.tag :: (k ++ 0 :: (t.enc ++ post))).length)
    (h3 : (hd ++ t.tag :: (k ++ 0 :: (t.enc ++ post))).length < 2147483648) :
    idx (hd ++ t.tag :: (k ++ 0 :: (t.enc ++ post))) hd.length = .ok t.tag ∧
    readerKey (hd ++ t.tag :: (k ++ 0 :: (t.enc ++ post))) (hd.length + 1) end_ = .ok (k.length + 1) ∧
    rawSize (hd ++ t.tag :: (k ++ 0 :: (t.enc ++ post))) hd.length (hd.length + k.length + 2) = .ok t.enc.length := by
  simp only [List.length_append, List.length_cons] at h2 h3
  refine ⟨idx_append _ _ _, ?_, ?_⟩
  · have := readerKey_enc hk (hd ++ [t.tag]) (t.enc ++ post) end_ (by simp; omega) (by simp; omega)
    simpa using this
  · have := rawSize_enc t ht (hd ++ t.tag :: (k ++ [0])) post hd.length (by simp) (by simp; omega)
    simpa [Nat.add_assoc] using this

theorem tag_ne_zero (t : BVal) : t.tag ≠ 0 := by cases t <;> simp [BVal.tag]

/-- the body of the loop after the element has been delimited -/
theorem validateLoop_enc (fuel : Nat) : ∀ (fs : Fields) (wf : fs.WF) (hd post : Bytes) (end_ : Nat),
    fs.enc.length < fuel → hd.length + fs.enc.length + 1 ≤ end_ →
    end_ ≤ (hd ++ (fs.enc ++ 0 :: post)).length →
    (hd ++ (fs.enc ++ 0 :: post)).length < 2147483648 →
    validateLoop fuel (hd ++ (fs.enc ++ 0 :: post)) hd.length end_ =
      .ok (hd.length + fs.enc.length + 1) := by
  induction fuel with
  | zero => intro _ _ _ _ _ h; omega
  | succ fuel ih =>
    intro fs wf hd post end_ hf h1 h2 h3
    unfold validateLoop
    cases fs with
    | nil =>
      simp only [Fields.enc, List.nil_append, List.length_nil, List.length_append, List.length_cons] at *
      rw [if_neg (by omega), idx_append]
      simp only [Res.bind_ok]
      rw [if_pos trivial, u32_small (by omega)]
    | cons k t rest =>
      obtain ⟨hk, ht, hr⟩ := wf
      have er : hd ++ ((Fields.cons k t rest).enc ++ 0 :: post) = hd ++ t.tag :: (k ++ 0 :: (t.enc ++ (rest.enc ++ 0 :: post))) := by
        simp [Fields.enc]
      have el : (Fields.cons k t rest).enc.length = k.length + t.enc.length + rest.enc.length + 2 := by
        simp [Fields.enc]; omega
      rw [el] at hf h1 ⊢
      rw [er] at h2 h3 ⊢
      obtain ⟨s1, s2, s3⟩ := field_step hk ht hd (rest.enc ++ 0 :: post) end_ (by omega) h2 h3
      simp only [List.length_append, List.length_cons] at h2 h3
      rw [if_neg (by omega), s1]
      simp only [Res.bind_ok]
      rw [if_neg (tag_ne_zero t), u32_small (n := hd.length + 1) (by omega), s2]
      simp only [Res.bind_ok]
      rw [u32_small (n := hd.length + 1 + (k.length + 1)) (by omega),
        show hd.length + 1 + (k.length + 1) = hd.length + k.length + 2 by omega, s3]
      simp only [Res.bind_ok]
      rw [u32_small (by omega)]
      have hrest : validateLoop fuel (hd ++ t.tag :: (k ++ 0 :: (t.enc ++ (rest.enc ++ 0 :: post))))
          (hd.length + k.length + 2 + t.enc.length) end_ =
          .ok (hd.length + (k.length + t.enc.length + rest.enc.length + 2) + 1) := by
        have := ih rest hr (hd ++ t.tag :: (k ++ 0 :: t.enc)) post end_ (by omega)
          (by simp; omega) (by simp; omega) (by simp; omega)
        simp only [List.append_assoc, List.cons_append, List.length_append, List.length_cons] at this
        rw [show hd.length + k.length + 2 + t.enc.length = hd.length + (k.length + (t.enc.length + 1) + 1) by omega, this]
        congr 1; omega
      have hsub : ∀ fs' : Fields, fs'.WF → t.enc = wrapDoc fs'.enc →
          (do
            let sub ← rawReader (hd ++ t.tag :: (k ++ 0 :: (t.enc ++ (rest.enc ++ 0 :: post)))) (hd.length + k.length + 2)
            let e ← readerEnd sub
            let _ ← validateLoop fuel sub 4 e
            validateLoop fuel (hd ++ t.tag :: (k ++ 0 :: (t.enc ++ (rest.enc ++ 0 :: post))))
              (hd.length + k.length + 2 + t.enc.length) end_) =
          .ok (hd.length + (k.length + t.enc.length + rest.enc.length + 2) + 1) := by
        intro fs' wf' he
        rw [hrest]
        have hl : t.enc.length = fs'.enc.length + 5 := by rw [he]; simp
        have e1 : rawReader (hd ++ t.tag :: (k ++ 0 :: (t.enc ++ (rest.enc ++ 0 :: post)))) (hd.length + k.length + 2)
            = .ok (wrapDoc fs'.enc) := by
          have := rawReader_wrapDoc (hd ++ t.tag :: (k ++ [0])) fs'.enc (rest.enc ++ 0 :: post) (by simp; omega)
          simpa [he, Nat.add_assoc] using this
        have e2 := readerEnd_wrapDoc fs'.enc [] (by omega)
        rw [List.append_nil] at e2
        have e3 := ih fs' wf' (le32 (fs'.enc.length + 5)) [] (fs'.enc.length + 5) (by omega)
          (by simp; omega) (by simp; omega) (by simp; omega)
        rw [e1]
        simp only [Res.bind_ok]
        rw [e2]
        simp only [Res.bind_ok]
        have : wrapDoc fs'.enc = le32 (fs'.enc.length + 5) ++ (fs'.enc ++ [0]) := by simp [wrapDoc]
        rw [this]
        rw [show (4 : Nat) = (le32 (fs'.enc.length + 5)).length from rfl, e3]
        simp
      by_cases h : t.tag = 3 ∨ t.tag = 4
      · rw [if_pos h]
        cases t with
        | doc fs' => exact hsub fs' ht rfl
        | array vs => exact hsub (toFields 0 vs) (toFields_wf 0 vs ht) (by rw [toFields_enc]; rfl)
        | _ => simp [BVal.tag] at h
      · rw [if_neg h]; exact hrest

/-- `Reader.Validate` on a canonical document followed by anything -/
theorem readerValidate_encDoc (fuel : Nat) (fs : Fields) (wf : fs.WF) (post : Bytes)
    (hf : (encDoc fs).length < fuel) (hl : (encDoc fs ++ post).length < 2147483648) :
    readerValidate fuel (encDoc fs ++ post) = .ok (encDoc fs).length := by
  unfold readerValidate encDoc at *
  simp only [List.length_append, wrapDoc_length] at *
  rw [readerEnd_wrapDoc _ _ (by omega)]
  simp only [Res.bind_ok]
  have := validateLoop_enc fuel fs wf (le32 (fs.enc.length + 5)) post (fs.enc.length + 5) (by omega)
    (by simp; omega) (by simp; omega) (by simp; omega)
  have e : wrapDoc fs.enc ++ post = le32 (fs.enc.length + 5) ++ (fs.enc ++ 0 :: post) := by simp [wrapDoc]
  rw [e, show (4 : Nat) = (le32 (fs.enc.length + 5)).length from rfl, this]
  simp; omega

end Birch.Proofs
