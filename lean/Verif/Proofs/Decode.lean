import Verif.Proofs.Access
import Verif.Proofs.Fuel
import Verif.Proofs.Frame
import Verif.Proofs.Construct

/- Helper lemmas for the properties C03-C07. -/

namespace Birch.Proofs
open Birch Model Spec

set_option linter.unusedSimpArgs false

theorem openValue_returns {v : Value} {k : Bytes} {t : BVal} (h : Rep v k t) (hl : t.enc.length < 2147483648)
    (ht : t.tag = 0x03 ∨ t.tag = 0x04 ∨ t.tag = 0x0F) :
    ∃ d, Returns (fun fuel => openValue fuel v) (.ok (.withDoc v.start v.offset v.data d)) := by
  cases t with
  | doc fs =>
    obtain ⟨d, h1, _⟩ := mutableDocument_rep h hl (Nat.lt_succ_self _)
    refine ⟨d, (BVal.doc fs).enc.length + 1, fun m hm => ?_⟩
    simp only [openValue]
    rw [type_rep h, Res.bind_ok, if_pos (by rfl), mutableDocument_mono hm (by rw [h1]; simp), h1]; rfl
  | array vs =>
    obtain ⟨d, h1, _⟩ := mutableArray_rep h hl (Nat.lt_succ_self _)
    refine ⟨d, (BVal.array vs).enc.length + 1, fun m hm => ?_⟩
    simp only [openValue]
    rw [type_rep h, Res.bind_ok, if_neg (by simp [BVal.tag]), if_pos (by rfl), mutableArray_mono hm (by rw [h1]; simp), h1]; rfl
  | codeScope c fs =>
    obtain ⟨d, h1, _⟩ := mutableCode_rep h hl (Nat.lt_succ_self _)
    refine ⟨d, (BVal.codeScope c fs).enc.length + 1, fun m hm => ?_⟩
    simp only [openValue]
    rw [type_rep h, Res.bind_ok, if_neg (by simp [BVal.tag]), if_neg (by simp [BVal.tag]), if_pos (by rfl),
      mutableCode_mono hm (by rw [h1]; simp), h1]; rfl
  | _ => simp [BVal.tag] at ht

theorem le32_i32 (n : Nat) : le32 (u32i (i32 n)) = le32 n := twos32_nat (i32_mod n)

theorem docMarshal_size {fuel : Nat} {d : Doc} {b : Bytes} (h : docMarshal fuel d = .ok b) :
    docValidate fuel d = .ok b.length ∧ b.take 4 = le32 b.length := by
  unfold docMarshal docWrite at h
  rw [Res.bind_eq_ok] at h
  obtain ⟨size, h0, h⟩ := h
  rw [Res.bind_eq_ok] at h
  obtain ⟨⟨n, b'⟩, h1, h⟩ := h
  simp only [Res.ok.injEq] at h
  subst h
  obtain ⟨⟨hl, _⟩, h3⟩ := frameWrite_keeps (fun p c m c' hh => elemsWrite_keeps fuel d p c m c' hh) h1
  simp only [List.length_replicate] at hl
  simp only [Nat.zero_add, List.drop_zero, le32_i32] at h3
  rw [hl]
  exact ⟨h0, h3⟩

theorem arrMarshal_size {fuel : Nat} {d : Doc} {b : Bytes} (h : arrMarshal fuel d = .ok b) :
    arrValidate fuel d = .ok b.length ∧ b.take 4 = le32 b.length := by
  unfold arrMarshal arrWrite at h
  rw [Res.bind_eq_ok] at h
  obtain ⟨size, h0, h⟩ := h
  rw [Res.bind_eq_ok] at h
  obtain ⟨⟨n, b'⟩, h1, h⟩ := h
  simp only [Res.ok.injEq] at h
  subst h
  obtain ⟨⟨hl, _⟩, h3⟩ := frameWrite_keeps (fun p c m c' hh => valsWrite_keeps fuel d 0 p c m c' hh) h1
  simp only [List.length_replicate] at hl
  simp only [Nat.zero_add, List.drop_zero, le32_i32] at h3
  rw [hl]
  exact ⟨h0, h3⟩

mutual
theorem BVal.swapDec_swapDec : ∀ t : BVal, t.swapDec.swapDec = t
  | .doc fs => by simp [BVal.swapDec, Fields.swapDec_swapDec fs]
  | .array vs => by simp [BVal.swapDec, Vals.swapDec_swapDec vs]
  | .codeScope c fs => by simp [BVal.swapDec, Fields.swapDec_swapDec fs]
  | .double _ | .string _ | .binary _ _ | .undefined | .oid _ | .bool _ | .datetime _ | .null | .regex _ _
  | .dbpointer _ _ | .js _ | .symbol _ | .int32 _ | .timestamp _ _ | .int64 _ | .decimal _ _ | .minKey | .maxKey => by
    simp [BVal.swapDec]
theorem Fields.swapDec_swapDec : ∀ fs : Fields, fs.swapDec.swapDec = fs
  | .nil => rfl
  | .cons k v rest => by simp [Fields.swapDec, BVal.swapDec_swapDec v, Fields.swapDec_swapDec rest]
theorem Vals.swapDec_swapDec : ∀ vs : Vals, vs.swapDec.swapDec = vs
  | .nil => rfl
  | .cons v rest => by simp [Vals.swapDec, BVal.swapDec_swapDec v, Vals.swapDec_swapDec rest]
end

theorem encDoc_inj {fs gs : Fields} (wf : fs.WF) (wg : gs.WF) (hf : (encDoc fs).length < 2147483648)
    (h : encDoc fs = encDoc gs) : fs = gs := by
  have hg : (encDoc gs).length < 2147483648 := by rw [← h]; exact hf
  obtain ⟨d1, h1, r1⟩ := readDocument_enc ((encDoc fs).length + 1) fs wf [] (by omega) (by simpa using hf)
  obtain ⟨d2, h2, r2⟩ := readDocument_enc ((encDoc gs).length + 1) gs wg [] (by omega) (by simpa using hg)
  rw [h, h2] at h1
  injection h1 with h1
  subst h1
  have o1 := obsDoc_rep ((encDoc fs).length + 1) r1 hf (by omega)
  have o2 := obsDoc_rep ((encDoc gs).length + 1) r2 hg (by omega)
  rw [h, o2] at o1
  injection o1 with o1
  rw [← Fields.swapDec_swapDec fs, ← o1, Fields.swapDec_swapDec gs]

theorem encDoc_prefix {fs gs : Fields} {p q : Bytes} (wf : fs.WF) (wg : gs.WF)
    (hf : (encDoc fs).length < 2147483648) (hg : (encDoc gs).length < 2147483648)
    (h : encDoc fs ++ p = encDoc gs ++ q) : fs = gs ∧ p = q := by
  have hl : (encDoc fs).length = (encDoc gs).length := by
    have h4 : ∀ (x : Fields) (r : Bytes), (encDoc x).length < 2147483648 → rdU32 (encDoc x ++ r) = .ok (encDoc x).length := by
      intro x r hx
      simp only [encDoc, wrapDoc_length] at *
      simp only [wrapDoc, List.append_assoc]
      exact rdU32_le32 (by omega) _
    have e1 := h4 fs p hf
    rw [h, h4 gs q hg] at e1
    injection e1 with e1
    exact e1.symm
  obtain ⟨h1, h2⟩ := List.append_inj h hl
  exact ⟨encDoc_inj wf wg hf h1, h2⟩

theorem buildDoc_keyed : ∀ (kvs : List (Bytes × BVal)), (∀ p ∈ kvs, NulFree p.1 ∧ p.2.WF) →
    (∀ p ∈ kvs, p.1.length + 2 + p.2.enc.length < 2147483648) →
    ∃ d, buildDoc (.ofList kvs) = .ok d ∧ RepVals d (.ofList (kvs.map (·.2)))
  | [], _, _ => ⟨[], rfl, by simp [Vals.ofList, RepVals]⟩
  | (k, t) :: kvs, wf, hl => by
    obtain ⟨v, hv, hr⟩ := buildVal_rep k t (wf (k, t) (by simp)).1 (wf (k, t) (by simp)).2 (hl (k, t) (by simp))
    obtain ⟨d, hd, hr'⟩ := buildDoc_keyed kvs (fun p hp => wf p (by simp [hp])) (fun p hp => hl p (by simp [hp]))
    refine ⟨v :: d, by simp [Fields.ofList, buildDoc, hv, hd], ?_⟩
    simp only [List.map_cons, Vals.ofList, RepVals]
    exact ⟨⟨k, hr⟩, hr'⟩

end Birch.Proofs
