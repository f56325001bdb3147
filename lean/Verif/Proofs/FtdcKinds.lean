import Verif.Proofs.FtdcLayout

/- How the documents of a file are told apart. -/

namespace Birch.Proofs.Ftdc
open Birch Model Model.Ftdc Spec

theorem kType_ascii : kType = ascii "type" := by decide +kernel

theorem kData_ascii : kData = ascii "data" := by decide +kernel

theorem isNum_zero {v : Value} {k : Bytes} {t : BVal} (h : Rep v k t) : ∃ b, isNum 0 (some v) = .ok b ∧ (b = true ↔ IsZero t) := by
  unfold isNum
  simp only [type_rep h, Res.bind_ok]
  cases t
  case double b => exact ⟨_, by simp only [BVal.tag]; rw [if_neg (by decide), if_neg (by decide), if_pos (by decide), double_rep h]; rfl, by simp [IsZero]⟩
  case int32 i => exact ⟨_, by simp only [BVal.tag]; rw [if_pos (by decide), int32_rep h]; rfl, by simp [IsZero]⟩
  case int64 i => exact ⟨_, by simp only [BVal.tag]; rw [if_neg (by decide), if_pos (by decide), int64_rep h]; rfl, by simp [IsZero]⟩
  all_goals exact ⟨false, by simp only [BVal.tag]; rfl, by simp [IsZero]⟩

theorem isNum_one {v : Value} {k : Bytes} {t : BVal} (h : Rep v k t) : ∃ b, isNum 1 (some v) = .ok b ∧ (b = true ↔ IsOne t) := by
  unfold isNum
  simp only [type_rep h, Res.bind_ok]
  cases t
  case double b => exact ⟨_, by simp only [BVal.tag]; rw [if_neg (by decide), if_neg (by decide), if_pos (by decide), double_rep h]; rfl, by simp [IsOne]⟩
  case int32 i => exact ⟨_, by simp only [BVal.tag]; rw [if_pos (by decide), int32_rep h]; rfl, by simp [IsOne]⟩
  case int64 i => exact ⟨_, by simp only [BVal.tag]; rw [if_neg (by decide), if_pos (by decide), int64_rep h]; rfl, by simp [IsOne]⟩
  all_goals exact ⟨false, by simp only [BVal.tag]; rfl, by simp [IsOne]⟩

theorem doc_meta {doc : Doc} {fs : Fields} (h : RepFields doc fs) (hm : MetaDoc fs) (unzip : Bytes → Option Bytes) (fuel : Nat) (md : Option Doc) :
    readChunkDoc unzip fuel md doc = .ok (some doc, none) := by
  obtain ⟨t, ht, hz⟩ := hm
  have h1 := findElem_rep kType h
  rw [kType_ascii, ht] at h1
  obtain ⟨v, e1, e2, _⟩ := h1
  unfold readChunkDoc
  obtain ⟨b, hb, hi⟩ := isNum_zero e2
  rw [kType_ascii, e1, Res.bind_ok, hb, Res.bind_ok, hi.mpr hz]; rfl

theorem doc_other {doc : Doc} {fs : Fields} (h : RepFields doc fs) (hm : ¬ MetaDoc fs) (hc : ¬ ChunkDoc fs) (unzip : Bytes → Option Bytes) (fuel : Nat)
    (md : Option Doc) : readChunkDoc unzip fuel md doc = .ok (md, none) := by
  have h1 := findElem_rep kType h
  unfold readChunkDoc
  rw [kType_ascii] at h1 ⊢
  cases ht : fs.firstNamed (ascii "type") with
  | none =>
    rw [ht] at h1
    rw [h1]; rfl
  | some t =>
    rw [ht] at h1
    obtain ⟨v, e1, e2, _⟩ := h1
    obtain ⟨b, hb, hi⟩ := isNum_zero e2
    obtain ⟨c, hc', hj⟩ := isNum_one e2
    have h1 : b = false := Bool.eq_false_iff.mpr fun e => hm ⟨t, ht, hi.mp e⟩
    have h2 : c = false := Bool.eq_false_iff.mpr fun e => hc ⟨t, ht, hj.mp e⟩
    rw [e1, Res.bind_ok, hb, Res.bind_ok, hc', Res.bind_ok, h1, h2]
    rfl

theorem not_zero {t : BVal} (h : IsOne t) : ¬ IsZero t := by
  intro h'
  cases t <;> simp only [IsOne, IsZero] at h h'
  all_goals omega

/-- the rest of `readChunkDoc` for a chunk -/
theorem doc_chunk {doc : Doc} {fs : Fields} (h : RepFields doc fs) (hc : ChunkDoc fs) (unzip : Bytes → Option Bytes) (fuel : Nat) (md : Option Doc) :
    (fs.firstNamed (ascii "data") = none ∧ readChunkDoc unzip fuel md doc = .err .other) ∨
    (∃ t, fs.firstNamed (ascii "data") = some t ∧ (∀ z, ¬ Compressed fs z) ∧ readChunkDoc unzip fuel md doc = .panic) ∨
    (∃ z, Compressed fs z ∧ readChunkDoc unzip fuel md doc = match unzip z with
      | none => .err .other
      | some buf => (readPayload fuel md buf).bind fun c => .ok (md, some c)) := by
  obtain ⟨t, ht, hz⟩ := hc
  have h1 := findElem_rep kType h
  have h2 := findElem_rep kData h
  rw [kType_ascii, ht] at h1
  obtain ⟨v, e1, e2, _⟩ := h1
  have hr : readChunkDoc unzip fuel md doc = (do
    match ← findElemForKey (ascii "data") doc with
    | none => .err .other
    | some zelem => do
      let (_, zBytes) ← binary zelem
      let z ← slice zBytes 4 zBytes.length
      match unzip z with
      | none => .err .other
      | some buf => do .ok (md, some (← readPayload fuel md buf))) := by
    unfold readChunkDoc
    obtain ⟨b, hb, hi⟩ := isNum_zero e2
    obtain ⟨c, hc', hj⟩ := isNum_one e2
    have h1 : b = false := Bool.eq_false_iff.mpr fun e => not_zero hz (hi.mp e)
    rw [kType_ascii, kData_ascii, e1, Res.bind_ok, hb, Res.bind_ok, hc', Res.bind_ok, h1, hj.mpr hz]
    rfl
  rw [kData_ascii] at h2
  cases hd : fs.firstNamed (ascii "data") with
  | none =>
    rw [hd] at h2
    exact .inl ⟨rfl, by rw [hr, h2]; rfl⟩
  | some b =>
    rw [hd] at h2
    obtain ⟨w, e3, e4, _⟩ := h2
    rw [e3, Res.bind_ok] at hr
    by_cases hb : ∃ st c, b = .binary st c
    · obtain ⟨st, c, rfl⟩ := hb
      by_cases hl : 4 ≤ c.length
      · refine .inr (.inr ⟨c.drop 4, ⟨st, c, hd, hl, rfl⟩, ?_⟩)
        rw [hr]
        simp only [binary_rep e4, Res.bind_ok, slice, if_pos (show 4 ≤ c.length ∧ c.length ≤ c.length from ⟨hl, Nat.le_refl _⟩), List.take_length]
        rfl
      · refine .inr (.inl ⟨_, rfl, ?_, ?_⟩)
        · rintro z ⟨st', c', h', hl', _⟩
          rw [hd] at h'
          cases h'
          exact hl hl'
        · rw [hr]
          simp only [binary_rep e4, Res.bind_ok, slice, if_neg (show ¬ (4 ≤ c.length ∧ c.length ≤ c.length) from fun h => hl h.1)]
          rfl
    · refine .inr (.inl ⟨_, rfl, ?_, ?_⟩)
      · rintro z ⟨st', c', h', _⟩
        rw [hd] at h'
        cases h'
        exact hb ⟨_, _, rfl⟩
      · rw [hr]
        have : binary w = .panic := by
          unfold binary
          rw [expect_rep e4, if_neg (by
            intro hx
            cases b <;> simp [BVal.tag] at hx
            exact hb ⟨_, _, rfl⟩)]
          rfl
        simp only [this]
        rfl

theorem chunks_other {doc : Doc} (unzip : Bytes → Option Bytes) (fuel : Nat) (hd : ∀ md, readChunkDoc unzip fuel md doc = .ok (md, none)) (b : List Doc) :
    ∀ (a : List Doc) (md : Option Doc), readChunks unzip fuel md (a ++ doc :: b) = readChunks unzip fuel md (a ++ b)
  | [], md => by
    simp only [List.nil_append]
    rw [readChunks, hd]
    simp
  | x :: a, md => by
    simp only [List.cons_append]
    rw [readChunks, readChunks]
    cases hx : readChunkDoc unzip fuel md x with
    | ok r =>
      obtain ⟨md', c⟩ := r
      simp only [chunks_other unzip fuel hd b a md']
    | err e => rfl
    | panic => rfl
    | oof => rfl

end Birch.Proofs.Ftdc
