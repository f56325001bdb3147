import Verif.Proofs.BadArgs

/- Exactly the documents without a NUL in keys and regular expressions are marshalled as they were given (C95, C106). -/

namespace Birch.Proofs
open Birch Model Spec

theorem beforeNul_eq_iff (s : Bytes) : (beforeNul s).length = s.length ↔ NulFree s := by
  rcases beforeNul_split s with ⟨h, e⟩ | ⟨b, e, _⟩
  · rw [e]; exact ⟨fun _ => h, fun _ => rfl⟩
  · constructor
    · intro h
      have := congrArg List.length e
      simp at this; omega
    · intro h
      exact absurd rfl (h 0 (by rw [e]; simp))

/-- the size of a stored value, and when it is that of the value -/
theorem stored_size (t : BVal) (h : t.stored.WF) : t.stored.enc.length ≤ t.enc.length ∧ (t.stored.enc.length = t.enc.length ↔ t.WF) := by
  cases t with
  | regex p o =>
    simp only [BVal.stored, BVal.WF, BVal.enc] at *
    rcases beforeNul_split p with ⟨hp, _⟩ | ⟨b, e, hb⟩
    · have e1 : beforeNul (p ++ [0]) = p := beforeNul_append hp []
      have e2 : (p ++ [0] ++ o ++ [0]).drop (p.length + 1) = o ++ [0] := by
        rw [show p ++ [0] ++ o ++ [0] = (p ++ [0]) ++ (o ++ [0]) by simp, List.drop_left' (by simp)]
      rw [e1, e2]
      rcases beforeNul_split o with ⟨ho, _⟩ | ⟨b, e, hb⟩
      · rw [beforeNul_append ho []]
        simp [hp, ho]
      · have e3 : beforeNul (o ++ [0]) = beforeNul o := by
          conv => lhs; rw [e]
          rw [List.append_assoc, List.cons_append, beforeNul_append hb]
        have hlen := congrArg List.length e
        simp only [List.length_append, List.length_cons] at hlen
        rw [e3]
        simp only [List.length_append, List.length_cons, List.length_nil]
        refine ⟨by omega, fun h => by omega, fun h => ?_⟩
        exact absurd rfl (h.2 0 (by rw [e]; simp))
    · have e1 : beforeNul (p ++ [0]) = beforeNul p := by
        conv => lhs; rw [e]
        rw [List.append_assoc, List.cons_append, beforeNul_append hb]
      have hlen := congrArg List.length e
      simp only [List.length_append, List.length_cons] at hlen
      have e2 : (p ++ [0] ++ o ++ [0]).drop ((beforeNul p).length + 1) = b ++ 0 :: (o ++ [0]) := by
        conv => lhs; rw [e]
        rw [show (beforeNul (beforeNul p ++ 0 :: b)) = beforeNul p by rw [beforeNul_append hb],
          show beforeNul p ++ 0 :: b ++ [0] ++ o ++ [0] = (beforeNul p ++ [0]) ++ (b ++ 0 :: (o ++ [0])) by simp, List.drop_left' (by simp)]
      have e3 : (beforeNul (b ++ 0 :: (o ++ [0]))).length ≤ b.length := by
        rcases beforeNul_split b with ⟨hb', _⟩ | ⟨b', e', hb'⟩
        · rw [beforeNul_append hb']
          exact Nat.le_refl _
        · have : b ++ 0 :: (o ++ [0]) = beforeNul b ++ 0 :: (b' ++ 0 :: (o ++ [0])) := by conv => lhs; rw [e']; simp
          rw [this, beforeNul_append hb']
          exact beforeNul_le b
      rw [e1, e2]
      simp only [List.length_append, List.length_cons, List.length_nil]
      refine ⟨by omega, fun h => by omega, fun h => ?_⟩
      exact absurd rfl (h.1 0 (by rw [e]; simp))
  | _ => exact ⟨Nat.le_refl _, fun _ => h, fun _ => rfl⟩

theorem emitted_size (k : Bytes) (t : BVal) (h : t.stored.WF) :
    (emitted k t).length ≤ 1 + k.length + 1 + t.enc.length ∧ ((emitted k t).length = 1 + k.length + 1 + t.enc.length ↔ NulFree k ∧ t.WF) := by
  obtain ⟨h1, h2⟩ := stored_size t h
  have h3 := beforeNul_le k
  have h4 := beforeNul_eq_iff k
  have hl : (emitted k t).length = 1 + (beforeNul k).length + 1 + t.stored.enc.length := by
    simp only [emitted, List.length_take, List.length_append, List.length_cons, List.length_nil]
    omega
  rw [hl, ← h4, ← h2]
  omega

theorem fields_size (k : Bytes) (t : BVal) (rest : Fields) : (Fields.cons k t rest).enc.length = 1 + k.length + 1 + t.enc.length + rest.enc.length := by
  simp [Fields.enc]; omega

theorem emitted_exact : ∀ fs : Fields, fs.Stored → fs.emitted.length ≤ fs.enc.length ∧ (fs.emitted.length = fs.enc.length ↔ fs.WF)
  | .nil, _ => ⟨Nat.le_refl _, fun _ => trivial, fun _ => rfl⟩
  | .cons k t rest, h => by
    obtain ⟨h1, h2⟩ := emitted_size k t h.1
    obtain ⟨h3, h4⟩ := emitted_exact rest h.2
    rw [fields_size, Fields.emitted, List.length_append, Fields.WF, ← h4, ← and_assoc, ← h2]
    omega

theorem emitted_wf : ∀ fs : Fields, fs.WF → fs.Stored ∧ fs.emitted = fs.enc
  | .nil, _ => ⟨trivial, rfl⟩
  | .cons k t rest, h => by
    obtain ⟨h1, h2⟩ := emitted_wf rest h.2.2
    have hst : t.stored = t := by
      cases t with
      | regex p o =>
        simp only [BVal.stored]
        rw [beforeNul_append h.2.1.1 [], List.append_assoc, List.append_assoc, ← List.append_assoc p, List.drop_left' (by simp), beforeNul_append h.2.1.2 []]
      | _ => rfl
    have hk : beforeNul k = k := by
      rcases beforeNul_split k with ⟨_, e⟩ | ⟨b, e, _⟩
      · exact e
      · exact absurd rfl (h.1 0 (by rw [e]; simp))
    refine ⟨⟨by rw [hst]; exact h.2.1, h1⟩, ?_⟩
    simp only [Fields.emitted, Fields.enc, h2, emitted, hst, hk]
    rw [List.take_of_length_le (by simp; omega)]

/-- what is marshalled is the document that was given exactly if no key and no regular expression has a NUL -/
theorem emitted_iff (fs : Fields) (h : fs.Stored) : wrapDoc fs.emitted = encDoc fs ↔ fs.WF := by
  constructor
  · intro e
    have := congrArg List.length e
    simp only [encDoc, wrapDoc_length] at this
    exact (emitted_exact fs h).2.mp (by omega)
  · intro e
    rw [(emitted_wf fs e).2]
    rfl

end Birch.Proofs
