import Verif.Model.Stream
import Verif.Proofs.Access
import Verif.Proofs.Fuel

namespace Birch.Proofs
open Birch Model Model.Stream Spec

theorem readLoop_spec (n : Nat) : ∀ (want : Nat) (got : Bytes) (s : Source), s.segs.length + want ≤ n →
    ∃ b eof s', readLoop want got s = (got ++ b, eof, s') ∧ b ++ s'.left = s.left ∧
      (b.length = want ∨ b.length < want ∧ s'.left = [] ∧ eof = true) := by
  induction n with
  | zero =>
    intro want got s h
    unfold readLoop
    rw [dif_pos (by omega)]
    exact ⟨[], false, s, by simp, rfl, Or.inl (by simp; omega)⟩
  | succ n ih =>
    intro want got s h
    unfold readLoop
    by_cases h0 : want = 0
    · rw [dif_pos h0]
      exact ⟨[], false, s, by simp, rfl, Or.inl (by simp; omega)⟩
    · rw [dif_neg h0]
      cases hs : s.segs with
      | nil =>
        have e : s.read want = ([], true, s) := by unfold Source.read; rw [hs]
        have el : s.left = [] := by unfold Source.left; simp [hs]
        split
        · next b s' hr =>
          rw [e] at hr; cases hr
          exact ⟨[], true, s, rfl, rfl, Or.inr ⟨by simp; omega, el, rfl⟩⟩
        · next b s' hr => rw [e] at hr; cases hr
      | cons seg rest =>
        have e : s.read want = (seg.take want, (if seg.drop want = [] then rest else seg.drop want :: rest) = [] && s.eager,
            { s with segs := if seg.drop want = [] then rest else seg.drop want :: rest }) := by unfold Source.read; rw [hs]
        have hl : s.left = seg ++ rest.flatten := by unfold Source.left; simp [hs]
        rw [hs] at h
        simp only [List.length_cons] at h
        split
        · next b s' hr =>
          rw [e] at hr
          simp only [Prod.mk.injEq, Bool.and_eq_true, decide_eq_true_eq] at hr
          obtain ⟨rfl, ⟨h1, h2⟩, rfl⟩ := hr
          have h3 : seg.drop want = [] := by
            by_cases h3 : seg.drop want = []
            · exact h3
            · rw [if_neg h3] at h1; cases h1
          rw [if_pos h3] at h1 ⊢
          subst h1
          rw [List.drop_eq_nil_iff] at h3
          refine ⟨seg.take want, true, _, rfl, ?_, ?_⟩
          · rw [hl, List.take_of_length_le h3]; simp [Source.left]
          · rw [List.take_of_length_le h3]
            by_cases h4 : seg.length = want
            · exact Or.inl h4
            · exact Or.inr ⟨by omega, by simp [Source.left], rfl⟩
        · next b s' hr =>
          rw [e] at hr
          simp only [Prod.mk.injEq] at hr
          obtain ⟨rfl, -, rfl⟩ := hr
          have hm : (if seg.drop want = [] then rest else seg.drop want :: rest).length + (want - (seg.take want).length) ≤ n := by
            by_cases h3 : seg.drop want = []
            · rw [if_pos h3]; omega
            · rw [if_neg h3]
              have : ¬ seg.length ≤ want := fun h => h3 (List.drop_eq_nil_of_le h)
              simp only [List.length_cons, List.length_take]; omega
          obtain ⟨b, eof, s', h1, h2, h3⟩ := ih (want - (seg.take want).length) (got ++ seg.take want)
            { s with segs := if seg.drop want = [] then rest else seg.drop want :: rest } hm
          refine ⟨seg.take want ++ b, eof, s', by rw [h1, List.append_assoc], ?_, ?_⟩
          · rw [List.append_assoc, h2, hl]
            by_cases h3 : seg.drop want = []
            · simp only [if_pos h3, Source.left]
              rw [List.take_of_length_le (List.drop_eq_nil_iff.1 h3)]
            · simp only [if_neg h3, Source.left, List.flatten_cons, ← List.append_assoc, List.take_append_drop]
          · have hle : (seg.take want).length ≤ want := by simp; omega
            rcases h3 with h3 | ⟨h3, h4, h5⟩
            · exact Or.inl (by rw [List.length_append]; omega)
            · exact Or.inr ⟨by rw [List.length_append]; omega, h4, h5⟩

/-- `io.ReadFull` when enough bytes are left -/
theorem readFull_enough {b rest : Bytes} {s : Source} (h : s.left = b ++ rest) :
    ∃ s', readFull b.length s = (b, none, s') ∧ s'.left = rest := by
  obtain ⟨b', eof, s', h1, h2, h3⟩ := readLoop_spec _ b.length [] s (Nat.le_refl _)
  have hb : b'.length = b.length := by
    rcases h3 with h3 | ⟨h3, h4, _⟩
    · exact h3
    · rw [h, h4, List.append_nil] at h2
      rw [h2] at h3; simp at h3; omega
  rw [h] at h2
  obtain ⟨rfl, h5⟩ := List.append_inj h2 hb
  refine ⟨s', ?_, h5⟩
  unfold readFull
  rw [h1]
  simp only [List.nil_append]
  rw [if_pos (Nat.le_refl _)]

/-- `io.ReadFull` when too few bytes are left -/
theorem readFull_short {n : Nat} {s : Source} (h : s.left.length < n) :
    ∃ s', readFull n s = (s.left, some (if s.left = [] then .eof else .unexpectedEOF), s') ∧ s'.left = [] := by
  obtain ⟨b, eof, s', h1, h2, h3⟩ := readLoop_spec _ n [] s (Nat.le_refl _)
  rcases h3 with h3 | ⟨h3, h4, h5⟩
  · rw [← h2] at h; simp at h; omega
  · rw [h4, List.append_nil] at h2
    subst h5
    rw [← h2]
    refine ⟨s', ?_, h4⟩
    unfold readFull
    rw [h1]
    simp only [List.nil_append]
    rw [if_neg (by omega)]
    by_cases hb : b = []
    · rw [if_pos hb]; simp [hb]
    · rw [if_neg hb]
      have : 0 < b.length := List.length_pos_iff.2 hb
      simp [this]

end Birch.Proofs
