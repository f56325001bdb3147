import Verif.Proofs.Order
import Verif.Spec.Docs

/-
Insertion sort is the stable sort; the order of elements is a strict weak order away from NaN.
-/

namespace Birch.Proofs
open Birch Spec Model
open Birch.Spec.Docs (insertDesc sort)

variable {E : Type} {lt : E → E → Bool} {p : E → Prop}

theorem insertDesc_perm (x : E) (l : List E) : (insertDesc lt x l).Perm (x :: l) := by
  induction l with
  | nil => exact .refl _
  | cons y ys ih =>
    rw [insertDesc]
    split
    · exact (ih.cons y).trans (.swap x y ys)
    · exact .refl _

theorem insertDesc_mem (x : E) (l : List E) {a : E} : a ∈ insertDesc lt x l ↔ a = x ∨ a ∈ l := by
  rw [(insertDesc_perm x l).mem_iff, List.mem_cons]

theorem insertDesc_desc (W : WeakOrder lt p) {x : E} (hx : p x) {l : List E} (hl : ∀ a ∈ l, p a)
    (hd : l.Pairwise (fun a b => lt a b = false)) : (insertDesc lt x l).Pairwise (fun a b => lt a b = false) := by
  induction l with
  | nil => simp [insertDesc]
  | cons y ys ih =>
    have hy := hl y (by simp)
    have hys : ∀ a ∈ ys, p a := fun a ha => hl a (by simp [ha])
    rw [List.pairwise_cons] at hd
    rw [insertDesc]
    split
    · next h =>
      rw [List.pairwise_cons]
      refine ⟨fun a ha => ?_, ih hys hd.2⟩
      rcases (insertDesc_mem x ys).mp ha with rfl | ha
      · exact W.asymm _ _ hx hy h
      · exact hd.1 a ha
    · next h =>
      rw [List.pairwise_cons]
      refine ⟨fun a ha => ?_, by rw [List.pairwise_cons]; exact hd⟩
      rcases List.mem_cons.mp ha with rfl | ha
      · simpa using h
      · cases hc : lt x a with
        | false => rfl
        | true =>
          rcases W.cotrans x y a hx hy (hys a ha) hc with h' | h'
          · exact absurd h' h
          · rw [hd.1 a ha] at h'; cases h'

theorem tied_iff {a b : E} : tied lt a b = true ↔ lt a b = false ∧ lt b a = false := by simp [tied]

theorem tied_comm {a b : E} : tied lt a b = tied lt b a := by simp [tied, Bool.and_comm]

theorem tied_trans (W : WeakOrder lt p) {a b c : E} (ha : p a) (hb : p b) (hc : p c) (h1 : tied lt a b = true) (h2 : tied lt b c = true) :
    tied lt a c = true := by
  rw [tied_iff] at *
  constructor
  · cases h : lt a c with
    | false => rfl
    | true =>
      rcases W.cotrans a b c ha hb hc h with h' | h'
      · rw [h1.1] at h'; cases h'
      · rw [h2.1] at h'; cases h'
  · cases h : lt c a with
    | false => rfl
    | true =>
      rcases W.cotrans c b a hc hb ha h with h' | h'
      · rw [h2.2] at h'; cases h'
      · rw [h1.2] at h'; cases h'

theorem insertDesc_filter (W : WeakOrder lt p) {x a : E} (hx : p x) (ha : p a) {l : List E} (hl : ∀ b ∈ l, p b) :
    (insertDesc lt x l).filter (tied lt a) = (x :: l).filter (tied lt a) := by
  induction l with
  | nil => rfl
  | cons y ys ih =>
    have hy := hl y (by simp)
    have hys : ∀ b ∈ ys, p b := fun b hb => hl b (by simp [hb])
    rw [insertDesc]
    split
    · next h =>
      rw [List.filter_cons, ih hys, List.filter_cons, List.filter_cons, List.filter_cons]
      by_cases h1 : tied lt a x = true
      · have h2 : ¬ tied lt a y = true := by
          intro h2
          have := tied_trans W hx ha hy (by rwa [tied_comm]) h2
          rw [tied_iff] at this
          rw [h] at this; simp at this
        simp [h1, h2]
      · simp [h1]
    · rfl

theorem sort_stable (W : WeakOrder lt p) (l : List E) (hl : ∀ a ∈ l, p a) : StableSort lt l (sort lt l) := by
  have key : ∀ (l acc : List E), (∀ a ∈ l, p a) → (∀ a ∈ acc, p a) → acc.Pairwise (fun a b => lt a b = false) →
      (l.foldl (fun acc x => insertDesc lt x acc) acc).Perm (l.reverse ++ acc) ∧
      (l.foldl (fun acc x => insertDesc lt x acc) acc).Pairwise (fun a b => lt a b = false) ∧
      ∀ a, p a → (l.foldl (fun acc x => insertDesc lt x acc) acc).filter (tied lt a) = (l.reverse ++ acc).filter (tied lt a) := by
    intro l
    induction l with
    | nil => intro acc _ _ h; exact ⟨.refl _, h, fun _ _ => rfl⟩
    | cons x xs ih =>
      intro acc hl hacc hd
      have hx := hl x (by simp)
      obtain ⟨h1, h2, h3⟩ := ih (insertDesc lt x acc) (fun a ha => hl a (by simp [ha]))
        (fun a ha => by rcases (insertDesc_mem x acc).mp ha with rfl | h
                        · exact hx
                        · exact hacc a h) (insertDesc_desc W hx hacc hd)
      rw [List.foldl_cons]
      refine ⟨?_, h2, fun a ha => ?_⟩
      · rw [List.reverse_cons, List.append_assoc]
        exact h1.trans ((insertDesc_perm x acc).append_left _)
      · rw [h3 a ha, List.filter_append, insertDesc_filter W hx ha hacc, ← List.filter_append]
        simp
  obtain ⟨h1, h2, h3⟩ := key l [] hl (by simp) List.Pairwise.nil
  refine ⟨?_, ?_, fun a ha => ?_⟩
  · rw [List.append_nil] at h1
    exact (List.reverse_perm _).trans (h1.trans (List.reverse_perm l))
  · rw [sort, List.pairwise_reverse]; exact h2
  · rw [sort, List.filter_reverse, h3 a (hl a ha), List.append_nil, List.filter_reverse, List.reverse_reverse]

/-- there is only one stable sort -/
theorem stableSort_unique (W : WeakOrder lt p) : ∀ (r r' l : List E), (∀ a ∈ l, p a) → StableSort lt l r → StableSort lt l r' → r = r' := by
  have key : ∀ (r r' : List E), (∀ a ∈ r, p a) → r'.Perm r → r.Pairwise (fun a b => lt b a = false) → r'.Pairwise (fun a b => lt b a = false) →
      (∀ a ∈ r, r'.filter (tied lt a) = r.filter (tied lt a)) → r = r' := by
    intro r
    induction r with
    | nil => intro r' _ hp _ _ _; exact (hp.eq_nil).symm
    | cons x xs ih =>
      intro r' hr hp hs hs' hf
      cases r' with
      | nil => have := hp.length_eq; simp at this
      | cons y ys =>
        have px := hr x (by simp)
        have hirr : ∀ a, p a → lt a a = false := by
          intro a ha
          cases h : lt a a with
          | false => rfl
          | true => have := W.asymm a a ha ha h; rw [h] at this; exact this
        rw [List.pairwise_cons] at hs hs'
        have hxy : x = y := by
          have h1 : lt y x = false := by
            rcases List.mem_cons.mp (hp.mem_iff.mp (List.mem_cons_self : y ∈ y :: ys)) with h | h
            · rw [h]; exact hirr x px
            · exact hs.1 y h
          have h2 : lt x y = false := by
            rcases List.mem_cons.mp (hp.mem_iff.mpr (List.mem_cons_self : x ∈ x :: xs)) with h | h
            · rw [← h]; exact hirr x px
            · exact hs'.1 x h
          have hfx := hf x (by simp)
          rw [List.filter_cons_of_pos (by rw [tied_iff]; exact ⟨h2, h1⟩), List.filter_cons_of_pos (by rw [tied_iff]; exact ⟨hirr x px, hirr x px⟩)] at hfx
          exact (List.cons.inj hfx).1.symm
        subst hxy
        congr 1
        refine ih ys (fun a ha => hr a (by simp [ha])) (List.perm_cons x |>.mp hp) hs.2 hs'.2 (fun a ha => ?_)
        have := hf a (by simp [ha])
        rw [List.filter_cons, List.filter_cons] at this
        split at this
        · exact (List.cons.inj this).2
        · exact this
  intro r r' l hl h h'
  refine key r r' (fun a ha => hl a (h.perm.mem_iff.mp ha)) (h'.perm.trans h.perm.symm) h.sorted h'.sorted (fun a ha => ?_)
  have ha' := h.perm.mem_iff.mp ha
  rw [h'.stable a ha', h.stable a ha']

/-! ### strings -/

theorem strLt_irrefl : ∀ a : Bytes, strLt a a = false
  | [] => rfl
  | a :: as => by simp [strLt, strLt_irrefl as]

theorem strLt_cons (a b : UInt8) (as bs : Bytes) :
    strLt (a :: as) (b :: bs) = true ↔ a.toNat < b.toNat ∨ (a.toNat = b.toNat ∧ strLt as bs = true) := by
  simp [strLt, UInt8.lt_iff_toNat_lt, ← UInt8.toNat_inj]

theorem strLt_asymm : ∀ a b : Bytes, strLt a b = true → strLt b a = false
  | _, [], h => by simp [strLt] at h
  | [], _ :: _, _ => by simp [strLt]
  | a :: as, b :: bs, h => by
    rw [strLt_cons] at h
    cases hc : strLt (b :: bs) (a :: as) with
    | false => rfl
    | true =>
      rw [strLt_cons] at hc
      rcases h with h | ⟨h, h'⟩ <;> rcases hc with hc | ⟨hc, hc'⟩
      · omega
      · omega
      · omega
      · rw [strLt_asymm as bs h'] at hc'; cases hc'

theorem strLt_cotrans : ∀ a b c : Bytes, strLt a c = true → strLt a b = true ∨ strLt b c = true
  | _, _, [], h => by simp [strLt] at h
  | _, [], _ :: _, _ => by simp [strLt]
  | [], _ :: _, _ :: _, _ => by simp [strLt]
  | a :: as, b :: bs, c :: cs, h => by
    simp only [strLt_cons] at h ⊢
    rcases Nat.lt_trichotomy a.toNat b.toNat with h1 | h1 | h1
    · exact .inl (.inl h1)
    · rcases h with h | ⟨h, h'⟩
      · exact .inr (.inl (by omega))
      · rcases strLt_cotrans as bs cs h' with h2 | h2
        · exact .inl (.inr ⟨h1, h2⟩)
        · exact .inr (.inr ⟨by omega, h2⟩)
    · exact .inr (.inl (by omega))

theorem strLt_total : ∀ a b : Bytes, a ≠ b → strLt a b = true ∨ strLt b a = true
  | [], [], h => absurd rfl h
  | _ :: _, [], _ => by simp [strLt]
  | [], _ :: _, _ => by simp [strLt]
  | a :: as, b :: bs, h => by
    simp only [strLt_cons]
    rcases Nat.lt_trichotomy a.toNat b.toNat with h1 | h1 | h1
    · exact .inl (.inl h1)
    · have : as ≠ bs := fun h' => h (by rw [h', UInt8.toNat_inj.mp h1])
      rcases strLt_total as bs this with h2 | h2
      · exact .inl (.inr ⟨h1, h2⟩)
      · exact .inr (.inr ⟨h1.symm, h2⟩)
    · exact .inr (.inl (by omega))

/-! ### elements -/

theorem valLess_asymm (a b : BVal) (h : valLess a b = true) : valLess b a = false := by
  cases a <;> cases b <;> simp only [valLess, ← strLt_eq, ← f64Lt_eq, Bool.false_eq_true, decide_eq_true_eq] at h ⊢
  · unfold f64Lt at h ⊢
    split at h
    · next h1 h2 => simp [h1, h2] at h ⊢; omega
    · cases h
  · exact strLt_asymm _ _ h
  · exact strLt_asymm _ _ h
  all_goals (rw [decide_eq_false_iff_not]; omega)

theorem valLess_cotrans (a b c : BVal) (hb : b.notNaN) (t1 : a.tag = b.tag) (t2 : b.tag = c.tag) (h : valLess a c = true) :
    valLess a b = true ∨ valLess b c = true := by
  cases a <;> cases c <;> simp only [valLess, ← strLt_eq, ← f64Lt_eq, Bool.false_eq_true, decide_eq_true_eq] at h <;> cases b <;>
    simp [BVal.tag] at t1 t2 <;> simp only [valLess, ← strLt_eq, ← f64Lt_eq, decide_eq_true_eq]
  · next x z y =>
    simp only [BVal.notNaN, ne_eq, ← f64Ord_none] at hb
    unfold f64Lt at h ⊢
    cases hx : f64Ord x <;> cases hz : f64Ord z <;> cases hy : f64Ord y <;> simp_all
    omega
  · exact strLt_cotrans _ _ _ h
  · exact strLt_cotrans _ _ _ h
  all_goals omega

theorem elemLess_weak : WeakOrder elemLess (fun e : Bytes × BVal => e.2.notNaN) where
  asymm := by
    rintro ⟨k, t⟩ ⟨l, u⟩ - - h
    unfold elemLess at h ⊢
    simp only [← strLt_eq] at h ⊢
    by_cases hk : k = l
    · subst hk
      simp only [ne_eq, not_true, if_false] at h ⊢
      by_cases ht : t.tag = u.tag
      · simp only [ht, not_true, if_false] at h ⊢; exact valLess_asymm _ _ h
      · rw [if_pos ht] at h; rw [if_pos (fun h => ht h.symm)]
        simp only [decide_eq_true_eq, decide_eq_false_iff_not, UInt8.lt_iff_toNat_lt] at h ⊢; omega
    · rw [if_pos hk] at h; rw [if_pos (fun h => hk h.symm)]; exact strLt_asymm _ _ h
  cotrans := by
    rintro ⟨k, t⟩ ⟨l, u⟩ ⟨m, v⟩ - hb - h
    unfold elemLess at h ⊢
    simp only [← strLt_eq] at h ⊢; simp only at hb
    by_cases hkl : k = l
    · subst hkl
      by_cases hlm : k = m
      · subst hlm
        simp only [ne_eq, not_true, if_false] at h ⊢
        by_cases htu : t.tag = u.tag
        · by_cases huv : u.tag = v.tag
          · have := valLess_cotrans t u v hb htu huv (by simpa [htu, huv] using h)
            simpa [htu, huv] using this
          · right; simpa [htu, huv] using h
        · by_cases huv : u.tag = v.tag
          · left; simpa [htu, ← huv] using h
          · rw [if_pos htu, if_pos huv]
            simp only [decide_eq_true_eq, UInt8.lt_iff_toNat_lt]
            have h1 : t.tag.toNat ≠ u.tag.toNat := fun h => htu (UInt8.toNat_inj.mp h)
            have h2 : u.tag.toNat ≠ v.tag.toNat := fun h => huv (UInt8.toNat_inj.mp h)
            by_cases htv : t.tag = v.tag
            · rw [htv] at h1 ⊢; omega
            · rw [if_pos htv] at h
              simp only [decide_eq_true_eq, UInt8.lt_iff_toNat_lt] at h; omega
      · right; rw [if_pos hlm] at h ⊢; exact h
    · by_cases hlm : l = m
      · subst hlm; left; rw [if_pos hkl] at h ⊢; exact h
      · rw [if_pos hkl, if_pos hlm]
        by_cases hkm : k = m
        · subst hkm; exact strLt_total _ _ hkl
        · rw [if_pos hkm] at h; exact strLt_cotrans _ _ _ h

end Birch.Proofs
