import Verif.Proofs.FtdcStream

/- Histories of a base collector, against `collect`. -/

namespace Birch.Proofs.Ftdc
open Birch Model Model.Ftdc Spec

theorem kinds_shape {f g : Fields} (h : f.metrics.SameShape g.metrics) : g.kinds = f.kinds := by
  have := typesF_shape _ _ h
  rw [numsF_metrics, numsF_metrics, kindsF_nums, kindsF_nums] at this
  exact this.symm

theorem collect_all {max : Nat} : ∀ (rest kept : List Fields), (∀ f ∈ kept ++ rest, ∀ g ∈ kept ++ rest, g.kinds = f.kinds) →
    (kept ++ rest).length ≤ max + 1 → collect max kept rest = (rest.map fun _ => true, kept ++ rest)
  | [], kept, _, _ => by simp [collect]
  | fs :: rest, kept, h, hl => by
    have hf : fits max kept fs = true := by
      cases kept with
      | nil => rfl
      | cons f0 kept =>
        simp only [fits, decide_eq_true_eq]
        exact ⟨by simp at hl ⊢; omega, h f0 (by simp) fs (by simp)⟩
    have := collect_all rest (kept ++ [fs]) (by simpa using h) (by simpa using hl)
    simp only [collect, hf, if_true, this]
    simp

theorem isNone_all {es : List (Option Err)} {fss : List Fields} (h : es.map Option.isNone = fss.map fun _ => true) :
    es = fss.map fun _ => none := by
  induction es generalizing fss with
  | nil => cases fss <;> simp_all
  | cons e es ih =>
    cases fss with
    | nil => simp at h
    | cons f fss => simp only [List.map_cons, List.cons.injEq] at h ⊢; exact ⟨Option.isNone_iff_eq_none.mp h.1, ih h.2⟩

theorem back_all (fsub : Nat → Nat → Nat) (f : Fields) : ∀ (cs : List Fields) (p : Fields), (∀ c ∈ cs, f.SameShape c ∧ c.Kept) → backFrom fsub f p cs = cs
  | [], _, _ => rfl
  | c :: cs, p, h => by
    simp only [backFrom]
    rw [backF_kept fsub f p c (h c (by simp)).1 (h c (by simp)).2, back_all fsub f cs c (fun c hc => h c (by simp [hc]))]


theorem collect_length {max : Nat} : ∀ (rest kept : List Fields), (collect max kept rest).1.length = rest.length
  | [], _ => rfl
  | fs :: rest, kept => by simp [collect, collect_length rest]

theorem collect_same {max : Nat} : ∀ (rest kept : List Fields), kept ≠ [] → kept.length ≤ max + 1 →
    (∀ f ∈ kept ++ rest, ∀ g ∈ kept ++ rest, g.kinds = f.kinds) →
    (∀ i b, (collect max kept rest).1[i]? = some b → b = decide (kept.length + i ≤ max)) ∧
    (collect max kept rest).2.length = min (kept.length + rest.length) (max + 1)
  | [], kept, _, hk, _ => by simp [collect]; omega
  | fs :: rest, f0 :: kept, _, hk, h => by
    have hf : fits max (f0 :: kept) fs = decide ((f0 :: kept).length ≤ max) := by
      simp only [fits, h f0 (by simp) fs (by simp), and_true]
    simp only [collect]
    by_cases hr : (f0 :: kept).length ≤ max
    · rw [decide_eq_true hr] at hf
      obtain ⟨i1, i2⟩ := collect_same (max := max) rest (f0 :: kept ++ [fs]) (by simp) (by simp at hr ⊢; omega) (by simpa using h)
      simp only [hf, if_true]
      constructor
      · intro i b hb
        cases i with
        | zero => simp at hb ⊢; simp at hr; exact hb ▸ (by simpa using hr)
        | succ i =>
          simp only [List.getElem?_cons_succ] at hb
          have := i1 i b hb
          rw [this]; congr 1; simp; omega
      · rw [i2]; simp; omega
    · rw [decide_eq_false hr] at hf
      obtain ⟨i1, i2⟩ := collect_same (max := max) rest (f0 :: kept) (by simp) hk (by
        intro f hf g hg; refine h f ?_ g ?_ <;> simp at * <;> grind)
      simp only [hf, Bool.false_eq_true, if_false]
      constructor
      · intro i b hb
        cases i with
        | zero => simp at hb ⊢; simp at hr; exact hb ▸ (by simpa using hr)
        | succ i =>
          simp only [List.getElem?_cons_succ] at hb
          have := i1 i b hb
          rw [this]; congr 1; simp at *; omega
      · rw [i2]; simp at *; omega


theorem taken_rep : ∀ (ds : List Doc) (fss : List Fields) (bs : List Bool), RepDocs ds fss → RepDocs (taken ds bs) (taken fss bs)
  | [], [], bs, _ => by cases bs <;> trivial
  | d :: ds, f :: fss, [], _ => trivial
  | d :: ds, f :: fss, b :: bs, h => by
    cases b
    · exact taken_rep ds fss bs h.2
    · exact ⟨h.1, taken_rep ds fss bs h.2⟩
  | [], _ :: _, _, h => h.elim
  | _ :: _, [], _, h => h.elim

theorem taken_mem {α : Type} : ∀ (ds : List α) (bs : List Bool) d, d ∈ taken ds bs → d ∈ ds
  | [], bs, d, h => by cases bs <;> simp [taken] at h
  | _ :: _, [], d, h => by simp [taken] at h
  | x :: ds, b :: bs, d, h => by
    cases b
    · simp only [taken, Bool.false_eq_true, if_false] at h; exact List.mem_cons_of_mem _ (taken_mem ds bs d h)
    · simp only [taken, if_true, List.mem_cons] at h
      rcases h with h | h
      · simp [h]
      · exact List.mem_cons_of_mem _ (taken_mem ds bs d h)

theorem collect_taken {max : Nat} : ∀ (rest kept : List Fields), (collect max kept rest).2 = kept ++ taken rest (collect max kept rest).1
  | [], kept => by simp [collect, taken]
  | fs :: rest, kept => by
    simp only [collect, taken]
    rw [collect_taken rest]
    split <;> simp

/-- the documents taken are taken when they come alone -/
theorem collect_again {max : Nat} : ∀ (rest kept : List Fields), collect max kept (taken rest (collect max kept rest).1) =
    ((taken rest (collect max kept rest).1).map (fun _ => true), (collect max kept rest).2)
  | [], kept => by simp [collect, taken]
  | fs :: rest, kept => by
    simp only [collect, taken]
    cases hf : fits max kept fs
    · simp only [Bool.false_eq_true, if_false]; exact collect_again rest kept
    · simp only [if_true]
      simp only [collect, hf, if_true, collect_again rest (kept ++ [fs]), List.map_cons]

theorem repDocs_wf : ∀ (ds : List Doc) (fss : List Fields), RepDocs ds fss → ∀ fs ∈ fss, fs.WF
  | [], [], _, _, h => by simp at h
  | _ :: ds, _ :: fss, h, fs, hfs => by
    simp only [List.mem_cons] at hfs
    rcases hfs with rfl | hfs
    · exact repFields_wf h.1
    · exact repDocs_wf ds fss h.2 fs hfs
  | [], _ :: _, h, _, _ => h.elim
  | _ :: _, [], h, _, _ => h.elim

theorem repDocs_len : ∀ (ds : List Doc) (fss : List Fields), RepDocs ds fss → ds.length = fss.length
  | [], [], _ => rfl
  | _ :: ds, _ :: fss, h => by simp [repDocs_len ds fss h.2]
  | [], _ :: _, h => h.elim
  | _ :: _, [], h => h.elim

end Birch.Proofs.Ftdc
