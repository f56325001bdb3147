import Verif.Proofs.DocView
import Verif.Proofs.Sorting
import Verif.Props.Documents

/-
C17: `Document.Sorted`, and C18: `AppendOmitEmpty`.
-/

namespace Birch.Props
open Birch Proofs.DocHeap Spec.DocView Spec
open Birch.Model.DocHeap (World Call Out Params step)
open Birch.Spec.Docs (Sem State doc)

variable {E : Type}

/-! ### C17 -/

/-- `Sorted` makes a new document that is a stable sort of the original by the order `less`; the original and all other
    documents are unchanged. -/
theorem C17_sorted {P : Params E} {M : Sem E} (hm : Means P M) {w : World E} (hw : Reached P w) {d : Nat} {es : List E}
    (hd : Shows w d es) {p : E → Prop} (W : WeakOrder M.less p) (hp : ∀ e ∈ es, p e) :
    ∃ w' o es', step P w (.sorted d) = .ok (w', o) ∧ Reached P w' ∧ Shows w' w.docs.length es' ∧ StableSort M.less es es' ∧
      ∀ d' es'', Shows w d' es'' → Shows w' d' es'' := by
  obtain ⟨w', o, h1, h2, h3, h4⟩ := create hm hw (.sorted d) (Docs.sort M.less es)
    (fun s R => by simp [Docs.step, Docs.new, doc_of_shows R hd])
  exact ⟨w', o, _, h1, h2, h3, Proofs.sort_stable W es hp, h4⟩

/-- A stable sort has only one result, so any implementation of `sort.Stable` that meets its contract agrees with the
    insertion sort of the model. -/
theorem C17_unique {lt : E → E → Bool} {p : E → Prop} (W : WeakOrder lt p) (l r r' : List E) (hl : ∀ a ∈ l, p a)
    (h : StableSort lt l r) (h' : StableSort lt l r') : r = r' :=
  Proofs.stableSort_unique W r r' l hl h h'

/-- For BSON documents without NaN values: `Sorted` is a permutation in non-decreasing key order; elements of equal key and
    type that the order does not separate keep their relative order.
    Missing (and false, see `C17_equal_keys_reordered`): that all elements with equal keys keep their relative order. -/
theorem C17_bson_partial (grow : Nat → Nat) (fuel : Nat) (hf : 2147483648 ≤ fuel) {w : World BElem} (hw : Reached (bsonParams grow fuel) w)
    {d : Nat} {es : List BElem} (hd : Shows w d es) (hn : ∀ e ∈ es, e.val.notNaN) :
    ∃ w' o es', step (bsonParams grow fuel) w (.sorted d) = .ok (w', o) ∧ Shows w' w.docs.length es' ∧
      es'.Perm es ∧ es'.Pairwise (fun a b => ¬ b.key < a.key) ∧
      (∀ a ∈ es, es'.filter (tied (fun a b => elemLess (a.key, a.val) (b.key, b.val)) a) =
        es.filter (tied (fun a b => elemLess (a.key, a.val) (b.key, b.val)) a)) ∧
      ∀ d' es'', Shows w d' es'' → Shows w' d' es'' := by
  have W : WeakOrder bsonSem.less (fun e : BElem => e.val.notNaN) :=
    ⟨fun a b ha hb => Proofs.elemLess_weak.asymm (a.key, a.val) (b.key, b.val) ha hb,
     fun a b c ha hb hc => Proofs.elemLess_weak.cotrans (a.key, a.val) (b.key, b.val) (c.key, c.val) ha hb hc⟩
  obtain ⟨w', o, es', h1, _, h3, h4, h5⟩ := C17_sorted (bson_means grow fuel hf) hw hd W hn
  refine ⟨w', o, es', h1, h3, h4.perm, h4.sorted.imp ?_, h4.stable, h5⟩
  intro a b h
  simp only [bsonSem, elemLess] at h
  by_cases hk : b.key = a.key
  · rw [hk]; exact List.lt_irrefl _
  · rw [if_pos hk] at h; exact of_decide_eq_false h

/-- `{a: 2}` -/
def exA3 : BElem := belem [97] (.int32 2) (by simp [NulFree]) (by simp [BVal.WF]) (by simp [BVal.enc, le32])

/-- The relative order of elements with equal keys is not kept: `[{a: 2}, {a: 1}]` is sorted into `[{a: 1}, {a: 2}]`. -/
theorem C17_equal_keys_reordered : ∃ w w' o, Reached exP w ∧ Shows w 0 [exA3, exA1] ∧ exA3.key = exA1.key ∧
    step exP w (.sorted 0) = .ok (w', o) ∧ Shows w' 1 [exA1, exA3] := by
  obtain ⟨w, os, h1, R, _⟩ := run_refines exMeans [.elements [exA3, exA1]] (repW_empty _) (s' := [([exA3, exA1], false)]) rfl
  have hw : Reached exP w := ⟨_, _, h1⟩
  have hd : Shows w 0 [exA3, exA1] := shows_of R rfl
  obtain ⟨w', o, h1, h2, h3, h4⟩ := create exMeans hw (.sorted 0) [exA1, exA3]
    (fun s R => by simp [Docs.step, Docs.new, doc_of_shows R hd, Docs.sort, Docs.insertDesc, bsonSem, exA1, exA3, belem, elemLess, valLess, BVal.tag])
  rw [R.len] at h3
  exact ⟨w, w', o, hw, hd, rfl, h1, h3⟩

/-- the hypotheses of the C17 theorems hold of the example world -/
example : ∃ w w' o es', Reached exP w ∧ Shows w 0 [exA1, exB, exA2] ∧ step exP w (.sorted 0) = .ok (w', o) ∧ Shows w' 3 es' ∧
    es'.Perm [exA1, exB, exA2] := by
  obtain ⟨w, h, hl, h0, _⟩ := exRun
  obtain ⟨w', o, es', e, a, b, _⟩ := C17_bson_partial (fun _ => 1) 2147483648 (Nat.le_refl _) h h0
    (by simp [exA1, exB, exA2, belem, BVal.notNaN])
  exact ⟨w, w', o, es', h, h0, e, hl ▸ a, b⟩

/-- natural numbers by their tens are weakly but not totally ordered -/
example : WeakOrder (fun a b : Nat => decide (a / 10 < b / 10)) (fun _ => True) :=
  ⟨fun a b _ _ h => by simp at h ⊢; omega, fun a b c _ _ _ h => by simp at h ⊢; omega⟩

/-! ### C18 -/

/-- `AppendOmitEmpty` skips nil arguments and appends, in order, those whose `IsEmpty` is false; other documents keep
    their contents. -/
theorem C18_filter {P : Params E} {M : Sem E} (hm : Means P M) {w : World E} (hw : Reached P w) {d : Nat} {es : List E}
    (hd : Shows w d es) (args : List (Option E)) :
    ∃ w' o, step P w (.appendOmitEmpty d args) = .ok (w', o) ∧ Reached P w' ∧
      Shows w' d (es ++ (args.filterMap id).filter (fun e => !M.empty e)) ∧ ∀ d' es', d' ≠ d → Shows w d' es' → Shows w' d' es' := by
  have he : (args.filterMap id).filter (fun e => !M.empty e) = args.filterMap (fun a => a.filter (fun e => !M.empty e)) := by
    rw [List.filter_filterMap]; rfl
  obtain ⟨w', o, h1, h2, h3, h4, _⟩ := change hm hw hd (.appendOmitEmpty d args)
    (es ++ args.filterMap (fun a => a.filter (fun e => !M.empty e))) false (by
    intro s hs
    simp only [doc, Option.map_eq_some_iff] at hs
    obtain ⟨a, ha, rfl⟩ := hs
    simp only [Docs.step, Docs.upd, ha])
  exact ⟨w', o, h1, h2, he ▸ h3, h4⟩

/-- For BSON elements of any type: when no argument is one of the oddly empty values, exactly the zero values are dropped.
    Missing (and false, see `C18_oddly_empty`): the same for undefined, non-zero object ids, and regular
    expressions, database pointers and scoped code with an empty first component. -/
theorem C18_bson_partial (grow : Nat → Nat) (fuel : Nat) (hf : 2147483648 ≤ fuel) {w : World BElem} (hw : Reached (bsonParams grow fuel) w)
    {d : Nat} {es : List BElem} (hd : Shows w d es) (args : List (Option BElem)) (ho : ∀ e, some e ∈ args → e.val.oddlyEmpty = false) :
    ∃ w' o, step (bsonParams grow fuel) w (.appendOmitEmpty d args) = .ok (w', o) ∧
      Shows w' d (es ++ (args.filterMap id).filter (fun e => !e.val.isZero)) ∧ ∀ d' es', d' ≠ d → Shows w d' es' → Shows w' d' es' := by
  obtain ⟨w', o, h1, _, h3, h4⟩ := C18_filter (bson_means grow fuel hf) hw hd args
  refine ⟨w', o, h1, ?_, h4⟩
  have : (args.filterMap id).filter (fun e => !bsonSem.empty e) = (args.filterMap id).filter (fun e => !e.val.isZero) := by
    refine List.filter_congr (fun e he => ?_)
    simp only [List.mem_filterMap, id] at he
    obtain ⟨a, ha, rfl⟩ := he
    simp [bsonSem, ho e ha]
  rw [← this]; exact h3

example : ∃ w, Reached exP w ∧ Shows w 1 [exA1, exB, exA2] ∧ ∀ e, some e ∈ [some exA1, none, some exB] → e.val.oddlyEmpty = false := by
  obtain ⟨w, h, _, _, h1, _⟩ := exRun
  exact ⟨w, h, h1, by simp [exA1, exB, belem, BVal.oddlyEmpty]⟩

/-- The claim of C18 is false on every oddly empty value: it is dropped although it is not the zero value. -/
theorem C18_oddly_empty (grow : Nat → Nat) (fuel : Nat) (hf : 2147483648 ≤ fuel) {w : World BElem} (hw : Reached (bsonParams grow fuel) w)
    {d : Nat} {es : List BElem} (hd : Shows w d es) (e : BElem) (ho : e.val.oddlyEmpty = true) :
    e.val.isZero = false ∧ ∃ w' o, step (bsonParams grow fuel) w (.appendOmitEmpty d [some e]) = .ok (w', o) ∧ Shows w' d es := by
  refine ⟨?_, ?_⟩
  · cases hv : e.val <;> simp [hv, BVal.oddlyEmpty, BVal.isZero] at ho ⊢
    · exact ho
    all_goals (intro _; exact ho.2)
  · obtain ⟨w', o, h1, _, h3, _⟩ := C18_filter (bson_means grow fuel hf) hw hd [some e]
    refine ⟨w', o, h1, ?_⟩
    simpa [bsonSem, ho] using h3

/-- `{i: ObjectID("...01")}` is such a value -/
example : (BVal.oid [0, 0, 0, 0, 0, 0, 0, 0, 0, 0, 0, 1]).oddlyEmpty = true ∧ (BVal.oid [0, 0, 0, 0, 0, 0, 0, 0, 0, 0, 0, 1]).WF := by
  simp [BVal.oddlyEmpty, zeroOid, BVal.WF, List.replicate]

end Birch.Props
