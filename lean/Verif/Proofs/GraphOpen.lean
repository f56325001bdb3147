import Verif.Proofs.Graph
import Verif.Proofs.Access

/- Objects: reading and opening. -/

namespace Birch.Proofs.Graph
open Birch Model Model.Graph Spec Spec.Graph

set_option linter.unusedSimpArgs false
set_option linter.unusedVariables false
attribute [local irreducible] i32 u32 u32i u64i i64

theorem iterLoop_raw : ∀ (fuel : Nat) (r : Bytes) (pos end_ : Nat) (vs : List Value), iterLoop fuel r pos end_ = .ok vs →
    ∀ v ∈ vs, v = .raw v.start v.offset r
  | 0, _, _, _, _, h => by simp [iterLoop] at h
  | fuel + 1, r, pos, end_, vs, h => by
    unfold iterLoop at h
    split at h
    · simp at h
    · obtain ⟨t, _, h⟩ := Res.bind_eq_ok.mp h
      split at h
      · simp only [Res.ok.injEq] at h; subst h; simp
      · obtain ⟨n, _, h⟩ := Res.bind_eq_ok.mp h
        obtain ⟨m, _, h⟩ := Res.bind_eq_ok.mp h
        obtain ⟨rest, h1, h⟩ := Res.bind_eq_ok.mp h
        simp only [Res.ok.injEq] at h
        subst h
        intro v hv
        rcases List.mem_cons.mp hv with rfl | hv
        · rfl
        · exact iterLoop_raw fuel r _ _ rest h1 v hv

theorem readDocument_raw {fuel : Nat} {b : Bytes} {vs : List Value} (h : Model.readDocument fuel b = .ok vs) :
    ∀ v ∈ vs, v = .raw v.start v.offset b := by
  unfold Model.readDocument at h
  obtain ⟨e, _, h⟩ := Res.bind_eq_ok.mp h
  exact iterLoop_raw _ _ _ _ _ h

theorem newElems_view : ∀ (vs : List Value) (s : Span) (w : World), s.buf < w.nb → (∀ v ∈ vs, v = .raw v.start v.offset (w.bytes s)) →
    ∃ es w', newElems s vs w = (w', .ok es) ∧ Ext w w' ∧ (∀ e ∈ es, w.ne ≤ e ∧ e < w'.ne) ∧
      (∀ e ∈ es, w.nv ≤ w'.elems e ∧ (w'.vals (w'.elems e)).data = s ∧ (w'.vals (w'.elems e)).d = none) ∧
      ∀ k, mapRes (fun e => viewVal w' (k + 1) (w'.elems e)) es = .ok vs
  | [], s, w, h, _ => ⟨[], w, rfl, Ext.refl w, by simp, by simp, fun _ => rfl⟩
  | v :: vs, s, w, h, hv => by
    have x1 := newVal_ext w ⟨v.start, v.offset, s, none⟩ h (by simp)
    have x2 := newElem_ext (newVal ⟨v.start, v.offset, s, none⟩ w).1 w.nv (by simp [newVal])
    obtain ⟨es, w', h1, h2, h3, h4, h5⟩ := newElems_view vs s (newElem w.nv (newVal ⟨v.start, v.offset, s, none⟩ w).1).1 h
      (fun x hx => hv x (by simp [hx]))
    have a1 : w.nv = w'.elems w.ne := by
      have := h2.same (.elem w.ne) (Nat.lt_succ_self _)
      simpa [Same, newElem, newVal, upd_self] using this
    have a2 : (⟨v.start, v.offset, s, none⟩ : VObj) = w'.vals w.nv := by
      have := h2.same (.val w.nv) (Nat.lt_succ_self _)
      simpa [Same, newElem, newVal, upd_self] using this
    have a3 : w'.bytes s = w.bytes s := bytes_same (h2.same (.buf s.buf) h)
    refine ⟨w.ne :: es, w', ?_, (x1.trans x2).trans h2, ?_, ?_, ?_⟩
    · unfold newElems
      rw [bind_ok_run (a := w.nv) (w' := (newVal ⟨v.start, v.offset, s, none⟩ w).1) rfl,
        bind_ok_run (a := w.ne) (w' := (newElem w.nv (newVal ⟨v.start, v.offset, s, none⟩ w).1).1) rfl, bind_ok_run h1, pure_run]
    · intro e he
      rcases List.mem_cons.mp he with rfl | he
      · exact ⟨Nat.le_refl _, Nat.lt_of_lt_of_le (Nat.lt_succ_self w.ne) h2.ne⟩
      · obtain ⟨l, r⟩ := h3 e he
        exact ⟨Nat.le_trans (Nat.le_succ _) l, r⟩
    · intro e he
      rcases List.mem_cons.mp he with rfl | he
      · rw [← a1, ← a2]; exact ⟨Nat.le_refl _, rfl, rfl⟩
      · obtain ⟨l, r⟩ := h4 e he
        exact ⟨Nat.le_trans (Nat.le_succ _) l, r⟩
    · intro k
      have h6 := h5 k
      unfold mapRes
      have : viewVal w' (k + 1) (w'.elems w.ne) = .ok v := by
        unfold viewVal
        rw [← a1, ← a2]
        simp only
        rw [a3, ← hv v (by simp)]
      rw [this, h6]
      rfl

/-- reading: new elements that refer to the bytes, and look like what was read -/
theorem read_view {n : Nat} {s : Span} {w : World} {vs : List Value} (h : s.buf < w.nb) (hr : Model.readDocument n (w.bytes s) = .ok vs) :
    ∃ d w', Graph.readDocument n s w = (w', .ok d) ∧ Ext w w' ∧ w.nd ≤ d ∧ d < w'.nd ∧ (∀ k, viewDoc w' (k + 1) d = .ok vs) ∧
      ∀ e ∈ w'.docs d, w.ne ≤ e ∧ w.nv ≤ w'.elems e ∧ (w'.vals (w'.elems e)).data = s ∧ (w'.vals (w'.elems e)).d = none := by
  obtain ⟨es, w', h1, h2, h3, h4, h5⟩ := newElems_view vs s w h (readDocument_raw hr)
  refine ⟨w'.nd, (newDoc es w').1, ?_, h2.trans (newDoc_ext w' es (fun e he => (h3 e he).2)), h2.nd, Nat.lt_succ_self _, ?_, ?_⟩
  · unfold Graph.readDocument
    rw [bind_ok_run (a := vs) (w' := w) (by rw [look_run, hr]), bind_ok_run h1]
    rfl
  · intro k
    unfold viewDoc
    have e1 : (newDoc es w').1.docs w'.nd = es := upd_self _ _ _
    rw [e1, ← h5 k]
    apply mapRes_congr
    intro e he
    have e2 : (newDoc es w').1.elems e = w'.elems e := rfl
    rw [e2]
    obtain ⟨_, b, c⟩ := h4 e he
    have e3 : (newDoc es w').1.vals = w'.vals := rfl
    have e4 : ∀ s, (newDoc es w').1.bytes s = w'.bytes s := fun _ => rfl
    unfold viewVal
    simp only [e3, e4, c]
  · intro e he
    have e1 : (newDoc es w').1.docs w'.nd = es := upd_self _ _ _
    rw [e1] at he
    exact ⟨(h3 e he).1, h4 e he⟩

/-! ### opening -/

theorem bytes_part {w : World} {s : Span} {lo hi : Nat} {part : Bytes} (h : slice (w.bytes s) lo hi = .ok part) :
    w.bytes ⟨s.buf, s.lo + lo, part.length⟩ = part := by
  unfold slice at h
  split at h
  · rename_i hc
    simp only [Res.ok.injEq] at h
    subst h
    unfold World.bytes at hc ⊢
    simp only [List.length_take, List.length_drop] at hc ⊢
    rw [← List.drop_drop, List.drop_take, List.drop_take, List.take_take]
    apply congrArg (fun k => List.take k _)
    omega
  · simp at h

theorem slice_cases (b : Bytes) (lo hi : Nat) : (∃ x, slice b lo hi = .ok x) ∨ slice b lo hi = .panic := by
  unfold slice; split
  · exact .inl ⟨_, rfl⟩
  · exact .inr rfl
theorem idx_cases (b : Bytes) (i : Nat) : (∃ x, idx b i = .ok x) ∨ idx b i = .panic := by
  unfold idx; split
  · exact .inl ⟨_, rfl⟩
  · exact .inr rfl
theorem rdU32_cases (b : Bytes) : (∃ x, rdU32 b = .ok x) ∨ rdU32 b = .panic := by
  unfold rdU32; split
  · exact .inl ⟨_, rfl⟩
  · exact .inr rfl
theorem readi32_cases (b : Bytes) : (∃ x, readi32 b = .ok x) ∨ readi32 b = .panic := by
  unfold readi32
  rcases rdU32_cases b with ⟨x, h⟩ | h <;> rw [h]
  · exact .inl ⟨_, rfl⟩
  · exact .inr rfl

theorem docSpan_open {w : World} {v : VObj} (n : Nat) :
    (∃ s, docSpan w v = .ok s ∧ Model.openValue n (.raw v.start v.offset (w.bytes v.data)) =
      (Model.orPanic (Model.readDocument n (w.bytes s)) >>= fun es => .ok (.withDoc v.start v.offset (w.bytes v.data) es))) ∨
    (docSpan w v = .panic ∧ Model.openValue n (.raw v.start v.offset (w.bytes v.data)) = .panic) := by
  have ty : Model.type (.raw v.start v.offset (w.bytes v.data)) = (if v.offset = 0 ∨ w.bytes v.data = [] then .panic else idx (w.bytes v.data) v.start) := rfl
  have ex : ∀ t, expect t (.raw v.start v.offset (w.bytes v.data)) = (if v.offset = 0 ∨ w.bytes v.data = [] then .panic else do
      let t' ← idx (w.bytes v.data) v.start
      if t' ≠ t then .panic else .ok ()) := fun _ => rfl
  by_cases h0 : v.offset = 0 ∨ w.bytes v.data = []
  · right
    constructor
    · unfold docSpan; simp only; rw [if_pos h0]; rfl
    · unfold Model.openValue; rw [ty, if_pos h0]; rfl
  rw [if_neg h0] at ty
  simp only [if_neg h0] at ex
  rcases idx_cases (w.bytes v.data) v.start with ⟨t, ht⟩ | ht
  rotate_left
  · right
    constructor
    · unfold docSpan; simp only; rw [if_neg h0, ht]; rfl
    · unfold Model.openValue; rw [ty, ht]; rfl
  rw [ht] at ty
  simp only [ht, Res.bind_ok] at ex
  have e1 : expect t (.raw v.start v.offset (w.bytes v.data)) = .ok () := by rw [ex, if_neg (by simp)]
  have hspan : docSpan w v = (if t = 0x03 ∨ t = 0x04 then do
      let l ← rdU32 (← slice (w.bytes v.data) v.offset (u32 (v.offset + 4)))
      let part ← slice (w.bytes v.data) v.offset (u32 (v.offset + u32i (i32 l)))
      .ok ⟨v.data.buf, v.data.lo + v.offset, part.length⟩
    else if t = 0x0F then do
      let l ← rdU32 (← slice (w.bytes v.data) v.offset (u32 (v.offset + 4)))
      let sl ← readi32 (← slice (w.bytes v.data) (u32 (v.offset + 4)) (u32 (v.offset + 8)))
      let _ ← slice (w.bytes v.data) (u32 (v.offset + 8)) (u32i ((v.offset : Int) + 8 + u32i sl - 1))
      let part ← slice (w.bytes v.data) (u32 (v.offset + 8 + u32i sl)) (u32 (v.offset + u32i (i32 l)))
      .ok ⟨v.data.buf, v.data.lo + u32 (v.offset + 8 + u32i sl), part.length⟩
    else .panic) := by
    unfold docSpan; simp only; rw [if_neg h0, ht]; rfl
  have hget : (t = 3 ∨ t = 4) → Model.openValue n (.raw v.start v.offset (w.bytes v.data)) =
      (getDoc n (.raw v.start v.offset (w.bytes v.data)) >>= fun es => .ok (.withDoc v.start v.offset (w.bytes v.data) es)) := by
    intro a
    unfold Model.openValue mutableDocument mutableArray
    rw [ty]
    simp only [Res.bind_ok]
    rcases a with rfl | rfl
    · rw [if_pos rfl, e1]; rfl
    · rw [if_neg (by decide), if_pos rfl, e1]; rfl
  have hcode : t = 15 → Model.openValue n (.raw v.start v.offset (w.bytes v.data)) = (do
      let l ← rdU32 (← slice (w.bytes v.data) v.offset (u32 (v.offset + 4)))
      let sl ← readi32 (← slice (w.bytes v.data) (u32 (v.offset + 4)) (u32 (v.offset + 8)))
      let s ← slice (w.bytes v.data) (u32 (v.offset + 8)) (u32i ((v.offset : Int) + 8 + u32i sl - 1))
      let d ← Model.orPanic do
        Model.readDocument n (← slice (w.bytes v.data) (u32 (v.offset + 8 + u32i sl)) (u32 (v.offset + u32i (i32 l))))
      .ok (.withDoc v.start v.offset (w.bytes v.data) d)) := by
    rintro rfl
    unfold Model.openValue mutableCodeWithScope getCode
    rw [ty]
    simp only [Res.bind_ok]
    rw [if_neg (by decide), if_neg (by decide), if_pos (by decide), e1]
    simp only [Value.data, Value.start, Value.offset, Res.bind_ok]
    cases slice (w.bytes v.data) v.offset (u32 (v.offset + 4)) <;> simp only [Res.bind_ok, Res.bind_err, Res.bind_panic, Res.bind_oof]
    rename_i x
    cases rdU32 x <;> simp only [Res.bind_ok, Res.bind_err, Res.bind_panic, Res.bind_oof]
    cases slice (w.bytes v.data) (u32 (v.offset + 4)) (u32 (v.offset + 8)) <;> simp only [Res.bind_ok, Res.bind_err, Res.bind_panic, Res.bind_oof]
    rename_i y
    cases readi32 y <;> simp only [Res.bind_ok, Res.bind_err, Res.bind_panic, Res.bind_oof]
    rename_i l sl
    cases slice (w.bytes v.data) (u32 (v.offset + 8)) (u32i ((v.offset : Int) + 8 + u32i sl - 1)) <;> simp only [Res.bind_ok, Res.bind_err, Res.bind_panic, Res.bind_oof]
    generalize (Model.orPanic (slice (w.bytes v.data) (u32 (v.offset + 8 + u32i sl)) (u32 (v.offset + u32i (i32 l))) >>= fun b => Model.readDocument n b)) = r
    cases r <;> rfl
  rw [hspan]
  by_cases a : t = 3 ∨ t = 4
  · rw [if_pos a, hget a]
    unfold getDoc
    simp only
    rcases slice_cases (w.bytes v.data) v.offset (u32 (v.offset + 4)) with ⟨x, h1⟩ | h1
    rotate_left
    · rw [h1]; exact .inr ⟨rfl, rfl⟩
    rw [h1]
    simp only [Res.bind_ok]
    rcases rdU32_cases x with ⟨l, h2⟩ | h2
    rotate_left
    · rw [h2]; exact .inr ⟨rfl, rfl⟩
    rw [h2]
    simp only [Res.bind_ok]
    rcases slice_cases (w.bytes v.data) v.offset (u32 (v.offset + u32i (i32 l))) with ⟨part, h3⟩ | h3
    · rw [h3]
      simp only [Res.bind_ok]
      left
      refine ⟨_, rfl, ?_⟩
      rw [bytes_part h3]
    · rw [h3]; exact .inr ⟨rfl, rfl⟩
  · rw [if_neg a]
    by_cases b : t = 15
    rotate_left
    · rw [if_neg b]
      refine .inr ⟨rfl, ?_⟩
      unfold Model.openValue
      rw [ty]
      simp only [Res.bind_ok]
      rw [if_neg (fun h => a (.inl h)), if_neg (fun h => a (.inr h)), if_neg b]
    rw [if_pos b, hcode b]
    rcases slice_cases (w.bytes v.data) v.offset (u32 (v.offset + 4)) with ⟨x, h1⟩ | h1
    rotate_left
    · rw [h1]; exact .inr ⟨rfl, rfl⟩
    rw [h1]
    simp only [Res.bind_ok]
    rcases rdU32_cases x with ⟨l, h2⟩ | h2
    rotate_left
    · rw [h2]; exact .inr ⟨rfl, rfl⟩
    rw [h2]
    simp only [Res.bind_ok]
    rcases slice_cases (w.bytes v.data) (u32 (v.offset + 4)) (u32 (v.offset + 8)) with ⟨y, h3⟩ | h3
    rotate_left
    · rw [h3]; exact .inr ⟨rfl, rfl⟩
    rw [h3]
    simp only [Res.bind_ok]
    rcases readi32_cases y with ⟨sl, h4⟩ | h4
    rotate_left
    · rw [h4]; exact .inr ⟨rfl, rfl⟩
    rw [h4]
    simp only [Res.bind_ok]
    rcases slice_cases (w.bytes v.data) (u32 (v.offset + 8)) (u32i ((v.offset : Int) + 8 + u32i sl - 1)) with ⟨z, h5⟩ | h5
    rotate_left
    · rw [h5]; exact .inr ⟨rfl, rfl⟩
    rw [h5]
    simp only [Res.bind_ok]
    rcases slice_cases (w.bytes v.data) (u32 (v.offset + 8 + u32i sl)) (u32 (v.offset + u32i (i32 l))) with ⟨part, h6⟩ | h6
    rotate_left
    · rw [h6]; exact .inr ⟨rfl, rfl⟩
    rw [h6]
    simp only [Res.bind_ok]
    left
    refine ⟨_, rfl, ?_⟩
    rw [bytes_part h6]

theorem openValue_empty {n s o : Nat} {data : Bytes} {es : List Value} {v' : Value} (ho : Model.openValue n (.withDoc s o data es) = .ok v') :
    v' = .withDoc s o data es ∧ Model.openValue n (.withDoc s o data []) = .ok (.withDoc s o data []) := by
  have e1 : Model.type (.withDoc s o data []) = Model.type (.withDoc s o data es) := rfl
  have e2 : ∀ t, expect t (.withDoc s o data []) = expect t (.withDoc s o data es) := fun _ => rfl
  have e3 : getCode (.withDoc s o data []) = getCode (.withDoc s o data es) := rfl
  unfold Model.openValue at ho ⊢
  rw [e1]
  obtain ⟨t, ht, ho⟩ := Res.bind_eq_ok.mp ho
  rw [ht]
  simp only [Res.bind_ok]
  split at ho
  · rename_i a
    rw [if_pos a]
    obtain ⟨y, hy, ho⟩ := Res.bind_eq_ok.mp ho
    unfold mutableDocument at hy ⊢
    obtain ⟨u, hu, hy⟩ := Res.bind_eq_ok.mp hy
    rw [e2, hu]
    simp only [getDoc, Res.ok.injEq] at hy ho
    subst hy
    exact ⟨ho.symm, rfl⟩
  · rename_i a
    rw [if_neg a]
    split at ho
    · rename_i a
      rw [if_pos a]
      obtain ⟨y, hy, ho⟩ := Res.bind_eq_ok.mp ho
      unfold mutableArray at hy ⊢
      obtain ⟨u, hu, hy⟩ := Res.bind_eq_ok.mp hy
      rw [e2, hu]
      simp only [getDoc, Res.ok.injEq] at hy ho
      subst hy
      exact ⟨ho.symm, rfl⟩
    · rename_i a
      rw [if_neg a]
      split at ho
      · rename_i a
        rw [if_pos a]
        obtain ⟨y, hy, ho⟩ := Res.bind_eq_ok.mp ho
        unfold mutableCodeWithScope at hy ⊢
        obtain ⟨u, hu, hy⟩ := Res.bind_eq_ok.mp hy
        obtain ⟨x1, hx1, hy⟩ := Res.bind_eq_ok.mp hy
        obtain ⟨x2, hx2, hy⟩ := Res.bind_eq_ok.mp hy
        obtain ⟨x3, hx3, hy⟩ := Res.bind_eq_ok.mp hy
        have hx1' : slice (Value.withDoc s o data []).data (Value.withDoc s o data []).offset (u32 ((Value.withDoc s o data []).offset + 4)) = .ok x1 := hx1
        rw [e2, e3, hu, hx1', hx3]
        simp only [Res.bind_ok]
        rw [hx2]
        simp only [Res.ok.injEq] at hy ho
        subst hy
        exact ⟨ho.symm, rfl⟩
      · simp at ho

theorem openValue_twice {n : Nat} {v v' : Value} (ho : Model.openValue n v = .ok v') (m : Nat) :
    Model.openValue m (.withDoc v.start v.offset v.data []) = .ok (.withDoc v.start v.offset v.data []) := by
  have e1 : Model.type (.withDoc v.start v.offset v.data []) = Model.type v := rfl
  have e2 : ∀ t, expect t (.withDoc v.start v.offset v.data []) = expect t v := fun _ => rfl
  have e3 : getCode (.withDoc v.start v.offset v.data []) = getCode v := rfl
  unfold Model.openValue at ho ⊢
  rw [e1]
  obtain ⟨t, ht, ho⟩ := Res.bind_eq_ok.mp ho
  rw [ht]
  simp only [Res.bind_ok]
  split at ho
  · rename_i a
    rw [if_pos a]
    obtain ⟨y, hy, ho⟩ := Res.bind_eq_ok.mp ho
    unfold mutableDocument at hy ⊢
    obtain ⟨u, hu, hy⟩ := Res.bind_eq_ok.mp hy
    rw [e2, hu]
    rfl
  · rename_i a
    rw [if_neg a]
    split at ho
    · rename_i a
      rw [if_pos a]
      obtain ⟨y, hy, ho⟩ := Res.bind_eq_ok.mp ho
      unfold mutableArray at hy ⊢
      obtain ⟨u, hu, hy⟩ := Res.bind_eq_ok.mp hy
      rw [e2, hu]
      rfl
    · rename_i a
      rw [if_neg a]
      split at ho
      · rename_i a
        rw [if_pos a]
        obtain ⟨y, hy, ho⟩ := Res.bind_eq_ok.mp ho
        unfold mutableCodeWithScope at hy ⊢
        obtain ⟨u, hu, hy⟩ := Res.bind_eq_ok.mp hy
        obtain ⟨x1, hx1, hy⟩ := Res.bind_eq_ok.mp hy
        obtain ⟨x2, hx2, hy⟩ := Res.bind_eq_ok.mp hy
        obtain ⟨x3, hx3, hy⟩ := Res.bind_eq_ok.mp hy
        have hx1' : slice (Value.withDoc v.start v.offset v.data []).data (Value.withDoc v.start v.offset v.data []).offset
          (u32 ((Value.withDoc v.start v.offset v.data []).offset + 4)) = .ok x1 := hx1
        rw [e2, e3, hu, hx1', hx3]
        simp only [Res.bind_ok]
        rw [hx2]
        rfl
      · simp at ho

theorem bind_panic_of {α β γ : Type} {x : Res α} {f : α → Res β} {g : α → Res γ} (h : (x >>= f) = .panic) (hg : ∀ a, f a = .panic → g a = .panic) :
    (x >>= g) = .panic := by
  cases x with
  | ok a => exact hg a h
  | err e => cases h
  | panic => rfl
  | oof => cases h

theorem bind_panic_inv {α β : Type} {x : Res α} {f : α → Res β} (h : (x >>= f) = .panic) (hf : ∀ a, f a ≠ .panic) : x = .panic := by
  cases x with
  | ok a => exact absurd h (hf a)
  | err e => cases h
  | panic => rfl
  | oof => cases h

theorem openValue_empty_panic {n s o : Nat} {data : Bytes} {es : List Value} (ho : Model.openValue n (.withDoc s o data es) = .panic) :
    Model.openValue n (.withDoc s o data []) = .panic := by
  unfold Model.openValue at ho ⊢
  refine bind_panic_of (x := Model.type (.withDoc s o data es)) ho (fun t h => ?_)
  split at h
  · rename_i a
    rw [if_pos a]
    have h1 := bind_panic_inv h (fun _ => by simp)
    have h2 : mutableDocument n (.withDoc s o data []) = .panic := bind_panic_of (x := expect 3 (.withDoc s o data es)) h1 (fun _ h => by cases h)
    rw [h2]; rfl
  rename_i a
  rw [if_neg a]
  split at h
  · rename_i a
    rw [if_pos a]
    have h1 := bind_panic_inv h (fun _ => by simp)
    have h2 : mutableArray n (.withDoc s o data []) = .panic := bind_panic_of (x := expect 4 (.withDoc s o data es)) h1 (fun _ h => by cases h)
    rw [h2]; rfl
  rename_i a
  rw [if_neg a]
  split at h
  · rename_i a
    rw [if_pos a]
    have h1 := bind_panic_inv h (fun _ => by simp)
    have h2 : mutableCodeWithScope n (.withDoc s o data []) = .panic :=
      bind_panic_of (x := expect 15 (.withDoc s o data es)) h1 (fun _ h => bind_panic_of (x := slice data o (u32 (o + 4))) h
        (fun _ h => bind_panic_of h (fun _ h => bind_panic_of (x := getCode (.withDoc s o data es)) h (fun _ h => by cases h))))
    rw [h2]; rfl
  · rename_i a
    rw [if_neg a]

/-- opening does to the tree what `Model.openValue` does, and a second time nothing -/
theorem open_view {w : World} (g : Spec.Graph.Good w) {p n : Nat} (hp : p < w.nv) {k : Nat} {v v' : Value} (hv : viewVal w k p = .ok v)
    (ho : Model.openValue n v = .ok v') :
    ∃ d w', Graph.openValue n p w = (w', .ok d) ∧ (w'.vals p).d = some d ∧ viewVal w' (k + 1) p = .ok v' := by
  cases k with
  | zero => simp [viewVal] at hv
  | succ k =>
    have hv0 := hv
    unfold viewVal at hv
    simp only at hv
    unfold Graph.openValue
    rw [bind_ok_run (a := w.vals p) (w' := w) rfl]
    cases hd : (w.vals p).d with
    | none =>
      rw [hd] at hv
      simp only [Res.ok.injEq] at hv
      subst hv
      simp only
      rcases docSpan_open (w := w) (v := w.vals p) n with ⟨s, h1, h2⟩ | ⟨h1, h2⟩
      · rw [h2] at ho
        obtain ⟨es, h3, h4⟩ := Res.bind_eq_ok.mp ho
        simp only [Res.ok.injEq] at h4
        subst h4
        have h3 : Model.readDocument n (w.bytes s) = .ok es := by
          revert h3
          cases Model.readDocument n (w.bytes s) <;> simp [Model.orPanic]
        have hb : s.buf < w.nb := by rw [docSpan_buf h1]; exact g (.val p) _ hp (.data p)
        obtain ⟨d, w1, r1, x, r2, r3, r4, r5⟩ := read_view hb h3
        rw [bind_ok_run (a := s) (w' := w) (by rw [look_run, h1]),
          bind_ok_run (a := d) (w' := w1) (by unfold Graph.orPanic; rw [r1])]
        refine ⟨d, (keep p (w.vals p) d w1).1, rfl, ?_, ?_⟩
        · show (upd w1.vals p { w.vals p with d := some d } p).d = some d
          rw [upd_self]
        · have hvp : w.vals p = w1.vals p := x.same (.val p) hp
          have e : (keep p (w.vals p) d w1).1.vals p = { w.vals p with d := some d } := upd_self _ _ _
          unfold viewVal
          rw [e]
          simp only
          have e2 : (keep p (w.vals p) d w1).1.docs = w1.docs := rfl
          have e3 : (keep p (w.vals p) d w1).1.elems = w1.elems := rfl
          have e4 : ∀ s, (keep p (w.vals p) d w1).1.bytes s = w1.bytes s := fun _ => rfl
          rw [e2, e4]
          have : mapRes (fun e => viewVal (keep p (w.vals p) d w1).1 (k + 1) ((keep p (w.vals p) d w1).1.elems e)) (w1.docs d) = .ok es := by
            rw [← r4 k]
            unfold viewDoc
            apply mapRes_congr
            intro e he
            obtain ⟨q1, q2, q3, q4⟩ := r5 e he
            rw [e3]
            have e5 : (keep p (w.vals p) d w1).1.vals (w1.elems e) = w1.vals (w1.elems e) := upd_ne _ _ (by omega)
            unfold viewVal
            rw [e5]
            simp only [q4, e4]
          rw [this]
          have hby : w1.bytes (w.vals p).data = w.bytes (w.vals p).data :=
            bytes_same (x.same (.buf _) (g (.val p) _ hp (.data p)))
          rw [hby]
          rfl
      · rw [h2] at ho; simp at ho
    | some d =>
      rw [hd] at hv
      simp only at hv
      obtain ⟨es, h1, h2⟩ := Res.bind_eq_ok.mp hv
      simp only [Res.ok.injEq] at h2
      subst h2
      have ho2 : v' = .withDoc (w.vals p).start (w.vals p).offset (w.bytes (w.vals p).data) es ∧
          Model.openValue n (.withDoc (w.vals p).start (w.vals p).offset (w.bytes (w.vals p).data) []) =
            .ok (.withDoc (w.vals p).start (w.vals p).offset (w.bytes (w.vals p).data) []) := by
        exact openValue_empty ho
      simp only
      rw [bind_ok_run (w' := w) (by rw [look_run, ho2.2]), pure_run]
      refine ⟨d, w, rfl, hd, ?_⟩
      rw [ho2.1]
      exact view_mono (by omega) hv0

/-- the objects after opening, as before but for the value -/
theorem open_others {w w' : World} (g : Spec.Graph.Good w) {p n d : Nat} (hp : p < w.nv) (h : Graph.openValue n p w = (w', .ok d)) :
    (∀ o, Made w o → Made w' o) ∧ Spec.Graph.Good w' ∧ (∀ o, Made w o → o ≠ .val p → Same w w' o) ∧
      w'.vals p = { w.vals p with d := some d } ∧ (∀ d0, (w.vals p).d = some d0 → w' = w) := by
  obtain ⟨f1, f2, f3⟩ := run_frame g (c := .open n p) hp
  have e : Call.run w (.open n p) = w' := by show (Graph.openValue n p w).1 = w'; rw [h]
  rw [e] at f1 f2 f3
  refine ⟨f2, f1, fun o ho hne => f3 o ho (fun hw => hne hw.1), ?_⟩
  unfold Graph.openValue at h
  rw [bind_ok_run (a := w.vals p) (w' := w) rfl] at h
  cases hd : (w.vals p).d with
  | some d0 =>
    rw [hd] at h
    simp only at h
    rw [bind_run, look_run] at h
    cases ho : Model.openValue n (.withDoc (w.vals p).start (w.vals p).offset (w.bytes (w.vals p).data) []) with
    | ok x =>
      rw [ho] at h
      simp only [pure_run, Prod.mk.injEq, Res.ok.injEq] at h
      obtain ⟨rfl, rfl⟩ := h
      refine ⟨?_, fun _ _ => rfl⟩
      cases hv : w.vals p
      rw [hv] at hd
      simp only at hd
      rw [hd]
    | err e => rw [ho] at h; simp at h
    | panic => rw [ho] at h; simp at h
    | oof => rw [ho] at h; simp at h
  | none =>
    rw [hd] at h
    simp only at h
    refine ⟨?_, by simp⟩
    rw [bind_run, look_run] at h
    cases hs : docSpan w (w.vals p) with
    | ok s =>
      rw [hs] at h
      simp only at h
      rw [bind_run] at h
      rcases hm : Graph.orPanic (Graph.readDocument n s) w with ⟨w1, r⟩
      rw [hm] at h
      cases r with
      | ok d1 =>
        simp only [keep, Prod.mk.injEq, Res.ok.injEq] at h
        obtain ⟨rfl, rfl⟩ := h
        exact upd_self _ _ _
      | err e => simp at h
      | panic => simp at h
      | oof => simp at h
    | err e => rw [hs] at h; simp at h
    | panic => rw [hs] at h; simp at h
    | oof => rw [hs] at h; simp at h

theorem fields_rebuild {f g : Nat → Res Value} : ∀ {es : List Nat} {tree : List Value} {fs : Fields}, mapRes f es = .ok tree → RepFields tree fs →
    (∀ e ∈ es, ∀ v k t, f e = .ok v → Rep v k t → t.enc.length ≤ fs.enc.length → ∃ v', g e = .ok v' ∧ Rep v' k t) →
    ∃ tree', mapRes g es = .ok tree' ∧ RepFields tree' fs
  | [], tree, fs, h, hr, hf => ⟨[], rfl, by simp only [mapRes, Res.ok.injEq] at h; subst h; exact hr⟩
  | e :: es, tree, fs, h, hr, hf => by
    obtain ⟨v, tree, rfl, h1, h2⟩ := mapRes_cons h
    cases fs with
    | nil => simp [RepFields] at hr
    | cons k t fs =>
      simp only [RepFields] at hr
      obtain ⟨v', g1, g2⟩ := hf e (by simp) v k t h1 hr.1 (by rw [fieldsEnc_length]; omega)
      obtain ⟨tree', g3, g4⟩ := fields_rebuild h2 hr.2 (fun e he v k t h1 h2 h3 => hf e (by simp [he]) v k t h1 h2 (by rw [fieldsEnc_length]; omega))
      refine ⟨v' :: tree', ?_, g2, g4⟩
      unfold mapRes; rw [g1, g3]; rfl

theorem vals_rebuild {f g : Nat → Res Value} : ∀ {es : List Nat} {tree : List Value} {vs : Vals} {i : Nat}, mapRes f es = .ok tree → RepVals tree vs →
    (∀ e ∈ es, ∀ v k t, f e = .ok v → Rep v k t → t.enc.length ≤ (vs.encFrom i).length → ∃ v', g e = .ok v' ∧ Rep v' k t) →
    ∃ tree', mapRes g es = .ok tree' ∧ RepVals tree' vs
  | [], tree, fs, i, h, hr, hf => ⟨[], rfl, by simp only [mapRes, Res.ok.injEq] at h; subst h; exact hr⟩
  | e :: es, tree, vs, i, h, hr, hf => by
    obtain ⟨v, tree, rfl, h1, h2⟩ := mapRes_cons h
    cases vs with
    | nil => simp [RepVals] at hr
    | cons t vs =>
      simp only [RepVals] at hr
      obtain ⟨⟨k, hr1⟩, hr2⟩ := hr
      have hl : ((Vals.cons t vs).encFrom i).length = t.enc.length + (decimalKey i).length + 2 + (vs.encFrom (i + 1)).length := by
        simp [Vals.encFrom]; omega
      obtain ⟨v', g1, g2⟩ := hf e (by simp) v k t h1 hr1 (by omega)
      obtain ⟨tree', g3, g4⟩ := vals_rebuild (i := i + 1) h2 hr2 (fun e he v k t h1 h2 h3 => hf e (by simp [he]) v k t h1 h2 (by omega))
      refine ⟨v' :: tree', ?_, ⟨k, g2⟩, g4⟩
      unfold mapRes; rw [g1, g3]; rfl

theorem open_back {w w' : World} {p n d k : Nat} {v : Value} (h : Graph.openValue n p w = (w', .ok d)) (hv : viewVal w (k + 1) p = .ok v)
    (hd : (w.vals p).d = none) : ∃ v', Model.openValue n v = .ok v' := by
  unfold viewVal at hv
  simp only at hv
  rw [hd] at hv
  simp only [Res.ok.injEq] at hv
  subst hv
  unfold Graph.openValue at h
  rw [bind_ok_run (a := w.vals p) (w' := w) rfl, hd] at h
  simp only at h
  rcases docSpan_open (w := w) (v := w.vals p) n with ⟨s, h1, h2⟩ | ⟨h1, h2⟩
  · rw [h2]
    rw [bind_ok_run (a := s) (w' := w) (by rw [look_run, h1])] at h
    cases hr : Model.readDocument n (w.bytes s) with
    | ok es => exact ⟨_, rfl⟩
    | err e => simp [bind_run, Graph.orPanic, Graph.readDocument, look_run, hr] at h
    | panic => simp [bind_run, Graph.orPanic, Graph.readDocument, look_run, hr] at h
    | oof => simp [bind_run, Graph.orPanic, Graph.readDocument, look_run, hr] at h
  · rw [bind_run, look_run, h1] at h
    simp at h

/-- opening a value keeps what every value stands for -/
theorem open_keeps {w w' : World} (g : Spec.Graph.Good w) {p n d : Nat} (hp : p < w.nv) (h : Graph.openValue n p w = (w', .ok d)) :
    ∀ (k q : Nat) (v : Value) (key : Bytes) (t : BVal), q < w.nv → viewVal w k q = .ok v → Rep v key t →
      t.enc.length < 2147483648 → t.enc.length < n → ∃ v', viewVal w' (k + 1) q = .ok v' ∧ Rep v' key t
  | 0, q, v, key, t, hq, hv, hr, hl, hn => by simp [viewVal] at hv
  | k + 1, q, v, key, t, hq, hv, hr, hl, hn => by
    by_cases hqp : q = p
    · subst hqp
      by_cases hd : (w.vals q).d = none
      · obtain ⟨v', ho⟩ := open_back h hv hd
        obtain ⟨d', w1, h1, h2, h3⟩ := open_view g hq hv ho
        rw [h] at h1
        simp only [Prod.mk.injEq, Res.ok.injEq] at h1
        obtain ⟨rfl, rfl⟩ := h1
        exact ⟨v', h3, openValue_rep hr hl hn ho⟩
      · obtain ⟨d0, hd⟩ := Option.ne_none_iff_exists'.mp hd
        obtain ⟨_, _, _, _, he⟩ := open_others g hp h
        rw [he d0 hd]
        exact ⟨v, view_mono (by omega) hv, hr⟩
    · obtain ⟨m1, _, same, _, _⟩ := open_others g hp h
      have hvq : w.vals q = w'.vals q := same (.val q) hq (by simpa using hqp)
      have hbq : w.bufs (w.vals q).data.buf = w'.bufs (w.vals q).data.buf := same (.buf _) (g (.val q) _ hq (.data q)) (by simp)
      unfold viewVal at hv
      simp only at hv
      unfold viewVal
      simp only
      rw [← hvq, bytes_same hbq]
      cases hd : (w.vals q).d with
      | none =>
        rw [hd] at hv
        simp only [Res.ok.injEq] at hv
        subst hv
        exact ⟨_, rfl, hr⟩
      | some dd =>
        rw [hd] at hv
        simp only at hv ⊢
        obtain ⟨tree, h1, h2⟩ := Res.bind_eq_ok.mp hv
        simp only [Res.ok.injEq] at h2
        subst h2
        have hdd : dd < w.nd := g (.val q) (.doc dd) hq (.d hd)
        have hdoc : w.docs dd = w'.docs dd := same (.doc dd) hdd (by simp)
        rw [← hdoc]
        have hf : ∀ N, N < 2147483648 → N < n → ∀ e ∈ w.docs dd, ∀ v key t, viewVal w k (w.elems e) = .ok v → Rep v key t → t.enc.length ≤ N →
            ∃ v', viewVal w' (k + 1) (w'.elems e) = .ok v' ∧ Rep v' key t := by
          intro N hN1 hN2 e he v key t hv hr hl'
          have hem : e < w.ne := g (.doc dd) (.elem e) hdd (.elem he)
          have hel : w.elems e = w'.elems e := same (.elem e) hem (by simp)
          rw [← hel]
          exact open_keeps g hp h k _ v key t (g (.elem e) _ hem (.value e)) hv hr (by omega) (by omega)
        simp only [Rep] at hr ⊢
        obtain ⟨hk, hdl, pre, post, e1, e2, e3, hr⟩ := hr
        cases t with
        | doc fs =>
          have hx : (BVal.doc fs).enc.length = fs.enc.length + 5 := by simp [BVal.enc]
          obtain ⟨tree', g1, g2⟩ := fields_rebuild h1 hr (hf fs.enc.length (by omega) (by omega))
          rw [g1]
          exact ⟨_, rfl, by simp only [Rep]; exact ⟨hk, hdl, pre, post, e1, e2, e3, g2⟩⟩
        | array vs =>
          have hx : (BVal.array vs).enc.length = (vs.encFrom 0).length + 5 := by simp [BVal.enc]
          obtain ⟨tree', g1, g2⟩ := vals_rebuild h1 hr (hf (vs.encFrom 0).length (by omega) (by omega))
          rw [g1]
          exact ⟨_, rfl, by simp only [Rep]; exact ⟨hk, hdl, pre, post, e1, e2, e3, g2⟩⟩
        | codeScope c fs =>
          have hx : (BVal.codeScope c fs).enc.length = c.length + fs.enc.length + 14 := by simp [BVal.enc]; omega
          obtain ⟨tree', g1, g2⟩ := fields_rebuild h1 hr.2 (hf fs.enc.length (by omega) (by omega))
          rw [g1]
          exact ⟨_, rfl, by simp only [Rep]; exact ⟨hk, hdl, pre, post, e1, e2, e3, hr.1, g2⟩⟩
        | _ => simp at hr

/-! ### copying an element -/

structure Copied (w w' : World) (e e' : Nat) : Prop where
  good : Spec.Graph.Good w'
  made : ∀ o, Made w o → Made w' o
  same : ∀ o, Made w o → Same w w' o
  new : ¬ Made w (.elem e')
  newVal : ¬ Made w (.val (w'.elems e'))
  elem : Made w' (.elem e')
  val : Made w' (.val (w'.elems e'))
  eq : w'.vals (w'.elems e') = w.vals (w.elems e)
  view : ∀ n, viewVal w' n (w'.elems e') = viewVal w n (w.elems e)

theorem copied {w w' : World} (g : Spec.Graph.Good w) {e e' : Nat} (he : Made w (.elem e)) (hc : copyElement e w = (w', .ok e')) : Copied w w' e e' := by
  have x := copyElement_ext w e g he
  have hp : Made w (.val (w.elems e)) := g _ _ he (.value e)
  have e1 : (copyElement e w).1.elems w.ne = w.nv := upd_self _ _ _
  have e2 : (copyElement e w).1.vals w.nv = w.vals (w.elems e) := upd_self _ _ _
  have e3 : (copyElement e w).1.vals (w.elems e) = w.vals (w.elems e) := (x.same _ hp).symm
  have e4 : (copyElement e w).1.ne = w.ne + 1 := rfl
  have e5 : (copyElement e w).1.nv = w.nv + 1 := rfl
  have e6 : (copyElement e w).2 = .ok w.ne := rfl
  rw [hc] at e1 e2 e3 e4 e5 e6 x
  simp only [Res.ok.injEq] at e1 e2 e3 e4 e5 e6 x
  subst e6
  refine ⟨x.good g, fun o => x.made, x.same, Nat.lt_irrefl _, ?_, ?_, ?_, ?_, ?_⟩
  · rw [e1]; exact Nat.lt_irrefl _
  · show w.ne < w'.ne; omega
  · show w'.elems w.ne < w'.nv; omega
  · rw [e1]; exact e2
  · intro n
    rw [e1, ← view_frame n (w.elems e) (fun o r => x.same o (reach_made g hp r))]
    cases n with
    | zero => rfl
    | succ n => unfold viewVal; rw [e2, e3]

theorem open_again {w w' : World} (g : Spec.Graph.Good w) {p n d : Nat} (hp : p < w.nv) (h : Graph.openValue n p w = (w', .ok d)) (m : Nat) :
    Graph.openValue m p w' = (w', .ok d) := by
  obtain ⟨_, _, h4, h5, h6⟩ := open_others g hp h
  have hb : w'.bytes (w.vals p).data = w.bytes (w.vals p).data := bytes_same (h4 (.buf _) (g (.val p) _ hp (.data p)) (by simp))
  have ho : Model.openValue m (.withDoc (w.vals p).start (w.vals p).offset (w.bytes (w.vals p).data) []) =
      .ok (.withDoc (w.vals p).start (w.vals p).offset (w.bytes (w.vals p).data) []) := by
    cases hd : (w.vals p).d with
    | none =>
      obtain ⟨v', hv'⟩ := open_back (k := 0) (v := .raw (w.vals p).start (w.vals p).offset (w.bytes (w.vals p).data)) h
        (by unfold viewVal; simp only; rw [hd]) hd
      exact openValue_twice hv' m
    | some d0 =>
      have h' := h
      unfold Graph.openValue at h'
      rw [bind_ok_run (a := w.vals p) (w' := w) rfl, hd] at h'
      simp only at h'
      rw [bind_run, look_run] at h'
      cases ho : Model.openValue n (.withDoc (w.vals p).start (w.vals p).offset (w.bytes (w.vals p).data) []) with
      | ok x => exact openValue_twice ho m
      | err e => rw [ho] at h'; simp at h'
      | panic => rw [ho] at h'; simp at h'
      | oof => rw [ho] at h'; simp at h'
  unfold Graph.openValue
  rw [bind_ok_run (a := w'.vals p) (w' := w') rfl, h5]
  simp only
  rw [bind_ok_run (w' := w') (by rw [look_run, hb, ho])]
  rfl

theorem construct_run (w : World) (b : Bytes) (o : Nat) (d : Option Nat) : construct b o d w =
    ({ w with bufs := upd w.bufs w.nb b, nb := w.nb + 1, vals := upd w.vals w.nv ⟨0, o, ⟨w.nb, 0, b.length⟩, d⟩, nv := w.nv + 1, elems := upd w.elems w.ne w.nv, ne := w.ne + 1 }, .ok w.ne) := rfl

theorem converted {w w' : World} (g : Spec.Graph.Good w) {key : Bytes} {p e : Nat} (hp : Made w (.val p))
    (hc : Graph.convertValueToElem key p w = (w', .ok (some e))) :
    (∀ o, Made w o → Same w w' o) ∧ ¬ Made w (.elem e) ∧ ¬ Made w (.val (w'.elems e)) ∧ ¬ Made w (.buf (w'.vals (w'.elems e)).data.buf) ∧
      (w'.vals (w'.elems e)).start = 0 ∧ (w'.vals (w'.elems e)).offset = u32 (key.length + 2) ∧
      (∃ t, (w.bytes (w.vals p).data)[(w.vals p).start]? = some t ∧
        w'.bytes (w'.vals (w'.elems e)).data = t :: (key ++ 0 :: (w.bytes (w.vals p).data).drop (w.vals p).offset)) ∧
      match (w.vals p).d with
      | none => (w'.vals (w'.elems e)).d = none
      | some d => ∃ d', (w'.vals (w'.elems e)).d = some d' ∧ ¬ Made w (.doc d') ∧ w'.docs d' = w.docs d := by
  have x := convert_ext w key p g hp
  rw [hc] at x
  refine ⟨x.same, ?_⟩
  unfold Graph.convertValueToElem at hc
  rw [bind_ok_run (a := w.vals p) (w' := w) rfl, bind_ok_run (a := w.bytes (w.vals p).data) (w' := w) rfl] at hc
  split at hc
  · simp [pure_run] at hc
  · rename_i h0
    rcases slice_cases (w.bytes (w.vals p).data) (w.vals p).offset (w.bytes (w.vals p).data).length with ⟨rest, h1⟩ | h1
    rotate_left
    · rw [bind_run, lift_run, h1] at hc; simp at hc
    rw [bind_ok_run (a := rest) (w' := w) (by rw [lift_run, h1])] at hc
    have hrest : rest = (w.bytes (w.vals p).data).drop (w.vals p).offset := by
      unfold slice at h1
      split at h1
      · simp only [Res.ok.injEq] at h1; rw [← h1, List.take_length]
      · simp at h1
    rcases idx_cases (w.bytes (w.vals p).data) (w.vals p).start with ⟨t, h2⟩ | h2
    rotate_left
    · rw [bind_run, lift_run, h2] at hc; simp at hc
    rw [bind_ok_run (a := t) (w' := w) (by rw [lift_run, h2])] at hc
    have ht := idx_some h2
    cases hd : (w.vals p).d with
    | none =>
      rw [hd] at hc
      simp only at hc
      rw [bind_ok_run (a := none) (w' := w) rfl, bind_ok_run (construct_run _ _ _ _)] at hc
      simp only [pure_run, Prod.mk.injEq, Res.ok.injEq, Option.some.injEq] at hc
      obtain ⟨rfl, rfl⟩ := hc
      simp only [upd_self, Made, World.bytes, Nat.lt_irrefl, not_false_eq_true, true_and]
      refine ⟨⟨t, ht, ?_⟩, trivial⟩
      rw [List.drop_zero, List.take_length, hrest]
      rfl
    | some d =>
      rw [hd] at hc
      simp only at hc
      rw [bind_ok_run (a := w.nd) (w' := (copyDocument d w).1) rfl, bind_ok_run (a := some w.nd) (w' := (copyDocument d w).1) rfl, bind_ok_run (construct_run _ _ _ _)] at hc
      simp only [pure_run, Prod.mk.injEq, Res.ok.injEq, Option.some.injEq] at hc
      obtain ⟨rfl, rfl⟩ := hc
      have e1 : (copyDocument d w).1.docs = upd w.docs w.nd (w.docs d) := rfl
      have e2 : (copyDocument d w).1.nb = w.nb := rfl
      have e3 : (copyDocument d w).1.nv = w.nv := rfl
      have e4 : (copyDocument d w).1.ne = w.ne := rfl
      have e5 : (copyDocument d w).1.bufs = w.bufs := rfl
      simp only [e1, e2, e3, e4, e5, upd_self, Made, World.bytes, Nat.lt_irrefl, not_false_eq_true, true_and]
      refine ⟨⟨t, ht, ?_⟩, w.nd, rfl, Nat.lt_irrefl _, upd_self _ _ _⟩
      rw [List.drop_zero, List.take_length, hrest]
      rfl

/-- a value without bytes gives nil -/
theorem converted_nil {w : World} {p : Nat} (key : Bytes) (h : (w.vals p).offset = 0 ∨ w.bytes (w.vals p).data = []) :
    Graph.convertValueToElem key p w = (w, .ok none) := by
  unfold Graph.convertValueToElem
  rw [bind_ok_run (a := w.vals p) (w' := w) rfl, bind_ok_run (a := w.bytes (w.vals p).data) (w' := w) rfl, if_pos h]
  rfl

/-- where `Model.openValue` panics, opening panics -/
theorem open_panics {w : World} {p n k : Nat} {v : Value} (hv : viewVal w k p = .ok v) (ho : Model.openValue n v = .panic) :
    (Graph.openValue n p w).2 = .panic := by
  cases k with
  | zero => simp [viewVal] at hv
  | succ k =>
    unfold viewVal at hv
    simp only at hv
    unfold Graph.openValue
    rw [bind_ok_run (a := w.vals p) (w' := w) rfl]
    cases hd : (w.vals p).d with
    | none =>
      rw [hd] at hv
      simp only [Res.ok.injEq] at hv
      subst hv
      simp only
      rcases docSpan_open (w := w) (v := w.vals p) n with ⟨s, h1, h2⟩ | ⟨h1, h2⟩
      · rw [bind_ok_run (a := s) (w' := w) (by rw [look_run, h1])]
        rw [h2] at ho
        cases hr : Model.readDocument n (w.bytes s) <;> rw [hr] at ho <;>
          simp [Model.orPanic, Res.bind_ok, bind_run, Graph.orPanic, Graph.readDocument, look_run, hr] at ho ⊢
      · rw [bind_run, look_run, h1]
    | some d =>
      rw [hd] at hv
      simp only at hv
      obtain ⟨es, h1, h2⟩ := Res.bind_eq_ok.mp hv
      simp only [Res.ok.injEq] at h2
      subst h2
      simp only
      rw [bind_run, look_run, openValue_empty_panic ho]

/-- what is in a document that was opened is new -/
theorem open_inner {w w' : World} (g : Spec.Graph.Good w) {p n d : Nat} (hp : p < w.nv) (hd : (w.vals p).d = none)
    (h : Graph.openValue n p w = (w', .ok d)) : w.nd ≤ d ∧ ∀ e ∈ w'.docs d, w.ne ≤ e ∧ w.nv ≤ w'.elems e ∧ (w'.vals (w'.elems e)).d = none := by
  unfold Graph.openValue at h
  rw [bind_ok_run (a := w.vals p) (w' := w) rfl, hd] at h
  simp only at h
  rcases docSpan_open (w := w) (v := w.vals p) n with ⟨s, h1, h2⟩ | ⟨h1, h2⟩
  · rw [bind_ok_run (a := s) (w' := w) (by rw [look_run, h1])] at h
    cases hr : Model.readDocument n (w.bytes s) with
    | ok es =>
      have hb : s.buf < w.nb := by rw [docSpan_buf h1]; exact g (.val p) _ hp (.data p)
      obtain ⟨d1, w1, r1, x, r2, r3, r4, r5⟩ := read_view hb hr
      rw [bind_ok_run (a := d1) (w' := w1) (by unfold Graph.orPanic; rw [r1])] at h
      simp only [keep, Prod.mk.injEq, Res.ok.injEq] at h
      obtain ⟨rfl, rfl⟩ := h
      refine ⟨r2, fun e he => ?_⟩
      obtain ⟨q1, q2, q3, q4⟩ := r5 e he
      refine ⟨q1, q2, ?_⟩
      show (upd w1.vals p _ (w1.elems e)).d = none
      rw [upd_ne _ _ (by omega)]
      exact q4
    | err e => simp [bind_run, Graph.orPanic, Graph.readDocument, look_run, hr] at h
    | panic => simp [bind_run, Graph.orPanic, Graph.readDocument, look_run, hr] at h
    | oof => simp [bind_run, Graph.orPanic, Graph.readDocument, look_run, hr] at h
  · rw [bind_run, look_run, h1] at h
    simp at h

theorem open_reach {w w' : World} (g : Spec.Graph.Good w) {p n d : Nat} (hp : p < w.nv) (hd : (w.vals p).d = none)
    (h : Graph.openValue n p w = (w', .ok d)) {a b : Obj} (r : Reach w' a b) : ∀ q, b = .val q →
    ((a = .doc d ∨ ∃ e ∈ w'.docs d, a = .elem e ∨ a = .val (w'.elems e)) → (w'.vals q).d = none) ∧
      (Made w a → Reach w a b ∨ (w'.vals q).d = none) := by
  obtain ⟨_, _, same, hvp, _⟩ := open_others g hp h
  obtain ⟨hnd, hin⟩ := open_inner g hp hd h
  induction r with
  | refl o =>
    rintro q rfl
    refine ⟨?_, fun _ => .inl (.refl _)⟩
    rintro (h | ⟨e, he, h | h⟩)
    · cases h
    · cases h
    · cases h; exact (hin e he).2.2
  | @step a b c ed r ih =>
    rintro q rfl
    obtain ⟨i1, i2⟩ := ih q rfl
    constructor
    · rintro (rfl | ⟨e, he, rfl | rfl⟩)
      · cases ed with
        | elem he => exact i1 (.inr ⟨_, he, .inl rfl⟩)
      · cases ed with
        | value => exact i1 (.inr ⟨e, he, .inr rfl⟩)
      · cases ed with
        | data => cases r with
          | step ed _ => cases ed
        | d h => rw [(hin e he).2.2] at h; cases h
    · intro hm
      by_cases hap : a = .val p
      · subst hap
        cases ed with
        | data => cases r with
          | step ed _ => cases ed
        | d h => 
          rw [hvp] at h
          simp only [Option.some.injEq] at h
          subst h
          exact .inr (i1 (.inl rfl))
      · have ed' := edge_same (same_symm (same a hm hap)) ed
        rcases i2 (g _ _ hm ed') with h | h
        · exact .inl (.step ed' h)
        · exact .inr h

/-- opening a document or an array -/
theorem open_calm {w w' : World} (g : Spec.Graph.Good w) {p n d m d0 : Nat} {fs : Fields} (hp : p < w.nv) (hnc : ¬ IsCode w p)
    (h : Graph.openValue n p w = (w', .ok d)) (hd0 : d0 < w.nd) (hc : Calm w m d0 fs) (hl : (encDoc fs).length < 2147483648)
    (hn : (encDoc fs).length < n) : Calm w' (m + 1) d0 fs := by
  have hl' : (encDoc fs).length = fs.enc.length + 5 := by simp [encDoc]
  obtain ⟨_, g', same, hvp, hsome⟩ := open_others g hp h
  obtain ⟨⟨tree, h1, h2⟩, hq⟩ := hc
  refine ⟨?_, ?_⟩
  · have hdoc : w.docs d0 = w'.docs d0 := same (.doc d0) hd0 (by simp)
    unfold viewDoc at h1 ⊢
    rw [← hdoc]
    refine fields_rebuild h1 h2 ?_
    intro e he v key t hv hr ht
    have hem : e < w.ne := g (.doc d0) (.elem e) hd0 (.elem he)
    have hel : w.elems e = w'.elems e := same (.elem e) hem (by simp)
    rw [← hel]
    exact open_keeps g hp h m _ v key t (g (.elem e) _ hem (.value e)) hv hr (by omega) (by omega)
  · intro q r hcq
    cases hd : (w.vals p).d with
    | some d1 =>
      have e := hsome d1 hd
      subst e
      exact hq q r hcq
    | none =>
      rcases (open_reach g hp hd h r q rfl).2 hd0 with r' | hnone
      · have hm : Made w (.val q) := reach_made g (a := .doc d0) hd0 r'
        have hb : Made w (.buf (w.vals q).data.buf) := g _ _ hm (.data q)
        have sb : w.bufs (w.vals q).data.buf = w'.bufs (w.vals q).data.buf := same _ hb (by simp)
        unfold IsCode at hcq hnc
        by_cases hqp : q = p
        · subst hqp
          rw [hvp] at hcq
          simp only at hcq
          rw [bytes_same sb] at hcq
          exact absurd hcq hnc
        · have sv : w.vals q = w'.vals q := same _ hm (by simpa using hqp)
          rw [← sv, bytes_same sb] at hcq
          rw [← sv]
          exact hq q r' hcq
      · exact hnone

end Birch.Proofs.Graph
