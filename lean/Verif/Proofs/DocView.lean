import Verif.Spec.DocView
import Verif.Proofs.DocHeap
import Verif.Proofs.Compare
import Verif.Proofs.Construct

/-
From the refinement of documents to what their reading methods show; BSON elements as an instance.
-/

namespace Birch.Proofs.DocHeap
open Birch Spec.DocView
open Birch.Model.DocHeap (World Call Out Params Document Heap deref len elementAt elementAtOK iterator lookupElement lookupElementErr arrayLookup step)
open Birch.Spec.Docs (Sem State doc first setFirst deleteFirst)

variable {E : Type}

theorem shows_of {k : E → Bytes} {w : World E} {s : State E} (R : RepW k w s) {d : Nat} {es : List E} (h : doc s d = some es) :
    Shows w d es := by
  simp only [doc, Option.map_eq_some_iff] at h
  obtain ⟨⟨es', b⟩, hx, rfl⟩ := h
  obtain ⟨x, hd, hde⟩ := deref_of R hx
  have ho := R.owns d x _ hd hx
  refine ⟨x, hde, ho.2, visible_owns ho, fun i hi => ?_, fun i hi => ?_⟩
  · have hg := get_has ho.1 hi (by rw [ho.2]; exact hi)
    have h2 : elementAtOK w.heap x i = .ok (some (es'[i]'hi), true) := by
      rw [elementAtOK, if_neg (by rw [ho.2]; omega), elementAt, hg]; rfl
    exact ⟨hg, h2, by rw [arrayLookup, h2]; rfl⟩
  · have : ¬ i < x.elems.len := by rw [ho.2]; simpa using hi
    have h2 : elementAtOK w.heap x i = .ok (none, false) := by rw [elementAtOK, if_pos (by omega)]
    exact ⟨by rw [elementAt, Model.DocHeap.get, if_neg this], h2, by rw [arrayLookup, h2]; rfl⟩

theorem doc_of_shows {k : E → Bytes} {w : World E} {s : State E} (R : RepW k w s) {d : Nat} {es : List E} (h : Shows w d es) :
    doc s d = some es := by
  obtain ⟨x, h1, _, h3, _⟩ := h
  have hl : d < w.docs.length := by
    by_cases hd : d < w.docs.length
    · exact hd
    · simp [deref, List.getElem?_eq_none (by omega : w.docs.length ≤ d)] at h1
  have hs : d < s.length := by rw [← R.len]; exact hl
  have hx : s[d]? = some s[d] := List.getElem?_eq_getElem hs
  obtain ⟨y, hy, hde⟩ := deref_of R hx
  rw [h1] at hde; cases hde
  have := visible_owns (R.owns d x _ hy hx)
  rw [iterator, this] at h3
  have : s[d].1 = es := by
    have := congrArg (List.filterMap id) h3
    simpa [List.filterMap_map] using this
  simp [doc, hs, this]

theorem reached_rep {P : Params E} {M : Sem E} (hm : Means P M) {w : World E} (h : Reached P w) : ∃ s, RepW M.key w s := by
  obtain ⟨cs, os, h⟩ := h
  obtain ⟨s, _, R⟩ := reached hm cs (repW_empty M.key) h
  exact ⟨s, R⟩

theorem run_snoc {P : Params E} : ∀ (cs : List (Call E)) {w0 w w' : World E} {os : List (Out E)} {c : Call E} {o : Out E},
    Model.DocHeap.run P w0 cs = .ok (w, os) → step P w c = .ok (w', o) → Model.DocHeap.run P w0 (cs ++ [c]) = .ok (w', os ++ [o]) := by
  intro cs
  induction cs with
  | nil => intro w0 w w' os c o h1 h2; rw [Model.DocHeap.run] at h1; cases h1; simp [Model.DocHeap.run, h2]
  | cons c0 cs ih =>
    intro w0 w w' os c o h1 h2
    rw [Model.DocHeap.run] at h1
    obtain ⟨x, hx, h1⟩ := Res.bind_eq_ok.mp h1
    obtain ⟨w1, o1⟩ := x
    obtain ⟨y, hy, h1⟩ := Res.bind_eq_ok.mp h1
    obtain ⟨w2, os2⟩ := y
    cases h1
    rw [List.cons_append, Model.DocHeap.run, hx, Res.bind_ok]
    simp only [ih hy h2, Res.bind_ok, List.cons_append]

theorem _root_.Birch.Spec.DocView.Reached.step {P : Params E} {w w' : World E} {c : Call E} {o : Out E} (h : Reached P w) (hs : step P w c = .ok (w', o)) :
    Reached P w' := by
  obtain ⟨cs, os, h⟩ := h
  exact ⟨_, _, run_snoc cs h hs⟩

/-- a call that replaces the contents of one document -/
theorem change {P : Params E} {M : Sem E} (hm : Means P M) {w : World E} (hw : Reached P w) {d : Nat} {es : List E} (hd : Shows w d es)
    (c : Call E) (es' : List E) (b : Bool)
    (hstep : ∀ s, doc s d = some es → Spec.Docs.step M s c = some (s.set d (es', b))) :
    ∃ w' o, step P w c = .ok (w', o) ∧ Reached P w' ∧ Shows w' d es' ∧ (∀ d' es'', d' ≠ d → Shows w d' es'' → Shows w' d' es'') ∧
      ∃ s, doc s d = some es ∧ Spec.Docs.out M s c o := by
  obtain ⟨s, R⟩ := reached_rep hm hw
  have hs := doc_of_shows R hd
  have hdl : d < s.length := by
    simp only [doc, Option.map_eq_some_iff] at hs
    obtain ⟨a, ha, _⟩ := hs
    exact (List.getElem?_eq_some_iff.mp ha).1
  obtain ⟨w', o, e, R', ho⟩ := step_refines hm R c (hstep s hs)
  refine ⟨w', o, e, hw.step e, shows_of R' (by simp [doc, hdl]), fun d' es'' hne hd' => shows_of R' ?_, s, hs, ho⟩
  have := doc_of_shows R hd'
  rw [doc, List.getElem?_set_ne (Ne.symm hne)]; exact this

/-- a call that creates a document -/
theorem create {P : Params E} {M : Sem E} (hm : Means P M) {w : World E} (hw : Reached P w) (c : Call E) (es' : List E)
    (hstep : ∀ s, RepW M.key w s → Spec.Docs.step M s c = some (s ++ [(es', false)])) :
    ∃ w' o, step P w c = .ok (w', o) ∧ Reached P w' ∧ Shows w' w.docs.length es' ∧ (∀ d' es'', Shows w d' es'' → Shows w' d' es'') := by
  obtain ⟨s, R⟩ := reached_rep hm hw
  obtain ⟨w', o, e, R', ho⟩ := step_refines hm R c (hstep s R)
  refine ⟨w', o, e, hw.step e, shows_of R' (by simp [doc, R.len]), fun d' es'' hd' => shows_of R' ?_⟩
  have h := doc_of_shows R hd'
  simp only [doc, Option.map_eq_some_iff] at h ⊢
  obtain ⟨a, ha, h⟩ := h
  exact ⟨a, by rw [List.getElem?_append_left (List.getElem?_eq_some_iff.mp ha).1]; exact ha, h⟩

theorem first_iff {key : E → Bytes} {k : Bytes} : ∀ {es : List E} {e : E}, first key k es = some e ↔ IsFirst key k es e := by
  intro es
  induction es with
  | nil => intro e; simp [first, IsFirst]
  | cons x xs ih =>
    intro e
    rw [first]
    split
    · next hx =>
      constructor
      · intro h; cases h; exact ⟨[], xs, rfl, hx, by simp⟩
      · rintro ⟨pre, post, h, he, hp⟩
        cases pre with
        | nil => simp only [List.nil_append, List.cons.injEq] at h; rw [h.1]
        | cons p pre => simp only [List.cons_append, List.cons.injEq] at h; exact absurd (h.1 ▸ hx) (hp p (by simp))
    · next hx =>
      rw [ih]
      constructor
      · rintro ⟨pre, post, h, he, hp⟩
        refine ⟨x :: pre, post, by simp [h], he, ?_⟩
        intro y hy
        rcases List.mem_cons.mp hy with rfl | hy
        · exact hx
        · exact hp y hy
      · rintro ⟨pre, post, h, he, hp⟩
        cases pre with
        | nil => simp only [List.nil_append, List.cons.injEq] at h; exact absurd (h.1 ▸ he) hx
        | cons p pre =>
          simp only [List.cons_append, List.cons.injEq] at h
          exact ⟨pre, post, h.2, he, fun y hy => hp y (by simp [hy])⟩

theorem first_none {key : E → Bytes} {k : Bytes} : ∀ {es : List E}, first key k es = none ↔ ∀ y ∈ es, key y ≠ k := by
  intro es
  induction es with
  | nil => simp [first]
  | cons x xs ih =>
    rw [first]
    split
    · next hx => simp [hx]
    · next hx => simp [hx, ih]

theorem setFirst_split {key : E → Bytes} {e x : E} {post : List E} : ∀ {pre : List E}, key x = key e → (∀ y ∈ pre, key y ≠ key e) →
    setFirst key e (pre ++ x :: post) = pre ++ e :: post
  | [], hx, _ => by simp [setFirst, hx]
  | p :: pre, hx, hp => by
    simp [setFirst, hp p (by simp), setFirst_split (pre := pre) hx (fun y hy => hp y (by simp [hy]))]

theorem setFirst_absent {key : E → Bytes} {e : E} : ∀ {es : List E}, (∀ y ∈ es, key y ≠ key e) → setFirst key e es = es ++ [e]
  | [], _ => rfl
  | p :: pre, hp => by
    simp [setFirst, hp p (by simp), setFirst_absent (es := pre) (fun y hy => hp y (by simp [hy]))]

theorem deleteFirst_split {key : E → Bytes} {k : Bytes} {x : E} {post : List E} : ∀ {pre : List E}, key x = k → (∀ y ∈ pre, key y ≠ k) →
    deleteFirst key k (pre ++ x :: post) = pre ++ post
  | [], hx, _ => by simp [deleteFirst, hx]
  | p :: pre, hx, hp => by
    simp [deleteFirst, hp p (by simp), deleteFirst_split (pre := pre) hx (fun y hy => hp y (by simp [hy]))]

theorem deleteFirst_absent {key : E → Bytes} {k : Bytes} : ∀ {es : List E}, (∀ y ∈ es, key y ≠ k) → deleteFirst key k es = es
  | [], _ => rfl
  | p :: pre, hp => by
    simp [deleteFirst, hp p (by simp), deleteFirst_absent (es := pre) (fun y hy => hp y (by simp [hy]))]

theorem first_setFirst_other {key : E → Bytes} {e : E} {k : Bytes} (hk : k ≠ key e) : ∀ {es : List E},
    first key k (setFirst key e es) = first key k es
  | [] => by simp [setFirst, first, Ne.symm hk]
  | x :: xs => by
    rw [setFirst]
    split
    · next hx => simp [first, Ne.symm hk, hx]
    · simp only [first, first_setFirst_other hk]

theorem first_setFirst_same {key : E → Bytes} {e : E} : ∀ {es : List E}, first key (key e) (setFirst key e es) = some e
  | [] => by simp [setFirst, first]
  | x :: xs => by
    rw [setFirst]
    split
    · next hx => simp [first]
    · next hx => simp [first, hx, first_setFirst_same]

theorem finds_first {P : Params E} {M : Sem E} (hm : Means P M) {w : World E} (hw : Reached P w) {d : Nat} {es : List E}
    (hd : Shows w d es) (k : Bytes) : Finds P w d k (first M.key k es) := by
  obtain ⟨s, R⟩ := reached_rep hm hw
  have h := doc_of_shows R hd
  simp only [doc, Option.map_eq_some_iff] at h
  obtain ⟨⟨es', b⟩, hx, rfl⟩ := h
  obtain ⟨x, hdd, hde⟩ := deref_of R hx
  have ho := R.owns d x _ hdd hx
  have hf := find_at hm ho k
  have hl : lookupElement P.keyOf w.heap x k = .ok (first M.key k es') := by
    cases hfi : es'.findIdx? (fun e' => M.key e' = k) with
    | none => simp only [lookupElement, hf, hfi, Res.bind_ok, (first_of_none hfi).1]
    | some p =>
      obtain ⟨hp, h1, _⟩ := first_of_idx hfi
      simp only [lookupElement, hf, hfi, Res.bind_ok, h1, get_has ho.1 hp (by rw [ho.2]; exact hp)]
  refine ⟨x, hde, hl, ?_⟩
  simp only [lookupElementErr, hl, Res.bind_ok]
  cases first M.key k es' <;> rfl

theorem finds_unique {P : Params E} {w : World E} {d : Nat} {k : Bytes} {r r' : Option E} (h : Finds P w d k r) (h' : Finds P w d k r') : r = r' := by
  obtain ⟨x, h1, h2, _⟩ := h
  obtain ⟨y, g1, g2, _⟩ := h'
  rw [h1] at g1; cases g1
  rw [h2] at g2; cases g2
  rfl

/-! ### BSON elements -/

/-- a BSON element: an in-memory element that stands for a key and a value -/
structure BElem where
  v : Model.Value
  key : Bytes
  val : Spec.BVal
  rep : Spec.Rep v key val
  small : val.enc.length < 2147483648

/-- the document model over BSON elements; `fuel` bounds the recursion of `IsEmpty` -/
def bsonParams (grow : Nat → Nat) (fuel : Nat) : Params BElem :=
  ⟨grow, fun e => Model.key e.v, fun e => Model.isEmpty fuel e.v, fun a b => Model.less a.v b.v⟩

/-- keys, emptiness and order of the values they stand for -/
def bsonSem : Sem BElem :=
  ⟨BElem.key, fun e => e.val.isZero || e.val.oddlyEmpty, fun a b => Spec.elemLess (a.key, a.val) (b.key, b.val)⟩

theorem bson_means (grow : Nat → Nat) (fuel : Nat) (hf : 2147483648 ≤ fuel) : Means (bsonParams grow fuel) bsonSem :=
  ⟨fun e => Proofs.key_rep e.rep, fun e => Proofs.isEmpty_rep e.rep e.small (by have := e.small; omega),
    fun a b => Proofs.less_rep a.rep b.rep⟩

/-- a raw element with the given key and value (for examples) -/
def belem (k : Bytes) (t : Spec.BVal) (hk : Spec.NulFree k) (wf : t.WF) (hl : k.length + 2 + t.enc.length < 2147483648) : BElem :=
  ⟨_, k, t, Proofs.rep_raw0 hk wf hl, by omega⟩

end Birch.Proofs.DocHeap
