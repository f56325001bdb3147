import Verif.Proofs.DocView
import Verif.Proofs.Construct

/-
C12, C13, C14, C15, C19, C20: documents and arrays as sequences of elements.

A world is reached (`Reached`) by an arbitrary sequence of calls — `Make`, `Elements`, `Append`,
`AppendOmitEmpty`, `Extend`, `Set`, `Delete`, `Reset`, `Copy`, `Sorted`, `Map`, `UnmarshalBSON`, the array constructors and
methods — on any number of documents, run on the slice-level model: growth of slices, in-place shifting and possible
sharing of backing arrays are part of what is proved away.  What a document contains is said
only by its reading methods (`Shows`).

The theorems hold for any kind of element pointer `E` whose key, emptiness and order can be
computed (`Means`); `bson_means` shows that BSON elements are such.
-/

namespace Birch.Props
open Birch Proofs.DocHeap Spec.DocView
open Birch.Model.DocHeap (World Call Out Params Document Heap deref len elementAt elementAtOK iterator lookupElement lookupElementErr arrayLookup step)
open Birch.Spec.Docs (Sem State doc first setFirst deleteFirst)

variable {E : Type}

/-! ### example elements and a world used in the examples -/

/-- `{a: 1}` -/
def exA1 : BElem := belem [97] (.int32 1) (by simp [Spec.NulFree]) (by simp [Spec.BVal.WF]) (by simp [Spec.BVal.enc, le32])
/-- `{b: "x"}` -/
def exB : BElem := belem [98] (.string [120]) (by simp [Spec.NulFree]) (by simp [Spec.BVal.WF]) (by simp [Spec.BVal.enc, Spec.encString, le32])
/-- `{a: true}` -/
def exA2 : BElem := belem [97] (.bool true) (by simp [Spec.NulFree]) (by simp [Spec.BVal.WF]) (by simp [Spec.BVal.enc])

/-- slices grow by one; enough fuel -/
def exP : Params BElem := bsonParams (fun _ => 1) 2147483648

theorem exMeans : Means exP bsonSem := bson_means _ _ (Nat.le_refl _)

/-- three documents: one with capacity to spare, one filled and thinned out, and a copy -/
def exCalls : List (Call BElem) :=
  [.make 2, .append 0 [exA1, exB, exA2], .elements [exB], .extend 1 0, .delete 1 [98], .copy 1, .append 2 [exB]]

/-- its contents: `[a:1, b:"x", a:true]`, `[a:1, b:"x", a:true]`, `[a:1, b:"x", a:true, b:"x"]` -/
theorem exRun : ∃ w, Reached exP w ∧ w.docs.length = 3 ∧ Shows w 0 [exA1, exB, exA2] ∧ Shows w 1 [exA1, exB, exA2] ∧
    Shows w 2 [exA1, exB, exA2, exB] := by
  obtain ⟨w, os, h1, R, _⟩ := run_refines exMeans exCalls (repW_empty _)
    (s' := [([exA1, exB, exA2], false), ([exA1, exB, exA2], true), ([exA1, exB, exA2, exB], false)])
    (by simp [exCalls, Spec.Docs.run, Spec.Docs.step, Spec.Docs.new, Spec.Docs.upd, doc, deleteFirst, first, bsonSem, exB, belem])
  exact ⟨w, ⟨_, _, h1⟩, R.len, shows_of R rfl, shows_of R rfl, shows_of R rfl⟩

/-! ### C12 -/

/-- After any sequence of calls, every document shows exactly the elements the list specification gives, in order,
    through `Len`, `ElementAt`, `ElementAtOK` and `Iterator`; out-of-range indices panic / report false.  The
    calls' own results are the specified ones too. -/
theorem C12_contents {P : Params E} {M : Sem E} (hm : Means P M) (cs : List (Call E)) (s : State E)
    (hs : Spec.Docs.run M [] cs = some s) :
    ∃ w os, Model.DocHeap.run P World.empty cs = .ok (w, os) ∧ Spec.Docs.outs M [] cs os ∧ ∀ d es, doc s d = some es → Shows w d es := by
  obtain ⟨w, os, h1, h2, h3⟩ := run_refines hm cs (repW_empty M.key) hs
  exact ⟨w, os, h1, h3, fun d es hd => shows_of h2 hd⟩

example : Spec.Docs.run bsonSem [] exCalls =
    some [([exA1, exB, exA2], false), ([exA1, exB, exA2], true), ([exA1, exB, exA2, exB], false)] := by
  simp [exCalls, Spec.Docs.run, Spec.Docs.step, Spec.Docs.new, Spec.Docs.upd, doc, deleteFirst, first, bsonSem, exB, belem]

/-- A document always has definite contents. -/
theorem C12_shows {P : Params E} {M : Sem E} (hm : Means P M) {w : World E} (hw : Reached P w) (d : Nat) (hd : d < w.docs.length) :
    ∃ es, Shows w d es := by
  obtain ⟨s, R⟩ := reached_rep hm hw
  have hs : d < s.length := by rw [← R.len]; exact hd
  exact ⟨s[d].1, shows_of R (by simp [doc, hs])⟩

example : ∃ w, Reached exP w ∧ 2 < w.docs.length := by
  obtain ⟨w, h, hl, _⟩ := exRun
  exact ⟨w, h, by omega⟩

/-- `Append`: the new elements come last, in order; no other document changes. -/
theorem C12_append {P : Params E} {M : Sem E} (hm : Means P M) {w : World E} (hw : Reached P w) {d : Nat} {es : List E}
    (hd : Shows w d es) (args : List E) :
    ∃ w' o, step P w (.append d args) = .ok (w', o) ∧ Reached P w' ∧ Shows w' d (es ++ args) ∧
      ∀ d' es', d' ≠ d → Shows w d' es' → Shows w' d' es' := by
  obtain ⟨w', o, h1, h2, h3, h4, _⟩ := change hm hw hd (.append d args) (es ++ args) false (by
    intro s hs
    simp only [doc, Option.map_eq_some_iff] at hs
    obtain ⟨a, ha, rfl⟩ := hs
    simp [Spec.Docs.step, Spec.Docs.upd, ha])
  exact ⟨w', o, h1, h2, h3, h4⟩

example : ∃ w w' o, step exP w (.append 1 [exB, exB]) = .ok (w', o) ∧ Shows w' 1 [exA1, exB, exA2, exB, exB] ∧
    Shows w' 2 [exA1, exB, exA2, exB] := by
  obtain ⟨w, h, _, _, h1, h2⟩ := exRun
  obtain ⟨w', o, e, _, a, b⟩ := C12_append exMeans h h1 [exB, exB]
  exact ⟨w, w', o, e, a, b _ _ (by decide) h2⟩

/-- `Extend`: the other document's elements come last, in order, also when a document is extended by itself;
    no other document changes. -/
theorem C12_extend {P : Params E} {M : Sem E} (hm : Means P M) {w : World E} (hw : Reached P w) {d d2 : Nat} {es es2 : List E}
    (hd : Shows w d es) (hd2 : Shows w d2 es2) :
    ∃ w' o, step P w (.extend d d2) = .ok (w', o) ∧ Reached P w' ∧ Shows w' d (es ++ es2) ∧
      ∀ d' es', d' ≠ d → Shows w d' es' → Shows w' d' es' := by
  obtain ⟨s, R⟩ := reached_rep hm hw
  have hs := doc_of_shows R hd
  have hs2 := doc_of_shows R hd2
  have hx := hs
  simp only [doc, Option.map_eq_some_iff] at hx
  obtain ⟨a, ha, rfl⟩ := hx
  have hdl := (List.getElem?_eq_some_iff.mp ha).1
  obtain ⟨w', o, e, R', ho⟩ := step_refines hm R (.extend d d2) (s' := s.set d (a.1 ++ es2, false))
    (by simp [Spec.Docs.step, Spec.Docs.upd, ha, hs2])
  refine ⟨w', o, e, hw.step e, shows_of R' (by simp [doc, hdl]), fun d' es'' hne hd' => shows_of R' ?_⟩
  have := doc_of_shows R hd'
  rw [doc, List.getElem?_set_ne (Ne.symm hne)]; exact this

example : ∃ w w' o, step exP w (.extend 0 0) = .ok (w', o) ∧ Shows w' 0 [exA1, exB, exA2, exA1, exB, exA2] := by
  obtain ⟨w, h, _, h0, _⟩ := exRun
  obtain ⟨w', o, e, _, a, _⟩ := C12_extend exMeans h h0 h0
  exact ⟨w, w', o, e, a⟩

/-- New documents: `Make` is empty, `Elements` and `NewArray` hold their arguments, `Copy` the same elements as the
    original; later changes to either document do not show in the other (all other theorems here speak of reached worlds). -/
theorem C12_create {P : Params E} {M : Sem E} (hm : Means P M) {w : World E} (hw : Reached P w) (n : Nat) (args : List E)
    {d : Nat} {es : List E} (hd : Shows w d es) :
    ∀ c es', (c = .make n ∧ es' = []) ∨ (c = .elements args ∧ es' = args) ∨ (c = .newArray args ∧ es' = args) ∨ (c = .copy d ∧ es' = es) →
    ∃ w' o, step P w c = .ok (w', o) ∧ Reached P w' ∧ Shows w' w.docs.length es' ∧ ∀ d' es'', Shows w d' es'' → Shows w' d' es'' := by
  rintro c es' (⟨rfl, rfl⟩ | ⟨rfl, rfl⟩ | ⟨rfl, rfl⟩ | ⟨rfl, rfl⟩)
  · exact create hm hw _ _ (fun s _ => rfl)
  · exact create hm hw _ _ (fun s _ => rfl)
  · exact create hm hw _ _ (fun s _ => rfl)
  · exact create hm hw _ _ (fun s R => by simp [Spec.Docs.step, Spec.Docs.new, doc_of_shows R hd])

example : ∃ w w' o, step exP w (.copy 2) = .ok (w', o) ∧ Shows w' 3 [exA1, exB, exA2, exB] := by
  obtain ⟨w, h, hl, _, _, h2⟩ := exRun
  obtain ⟨w', o, e, _, a, _⟩ := C12_create exMeans h 0 [] h2 _ _ (.inr (.inr (.inr ⟨rfl, rfl⟩)))
  exact ⟨w, w', o, e, hl ▸ a⟩

/-- `Reset` empties the document and no other; `UnmarshalBSON` leaves exactly the elements read. -/
theorem C12_reset {P : Params E} {M : Sem E} (hm : Means P M) {w : World E} (hw : Reached P w) {d : Nat} {es : List E}
    (hd : Shows w d es) (args : List E) :
    (∃ w' o, step P w (.reset d) = .ok (w', o) ∧ Reached P w' ∧ Shows w' d [] ∧
      ∀ d' es', d' ≠ d → Shows w d' es' → Shows w' d' es') ∧
    (∃ w' o, step P w (.unmarshal d args) = .ok (w', o) ∧ Reached P w' ∧ Shows w' d args ∧
      ∀ d' es', d' ≠ d → Shows w d' es' → Shows w' d' es') := by
  constructor
  · obtain ⟨w', o, h1, h2, h3, h4, _⟩ := change hm hw hd (.reset d) [] false (by
      intro s hs
      simp only [doc, Option.map_eq_some_iff] at hs
      obtain ⟨a, ha, rfl⟩ := hs
      simp [Spec.Docs.step, Spec.Docs.upd, ha])
    exact ⟨w', o, h1, h2, h3, h4⟩
  · obtain ⟨w', o, h1, h2, h3, h4, _⟩ := change hm hw hd (.unmarshal d args) args true (by
      intro s hs
      simp only [doc, Option.map_eq_some_iff] at hs
      obtain ⟨a, ha, rfl⟩ := hs
      simp [Spec.Docs.step, Spec.Docs.upd, ha])
    exact ⟨w', o, h1, h2, h3, h4⟩

example : ∃ w w' o, step exP w (.reset 1) = .ok (w', o) ∧ Shows w' 1 [] ∧ Shows w' 2 [exA1, exB, exA2, exB] := by
  obtain ⟨w, h, _, _, h1, h2⟩ := exRun
  obtain ⟨⟨w', o, e, _, a, b⟩, _⟩ := C12_reset exMeans h h1 []
  exact ⟨w, w', o, e, a, b _ _ (by decide) h2⟩

/-! ### C13 -/

/-- `Set` replaces the first element with the key of `e` in place and leaves everything else alone; without such an
    element it appends `e`.  Afterwards the key finds `e`, and other keys find what they found before. -/
theorem C13_set {P : Params E} {M : Sem E} (hm : Means P M) {w : World E} (hw : Reached P w) {d : Nat} {es : List E}
    (hd : Shows w d es) (e : E) :
    ∃ w' o, step P w (.set d e) = .ok (w', o) ∧ Reached P w' ∧
      (∀ pre x post, es = pre ++ x :: post → M.key x = M.key e → (∀ y ∈ pre, M.key y ≠ M.key e) → Shows w' d (pre ++ e :: post)) ∧
      ((∀ y ∈ es, M.key y ≠ M.key e) → Shows w' d (es ++ [e])) ∧
      (∀ d' es', d' ≠ d → Shows w d' es' → Shows w' d' es') ∧
      Finds P w' d (M.key e) (some e) ∧
      (∀ k r, k ≠ M.key e → Finds P w d k r → Finds P w' d k r) := by
  obtain ⟨w', o, h1, h2, h3, h4, _⟩ := change hm hw hd (.set d e) (setFirst M.key e es) (first M.key (M.key e) es).isSome (by
    intro s hs
    simp only [doc, Option.map_eq_some_iff] at hs
    obtain ⟨a, ha, rfl⟩ := hs
    simp [Spec.Docs.step, Spec.Docs.upd, ha])
  refine ⟨w', o, h1, h2, ?_, ?_, h4, ?_, ?_⟩
  · intro pre x post hes hx hp
    rwa [hes, setFirst_split hx hp] at h3
  · intro hp
    rwa [setFirst_absent hp] at h3
  · have := finds_first hm h2 h3 (M.key e)
    rwa [first_setFirst_same] at this
  · intro k r hk hr
    have := finds_first hm h2 h3 k
    rw [first_setFirst_other hk, finds_unique (finds_first hm hw hd k) hr] at this
    exact this

/-- the first of two elements with key `a` is replaced -/
example : ∃ w w' o, step exP w (.set 0 exA2) = .ok (w', o) ∧ Shows w' 0 [exA2, exB, exA2] := by
  obtain ⟨w, h, _, h0, _⟩ := exRun
  obtain ⟨w', o, e, _, a, _⟩ := C13_set exMeans h h0 exA2
  exact ⟨w, w', o, e, a [] exA1 [exB, exA2] rfl rfl (by simp)⟩

/-! ### C14 -/

/-- `Delete` removes only the first element with the key and returns it; without such an element the document is
    unchanged and nil is returned. -/
theorem C14_delete {P : Params E} {M : Sem E} (hm : Means P M) {w : World E} (hw : Reached P w) {d : Nat} {es : List E}
    (hd : Shows w d es) (k : Bytes) :
    ∃ w' r, step P w (.delete d k) = .ok (w', .elem r) ∧ Reached P w' ∧
      (∀ pre x post, es = pre ++ x :: post → M.key x = k → (∀ y ∈ pre, M.key y ≠ k) → r = some x ∧ Shows w' d (pre ++ post)) ∧
      ((∀ y ∈ es, M.key y ≠ k) → r = none ∧ Shows w' d es) ∧
      (∀ d' es', d' ≠ d → Shows w d' es' → Shows w' d' es') := by
  obtain ⟨w', o, h1, h2, h3, h4, s, hs, ho⟩ := change hm hw hd (.delete d k) (deleteFirst M.key k es) (first M.key k es).isSome (by
    intro s hs
    simp only [doc, Option.map_eq_some_iff] at hs
    obtain ⟨a, ha, rfl⟩ := hs
    simp [Spec.Docs.step, Spec.Docs.upd, ha])
  have ho := ho es hs
  subst ho
  refine ⟨w', _, h1, h2, ?_, ?_, h4⟩
  · intro pre x post hes hx hp
    refine ⟨first_iff.mpr ⟨pre, post, hes, hx, hp⟩, ?_⟩
    rwa [hes, deleteFirst_split hx hp] at h3
  · intro hp
    refine ⟨first_none.mpr hp, ?_⟩
    rwa [deleteFirst_absent hp] at h3

example : ∃ w w', step exP w (.delete 0 [97]) = .ok (w', .elem (some exA1)) ∧ Shows w' 0 [exB, exA2] := by
  obtain ⟨w, h, _, h0, _⟩ := exRun
  obtain ⟨w', r, e, _, a, _⟩ := C14_delete exMeans h h0 [97]
  obtain ⟨hr, hs⟩ := a [] exA1 [exB, exA2] rfl rfl (by simp)
  exact ⟨w, w', hr ▸ e, hs⟩

/-! ### C15 -/

/-- Lookups return the first element with the key, and report absence exactly when there is none. -/
theorem C15_lookup {P : Params E} {M : Sem E} (hm : Means P M) {w : World E} (hw : Reached P w) {d : Nat} {es : List E}
    (hd : Shows w d es) (k : Bytes) :
    (∀ e, Finds P w d k (some e) ↔ IsFirst M.key k es e) ∧ (Finds P w d k none ↔ ∀ y ∈ es, M.key y ≠ k) := by
  have h := finds_first hm hw hd k
  constructor
  · intro e
    rw [← first_iff]
    exact ⟨fun h' => finds_unique h h', fun h' => h' ▸ h⟩
  · rw [← first_none]
    exact ⟨fun h' => finds_unique h h', fun h' => h' ▸ h⟩

example : ∃ w, Reached exP w ∧ Finds exP w 0 [97] (some exA1) ∧ Finds exP w 0 [99] none := by
  obtain ⟨w, h, _, h0, _⟩ := exRun
  refine ⟨w, h, ((C15_lookup exMeans h h0 _).1 _).mpr ⟨[], [exB, exA2], rfl, rfl, by simp⟩, (C15_lookup exMeans h h0 _).2.mpr ?_⟩
  simp [bsonSem, exA1, exB, exA2, belem]

/-! ### C19 -/

/-- `Map` when nothing was replaced or removed since the last growth or reset of the document: for every program `cs`
    whose specification leaves the "stale" flag of document `d` down, the map returned has exactly the first element of each key.
    Missing (and false, see `C19_map_stale`): the same after `Set` replaced, or `Delete` removed, an element. -/
theorem C19_map_partial {P : Params E} {M : Sem E} (hm : Means P M) (cs : List (Call E)) (s : State E)
    (hs : Spec.Docs.run M [] cs = some s) {d : Nat} {es : List E} (hd : s[d]? = some (es, false)) :
    ∃ w os, Model.DocHeap.run P World.empty cs = .ok (w, os) ∧ Shows w d es ∧ ∃ w' m, step P w (.map d) = .ok (w', .map m) ∧
      Shows w' d es ∧ (∀ k e, m.lookup k = some e ↔ IsFirst M.key k es e) ∧ ∀ k, m.lookup k = none ↔ ∀ y ∈ es, M.key y ≠ k := by
  obtain ⟨w, os, h1, h2, h3⟩ := run_refines hm cs (repW_empty M.key) hs
  have hdoc : doc s d = some es := by simp [doc, hd]
  obtain ⟨w', o, h4, h5, m, rfl, h6⟩ := step_refines hm h2 (.map d) (s' := s) (by simp [Spec.Docs.step, hd])
  have h6 := h6 es hd
  refine ⟨w, os, h1, shows_of h2 hdoc, w', m, h4, shows_of h5 hdoc, ?_, ?_⟩
  · intro k e; rw [h6 k, first_iff]
  · intro k; rw [h6 k, first_none]

example : ∃ s, Spec.Docs.run bsonSem [] (exCalls ++ [.map 0, .append 1 [exA1]]) = some s ∧
    s[1]? = some ([exA1, exB, exA2, exA1], false) := by
  refine ⟨_, rfl, ?_⟩
  simp [deleteFirst, first, bsonSem, exB, belem]

/-- The claim of C19 is false: whatever two elements share a key, a `Map` call before and after replacing one by the other
    returns the replaced element both times, although the document shows the new one. -/
theorem C19_map_stale {P : Params E} {M : Sem E} (hm : Means P M) (e1 e2 : E) (hk : M.key e1 = M.key e2) :
    ∃ w m os, Model.DocHeap.run P World.empty [.make 0, .append 0 [e1], .map 0, .set 0 e2, .map 0] = .ok (w, os ++ [.map m]) ∧
      Shows w 0 [e2] ∧ m.lookup (M.key e2) = some e1 := by
  obtain ⟨w', os', h1', R, _⟩ := run_refines hm [.make 0, .append 0 [e1], .map 0, .set 0 e2, .map 0] (repW_empty _) (s' := [([e2], true)])
    (by simp [Spec.Docs.run, Spec.Docs.step, Spec.Docs.new, Spec.Docs.upd, setFirst, first, hk])
  have h := h1'
  simp [Model.DocHeap.run, Model.DocHeap.step, Model.DocHeap.push, Model.DocHeap.make, World.empty, Model.DocHeap.deref, Model.DocHeap.alloc,
    Model.DocHeap.append, Model.DocHeap.appendLoop, Model.DocHeap.get, Model.DocHeap.array, Model.DocHeap.append1, Model.DocHeap.store,
    Model.DocHeap.map, Model.DocHeap.cacheLoop, Model.DocHeap.mapAdd, Model.DocHeap.set, Model.DocHeap.findLoop, Model.DocHeap.keyPtr,
    Model.DocHeap.put, hm.key, hk] at h
  exact ⟨w', [(M.key e2, e1)], [.none, .none, .map [(M.key e2, e1)], .none], by rw [h1', ← h.2]; rfl, shows_of R rfl, by simp⟩

/-- the two elements really differ: `{a: 1}` replaced by `{a: true}` -/
example : bsonSem.key exA1 = bsonSem.key exA2 ∧ exA1.val ≠ exA2.val := ⟨rfl, by simp [exA1, exA2, belem]⟩

/-! ### C20 -/

/-- `Array.Set` changes only the indexed position. -/
theorem C20_set {P : Params E} {M : Sem E} (hm : Means P M) {w : World E} (hw : Reached P w) {d : Nat} {es : List E}
    (hd : Shows w d es) (i : Nat) (e : E) :
    (∀ pre x post, es = pre ++ x :: post → i = pre.length → ∃ w' o, step P w (.arraySet d i e) = .ok (w', o) ∧ Reached P w' ∧
      Shows w' d (pre ++ e :: post) ∧ ∀ d' es', d' ≠ d → Shows w d' es' → Shows w' d' es') ∧
    (es.length ≤ i → step P w (.arraySet d i e) = .panic) := by
  constructor
  · rintro pre x post rfl rfl
    obtain ⟨w', o, h1, h2, h3, h4, _⟩ := change hm hw hd (.arraySet d pre.length e) (pre ++ e :: post) true (by
      intro s hs
      have hs' := hs
      simp only [doc, Option.map_eq_some_iff] at hs
      obtain ⟨a, ha, hs⟩ := hs
      simp [Spec.Docs.step, Spec.Docs.upd, ha, hs', hs])
    exact ⟨w', o, h1, h2, h3, h4⟩
  · intro hi
    obtain ⟨s, R⟩ := reached_rep hm hw
    have hs := doc_of_shows R hd
    refine step_none R _ ?_
    simp only [Spec.Docs.step, hs, Option.bind_some, if_neg (Nat.not_lt.mpr hi)]

example : ∃ w w' o, step exP w (.arraySet 0 1 exA1) = .ok (w', o) ∧ Shows w' 0 [exA1, exA1, exA2] ∧
    step exP w (.arraySet 0 3 exA1) = .panic := by
  obtain ⟨w, h, _, h0, _⟩ := exRun
  obtain ⟨w', o, e, _, a, _⟩ := (C20_set exMeans h h0 1 exA1).1 [exA1] exB [exA2] rfl rfl
  exact ⟨w, w', o, e, a, (C20_set exMeans h h0 3 exA1).2 (by decide)⟩

/-- `Array.Delete` removes only the indexed position and returns what was there; out of range it returns nil and
    changes nothing. -/
theorem C20_delete {P : Params E} {M : Sem E} (hm : Means P M) {w : World E} (hw : Reached P w) {d : Nat} {es : List E}
    (hd : Shows w d es) (i : Nat) :
    ∃ w' r, step P w (.arrayDelete d i) = .ok (w', .elem r) ∧ Reached P w' ∧
      (∀ pre x post, es = pre ++ x :: post → i = pre.length → r = some x ∧ Shows w' d (pre ++ post)) ∧
      (es.length ≤ i → r = none ∧ Shows w' d es) ∧
      ∀ d' es', d' ≠ d → Shows w d' es' → Shows w' d' es' := by
  obtain ⟨s, R⟩ := reached_rep hm hw
  have hs := doc_of_shows R hd
  have hx := hs
  simp only [doc, Option.map_eq_some_iff] at hx
  obtain ⟨a, ha, rfl⟩ := hx
  have hdl := (List.getElem?_eq_some_iff.mp ha).1
  by_cases hi : i < a.1.length
  · obtain ⟨w', o, e, R', ho⟩ := step_refines hm R (.arrayDelete d i) (s' := s.set d (a.1.eraseIdx i, true))
      (by simp [Spec.Docs.step, ha, hi])
    have ho := ho _ hs
    subst ho
    have h3 : Shows w' d (a.1.eraseIdx i) := shows_of R' (by simp [doc, hdl])
    refine ⟨w', _, e, hw.step e, ?_, by omega, fun d' es'' hne hd' => shows_of R' ?_⟩
    · rintro pre x post hes rfl
      rw [hes] at h3 ⊢
      refine ⟨by simp, ?_⟩
      rwa [List.eraseIdx_append_of_length_le (Nat.le_refl _), Nat.sub_self, List.eraseIdx_cons_zero] at h3
    · have := doc_of_shows R hd'
      rw [doc, List.getElem?_set_ne (Ne.symm hne)]; exact this
  · obtain ⟨w', o, e, R', ho⟩ := step_refines hm R (.arrayDelete d i) (s' := s) (by simp [Spec.Docs.step, ha, hi])
    have ho := ho _ hs
    subst ho
    refine ⟨w', _, e, hw.step e, ?_, ?_, fun d' es'' _ hd' => shows_of R' (doc_of_shows R hd')⟩
    · rintro pre x post hes rfl
      rw [hes] at hi; simp at hi
    · intro h; exact ⟨List.getElem?_eq_none h, shows_of R' hs⟩

example : ∃ w w', step exP w (.arrayDelete 0 1) = .ok (w', .elem (some exB)) ∧ Shows w' 0 [exA1, exA2] := by
  obtain ⟨w, h, _, h0, _⟩ := exRun
  obtain ⟨w', r, e, _, a, _⟩ := C20_delete exMeans h h0 1
  obtain ⟨hr, hs⟩ := a [exA1] exB [exA2] rfl rfl
  exact ⟨w, w', hr ▸ e, hs⟩

/-- `Array.Append`, `Extend`, `Len` and `Lookup`: an array built by any of the constructors and extended shows the
    values by position (`Shows` includes `Lookup`, which reports `OutOfBounds` exactly past the end). -/
theorem C20_append {P : Params E} {M : Sem E} (hm : Means P M) {w : World E} (hw : Reached P w) (vs args : List E) :
    ∃ w1 w2 o1 o2, step P w (.newArray vs) = .ok (w1, o1) ∧ step P w1 (.append w.docs.length args) = .ok (w2, o2) ∧ Reached P w2 ∧
      Shows w1 w.docs.length vs ∧ Shows w2 w.docs.length (vs ++ args) := by
  obtain ⟨w1, o1, h1, h2, h3, _⟩ := create hm hw (.newArray vs) vs (fun s _ => rfl)
  obtain ⟨w2, o2, g1, g2, g3, _⟩ := C12_append hm h2 h3 args
  exact ⟨w1, w2, o1, o2, h1, g1, g2, h3, g3⟩

example : ∃ w, Reached exP w ∧ w.docs.length = 3 := by
  obtain ⟨w, h, hl, _⟩ := exRun
  exact ⟨w, h, hl⟩

end Birch.Props
