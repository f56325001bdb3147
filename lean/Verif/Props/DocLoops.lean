import Verif.Proofs.DocLoops
import Verif.Props.Documents

/-
C98: loops over a document that is changed meanwhile.
-/

namespace Birch.Props
open Birch Proofs.DocHeap Proofs.DocLoops Spec.DocView Spec.DocLoops
open Birch.Model.DocHeap (World Call Out Params Document Heap deref visible step)
open Birch.Model.DocLoops (loop elements forEach unmarshalDocument)
open Birch.Spec.Docs (Sem State doc first setFirst deleteFirst)

variable {E : Type}

/-- A loop gets exactly the elements the document had when `Iterator` was called, whatever calls are made between
    `Iterator` and the loop (`pre`) and in its turns (`body`), as long as they spare the document's elements: they may
    add to the document, even so much that its array is moved, and do anything to other documents.  The slice
    `Elements` returned at the start still shows those elements too. -/
theorem C98_spared {P : Params E} {M : Sem E} (hm : Means P M) {w : World E} (hw : Reached P w) {d : Nat} {es : List E} (hd : Shows w d es)
    (pre : List (Call E)) (body : Nat → Option E → List (Call E)) (hp : ∀ c ∈ pre, Spares d c) (hb : ∀ i x, ∀ c ∈ body i x, Spares d c)
    {xs : List (Option E)} {w' : World E} (h : forEach P d pre body w = .ok (xs, w')) :
    xs = es.map some ∧ ∀ x, deref w d = .ok x → visible w'.heap (elements x) = es.map some := by
  obtain ⟨x, hx, ho, K⟩ := owns_of hm hw hd
  rw [forEach, hx, Res.bind_ok] at h
  obtain ⟨⟨w1, os⟩, h1, h⟩ := Res.bind_eq_ok.mp h
  obtain ⟨a, K'⟩ := loop_keeps (X := es.map some) (by simp [ho.2]) hb x.elems.len 0 (run_keeps pre K hp h1) (by simp [ho.2]) h
  refine ⟨by simpa using a, fun y hy => ?_⟩
  rw [hx] at hy; cases hy
  obtain ⟨rest, hr⟩ := K'.pre
  rw [elements, visible, array_eq hr, ho.2]
  simp

/-- Such a loop comes to its end, without a panic, when the calls name existing documents. -/
theorem C98_spared_ends {P : Params E} {M : Sem E} (hm : Means P M) {w : World E} (hw : Reached P w) {d : Nat} {es : List E} (hd : Shows w d es)
    (pre : List (Call E)) (body : Nat → Option E → List (Call E)) (hp : ∀ c ∈ pre, Spares d c ∧ Fits w.docs.length c)
    (hb : ∀ i x, ∀ c ∈ body i x, Spares d c ∧ Fits w.docs.length c) :
    ∃ w', forEach P d pre body w = .ok (es.map some, w') := by
  obtain ⟨x, hx, ho, K⟩ := owns_of hm hw hd
  obtain ⟨w1, os, e1, hw1, hk1⟩ := run_fits hm pre hw (Nat.le_refl _) (fun c h => (hp c h).2)
  obtain ⟨r, hr⟩ := loop_fits (X := es.map some) hm (by simp [ho.2]) hb x.elems.len 0 (run_keeps pre K (fun c h => (hp c h).1) e1) hw1 hk1
    (by simp [ho.2])
  have hf : forEach P d pre body w = .ok (r.1, r.2) := by
    rw [forEach, hx, Res.bind_ok, e1, Res.bind_ok]; exact hr
  have := (C98_spared hm hw hd pre body (fun c h => (hp c h).1) (fun i x c h => (hb i x c h).1) hf).1
  exact ⟨r.2, by rw [hf, this]⟩

/-- Turns that add twice to the document, empty another one and delete from a third: the loop gets the three elements. -/
example : ∃ w w', forEach exP 0 [.append 0 [exB]] (fun _ _ => [.append 0 [exB, exB], .reset 1, .delete 2 [97]]) w =
    .ok ([exA1, exB, exA2].map some, w') := by
  obtain ⟨w, h, hl, h0, _⟩ := exRun
  obtain ⟨w', h1⟩ := C98_spared_ends exMeans h h0 [.append 0 [exB]] (fun _ _ => [.append 0 [exB, exB], .reset 1, .delete 2 [97]])
    (by simp [Spares, Fits, hl]) (by simp [Spares, Fits, hl])
  exact ⟨w, w', h1⟩

/-- `UnmarshalDocument` appends the elements of the other document, also when it is the document itself: the loop ends, and the
    document has its elements twice. -/
theorem C98_unmarshal {P : Params E} {M : Sem E} (hm : Means P M) {w : World E} (hw : Reached P w) {d in_ : Nat} {es ins : List E}
    (hd : Shows w d es) (hi : Shows w in_ ins) :
    ∃ w', unmarshalDocument P d in_ w = .ok w' ∧ Reached P w' ∧ Shows w' d (es ++ ins) ∧
      ∀ d' es', d' ≠ d → Shows w d' es' → Shows w' d' es' := by
  obtain ⟨x, hx, ho, K⟩ := owns_of hm hw hi
  obtain ⟨w', h1, h2, h3, h4⟩ := unmarshal_document hm ho.2 x.elems.len 0 K hw hd (by simp [ho.2])
  exact ⟨w', by rw [unmarshalDocument, hx, Res.bind_ok]; exact h1, h2, by simpa using h3, h4⟩

example : ∃ w w', unmarshalDocument exP 0 0 w = .ok w' ∧ Shows w' 0 ([exA1, exB, exA2] ++ [exA1, exB, exA2]) := by
  obtain ⟨w, h, _, h0, _⟩ := exRun
  obtain ⟨w', h1, _, h2, _⟩ := C98_unmarshal exMeans h h0 h0
  exact ⟨w, w', h1, h2⟩

/-- Deleting the current element in turn `j` (its key not occurring before): the document loses exactly that element, but
    the rest of the loop is shifted: the element behind the deleted one is skipped, and the last one comes twice. -/
theorem C98_delete {P : Params E} {M : Sem E} (hm : Means P M) {w : World E} (hw : Reached P w) {d : Nat} {pre post : List E} {y : E}
    (hd : Shows w d (pre ++ y :: post)) (hk : ∀ z ∈ pre, M.key z ≠ M.key y) :
    ∃ w', forEach P d [] (fun i _ => if i = pre.length then [.delete d (M.key y)] else []) w =
        .ok ((pre ++ y :: shifted post).map some, w') ∧ Shows w' d (pre ++ post) := by
  obtain ⟨x, hx, ho, K⟩ := owns_of hm hw hd
  have m := mid_of hx ho
  obtain ⟨w', o, h1, m1⟩ := delete_mid (stale := []) hm (by simpa using m) hk
  refine ⟨w', ?_, m1.shows⟩
  have hl : (y :: post).getLast?.toList.length = 1 := by
    cases h : (y :: post).getLast? with
    | none => simp at h
    | some z => rfl
  rw [forEach_once (j := pre.length) hx ho (by simp) h1 m1.arr (by simp [hl])]
  congr 2
  rw [List.append_nil, ← List.map_take, ← List.map_drop, ← List.map_append]
  congr 1
  cases post with
  | nil => simp [shifted, List.take_of_length_le]
  | cons z post => simp [shifted, List.take_append, List.drop_append, List.take_of_length_le, List.drop_of_length_le]

/-- `{a: 1, b: "x", a: true}`: deleting `a` in the first turn, the loop never gets `b` and gets the second `a` twice -/
example : ∃ w w', forEach exP 0 [] (fun i _ => if i = 0 then [.delete 0 [97]] else []) w = .ok ([some exA1, some exA2, some exA2], w') ∧
    Shows w' 0 [exB, exA2] := by
  obtain ⟨w, h, _, h0, _⟩ := exRun
  obtain ⟨w', h1, h2⟩ := C98_delete exMeans h (pre := []) h0 (by simp)
  exact ⟨w, w', h1, h2⟩

/-- the body of `for e := range d.Iterator() { d.Delete(e.Key()) }` leaves elements behind: in a document with distinct
    keys, every other element other than the last survives.  The loop gets every other element, and then the last one
    again and again. -/
theorem C98_delete_all {P : Params E} {M : Sem E} (hm : Means P M) {w : World E} (hw : Reached P w) {d : Nat} {es : List E}
    (hd : Shows w d es) (hk : (es.map M.key).Nodup) :
    ∃ w', forEach P d [] (fun _ x => [.delete d ((x.map M.key).getD [])]) w =
        .ok ((evens es ++ (List.replicate (es.length / 2) es.getLast?).filterMap id).map some, w') ∧
      Shows w' d (odds es.dropLast) := by
  obtain ⟨x, hx, ho, K⟩ := owns_of hm hw hd
  have m := mid_of hx ho
  have hb : (fun _ x => [.delete d ((x.map M.key).getD [])]) = deleting M.key d := by
    funext i x; cases x <;> rfl
  rw [hb, forEach_nil hx, ho.2]
  cases hl : es.getLast? with
  | none =>
    have : es = [] := by simpa using hl
    subst this
    exact ⟨w, by simp [loop, evens], by simpa [odds] using hd⟩
  | some last =>
    obtain ⟨w', h1, h2⟩ := loop_deleting hm (last := last) es [] es.length (by simpa using m) hl hk (by simp [ho.2])
    refine ⟨w', ?_, ?_⟩
    · rw [show (0 : Nat) = ([] : List E).length from rfl, h1, evens_length]
      congr 2
      rw [List.map_append]
      congr 1
      rw [show es.length - (es.length + 1) / 2 = es.length / 2 by omega]
      simp
    · rw [odds_dropLast]; simpa using h2

/-- a document of five elements with keys `a`, `b`, `c`, `d`, `e` -/
def loopFive : List BElem := [exA1, exB, belem [99] .null (by simp [Spec.NulFree]) (by simp [Spec.BVal.WF]) (by simp [Spec.BVal.enc]),
  belem [100] .null (by simp [Spec.NulFree]) (by simp [Spec.BVal.WF]) (by simp [Spec.BVal.enc]),
  belem [101] .null (by simp [Spec.NulFree]) (by simp [Spec.BVal.WF]) (by simp [Spec.BVal.enc])]

/-- of `a`, `b`, `c`, `d`, `e`, the loop deletes `a`, `c` and `e` -/
example : ∃ w w' xs, forEach exP 0 [] (fun _ x => [.delete 0 ((x.map bsonSem.key).getD [])]) w = .ok (xs, w') ∧
    xs.length = 5 ∧ Shows w' 0 [exB, loopFive[3]] := by
  obtain ⟨w, os, h1, R, _⟩ := run_refines exMeans [.elements loopFive] (repW_empty _) (s' := [(loopFive, false)])
    (by simp [Spec.Docs.run, Spec.Docs.step, Spec.Docs.new])
  obtain ⟨w', e, s⟩ := C98_delete_all exMeans ⟨_, _, h1⟩ (shows_of R (d := 0) rfl) (by simp [loopFive, bsonSem, exA1, exB, belem])
  exact ⟨w, w', _, e, by simp [loopFive, evens], s⟩

/-- `Set` in turn `j`: a replaced element that is still to come is seen replaced, an earlier one is not, and an added
    element is not seen. -/
theorem C98_set {P : Params E} {M : Sem E} (hm : Means P M) {w : World E} (hw : Reached P w) {d : Nat} {es : List E} (hd : Shows w d es)
    {j : Nat} (hj : j < es.length) (e : E) :
    ∃ w', forEach P d [] (fun i _ => if i = j then [.set d e] else []) w =
        .ok ((es.take (j + 1) ++ ((setFirst M.key e es).take es.length).drop (j + 1)).map some, w') ∧ Shows w' d (setFirst M.key e es) := by
  obtain ⟨x, hx, ho, K⟩ := owns_of hm hw hd
  obtain ⟨w', o, h1, _, h3, _⟩ := change hm hw hd (.set d e) (setFirst M.key e es) (first M.key (M.key e) es).isSome (by
    intro s hs
    simp only [doc, Option.map_eq_some_iff] at hs
    obtain ⟨a, ha, rfl⟩ := hs
    simp [Spec.Docs.step, Spec.Docs.upd, ha])
  obtain ⟨hp, hl⟩ := set_after hm hx ho h1
  refine ⟨w', ?_, h3⟩
  rw [forEach_once hx ho hj h1 hp (by rw [List.length_map]; exact hl)]
  simp only [List.map_append, List.map_take, List.map_drop]

/-- in the first turn, `Set` of `b` is seen -/
example : ∃ w w', forEach exP 0 [] (fun i _ => if i = 0 then [.set 0 (belem [98] .null (by simp [Spec.NulFree]) (by simp [Spec.BVal.WF])
    (by simp [Spec.BVal.enc]))] else []) w = .ok ([exA1, belem [98] .null (by simp [Spec.NulFree]) (by simp [Spec.BVal.WF])
    (by simp [Spec.BVal.enc]), exA2].map some, w') := by
  obtain ⟨w, h, _, h0, _⟩ := exRun
  obtain ⟨w', h1, _⟩ := C98_set exMeans h h0 (j := 0) (by simp) (belem [98] .null (by simp [Spec.NulFree]) (by simp [Spec.BVal.WF])
    (by simp [Spec.BVal.enc]))
  exact ⟨w, w', h1.trans (by simp [setFirst, bsonSem, exA1, exB, exA2, belem])⟩

/-- `Reset` in turn `j`: every later turn gets nil. -/
theorem C98_reset {P : Params E} {M : Sem E} (hm : Means P M) {w : World E} (hw : Reached P w) {d : Nat} {es : List E} (hd : Shows w d es)
    {j : Nat} (hj : j < es.length) :
    ∃ w', forEach P d [] (fun i _ => if i = j then [.reset d] else []) w =
        .ok ((es.take (j + 1)).map some ++ List.replicate (es.length - (j + 1)) none, w') ∧ Shows w' d [] := by
  obtain ⟨x, hx, ho, K⟩ := owns_of hm hw hd
  obtain ⟨w', o, h1, _, h3, _⟩ := change hm hw hd (.reset d) [] false (by
    intro s hs
    simp only [doc, Option.map_eq_some_iff] at hs
    obtain ⟨a, ha, rfl⟩ := hs
    simp [Spec.Docs.step, Spec.Docs.upd, ha])
  refine ⟨w', ?_, h3⟩
  have hp : Pre w'.heap x.elems.arr (List.replicate es.length none) := by
    rw [Model.DocHeap.step, hx, Res.bind_ok] at h1
    cases h1
    have := ho.1.lt
    exact ⟨(Model.DocHeap.array w.heap x.elems).drop x.elems.len, by simp [Model.DocHeap.store, Model.DocHeap.reset, this, ho.2]⟩
  rw [forEach_once hx ho hj h1 hp (by simp), List.drop_replicate, List.map_take]

example : ∃ w w', forEach exP 0 [] (fun i _ => if i = 1 then [.reset 0] else []) w = .ok ([some exA1, some exB, none], w') ∧ Shows w' 0 [] := by
  obtain ⟨w, h, _, h0, _⟩ := exRun
  obtain ⟨w', h1, h2⟩ := C98_reset exMeans h h0 (j := 1) (by simp)
  exact ⟨w, w', h1, h2⟩

end Birch.Props
