import Verif.Proofs.BList
import Verif.Props.Documents

/-
C51: documents in linked lists.
-/

namespace Birch.Props
open Birch Model Proofs Proofs.DocHeap Spec.DocView
open Birch.Model.DocHeap (World Params Out)
open Birch.Spec.Docs (Sem State doc first setFirst deleteFirst)

variable {E : Type}

/-- the calls both kinds of document have -/
inductive ListOp (E : Type) where
  | append (args : List E)
  | omitEmpty (args : List (Option E))
  | set (e : E)
  | delete (k : Bytes)

def ListOp.onList : ListOp E → BList.Call E
  | .append args => .append (args.map some)
  | .omitEmpty args => .appendOmitEmpty args
  | .set e => .set e
  | .delete k => .delete k

def ListOp.onDoc : ListOp E → DocHeap.Call E
  | .append args => .append 0 args
  | .omitEmpty args => .appendOmitEmpty 0 args
  | .set e => .set 0 e
  | .delete k => .delete 0 k

/-- Every `Set`, with the document at hand, is of a key that is there.  (What the document holds after a call, is said by the calls on documents.) -/
def SetsPresent (M : Sem E) : List E → List (ListOp E) → Prop
  | _, [] => True
  | es, .append args :: ops => SetsPresent M (es ++ args) ops
  | es, .omitEmpty args :: ops => SetsPresent M (es ++ args.filterMap (fun a => a.filter (fun e => !M.empty e))) ops
  | es, .set e :: ops => (∃ x ∈ es, M.key x = M.key e) ∧ SetsPresent M (setFirst M.key e es) ops
  | es, .delete k :: ops => SetsPresent M (deleteFirst M.key k es) ops

/-- After the same calls, each of which may find out what it likes, both kinds of document have returned the same and hold the same elements.
    Missing: `Set` of a key that is not there (`C51_set_absent`); `Len` (`C51_len_diverges`). -/
theorem C51_histories_partial {P : Params E} {M : Sem E} (hm : Means P M) (ops : List (ListOp E)) (hs : SetsPresent M [] ops) :
    ∃ l os w, BList.run P [] (ops.map ListOp.onList) = .ok (l, os) ∧
      DocHeap.run P World.empty (.make 0 :: ops.map ListOp.onDoc) = .ok (w, .none :: os) ∧ Shows w 0 l := by
  have key : ∀ (ops : List (ListOp E)) (es : List E) (f : Bool), SetsPresent M es ops → ∃ l os f', BList.run P es (ops.map ListOp.onList) = .ok (l, os) ∧
      Spec.Docs.run M [(es, f)] (ops.map ListOp.onDoc) = some [(l, f')] ∧ ∀ os', Spec.Docs.outs M [(es, f)] (ops.map ListOp.onDoc) os' → os' = os := by
    intro ops
    induction ops with
    | nil => intro es f _; exact ⟨es, [], f, rfl, rfl, fun os' h => h⟩
    | cons op ops ih =>
      intro es f hs
      have one : ∃ es' o f', BList.step P es op.onList = .ok (es', o) ∧ Spec.Docs.step M [(es, f)] op.onDoc = some [(es', f')] ∧
          (∀ o', Spec.Docs.out M [(es, f)] op.onDoc o' → o' = o) ∧ SetsPresent M es' ops := by
        cases op with
        | append args =>
          exact ⟨_, _, _, by simp only [ListOp.onList, BList.step, Proofs.BList.append_eq, Res.bind_ok], rfl, fun o' h => h, hs⟩
        | omitEmpty args =>
          exact ⟨_, _, _, by simp only [ListOp.onList, BList.step, Proofs.BList.omit_eq hm, Res.bind_ok], rfl, fun o' h => h, hs⟩
        | set e =>
          obtain ⟨⟨x, hx, hk⟩, hs⟩ := hs
          have : (first M.key (M.key e) es).isSome = true := by
            clear hs ih
            induction es with
            | nil => simp at hx
            | cons y es ih =>
              simp only [first]
              split
              · rfl
              · next h =>
                simp only [List.mem_cons] at hx
                rcases hx with rfl | hx
                · exact absurd hk h
                · exact ih hx
          exact ⟨_, _, _, by simp only [ListOp.onList, BList.step, Proofs.BList.set_eq hm, Res.bind_ok, this, if_true], rfl, fun o' h => h, hs⟩
        | delete k =>
          exact ⟨_, _, _, by simp only [ListOp.onList, BList.step, Proofs.BList.delete_eq hm, Res.bind_ok], rfl, fun o' h => h es rfl, hs⟩
      obtain ⟨es', o, f', h1, h2, h3, h4⟩ := one
      obtain ⟨l, os, f'', h5, h6, h7⟩ := ih es' f' h4
      refine ⟨l, o :: os, f'', ?_, ?_, ?_⟩
      · simp only [List.map_cons, BList.run, h1, Res.bind_ok, h5]
      · simp only [List.map_cons, Spec.Docs.run, h2, Option.bind_some, h6]
      · intro os' h
        simp only [List.map_cons, Spec.Docs.outs] at h
        obtain ⟨o', os'', rfl, ho, h⟩ := h
        rw [h3 o' ho, h7 os'' (h _ h2)]
  obtain ⟨l, os, f', h1, h2, h3⟩ := key ops [] false hs
  have hr : Spec.Docs.run M [] (.make 0 :: ops.map ListOp.onDoc) = some [(l, f')] := by
    simp only [Spec.Docs.run, Spec.Docs.step, Spec.Docs.new, Option.map_some, Option.bind_some, List.nil_append]
    exact h2
  obtain ⟨w, os', h4, h5, h6⟩ := C12_contents hm _ _ hr
  simp only [Spec.Docs.outs] at h5
  obtain ⟨o, os'', rfl, ho, h5⟩ := h5
  have ho : o = .none := ho
  subst ho
  rw [h3 os'' (h5 _ rfl)] at h4
  exact ⟨l, os, w, h1, h4, h6 0 l rfl⟩

example : Means exP bsonSem ∧ SetsPresent bsonSem [] [.append [exA1, exB], .set exA2, .delete [98], .omitEmpty [none, some exB], .delete [120]] := by
  refine ⟨exMeans, ?_⟩
  simp [SetsPresent, bsonSem, exA1, exA2, exB, belem]

/-- `Len` calls itself: it never returns, whatever the document. -/
theorem C51_len_diverges (l : List E) : Diverges fun n => BList.len n l := by
  intro n
  induction n with
  | zero => rfl
  | succ n ih => exact ih

/-- `Set` of a key that is not there does nothing; a `Document` has the element appended. -/
theorem C51_set_absent {P : Params E} {M : Sem E} (hm : Means P M) (e : E) (es : List E) (hk : ∀ x ∈ es, M.key x ≠ M.key e) :
    BList.set P e es = .ok es ∧
    ∃ w os, DocHeap.run P World.empty [.make 0, .append 0 es, .set 0 e] = .ok (w, os) ∧ Shows w 0 (es ++ [e]) := by
  have h1 : first M.key (M.key e) es = none := by
    induction es with
    | nil => rfl
    | cons x es ih =>
      simp only [first]
      rw [if_neg (hk x (by simp)), ih (fun y hy => hk y (by simp [hy]))]
  have h2 : setFirst M.key e es = es ++ [e] := by
    clear h1
    induction es with
    | nil => rfl
    | cons x es ih =>
      simp only [setFirst]
      rw [if_neg (hk x (by simp)), ih (fun y hy => hk y (by simp [hy]))]; rfl
  refine ⟨by rw [Proofs.BList.set_eq hm, h1]; rfl, ?_⟩
  obtain ⟨w, os, h3, -, h4⟩ := C12_contents hm [.make 0, .append 0 es, .set 0 e] [(es ++ [e], false)] (by
    simp [Spec.Docs.run, Spec.Docs.step, Spec.Docs.new, Spec.Docs.upd, h1, h2])
  exact ⟨w, os, h3, h4 0 _ rfl⟩

example : ∀ x ∈ [exA1, exA2], bsonSem.key x ≠ bsonSem.key exB := by simp [bsonSem, exA1, exA2, exB, belem]

/-- `Prepend` puts its arguments in front in reverse order. -/
theorem C51_prepend (l args : List E) : BList.prepend l (args.map some) = .ok (args.reverse ++ l) := Proofs.BList.prepend_eq l args

example : BList.prepend [3] ([1, 2].map some) = .ok [2, 1, 3] := rfl

/-- `Validate` gives what it gives for a `Document` with these elements. -/
theorem C51_validate (fuel : Nat) (d : Doc) : BList.validate fuel 5 d = docValidate fuel d := Proofs.BList.validate_eq fuel 5 d

example : BList.validate 10 5 [.raw 0 3 [16, 97, 0, 7, 0, 0, 0]] = .ok 12 := rfl

end Birch.Props
