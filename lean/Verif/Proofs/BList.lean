import Verif.Model.BList
import Verif.Proofs.DocView

namespace Birch.Proofs.BList
open Birch Model Proofs.DocHeap
open Birch.Model.DocHeap (Params Out)
open Birch.Spec.Docs (Sem State doc first setFirst deleteFirst)

variable {E : Type}

theorem append_eq (l : List E) (args : List E) : BList.append l (args.map some) = .ok (l ++ args) := by
  induction args generalizing l with
  | nil => simp [BList.append]
  | cons e es ih => simp only [List.map_cons, BList.append, ih]; simp

theorem omit_eq {P : Params E} {M : Sem E} (hm : Means P M) (l : List E) (args : List (Option E)) :
    BList.appendOmitEmpty P l args = .ok (l ++ args.filterMap (fun a => a.filter (fun e => !M.empty e))) := by
  induction args generalizing l with
  | nil => simp [BList.appendOmitEmpty]
  | cons a es ih =>
    cases a with
    | none => simp only [BList.appendOmitEmpty, ih]; simp
    | some e =>
      simp only [BList.appendOmitEmpty, hm.empty, Res.bind_ok, ih]
      cases h : M.empty e <;> simp [h, Option.filter]

theorem prepend_eq (l : List E) (args : List E) : BList.prepend l (args.map some) = .ok (args.reverse ++ l) := by
  induction args generalizing l with
  | nil => simp [BList.prepend]
  | cons e es ih => simp only [List.map_cons, BList.prepend, ih]; simp

theorem set_eq {P : Params E} {M : Sem E} (hm : Means P M) (e : E) (l : List E) :
    BList.set P e l = .ok (if (first M.key (M.key e) l).isSome then setFirst M.key e l else l) := by
  induction l with
  | nil => rfl
  | cons x xs ih =>
    simp only [BList.set, hm.key, Res.bind_ok, ih, first, setFirst]
    by_cases h : M.key x = M.key e
    · simp [h]
    · simp only [h, ne_eq, not_false_eq_true, if_true, if_false]
      split <;> rfl

theorem delete_eq {P : Params E} {M : Sem E} (hm : Means P M) (k : Bytes) (l : List E) :
    BList.delete P k l = .ok (deleteFirst M.key k l, first M.key k l) := by
  induction l with
  | nil => rfl
  | cons x xs ih =>
    simp only [BList.delete, hm.key, Res.bind_ok, ih, first, deleteFirst]
    by_cases h : M.key x = k <;> simp [h]

theorem validate_eq (fuel : Nat) (size : Nat) (d : Doc) : BList.validate fuel size d = elemsValidate fuel size d := by
  induction d generalizing size with
  | nil => simp [BList.validate, elemsValidate]
  | cons v d ih =>
    simp only [BList.validate, elemsValidate, elemValidate]
    cases elemKeyLen v.data v.start v.offset with
    | ok k =>
      simp only [Res.bind_ok]
      cases valueValidate fuel false v with
      | ok n => simp only [Res.bind_ok, ih]
      | _ => rfl
    | _ => rfl

end Birch.Proofs.BList
