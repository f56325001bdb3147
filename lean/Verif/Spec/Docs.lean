import Verif.Model.DocHeap

/-
Specification of documents as plain lists of elements: what each document call means,
without slices, capacities, sharing or caches.  (Only the type `Call` of calls is taken from
the model.)
-/

namespace Birch.Spec.Docs
open Birch
open Birch.Model.DocHeap (Call Out)

variable {E : Type}

/-- replace the first element with `e`'s key, or append `e` -/
def setFirst (k : E → Bytes) (e : E) : List E → List E
  | [] => [e]
  | x :: xs => if k x = k e then e :: xs else x :: setFirst k e xs

/-- remove the first element with the key -/
def deleteFirst (k : E → Bytes) (key : Bytes) : List E → List E
  | [] => []
  | x :: xs => if k x = key then xs else x :: deleteFirst k key xs

/-- the first element with the key -/
def first (k : E → Bytes) (key : Bytes) : List E → Option E
  | [] => none
  | x :: xs => if k x = key then some x else first k key xs

/-- what is known about elements: their key, whether they are empty, their order -/
structure Sem (E : Type) where
  key : E → Bytes
  empty : E → Bool
  less : E → E → Bool

/-- insertion into a list in descending order, before everything not greater than `x` -/
def insertDesc (less : E → E → Bool) (x : E) : List E → List E
  | [] => [x]
  | y :: ys => if less x y then y :: insertDesc less x ys else x :: y :: ys

/-- stable insertion sort (that it is one is proved with C17) -/
def sort (less : E → E → Bool) (l : List E) : List E := (l.foldl (fun acc x => insertDesc less x acc) []).reverse

/-- Documents by number; the flag says that the last change of the document replaced or removed an
    element (`Set`, `Delete` of a present key, `UnmarshalBSON`, `Array.Set`, `Array.Delete`). -/
abbrev State (E : Type) := List (List E × Bool)

/-- replace document `d` -/
def upd (s : State E) (d : Nat) (f : List E → List E × Bool) : Option (State E) :=
  match s[d]? with
  | some x => some (s.set d (f x.1))
  | none => none

/-- add a document -/
def new (s : State E) (es : Option (List E)) : Option (State E) := es.map (fun es => s ++ [(es, false)])

/-- contents of document `d` -/
def doc (s : State E) (d : Nat) : Option (List E) := s[d]?.map (·.1)

/-- what each call does; `none`: there is no such document, or `arraySet` is out of range -/
def step (M : Sem E) (s : State E) : Call E → Option (State E)
  | .make _ => new s (some [])
  | .elements args => new s (some args)
  | .append d args => upd s d fun es => (es ++ args, false)
  | .appendOmitEmpty d args => upd s d fun es => (es ++ args.filterMap (fun a => a.filter (fun e => !M.empty e)), false)
  | .extend d d2 => (doc s d2).bind fun es2 => upd s d fun es => (es ++ es2, false)
  | .set d e => upd s d fun es => (setFirst M.key e es, (first M.key (M.key e) es).isSome)
  | .delete d k => upd s d fun es => (deleteFirst M.key k es, (first M.key k es).isSome)
  | .reset d => upd s d fun _ => ([], false)
  | .copy d => new s (doc s d)
  | .sorted d => new s ((doc s d).map (sort M.less))
  | .map d => (s[d]?).bind fun _ => some s
  | .unmarshal d args => upd s d fun _ => (args, true)
  | .newArray args => new s (some args)
  | .arraySet d i e => (doc s d).bind fun es => if i < es.length then upd s d fun es => (es.set i e, true) else none
  | .arrayDelete d i => (s[d]?).bind fun x => if i < x.1.length then some (s.set d (x.1.eraseIdx i, true)) else some s

/-- what each call returns (the flag of a stale map only allows it to be anything) -/
def out (M : Sem E) (s : State E) (c : Call E) (o : Out E) : Prop :=
  match c with
  | .delete d k => ∀ es, doc s d = some es → o = .elem (first M.key k es)
  | .map d => ∃ m, o = .map m ∧ ∀ es, s[d]? = some (es, false) → ∀ k, m.lookup k = first M.key k es
  | .arrayDelete d i => ∀ es, doc s d = some es → o = .elem es[i]?
  | _ => o = .none

/-- the states after a sequence of calls -/
def run (M : Sem E) (s : State E) : List (Call E) → Option (State E)
  | [] => some s
  | c :: cs => (step M s c).bind fun s => run M s cs

/-- the results of a sequence of calls -/
def outs (M : Sem E) (s : State E) : List (Call E) → List (Out E) → Prop
  | [], os => os = []
  | c :: cs, os => ∃ o os', os = o :: os' ∧ out M s c o ∧ ∀ s', step M s c = some s' → outs M s' cs os'

end Birch.Spec.Docs
