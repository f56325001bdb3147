import Verif.Model.DocHeap

/-
Which calls leave the elements of a running loop alone, and what loops get otherwise.
-/

namespace Birch.Spec.DocLoops
open Birch
open Birch.Model.DocHeap (Call)

variable {E : Type}

/-- the call does not replace, remove or clear elements of document `d` in place; it may add to `d`, read it anew,
    or do anything to other documents -/
def Spares (d : Nat) : Call E → Prop
  | .set d' _ | .delete d' _ | .reset d' | .arraySet d' _ _ | .arrayDelete d' _ => d' ≠ d
  | _ => True

/-- the documents the call names are among the first `n` (`Array.Set`, which panics when out of range, is left out) -/
def Fits (n : Nat) : Call E → Prop
  | .make _ | .elements _ | .newArray _ => True
  | .append d _ | .appendOmitEmpty d _ | .set d _ | .delete d _ | .reset d | .copy d | .sorted d | .map d | .unmarshal d _ | .arrayDelete d _ => d < n
  | .extend d d2 => d < n ∧ d2 < n
  | .arraySet _ _ _ => False

/-- what is left of the turns to come when the current element is removed: the next one is skipped, the last one comes
    twice -/
def shifted (rest : List E) : List E := rest.tail ++ rest.getLast?.toList

/-- the elements at positions 0, 2, 4, … -/
def evens : List E → List E
  | [] => []
  | [x] => [x]
  | x :: _ :: r => x :: evens r

/-- the elements at positions 1, 3, 5, … -/
def odds : List E → List E
  | [] => []
  | [_] => []
  | _ :: y :: r => y :: odds r

end Birch.Spec.DocLoops
