import Verif.Spec.Zero

/-
What it means to sort stably.
-/

namespace Birch.Spec
open Birch

/-- a strict weak order on the elements satisfying `p` -/
structure WeakOrder {E : Type} (lt : E → E → Bool) (p : E → Prop) : Prop where
  asymm : ∀ a b, p a → p b → lt a b = true → lt b a = false
  cotrans : ∀ a b c, p a → p b → p c → lt a c = true → lt a b = true ∨ lt b c = true

/-- neither is less than the other -/
def tied {E : Type} (lt : E → E → Bool) (a b : E) : Bool := !lt a b && !lt b a

/-- `r` is a stable sort of `l`: the same elements, none before a smaller one, and ties in their original order -/
structure StableSort {E : Type} (lt : E → E → Bool) (l r : List E) : Prop where
  perm : r.Perm l
  sorted : r.Pairwise (fun a b => lt b a = false)
  stable : ∀ a ∈ l, r.filter (tied lt a) = l.filter (tied lt a)

/-- the value is not a NaN double -/
def BVal.notNaN : BVal → Prop
  | .double b => doubleVal b ≠ none
  | _ => True

end Birch.Spec
