import Verif.Base
/-! # What loops over a sequence that is consumed see, without reference to the model -/
namespace Birch.Spec.ReaderWalk
open Birch

/-- the first loop gets the elements up to the one at which it is left, the next one those after it -/
def segments {α : Type} : List α → List (Option Nat) → List (List α)
  | _, [] => []
  | l, none :: stops => l :: segments [] stops
  | l, some n :: stops => l.take (n + 1) :: segments (l.drop (n + 1)) stops

/-- element `i` of the elements `d`, after which there is `ending` -/
def nth {α β : Type} (d : List α) (ending : Res β) (i : Nat) : Res α :=
  match d[i]?, ending with
  | some v, _ => .ok v
  | none, .ok _ => .err .outOfBounds
  | none, .err e => .err e
  | none, .panic => .panic
  | none, .oof => .oof

end Birch.Spec.ReaderWalk
