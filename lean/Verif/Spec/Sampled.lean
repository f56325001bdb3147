import Verif.Model.Value

/- Rates of calls. -/

namespace Birch.Spec

/-- an attempt to add something: when the clock was read first and second, and the thing -/
structure Attempt (α : Type) where
  first : Int
  second : Int
  item : α

/-- The attempts `l` after one at the time `last` that was let through, with a decision for each: an attempt is let through exactly if at least `interval` has passed
    since the last one that was let through. -/
inductive Sampled {α : Type} (interval : Int) : (last : Int) → List (Attempt α × Bool) → Prop
  | nil {last} : Sampled interval last []
  | pass {last a l} : interval ≤ a.first - last → Sampled interval a.second l → Sampled interval last ((a, true) :: l)
  | skip {last a l} : a.first - last < interval → Sampled interval last l → Sampled interval last ((a, false) :: l)

end Birch.Spec
