import Verif.Base

/- What a column of deltas means. -/

namespace Birch.Spec
open Birch

/-- `x` and `y` are the same int64 -/
def Same64 (x y : Int) : Prop := x % 18446744073709551616 = y % 18446744073709551616

/-- `vs` are the running totals of the deltas `ds` from `start` on, in int64 arithmetic -/
def Totals (start : Int) (ds vs : List Int) : Prop :=
  vs.length = ds.length + 1 ∧ vs[0]? = some start ∧
  ∀ j d x y, ds[j]? = some d → vs[j]? = some x → vs[j + 1]? = some y → Same64 y (x + d) ∧ -9223372036854775808 ≤ y ∧ y < 9223372036854775808

end Birch.Spec
