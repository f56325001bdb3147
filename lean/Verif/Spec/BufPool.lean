import Verif.Model.BufPool

/-
What callers see of the buffers they are given.
-/

namespace Birch.Spec.BufPool
open Birch Model Model.BufPool

/-- the slices among the results -/
def slices : List Out → List Slice
  | [] => []
  | .slice _ s :: os => s :: slices os
  | _ :: os => slices os

end Birch.Spec.BufPool
