import Verif.Model.SeriesView
import Verif.Spec.FtdcViews
import Verif.Spec.GoValue

/- What the slices of a series hold. -/

namespace Birch.Spec
open Birch Model Model.Ftdc

/-- the values of a series -/
def Series.column : Series → List BVal
  | .int64s l => l.map .int64
  | .int32s l => l.map .int32
  | .bools l => l.map .bool
  | .doubles l => l.map .double
  | .times l => l.map fun t => .datetime (millis t)
  | .nil => []

/-- the value of the last field with the name -/
def lastNamed (k : Bytes) : List (Bytes × BVal) → Option BVal
  | [] => none
  | (l, v) :: rest =>
    match lastNamed k rest with
    | some w => some w
    | none => if l = k then some v else none

end Birch.Spec
