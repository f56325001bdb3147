import Verif.Model.Access

/-
`Reader` of a value (value.go:565-592).
-/

namespace Birch.Model
open Birch

/-- `Reader` (value.go:568-574) -/
def reader (fuel : Nat) (v : Value) : Res Bytes :=
  if v.offset = 0 ∨ v.data = [] then .panic else getReader fuel v

end Birch.Model
