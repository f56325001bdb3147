import Verif.Spec.Bson

/-
What MarshalBSON makes of elements whose arguments were not C-strings although they had to be.
-/

namespace Birch.Spec

/-- the bytes before the first NUL -/
def beforeNul (s : Bytes) : Bytes := s.takeWhile (· ≠ 0)

/-- neither a document nor an array nor code with scope; the ids of the Go types have 12 bytes -/
def BVal.Scalar : BVal → Prop
  | .doc _ | .array _ | .codeScope _ _ => False
  | .oid id => id.length = 12
  | .dbpointer _ id => id.length = 12
  | _ => True

def Fields.Scalar : Fields → Prop
  | .nil => True
  | .cons _ t rest => t.Scalar ∧ rest.Scalar

/-- what a reader takes the value for: of `pattern NUL options NUL` the bytes up to the second NUL -/
def BVal.stored : BVal → BVal
  | .regex p o => .regex (beforeNul (p ++ [0])) (beforeNul ((p ++ [0] ++ o ++ [0]).drop ((beforeNul (p ++ [0])).length + 1)))
  | t => t

/-- Of the bytes `type key NUL value` as many as the type, the key up to its first NUL and the value take. -/
def emitted (k : Bytes) (t : BVal) : Bytes :=
  ([t.tag] ++ k ++ [0] ++ t.enc).take (1 + (beforeNul k).length + 1 + t.stored.enc.length)

def Fields.emitted : Fields → Bytes
  | .nil => []
  | .cons k t rest => Spec.emitted k t ++ rest.emitted

/-- every value is one of the BSON specification, once it is stored -/
def Fields.Stored : Fields → Prop
  | .nil => True
  | .cons _ t rest => t.stored.WF ∧ rest.Stored

/-- the bytes of all keys and values, to say that they fit into a document -/
def Fields.bytes : Fields → Nat
  | .nil => 0
  | .cons k t rest => k.length + 2 + t.enc.length + rest.bytes

/-- one list of elements after another -/
def Fields.append : Fields → Fields → Fields
  | .nil, gs => gs
  | .cons k t rest, gs => .cons k t (rest.append gs)

end Birch.Spec
