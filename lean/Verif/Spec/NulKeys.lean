import Verif.Spec.BadArgs

/-
Keys with NUL bytes at any depth.
-/

namespace Birch.Spec

/-- a document, an array or code with scope -/
def BVal.Nested : BVal → Prop
  | .doc _ | .array _ | .codeScope _ _ => True
  | _ => False

mutual
/-- no document, array or code with scope, at any depth, has a key with a NUL; other values may -/
def BVal.Clean : BVal → Prop
  | .doc fs => fs.Clean
  | .array vs => vs.Clean
  | .codeScope _ fs => fs.Clean
  | _ => True
def Fields.Clean : Fields → Prop
  | .nil => True
  | .cons k t rest => (t.Nested → NulFree k) ∧ t.Clean ∧ rest.Clean
def Vals.Clean : Vals → Prop
  | .nil => True
  | .cons t rest => t.Clean ∧ rest.Clean
end

mutual
/-- every value at any depth is one of the BSON specification, once it is stored -/
def BVal.StoredAll : BVal → Prop
  | .doc fs => fs.StoredAll
  | .array vs => vs.StoredAll
  | .codeScope _ fs => fs.StoredAll
  | t => t.stored.WF
def Fields.StoredAll : Fields → Prop
  | .nil => True
  | .cons _ t rest => t.StoredAll ∧ rest.StoredAll
def Vals.StoredAll : Vals → Prop
  | .nil => True
  | .cons t rest => t.StoredAll ∧ rest.StoredAll
end

mutual
/-- there is no array at any depth -/
def BVal.NoArray : BVal → Prop
  | .doc fs => fs.NoArray
  | .array _ => False
  | .codeScope _ fs => fs.NoArray
  | _ => True
def Fields.NoArray : Fields → Prop
  | .nil => True
  | .cons _ t rest => t.NoArray ∧ rest.NoArray
end

end Birch.Spec
