import Verif.Spec.Bson

/- Decimal values inside BSON documents. -/

namespace Birch.Spec
open Birch

mutual
/-- the value with the two halves of every decimal exchanged, at every depth -/
def BVal.swapDec : BVal → BVal
  | .decimal h l => .decimal l h
  | .doc fs => .doc fs.swapDec
  | .array vs => .array vs.swapDec
  | .codeScope c fs => .codeScope c fs.swapDec
  | t => t
def Fields.swapDec : Fields → Fields
  | .nil => .nil
  | .cons k v rest => .cons k v.swapDec rest.swapDec
def Vals.swapDec : Vals → Vals
  | .nil => .nil
  | .cons v rest => .cons v.swapDec rest.swapDec
end

mutual
/-- no decimal value at any depth -/
def BVal.NoDecimal : BVal → Prop
  | .decimal _ _ => False
  | .doc fs => fs.NoDecimal
  | .array vs => vs.NoDecimal
  | .codeScope _ fs => fs.NoDecimal
  | _ => True
def Fields.NoDecimal : Fields → Prop
  | .nil => True
  | .cons _ v rest => v.NoDecimal ∧ rest.NoDecimal
def Vals.NoDecimal : Vals → Prop
  | .nil => True
  | .cons v rest => v.NoDecimal ∧ rest.NoDecimal
end

end Birch.Spec
