import Verif.Model.Value
import Verif.Spec.Bson

/-
The representation relation: which in-memory values (model of `birch.Value`) stand for which
abstract BSON values.  A value is either still raw (its bytes somewhere
inside a larger buffer, as the reader leaves it) or carries a parsed document.
-/

namespace Birch.Spec
open Birch Model

mutual
/-- `Rep v k t`: the element `v` has key `k` and value `t`.
    Raw: type byte, key, NUL and the encoding of `t` at `start`.
    Parsed: type byte, key and NUL at `start` (for code-with-scope also the code string),
    and the parsed document represents the nested fields. -/
def Rep : Value → Bytes → BVal → Prop
  | .raw s o data, k, t => NulFree k ∧ t.WF ∧ data.length < 2147483648 ∧
      ∃ pre post, data = pre ++ t.tag :: (k ++ 0 :: (t.enc ++ post)) ∧
        s = pre.length ∧ o = pre.length + k.length + 2
  | .withDoc s o data d, k, t => NulFree k ∧ data.length < 2147483648 ∧
      ∃ pre post, data = pre ++ t.tag :: (k ++ 0 :: post) ∧
        s = pre.length ∧ o = pre.length + k.length + 2 ∧
        match t with
        | .doc fs => RepFields d fs
        | .array vs => RepVals d vs
        | .codeScope c fs => (∃ l post', l.length = 4 ∧ post = l ++ (encString c ++ post')) ∧ RepFields d fs
        | _ => False
/-- the elements of a document, in order -/
def RepFields : List Value → Fields → Prop
  | [], .nil => True
  | v :: d, .cons k t fs => Rep v k t ∧ RepFields d fs
  | _, _ => False
/-- the values of an array, in order; their stored keys are irrelevant -/
def RepVals : List Value → Vals → Prop
  | [], .nil => True
  | v :: d, .cons t vs => (∃ k, Rep v k t) ∧ RepVals d vs
  | _, _ => False
end

end Birch.Spec
