import Verif.Model.ObjectIDJson
import Verif.Spec.ObjectID
import Verif.Spec.Ascii

/- Vocabulary for ObjectIDs in JSON. -/

namespace Birch.Spec
open Birch Model

/-- the decoded JSON is the string `s`, or an object whose "$oid" is the string `s` -/
def Carries (v : JAny) (s : Bytes) : Prop := v = .str s ∨ ∃ m, v = .map m ∧ m.lookup (ascii "$oid") = some (.str s)

/-- a decoder of JSON that reads a quoted text of letters and digits as that text, which is all that is asked of `encoding/json` -/
def ReadsPlain (J : JDecode) : Prop :=
  ∀ s : Bytes, (∀ c ∈ s, (48 ≤ c ∧ c ≤ 57) ∨ (97 ≤ c ∧ c ≤ 122) ∨ (65 ≤ c ∧ c ≤ 90)) → J (34 :: s ++ [34]) = some (.str s)

end Birch.Spec
