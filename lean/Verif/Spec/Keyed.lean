import Verif.Spec.Bson

/- The values of an array as the fields of a document under any keys. -/

namespace Birch.Spec
open Birch

/-- the values under the given keys, in order -/
def keyed : List Bytes → Vals → Fields
  | k :: ks, .cons t vs => .cons k t (keyed ks vs)
  | _, _ => .nil

/-- the keys of an array of `n` values in BSON: "0", "1", ... -/
def positions (n : Nat) : List Bytes := (List.range n).map decimalKey

end Birch.Spec
