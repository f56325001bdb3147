import Verif.Spec.FtdcDocs

/- Names of the numbers in a document, and the three views of a chunk. -/

namespace Birch.Spec
open Birch

mutual
/-- The numbers in the field `k` with the given value, in order: where each is found, as the names of the documents from the outside in and
    the name of the field, and its type.  Element `i` of an array `k` is named `k.i`. -/
def BVal.numbers (k : Bytes) : BVal → List (List Bytes × UInt8)
  | .doc fs => fs.numbers.map fun n => (k :: n.1, n.2)
  | .array vs => vs.numbers k 0
  | .double _ => [([k], 0x01)]
  | .bool _ => [([k], 0x08)]
  | .datetime _ => [([k], 0x09)]
  | .int32 _ => [([k], 0x10)]
  | .timestamp _ _ => [([k], 0x11)]
  | .int64 _ => [([k], 0x12)]
  | _ => []
def Fields.numbers : Fields → List (List Bytes × UInt8)
  | .nil => []
  | .cons k v rest => v.numbers k ++ rest.numbers
def Vals.numbers (k : Bytes) (i : Nat) : Vals → List (List Bytes × UInt8)
  | .nil => []
  | .cons v rest => v.numbers (k ++ 46 :: decimalKey i) ++ rest.numbers k (i + 1)
end

/-- the names with dots between them -/
def dotted : List Bytes → Bytes
  | [] => []
  | [k] => k
  | k :: ks => k ++ 46 :: dotted ks

/-- the names of the metrics of the numbers: a timestamp has two, the second with the suffix ".inc" -/
def metricNames (name : List Bytes → Bytes) (l : List (List Bytes × UInt8)) : List Bytes :=
  l.flatMap fun n => if n.2 = 0x11 then [name n.1, name n.1 ++ [46, 105, 110, 99]] else [name n.1]

/-- the first and the last name only -/
def firstLast : List Bytes → List Bytes
  | k :: l :: rest => [k, (l :: rest).getLastD []]
  | t => t

mutual
/-- no name has a dot, and no document has a name twice -/
def BVal.Plain : BVal → Prop
  | .doc fs => fs.Plain
  | .array vs => vs.Plain
  | _ => True
def Fields.Plain : Fields → Prop
  | .nil => True
  | .cons k v rest => 46 ∉ k ∧ v.Plain ∧ k ∉ rest.toList.map Prod.fst ∧ rest.Plain
def Vals.Plain : Vals → Prop
  | .nil => True
  | .cons v rest => v.Plain ∧ rest.Plain
end

mutual
/-- the values at the leaves, in order -/
def BVal.leaves : BVal → List BVal
  | .doc fs => fs.leaves
  | .array vs => vs.leaves
  | t => [t]
def Fields.leaves : Fields → List BVal
  | .nil => []
  | .cons _ v rest => v.leaves ++ rest.leaves
def Vals.leaves : Vals → List BVal
  | .nil => []
  | .cons v rest => v.leaves ++ rest.leaves
end

/-- The values of a flat document for the leaves of a structured one: the same values, but for a timestamp two 64 bit numbers that have
    its parts as their low 32 bits. -/
def Flat : List BVal → List BVal → Prop
  | [], fs => fs = []
  | .timestamp t i :: ls, fs => ∃ p q rest, fs = .int64 p :: .int64 q :: rest ∧ p % 4294967296 = (t : Int) ∧ q % 4294967296 = (i : Int) ∧ Flat ls rest
  | v :: ls, fs => ∃ rest, fs = v :: rest ∧ Flat ls rest

/-- the matrix with the given names whose rows are the samples: under each name the column of values -/
def columns : List Bytes → List (List BVal) → List (Bytes × List BVal)
  | [], _ => []
  | k :: ks, rows => (k, rows.filterMap List.head?) :: columns ks (rows.map List.tail)

/-- an array of the given values -/
def Vals.of : List BVal → Vals
  | [] => .nil
  | v :: vs => .cons v (Vals.of vs)

end Birch.Spec
