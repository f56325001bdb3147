import Verif.Spec.Bson

/-
Paths into BSON documents, specified without reference to the code.
-/

namespace Birch.Spec
open Birch

/-- the value of a decimal digit -/
def digit (c : UInt8) : Option Nat :=
  if 48 ≤ c.toNat ∧ c.toNat ≤ 57 then some (c.toNat - 48) else none

/-- one more digit at the end of a decimal number -/
def addDigit (n : Option Nat) (c : UInt8) : Option Nat := n.bind fun n => (digit c).map fun d => 10 * n + d

/-- the number denoted by a non-empty string of decimal digits, of any length -/
def digits (s : Bytes) : Option Nat := if s = [] then none else s.foldl addDigit (some 0)

/-- The array position a piece of text denotes: an optional sign and decimal digits, leading zeros
    allowed, not negative. -/
def index (s : Bytes) : Option Nat :=
  match s with
  | [] => none
  | c :: r =>
    if c = 43 then digits r
    else if c = 45 then (match digits r with | some 0 => some 0 | _ => none)
    else digits (c :: r)

/-- the first value stored under `k` -/
def Fields.firstNamed (k : Bytes) : Fields → Option BVal
  | .nil => none
  | .cons k' t rest => if k' = k then some t else rest.firstNamed k

def Vals.get? : Vals → Nat → Option BVal
  | .nil, _ => none
  | .cons t _, 0 => some t
  | .cons _ rest, i + 1 => rest.get? i

/-- One step of a path: a field of a document by name, a member of an array by
    position, where `pos` reads positions; nothing else has parts. -/
def BVal.part (pos : Bytes → Option Nat) (k : Bytes) : BVal → Option BVal
  | .doc fs => fs.firstNamed k
  | .array vs => (pos k).bind vs.get?
  | _ => none

/-- following a path of any length -/
def BVal.follow (pos : Bytes → Option Nat) : List Bytes → BVal → Option BVal
  | [], t => some t
  | k :: ks, t => (t.part pos k).bind (BVal.follow pos ks)

/-- `Reaches pos fs path k t`: following the non-empty `path` from the document `fs` ends at the
    value `t`, and `k` is the last component of the path. -/
def Reaches (pos : Bytes → Option Nat) (fs : Fields) (path : List Bytes) (k : Bytes) (t : BVal) : Prop :=
  path.getLast? = some k ∧ BVal.follow pos path (.doc fs) = some t

/-- a path that exists: non-empty, and every step of it exists -/
def Exists (pos : Bytes → Option Nat) (fs : Fields) (path : List Bytes) : Prop :=
  ∃ k t, Reaches pos fs path k t

/-- the position whose canonical decimal text is `s`: digits without sign and leading zeros -/
def canonicalIndex (s : Bytes) : Option Nat :=
  match digits s with
  | some n => if decimalKey n = s then some n else none
  | none => none

end Birch.Spec
