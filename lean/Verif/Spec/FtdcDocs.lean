import Verif.Spec.Rep

/- The metrics of a document, as FTDC is meant to record them. -/

namespace Birch.Spec
open Birch

mutual
/-- The part of a value that FTDC records: numbers, booleans, dates and timestamps, and documents and arrays of them.
    Everything else is left out. -/
def BVal.metric : BVal → Option BVal
  | .doc fs => some (.doc fs.metrics)
  | .array vs => some (.array vs.metrics)
  | .double b => some (.double b)
  | .bool b => some (.bool b)
  | .datetime ms => some (.datetime ms)
  | .int32 i => some (.int32 i)
  | .timestamp t i => some (.timestamp t i)
  | .int64 i => some (.int64 i)
  | _ => none
def Fields.metrics : Fields → Fields
  | .nil => .nil
  | .cons k v rest =>
    match v.metric with
    | some m => .cons k m rest.metrics
    | none => rest.metrics
def Vals.metrics : Vals → Vals
  | .nil => .nil
  | .cons v rest =>
    match v.metric with
    | some m => .cons m rest.metrics
    | none => rest.metrics
end

mutual
/-- same type, and for documents and arrays the same keys, types and nesting -/
def BVal.SameShape : BVal → BVal → Prop
  | .doc fs, t => match t with | .doc gs => fs.SameShape gs | _ => False
  | .array vs, t => match t with | .array ws => vs.SameShape ws | _ => False
  | s, t => s.tag = t.tag
def Fields.SameShape : Fields → Fields → Prop
  | .nil, gs => match gs with | .nil => True | _ => False
  | .cons k v rest, gs => match gs with | .cons l w gs => k = l ∧ v.SameShape w ∧ rest.SameShape gs | .nil => False
def Vals.SameShape : Vals → Vals → Prop
  | .nil, ws => match ws with | .nil => True | _ => False
  | .cons v rest, ws => match ws with | .cons w ws => v.SameShape w ∧ rest.SameShape ws | .nil => False
end

mutual
/-- The values that survive: no doubles, no timestamps, and dates whose nanoseconds fit an int64. -/
def BVal.Kept : BVal → Prop
  | .doc fs => fs.Kept
  | .array vs => vs.Kept
  | .double _ => False
  | .timestamp _ _ => False
  | .datetime ms => -9223372036854 ≤ ms ∧ ms ≤ 9223372036854
  | _ => True
def Fields.Kept : Fields → Prop
  | .nil => True
  | .cons _ v rest => v.Kept ∧ rest.Kept
def Vals.Kept : Vals → Prop
  | .nil => True
  | .cons v rest => v.Kept ∧ rest.Kept
end

mutual
/-- What is read back for the value `c`, when the first sample has `f` and the sample before has `p` in its place.
    Integers, booleans and dates come back (a date beyond the years 1677 to 2262 is a different date, as its nanoseconds
    wrap); for a double it is the difference `sub` to the sample before; timestamps gain 999 times the first one. -/
def BVal.back (sub : Nat → Nat → Nat) : (f p c : BVal) → BVal
  | .doc f, p, c => match p, c with | .doc p, .doc c => .doc (f.back sub p c) | _, c => c
  | .array f, p, c => match p, c with | .array p, .array c => .array (f.back sub p c) | _, c => c
  | .double _, p, c => match p, c with | .double p, .double c => .double (sub c p) | _, c => c
  | .datetime _, _, c => match c with | .datetime ms => .datetime ((i64 (ms * 1000000)).tdiv 1000000) | c => c
  | .timestamp t _, _, c => match c with | .timestamp t' i => .timestamp ((999 * t + t') % 4294967296) i | c => c
  | _, _, c => c
def Fields.back (sub : Nat → Nat → Nat) : (f p c : Fields) → Fields
  | .cons _ vf f, p, c =>
    match p, c with | .cons _ vp p, .cons k vc c => .cons k (vf.back sub vp vc) (f.back sub p c) | _, c => c
  | .nil, _, c => c
def Vals.back (sub : Nat → Nat → Nat) : (f p c : Vals) → Vals
  | .cons vf f, p, c => match p, c with | .cons vp p, .cons vc c => .cons (vf.back sub vp vc) (f.back sub p c) | _, c => c
  | .nil, _, c => c
end

/-- the samples after the first, `p` being the one before -/
def backFrom (sub : Nat → Nat → Nat) (f : Fields) : (p : Fields) → List Fields → List Fields
  | _, [] => []
  | p, c :: cs => f.back sub p c :: backFrom sub f c cs

/-- What is read back for a sequence of samples: of the first sample doubles come back as they are. -/
def backAll (sub : Nat → Nat → Nat) : List Fields → List Fields
  | [] => []
  | f :: cs => f.back (fun x _ => x) f f :: backFrom sub f f cs

/-- what is read back for samples in several chunks: every chunk starts anew -/
def backChunks (sub : Nat → Nat → Nat) (segs : List (List Fields)) : List Fields :=
  (segs.map fun s => backAll sub (s.map Fields.metrics)).flatten

/-- all segments have length `n` but the last one, which may be shorter but not empty -/
def Blocks {α : Type} (n : Nat) : List (List α) → Prop
  | [] => True
  | [s] => 1 ≤ s.length ∧ s.length ≤ n
  | s :: rest => s.length = n ∧ Blocks n rest

mutual
/-- the types of the numbers in a value, in order; a timestamp has two -/
def BVal.kinds : BVal → List UInt8
  | .doc fs => fs.kinds
  | .array vs => vs.kinds
  | .double _ => [0x01]
  | .bool _ => [0x08]
  | .datetime _ => [0x09]
  | .int32 _ => [0x10]
  | .timestamp _ _ => [0x11, 0x11]
  | .int64 _ => [0x12]
  | _ => []
def Fields.kinds : Fields → List UInt8
  | .nil => []
  | .cons _ v rest => v.kinds ++ rest.kinds
def Vals.kinds : Vals → List UInt8
  | .nil => []
  | .cons v rest => v.kinds ++ rest.kinds
end

/-- whether a document goes into a chunk of at most `max + 1` samples that has the samples `kept`: the first one does,
    and then those with the same types while there is room -/
def fits (max : Nat) (kept : List Fields) (fs : Fields) : Bool :=
  match kept with
  | [] => true
  | f0 :: _ => kept.length ≤ max ∧ fs.kinds = f0.kinds

/-- which of the documents go into a chunk that has the samples `kept`, and all samples of the chunk in the end -/
def collect (max : Nat) : (kept : List Fields) → List Fields → List Bool × List Fields
  | kept, [] => ([], kept)
  | kept, fs :: rest =>
    let (oks, all) := collect max (if fits max kept fs then kept ++ [fs] else kept) rest
    (fits max kept fs :: oks, all)

/-- the documents whose place in the list of decisions is true -/
def taken {α : Type} : List α → List Bool → List α
  | d :: ds, b :: bs => if b then d :: taken ds bs else taken ds bs
  | _, _ => []

mutual
/-- the dotted paths of the numbers in a value that is found at `p` -/
def BVal.paths (p : Bytes) : BVal → List Bytes
  | .doc fs => fs.paths p
  | .array vs => vs.paths p 0
  | .double _ => [p]
  | .bool _ => [p]
  | .datetime _ => [p]
  | .int32 _ => [p]
  | .timestamp _ _ => [p]
  | .int64 _ => [p]
  | _ => []
def Fields.paths (p : Bytes) : Fields → List Bytes
  | .nil => []
  | .cons k v rest => v.paths (p ++ 46 :: k) ++ rest.paths p
def Vals.paths (p : Bytes) (i : Nat) : Vals → List Bytes
  | .nil => []
  | .cons v rest => v.paths (p ++ 46 :: decimalKey i) ++ rest.paths p (i + 1)
end

/-- the documents, in order -/
def RepDocs : List Model.Doc → List Fields → Prop
  | [], [] => True
  | d :: ds, fs :: fss => RepFields d fs ∧ RepDocs ds fss
  | _, _ => False

end Birch.Spec
