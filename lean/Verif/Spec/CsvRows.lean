import Verif.Spec.Csv
import Verif.Spec.FtdcDocs
import Verif.Spec.FtdcLayout

/- The row of a table for a document. -/

namespace Birch.Spec
open Birch

mutual
/-- The fields for a value, one for each number in it, however deep: integers in decimal, booleans as 1 and 0, dates as the text of their second; of a timestamp both parts, and of a
    double its bits. -/
def BVal.csv (date : Int → Bytes) : BVal → List Bytes
  | .doc fs => fs.csv date
  | .array vs => vs.csv date
  | .double b => [intText (i64 b)]
  | .bool b => [intText (if b then 1 else 0)]
  | .datetime ms => [date (ms.tdiv 1000)]
  | .int32 i | .int64 i => [intText i]
  | .timestamp t i => [intText t, intText i]
  | _ => []
def Fields.csv (date : Int → Bytes) : Fields → List Bytes
  | .nil => []
  | .cons _ v rest => v.csv date ++ rest.csv date
def Vals.csv (date : Int → Bytes) : Vals → List Bytes
  | .nil => []
  | .cons v rest => v.csv date ++ rest.csv date
end

mutual
/-- The fields that are in the table for the value `c`, when the first sample of its chunk has `f` and the sample before has `p` in its place: as above, but of a double the bits of the
    difference `sub` to the sample before, of a timestamp the seconds and 999 times those of the first one, and of a date what its nanoseconds are in 64 bits. -/
def BVal.csvAfter (sub : Nat → Nat → Nat) (date : Int → Bytes) : (f p c : BVal) → List Bytes
  | .doc f, p, c => match p, c with | .doc p, .doc c => f.csvAfter sub date p c | _, _ => []
  | .array f, p, c => match p, c with | .array p, .array c => f.csvAfter sub date p c | _, _ => []
  | .double _, p, c => match p, c with | .double p, .double c => [intText (i64 (sub c p))] | _, _ => []
  | .timestamp t _, _, c => match c with | .timestamp t' i => [intText (999 * t + t'), intText i] | _ => []
  | .datetime _, _, c => match c with | .datetime ms => [date (((i64 (ms * 1000000)).tdiv 1000000).tdiv 1000)] | _ => []
  | _, _, c => c.csv date
def Fields.csvAfter (sub : Nat → Nat → Nat) (date : Int → Bytes) : (f p c : Fields) → List Bytes
  | .cons _ vf f, p, c => match p, c with | .cons _ vp p, .cons _ vc c => vf.csvAfter sub date vp vc ++ f.csvAfter sub date p c | _, _ => []
  | .nil, _, _ => []
def Vals.csvAfter (sub : Nat → Nat → Nat) (date : Int → Bytes) : (f p c : Vals) → List Bytes
  | .cons vf f, p, c => match p, c with | .cons vp p, .cons vc c => vf.csvAfter sub date vp vc ++ f.csvAfter sub date p c | _, _ => []
  | .nil, _, _ => []
end

/-- the rows after the first, `p` being the sample before -/
def csvFrom (sub : Nat → Nat → Nat) (date : Int → Bytes) (f : Fields) : (p : Fields) → List Fields → List (List Bytes)
  | _, [] => []
  | p, c :: cs => f.csvAfter sub date p c :: csvFrom sub date f c cs

/-- the rows of a chunk with the samples `f :: cs`; of the first one the bits of doubles are written as they are -/
def csvRows (sub : Nat → Nat → Nat) (date : Int → Bytes) (f : Fields) (cs : List Fields) : List (List Bytes) :=
  f.csvAfter (fun x _ => x) date f f :: csvFrom sub date f f cs

/-- groups of one chunk and perhaps more, of documents with as many numbers; from group to group it is another number of them -/
def CsvGroups (date : Int → Bytes) : (before : Nat) → List (LaidChunk × List LaidChunk) → Prop
  | _, [] => True
  | b, (c, cs) :: gs => 0 < (c.first.csv date).length ∧ (c.first.csv date).length ≠ b ∧ (∀ x ∈ cs, (x.first.csv date).length = (c.first.csv date).length) ∧
    CsvGroups date (c.first.csv date).length gs

end Birch.Spec
