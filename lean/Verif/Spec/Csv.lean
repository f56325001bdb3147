import Verif.Spec.Path
import Verif.Model.FtdcCsv

/- Tables of numbers. -/

namespace Birch.Spec
open Birch

/-- an integer in decimal -/
def intText (x : Int) : Bytes := if x < 0 then 45 :: decimalKey x.natAbs else decimalKey x.natAbs

/-- not negative, in the range of int64 -/
def upTo (s : Bytes) : Option Int := (digits s).bind fun n => if n < 9223372036854775808 then some (n : Int) else none

/-- the number a text denotes: decimal digits, perhaps after a sign, in the range of int64 -/
def textInt : Bytes → Option Int
  | [] => none
  | c :: r =>
    if c = 45 then (digits r).bind fun n => if n ≤ 9223372036854775808 then some (-(n : Int)) else none
    else if c = 43 then upTo r
    else upTo (c :: r)

/-- How the number `x` of a metric of type `ty` is written: a date as the text of its second, everything else in decimal (of a double
    the bits). -/
def numberText (date : Int → Bytes) (ty : UInt8) (x : Int) : Bytes := if ty = 0x09 then date (x.tdiv 1000) else intText x

/-- the rows of a chunk: one for every sample, with a field for every metric -/
def IsTable (date : Int → Bytes) (c : Model.Ftdc.Chunk) (rows : List (List Bytes)) : Prop :=
  rows.length = c.nPoints ∧ ∀ (i : Nat) (row : List Bytes), rows[i]? = some row → row.length = c.metrics.length ∧
    ∀ (j : Nat) (m : Model.Ftdc.Metric), c.metrics[j]? = some m → ∃ x, m.values[i]? = some x ∧ row[j]? = some (numberText date m.originalType x)

/-- tables for chunks, in order -/
def AreTables (date : Int → Bytes) : List Model.Ftdc.Chunk → List (List (List Bytes)) → Prop
  | [], ts => ts = []
  | c :: cs, ts => ∃ t rest, ts = t :: rest ∧ IsTable date c t ∧ AreTables date cs rest

/-- groups of chunks that have the same number of metrics, which changes from group to group -/
def Grouped : (before : Nat) → List (List Model.Ftdc.Chunk) → Prop
  | _, [] => True
  | b, g :: gs => ∃ n, 0 < n ∧ n ≠ b ∧ g ≠ [] ∧ (∀ c ∈ g, c.metrics.length = n) ∧ Grouped n gs

/-- a file for each group: the names of the metrics of its first chunk, then the tables of its chunks -/
def AreFiles (date : Int → Bytes) : List (List Model.Ftdc.Chunk) → List (List (List Bytes)) → Prop
  | [], fs => fs = []
  | g :: gs, fs => ∃ c ts rest, g.head? = some c ∧ fs = (c.metrics.map Model.Ftdc.Metric.key :: ts.flatten) :: rest ∧ AreTables date g ts ∧ AreFiles date gs rest

/-- the samples of a chunk as documents of 64 bit numbers; every metric has a value for every sample -/
def chunkSamples (c : Model.Ftdc.Chunk) : List Fields :=
  (List.range c.nPoints).map fun i => Fields.ofList (c.metrics.map fun m => (m.key, .int64 ((m.values[i]?).getD 0)))

/-- the document a row stands for: the fields that are numbers, under the names in the header -/
def rowFields : (header row : List Bytes) → Fields
  | k :: ks, f :: fs => match textInt f with | some x => .cons k (.int64 x) (rowFields ks fs) | none => rowFields ks fs
  | _, _ => .nil

end Birch.Spec
