import Verif.Spec.FtdcLayout
import Verif.Spec.FtdcSeries

/- The bytes of a chunk that a reader may meet, as written by any program or damaged. -/

namespace Birch.Spec
open Birch

/-- bytes that stand for a number in seven-bit groups, the lowest first, each but the last marked by the bit 128.  Unlike those of `leb128` there may be more of them than needed. -/
inductive Varint : Bytes → Nat → Prop
  | last (c : UInt8) : c.toNat < 128 → Varint [c] c.toNat
  | more (c : UInt8) (b : Bytes) (n : Nat) : 128 ≤ c.toNat → Varint b n → Varint (c :: b) (c.toNat - 128 + 128 * n)

/-- a number of 64 bits in at most ten bytes -/
def Number64 (b : Bytes) (n : Nat) : Prop := Varint b n ∧ n < 18446744073709551616 ∧ b.length ≤ 10

/-- Bytes that stand for a sequence of differences: one number for each that is not zero, and for zeros the number zero and how many more of them follow. -/
inductive Coded : Bytes → List Nat → Prop
  | nil : Coded [] []
  | number {a b : Bytes} {n : Nat} {l : List Nat} : Number64 a n → n ≠ 0 → Coded b l → Coded (a ++ b) (n :: l)
  | zeros {a b c : Bytes} {n : Nat} {l : List Nat} : Number64 a 0 → Number64 b n → Coded c l → Coded (a ++ (b ++ c)) (List.replicate (n + 1) 0 ++ l)

/-- as a signed number of 64 bits -/
def signed64 (n : Nat) : Int := if n < 9223372036854775808 then n else (n : Int) - 18446744073709551616

mutual
/-- The first values of a value's metrics, as they are read.  They are the numbers recorded, but of a timestamp the seconds are read as milliseconds. -/
def BVal.starts : BVal → List Cell
  | .doc fs => fs.starts
  | .array vs => vs.starts
  | .timestamp t i => [.int (t * 1000), .int i]
  | v => v.cells
def Fields.starts : Fields → List Cell
  | .nil => []
  | .cons _ v rest => v.starts ++ rest.starts
def Vals.starts : Vals → List Cell
  | .nil => []
  | .cons v rest => v.starts ++ rest.starts
end

/-- The values of one metric: running totals of its differences, in int64 arithmetic; but for a double the differences themselves, after the first value. -/
def Column : Cell → (diffs : List Nat) → (values : List Int) → Prop
  | .int a, ds, vs => Totals a (ds.map signed64) vs
  | .dbl b, ds, vs => vs = (b :: ds).map signed64

/-- What may follow the first sample: the number of metrics, the number of further samples, and differences (`diffs`, all those of the first metric, then
    all those of the second, …).  The last run of zeros may be too long, and any bytes may follow. -/
def Tail (metrics samples : Nat) (diffs : List Nat) (tail : Bytes) : Prop :=
  metrics < 4294967296 ∧ samples < 4294967296 ∧ diffs.length = metrics * samples ∧
  ∃ b zeros rest, tail = le32 metrics ++ le32 samples ++ b ++ rest ∧ Coded b (diffs ++ List.replicate zeros 0)

/-- the differences of one metric -/
def diffsOf (i samples : Nat) (diffs : List Nat) : List Nat := (diffs.drop (i * samples)).take samples

end Birch.Spec
