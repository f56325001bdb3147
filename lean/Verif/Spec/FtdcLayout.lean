import Verif.Spec.FtdcDocs
import Verif.Spec.Ascii
import Verif.Spec.Path

/- The layout of FTDC files, as the MongoDB server documents it for its diagnostic data. -/

namespace Birch.Spec
open Birch

/-- a number in seven-bit groups, the lowest first, each but the last marked by the bit 128 -/
def leb128 (n : Nat) : Bytes :=
  if n < 128 then [UInt8.ofNat n] else UInt8.ofNat (n % 128 + 128) :: leb128 (n / 128)

/-- a recorded number: an integer or the 64 bits of a double -/
inductive Cell where
  | int (i : Int)
  | dbl (bits : Nat)

mutual
/-- The numbers recorded for a value.  A date counts its milliseconds (those of its nanoseconds in 64 bits); a timestamp has two numbers. -/
def BVal.cells : BVal → List Cell
  | .doc fs => fs.cells
  | .array vs => vs.cells
  | .double b => [.dbl b]
  | .bool b => [.int (if b then 1 else 0)]
  | .datetime ms => [.int ((i64 (ms * 1000000)).tdiv 1000000)]
  | .int32 i | .int64 i => [.int i]
  | .timestamp t i => [.int t, .int i]
  | _ => []
def Fields.cells : Fields → List Cell
  | .nil => []
  | .cons _ v rest => v.cells ++ rest.cells
def Vals.cells : Vals → List Cell
  | .nil => []
  | .cons v rest => v.cells ++ rest.cells
end

/-- the 64 bits stored for a number that follows another; `sub` subtracts doubles -/
def Cell.diff (sub : Nat → Nat → Nat) : (cur prev : Cell) → Nat
  | .int a, .int b => ((a - b) % 18446744073709551616).toNat
  | .dbl a, .dbl b => sub a b
  | _, _ => 0

/-- the differences of every sample to the one before -/
def diffRows (sub : Nat → Nat → Nat) : (prev : List Cell) → List (List Cell) → List (List Nat)
  | _, [] => []
  | prev, cur :: rest => List.zipWith (Cell.diff sub) cur prev :: diffRows sub cur rest

/-- all differences of the first number, then all of the second, … -/
def byMetric (metrics : Nat) (rows : List (List Nat)) : List Nat :=
  ((List.range metrics).map fun i => rows.map fun r => r.getD i 0).flatten

/-- every maximal run of zeros becomes a zero and the number of further zeros -/
def runs : List Nat → List Nat
  | [] => []
  | d :: l => if d = 0 then 0 :: (l.takeWhile (· = 0)).length :: runs (l.dropWhile (· = 0)) else d :: runs l
termination_by l => l.length
decreasing_by
  · have : (l.dropWhile (· = 0)).length ≤ l.length := by
      induction l with
      | nil => simp
      | cons x l ih => rw [List.dropWhile_cons]; split <;> simp <;> omega
    simp only [List.length_cons]; omega
  · simp

/-- the data of a chunk before compression: the first sample, the number of metrics, the number of further samples, and their differences -/
def chunkPayload (sub : Nat → Nat → Nat) (f0 : Fields) (fss : List Fields) : Bytes :=
  encDoc f0 ++ le32 f0.cells.length ++ le32 fss.length ++
    (runs (byMetric f0.cells.length (diffRows sub f0.cells (fss.map Fields.cells)))).flatMap leb128

/-- `{_id: Date(ms), type: 0, doc: m}` -/
def metaDocument (ms : Int) (m : Fields) : Fields :=
  .cons [95, 105, 100] (.datetime ms) (.cons [116, 121, 112, 101] (.int32 0) (.cons [100, 111, 99] (.doc m) .nil))

/-- `{_id: Date(ms), type: 1, data: BinData(0, data)}` -/
def chunkDocument (ms : Int) (data : Bytes) : Fields :=
  .cons [95, 105, 100] (.datetime ms) (.cons [116, 121, 112, 101] (.int32 1) (.cons [100, 97, 116, 97] (.binary 0 data) .nil))

/-- The bytes of one chunk with the samples `f0 :: fss`, after a document with the metadata if there are any.  The compressed data
    are preceded by their uncompressed length. -/
def chunkLayout (sub : Nat → Nat → Nat) (zip : Bytes → Bytes) (ms : Int) (md : Option Fields) (f0 : Fields) (fss : List Fields) : Bytes :=
  let payload := chunkPayload sub f0 fss
  (match md with | none => [] | some m => encDoc (metaDocument ms m)) ++
    encDoc (chunkDocument ms (le32 (payload.length % 4294967296) ++ zip payload))

/-- a collector's metadata as fields -/
def RepMeta : Option Model.Doc → Option Fields → Prop
  | none, none => True
  | some d, some fs => RepFields d fs
  | _, _ => False

/-- a chunk of a file: its time in milliseconds since 1970, the metadata before it, and its samples -/
structure LaidChunk where
  ms : Int
  metadata : Option Fields
  first : Fields
  rest : List Fields

def LaidChunk.bytes (sub : Nat → Nat → Nat) (zip : Bytes → Bytes) (c : LaidChunk) : Bytes :=
  chunkLayout sub zip c.ms c.metadata c.first c.rest

/-- well-formed documents of one shape, of at most 2 GiB, also after compression -/
def LaidChunk.Good (sub : Nat → Nat → Nat) (zip : Bytes → Bytes) (c : LaidChunk) : Prop :=
  -9223372036854775808 ≤ c.ms ∧ c.ms < 9223372036854775808 ∧
  (∀ m, c.metadata = some m → m.WF ∧ (encDoc m).length ≤ 2147483000) ∧
  (∀ f ∈ c.first :: c.rest, f.WF ∧ (encDoc f).length < 2147483648 ∧ ∀ g ∈ c.first :: c.rest, f.metrics.SameShape g.metrics) ∧
  c.rest.length < 4294967295 ∧ (zip (chunkPayload sub c.first c.rest)).length ≤ 2147482000

/-! ### documents of a file -/

/-- an int32, an int64 or a double that is 0 -/
def IsZero : BVal → Prop
  | .int32 i => i = 0
  | .int64 i => i = 0
  | .double b => b = 0 ∨ b = 0x8000000000000000
  | _ => False

/-- an int32, an int64 or a double that is 1 -/
def IsOne : BVal → Prop
  | .int32 i => i = 1
  | .int64 i => i = 1
  | .double b => b = 0x3FF0000000000000
  | _ => False

/-- documents that say about themselves that they are metadata -/
def MetaDoc (fs : Fields) : Prop := ∃ t, fs.firstNamed (ascii "type") = some t ∧ IsZero t

/-- documents that say about themselves that they are a chunk of samples -/
def ChunkDoc (fs : Fields) : Prop := ∃ t, fs.firstNamed (ascii "type") = some t ∧ IsOne t

/-- the compressed samples of a chunk, behind four bytes -/
def Compressed (fs : Fields) (z : Bytes) : Prop := ∃ st b, fs.firstNamed (ascii "data") = some (.binary st b) ∧ 4 ≤ b.length ∧ z = b.drop 4

end Birch.Spec
