import Verif.Model.FtdcCollectors
import Verif.Model.Search
import Verif.Model.Json

/- CSV files from chunks and chunks from CSV files (x/ftdc/csv.go).  A CSV file is a list of records, a record a list of
   fields: `encoding/csv` is not modelled.  What it writes is taken to be read back as the same records, which does not
   hold for records without fields or with one empty field (their lines are blank) and fields with "\r\n". -/

namespace Birch.Model.Ftdc
open Birch

abbrev Record := List Bytes

/-! ### writing -/

/-- `Chunk.getFieldNames` (x/ftdc/csv.go:18-24) -/
def Chunk.fieldNames (c : Chunk) : Record := c.metrics.map Metric.key

/-- a field of `Chunk.getRecord` (x/ftdc/csv.go:29-34); `date s` is `time.Unix(s, 0).Format(time.RFC3339)` in the local
    time zone.  Indexing beyond the values panics. -/
def Metric.field (date : Int → Bytes) (i : Nat) (m : Metric) : Res Bytes :=
  if m.originalType = 0x01 ∨ m.originalType = 0x10 ∨ m.originalType = 0x12 ∨ m.originalType = 0x08 ∨ m.originalType = 0x11 then
    match m.values[i]? with
    | some x => .ok (Json.formatInt x)
    | none => .panic
  else if m.originalType = 0x09 then
    match m.values[i]? with
    | some x => .ok (date (x.tdiv 1000))
    | none => .panic
  else .ok []

/-- the loop of `Chunk.getRecord` (x/ftdc/csv.go:28-35) -/
def getRecord (date : Int → Bytes) (i : Nat) : List Metric → Res Record
  | [] => .ok []
  | m :: ms => do
    let f ← m.field date i
    .ok (f :: (← getRecord date i ms))

/-- A `csv.Writer`: the records that reached the writer, those in the buffer, and what the next calls will do (`false`
    is an error, after the plan all calls succeed).  Simplified: nothing reaches the writer before a `Flush`; in the
    code the buffer is written when it is full. -/
structure CsvWriter where
  out : List Record
  buf : List Record
  plan : List Bool

/-- `csv.Writer.Write` -/
def CsvWriter.write (w : CsvWriter) (r : Record) : CsvWriter × Option Err :=
  match w.plan with
  | false :: plan => ({ w with plan := plan }, some .other)
  | _ => (⟨w.out, w.buf ++ [r], w.plan.tail⟩, none)

/-- `csv.Writer.Flush` and `csv.Writer.Error` -/
def CsvWriter.flush (w : CsvWriter) : CsvWriter × Option Err :=
  match w.plan with
  | false :: plan => ({ w with plan := plan }, some .other)
  | _ => (⟨w.out ++ w.buf, [], w.plan.tail⟩, none)

/-- the loop over the points of a chunk (x/ftdc/csv.go:56-61, 130-135): `n` more of them from `i` on -/
def writePoints (date : Int → Bytes) (c : Chunk) : (n i : Nat) → CsvWriter → Res (CsvWriter × Option Err)
  | 0, _, w => .ok (w, none)
  | n + 1, i, w => do
    let r ← getRecord date i c.metrics
    match w.write r with
    | (w, some e) => .ok (w, some e)
    | (w, none) => writePoints date c n (i + 1) w

/-- the points of a chunk, then `Flush` (x/ftdc/csv.go:56-65, 130-139) -/
def writeChunk (date : Int → Bytes) (c : Chunk) (w : CsvWriter) : Res (CsvWriter × Option Err) := do
  match ← writePoints date c c.nPoints 0 w with
  | (w, some e) => .ok (w, some e)
  | (w, none) => .ok w.flush

/-- the loop of `WriteCSV` (x/ftdc/csv.go:45-66) -/
def writeChunks (date : Int → Bytes) : (numFields : Nat) → List Chunk → CsvWriter → Res (CsvWriter × Option Err)
  | _, [], w => .ok (w, none)
  | numFields, c :: cs, w =>
    let rest (numFields : Nat) (w : CsvWriter) : Res (CsvWriter × Option Err) := do
      match ← writeChunk date c w with
      | (w, some e) => .ok (w, some e)
      | (w, none) => writeChunks date numFields cs w
    if numFields = 0 then
      match w.write c.fieldNames with
      | (w, some e) => .ok (w, some e)
      | (w, none) => rest c.fieldNames.length w
    else if numFields ≠ c.metrics.length then .ok (w, some .other)
    else rest numFields w

/-- `WriteCSV` (x/ftdc/csv.go:39-68) of the chunks of a sequence, to a writer that behaves as planned -/
def writeCSV (date : Int → Bytes) (cs : List Chunk) (plan : List Bool) : Res (CsvWriter × Option Err) :=
  writeChunks date 0 cs ⟨[], [], plan⟩

/-- the loop of `DumpCSV` (x/ftdc/csv.go:93-140), with the files that are closed and the one that is open.  No file
    operation fails. -/
def dumpChunks (date : Int → Bytes) : (files : List (List Record)) → (w : Option CsvWriter) → (numFields : Nat) → List Chunk →
    Res (List (List Record))
  | files, none, _, [] => .ok files
  | files, some w, _, [] => .ok (files ++ [w.out])
  | files, w, numFields, c :: cs =>
    let w := w.getD ⟨[], [], []⟩
    let rest (files : List (List Record)) (numFields : Nat) (w : CsvWriter) : Res (List (List Record)) := do
      let (w, _) ← writeChunk date c w
      dumpChunks date files (some w) numFields cs
    if numFields = 0 then rest files c.fieldNames.length (w.write c.fieldNames).1
    else if numFields ≠ c.metrics.length then
      rest (files ++ [w.out]) c.fieldNames.length ((⟨[], [], []⟩ : CsvWriter).write c.fieldNames).1
    else rest files numFields w

/-- `DumpCSV` (x/ftdc/csv.go:85-148): the contents of the files prefix.0.csv, prefix.1.csv, … -/
def dumpCSV (date : Int → Bytes) (cs : List Chunk) : Res (List (List Record)) := dumpChunks date [] none 0 cs

/-! ### reading -/

/-- A CSV file: its records, and the error after them (`none` is the end of the file).  `csv.Reader` with
    `FieldsPerRecord` 0 returns every record, but with the error `ErrFieldCount` if it does not have as many fields
    as the first. -/
structure CsvFile where
  records : List Record
  bad : Option Err

/-- the elements of a record (x/ftdc/csv.go:194-202): fields that are no numbers are skipped -/
def rowElems : (header record : Record) → Res Doc
  | h :: header, f :: record =>
    match atoi f with
    | none => rowElems header record
    | some x => do
      let e ← EC.int64 h x
      .ok (e :: (← rowElems header record))
  | _, _ => .ok []

/-- the loop of `ConvertFromCSV` (x/ftdc/csv.go:174-207); `width` is the number of fields of the first record.  The error is
    the one that is returned. -/
def convertLoop (fsub : Nat → Nat → Nat) (zip : Bytes → Bytes) (now : Nat → Time) (fuel width : Nat) (bad : Option Err) :
    (header : Record) → StreamingDynamic → List Record → Res (StreamingDynamic × Option Err)
  | _, c, [] => .ok (c, bad)
  | header, c, record :: records =>
    if record.length ≠ width then convertLoop fsub zip now fuel width bad record c records
    else if record.length ≠ header.length then .ok (c, some .other)
    else do
      let doc ← rowElems header record
      match ← c.add fsub zip now fuel doc with
      | (c, some e) => .ok (c, some e)
      | (c, none) => convertLoop fsub zip now fuel width bad header c records

/-- `ConvertFromCSV` (x/ftdc/csv.go:156-208): the collector with its writer afterwards, and the returned error.  The deferred
    function flushes the collector and assigns the error of that to a variable that is no result. -/
def convertFromCSV (fsub : Nat → Nat → Nat) (zip : Bytes → Bytes) (now : Nat → Time) (fuel : Nat) (bucket : Nat) (file : CsvFile) (w : Sink) :
    Res (StreamingDynamic × Option Err) :=
  match file.records with
  | [] => .ok (StreamingDynamic.new bucket w, some (file.bad.getD .eof))
  | header :: records => do
    let (c, e) ← convertLoop fsub zip now fuel header.length file.bad header (StreamingDynamic.new bucket w) records
    let (c, _) ← c.flush zip now fuel
    .ok (c, e)

end Birch.Model.Ftdc
