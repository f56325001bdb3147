import Verif.Model.ExtJson
import Verif.Model.FtdcMetadata

/-
Model of what `CollectJSONStream` (x/ftdc/metrics/json.go:150-219) does with lines, with the JSON reader and the collector that it uses: from the text of the lines to the bytes of
the files.  `Model/JsonStream` has the goroutines, the context and the errors of files; here is what happens if none of these interferes: the lines are handled in their order,
and the flush timer fires between any of them.
-/

namespace Birch.Model.JsonFiles
open Birch Model Model.ExtJson Model.Ftdc

/-- `jsonx.DCE.Bytes` and `birch.DCE.JSONX` (x/ftdc/metrics/json.go:63-72, 94-104; jsonx/constructor.go:26-34; x_json_unmarshal.go:73-86) -/
def lineDoc (S : Gjson.Strconv) (C : Clock) (fuel : Nat) (l : Bytes) : Res Doc := do
  let es ← Gjson.unmarshalDocument S fuel l
  collect (convertElems C es)

/-- what the loop (x/ftdc/metrics/json.go:198-218) waits for: the document of a line, or the flush timer -/
inductive Turn where
  | line (l : Bytes)
  | tick

/-- the collector, and the contents of the files that have been written; the n-th has the number n at the end of its name (x/ftdc/metrics/json.go:171, 187) -/
structure State where
  collector : Ftdc.Dynamic
  files : List Bytes

/-- x/ftdc/metrics/json.go:164-165 -/
def new (sampleCount : Nat) : State := ⟨Ftdc.Dynamic.new sampleCount, []⟩

/-- `flusher` (x/ftdc/metrics/json.go:170-194); that `WriteFile` can fail is in `Model/JsonStream` -/
def flusher (zip : Bytes → Bytes) (now : Nat → Time) (fuel : Nat) (s : State) : Res State :=
  if s.collector.info.1 = 0 then .ok s
  else do
    let output ← s.collector.resolve zip now fuel
    .ok ⟨s.collector.reset, s.files ++ [output]⟩

/-- a call of `flusher` whose error is returned (x/ftdc/metrics/json.go:204-206, 214-216): the state and the error -/
def flushed (zip : Bytes → Bytes) (now : Nat → Time) (fuel : Nat) (s : State) : Res (State × Option Err) :=
  match flusher zip now fuel s with
  | .ok s => .ok (s, none)
  | .err e => .ok (s, some e)
  | .panic => .panic
  | .oof => .oof

/-- The loop (x/ftdc/metrics/json.go:198-218) with the turns that it sees until the source ends: the state, and the error that is returned.  `now` is the clock at each flush. -/
def run (S : Gjson.Strconv) (C : Clock) (fsub : Nat → Nat → Nat) (zip : Bytes → Bytes) (now : Nat → Nat → Time) (fuel : Nat) : State → List Turn → Res (State × Option Err)
  | s, [] => flushed zip (now s.files.length) fuel s
  | s, .tick :: ts => do
    match ← flushed zip (now s.files.length) fuel s with
    | (s, some e) => .ok (s, some e)
    | (s, none) => run S C fsub zip now fuel s ts
  | s, .line l :: ts =>
    match lineDoc S C fuel l with
    | .ok d => do
      match ← s.collector.add fsub fuel d with
      | (c, some e) => .ok ({ s with collector := c }, some e)
      | (c, none) => run S C fsub zip now fuel { s with collector := c } ts
    | .err e =>
      if e = .eof then do
        let (s, e') ← flushed zip (now s.files.length) fuel s
        .ok (s, some (e'.getD e))
      else .ok (s, some e)
    | .panic => .panic
    | .oof => .oof

end Birch.Model.JsonFiles
