import Verif.Model.FtdcCollectors
import Verif.Model.ExtJson

/- Collectors that write documents instead of chunks (x/ftdc/collector_uncompressed.go).  Documents are values here: the
   collectors keep the caller's pointer. -/

namespace Birch.Model.Ftdc
open Birch

/-- `exportBSON` or `exportJSON`; the constructors set exactly one -/
inductive Format where
  | bson
  | json

/-- `uncompressedCollector` (x/ftdc/collector_uncompressed.go:137-144); sizes below 0 are left out -/
structure Uncompressed where
  format : Format
  batchSize : Nat
  metricCount : Nat
  metadata : Option Doc
  samples : List Doc

/-- `NewUncompressedCollectorJSON`, `NewUncompressedCollectorBSON` (x/ftdc/collector_uncompressed.go:24-49) -/
def Uncompressed.new (f : Format) (max : Nat) : Uncompressed := ⟨f, max, 0, none, []⟩

/-- `Reset` (x/ftdc/collector_uncompressed.go:146-149) -/
def Uncompressed.reset (c : Uncompressed) : Uncompressed := { c with samples := [], metricCount := 0 }

/-- `Info` (x/ftdc/collector_uncompressed.go:151-156) -/
def Uncompressed.info (c : Uncompressed) : Nat × Nat := (c.samples.length, c.metricCount)

/-- `SetMetadata` (x/ftdc/collector_uncompressed.go:158-166) of a document -/
def Uncompressed.setMetadata (c : Uncompressed) (d : Doc) : Uncompressed := { c with metadata := some d }

/-- `Add` (x/ftdc/collector_uncompressed.go:168-188) of a document -/
def Uncompressed.add (c : Uncompressed) (d : Doc) : Uncompressed × Option Err :=
  let c := if c.metricCount = 0 then { c with metricCount := d.length } else c
  if d.length ≠ c.metricCount then (c, some .other)
  else if c.samples.length ≥ c.batchSize then (c, some .other)
  else ({ c with samples := c.samples ++ [d] }, none)

/-- what `marshalWrite` (x/ftdc/collector_uncompressed.go:212-236) writes; `WriteTo` (document.go:223-232) writes what
    `MarshalBSON` returns.  Writing to a buffer does not fail. -/
def marshalWrite (C : ExtJson.Clock) (fuel : Nat) : Format → Doc → Res Bytes
  | .bson, d => docMarshal fuel d
  | .json, d => do .ok ((← ExtJson.marshalDocument C fuel d) ++ [10])

/-- the loop of `Resolve` (x/ftdc/collector_uncompressed.go:203-207) -/
def writeDocs (C : ExtJson.Clock) (fuel : Nat) (f : Format) : List Doc → Res Bytes
  | [] => .ok []
  | d :: ds => do
    let b ← marshalWrite C fuel f d
    .ok (b ++ (← writeDocs C fuel f ds))

/-- `Resolve` (x/ftdc/collector_uncompressed.go:190-210) -/
def Uncompressed.resolve (C : ExtJson.Clock) (fuel : Nat) (c : Uncompressed) : Res Bytes :=
  if c.samples = [] then .err .other
  else match c.metadata with
    | none => writeDocs C fuel c.format c.samples
    | some md => do
      let b ← marshalWrite C fuel c.format md
      .ok (b ++ (← writeDocs C fuel c.format c.samples))

/-! ### streaming -/

/-- `streamingCollector` (x/ftdc/collector_streaming.go:10-15) around an uncompressed collector -/
structure StreamingU where
  output : Sink
  maxSamples : Nat
  count : Nat
  inner : Uncompressed

/-- `NewStreamingUncompressedCollectorJSON`, `NewStreamingUncompressedCollectorBSON`
    (x/ftdc/collector_uncompressed.go:66-95) -/
def StreamingU.new (f : Format) (max : Nat) (w : Sink) : StreamingU := ⟨w, max, 0, Uncompressed.new f max⟩

/-- `Reset` (x/ftdc/collector_streaming.go:37) -/
def StreamingU.reset (c : StreamingU) : StreamingU := { c with count := 0, inner := c.inner.reset }

/-- `FlushCollector` (x/ftdc/collector_streaming.go:57-78) up to `Reset`: the collector, whether `Reset` is called, the error -/
def StreamingU.emit (C : ExtJson.Clock) (fuel : Nat) (c : StreamingU) : Res (StreamingU × Bool × Option Err) :=
  if c.inner.info.1 = 0 then .ok (c, false, none)
  else match c.inner.resolve C fuel with
    | .ok payload =>
      match c.output.write payload with
      | (w, _, some e) => .ok ({ c with output := w }, false, some e)
      | (w, n, none) =>
        if n ≠ payload.length then .ok ({ c with output := w }, false, some .other)
        else .ok ({ c with output := w }, true, none)
    | .err e => .ok (c, false, some e)
    | .panic => .panic
    | .oof => .oof

/-- `FlushCollector` of a streaming collector -/
def StreamingU.flush (C : ExtJson.Clock) (fuel : Nat) (c : StreamingU) : Res (StreamingU × Option Err) := do
  match ← c.emit C fuel with
  | (c, true, e) => .ok (c.reset, e)
  | (c, false, e) => .ok (c, e)

/-- the second half of `Add` (x/ftdc/collector_streaming.go:45-50) -/
def StreamingU.push (c : StreamingU) (d : Doc) : StreamingU × Option Err :=
  match c.inner.add d with
  | (inner, some e) => ({ c with inner := inner }, some e)
  | (inner, none) => ({ c with inner := inner, count := c.count + 1 }, none)

/-- `Add` (x/ftdc/collector_streaming.go:38-51); `count-1 >= maxSamples` on ints -/
def StreamingU.add (C : ExtJson.Clock) (fuel : Nat) (c : StreamingU) (d : Doc) : Res (StreamingU × Option Err) :=
  if (c.count : Int) - 1 ≥ c.maxSamples then do
    match ← c.flush C fuel with
    | (c, some e) => .ok (c, some e)
    | (c, none) => .ok (c.push d)
  else .ok (c.push d)

/-- `streamingDynamicCollector` (x/ftdc/collector_streaming.go:80-85) as `NewStreamingDynamicUncompressedCollectorBSON` and
    `NewStreamingDynamicUncompressedCollectorJSON` make it (`raw`), and after `Reset` (x/ftdc/collector_streaming.go:98-102),
    which puts a compressing collector inside -/
inductive DynamicU where
  | raw (hash : Bytes) (metricCount : Nat) (base : StreamingU)
  | compressed (c : StreamingDynamic)

/-- `NewStreamingDynamicUncompressedCollectorBSON`, `NewStreamingDynamicUncompressedCollectorJSON`
    (x/ftdc/collector_uncompressed.go:110-135) -/
def DynamicU.new (f : Format) (max : Nat) (w : Sink) : DynamicU := .raw [] 0 (StreamingU.new f max w)

/-- `FlushCollector` of a dynamic streaming collector -/
def DynamicU.flush (C : ExtJson.Clock) (zip : Bytes → Bytes) (now : Nat → Time) (fuel : Nat) : DynamicU → Res (DynamicU × Option Err)
  | .raw hash num base => do
    match ← base.emit C fuel with
    | (base, true, e) => .ok (.compressed (StreamingDynamic.new base.maxSamples base.output), e)
    | (base, false, e) => .ok (.raw hash num base, e)
  | .compressed c => do
    let (c, e) ← c.flush zip now fuel
    .ok (.compressed c, e)

/-- `Add` of the embedded streaming collector -/
def DynamicU.addBase (fsub : Nat → Nat → Nat) (C : ExtJson.Clock) (zip : Bytes → Bytes) (now : Nat → Time) (fuel : Nat) (d : Doc) :
    DynamicU → Res (DynamicU × Option Err)
  | .raw hash num base => do
    let (base, e) ← base.add C fuel d
    .ok (.raw hash num base, e)
  | .compressed c => do
    let (c, e) ← c.addBase fsub zip now fuel d
    .ok (.compressed c, e)

/-- `Add` (x/ftdc/collector_streaming.go:104-129) -/
def DynamicU.add (fsub : Nat → Nat → Nat) (C : ExtJson.Clock) (zip : Bytes → Bytes) (now : Nat → Time) (fuel : Nat) (c : DynamicU) (d : Doc) :
    Res (DynamicU × Option Err) :=
  match c with
  | .compressed c => do
    let (c, e) ← c.add fsub zip now fuel d
    .ok (.compressed c, e)
  | .raw hash num base => do
    let (docHash, docNum) ← metricKeyHash fuel d
    let split := if hash = [] then base.count > 0 else num ≠ docNum ∨ hash ≠ docHash
    let c : DynamicU := if hash = [] then .raw docHash docNum base else .raw hash num base
    if split then do
      match ← c.flush C zip now fuel with
      | (c, some e) => .ok (c, some e)
      | (c, none) => c.addBase fsub C zip now fuel d
    else c.addBase fsub C zip now fuel d

end Birch.Model.Ftdc
