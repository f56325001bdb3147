import Verif.Model.Graph
import Verif.Model.Ftdc

/-
Model of the base FTDC collector (x/ftdc/collector_better.go, x/ftdc/bson_extract.go) on objects that others refer to as well: it keeps the
documents it is given, and values of them, by pointer.  `Model/Ftdc` is the same code on trees, where it keeps what they were when it was called.
-/

namespace Birch.Model.Shared
open Birch Model Graph

/-- a value kept in `extractedMetrics.values` (x/ftdc/bson_extract.go:16-20): one made by `birch.VC.Int64`, to which nobody else refers and which is
    given by its number, or a value of the document itself -/
inductive Held where
  | own (x : Ftdc.Num)
  | at (p : Nat)
  deriving DecidableEq

/-- the loops of `extractMetricsFromDocument` and `extractMetricsFromArray` (x/ftdc/bson_extract.go:22-72) over the elements -/
def extractElems (g : Nat → M (List (UInt8 × Held))) : List Nat → M (List (UInt8 × Held))
  | [] => pure []
  | e :: es => do
    let p ← look fun w => .ok (w.elems e)
    let a ← g p
    let b ← extractElems g es
    pure (a ++ b)

/-- `extractMetricsFromValue` (x/ftdc/bson_extract.go:74-110).  `MutableArray` and `MutableDocument` open the value; doubles and int64s are kept as they
    are and not read.  The first number is the fuel of reading, the second that of going down. -/
def extractValue (n : Nat) : Nat → Nat → M (List (UInt8 × Held))
  | 0, _ => lift .oof
  | fuel + 1, p => do
    let v ← look fun w => .ok (w.vals p)
    let data ← look fun w => .ok (w.bytes v.data)
    let t ← lift (type (.raw v.start v.offset data))
    if t = 0x04 ∨ t = 0x03 then do
      let d ← Graph.openValue n p
      let es ← look fun w => .ok (w.docs d)
      extractElems (extractValue n fuel) es
    else if t = 0x01 ∨ t = 0x12 then pure [(t, .at p)]
    else do
      let l ← lift (Ftdc.extractValue 1 (.raw v.start v.offset data))
      pure (l.map fun x => (x.1, .own x.2))

/-- `extractMetricsFromDocument` (x/ftdc/bson_extract.go:22-48) -/
def extract (n d : Nat) : M (List (UInt8 × Held)) := do
  let es ← look fun w => .ok (w.docs d)
  extractElems (extractValue n n) es

/-- what `Type`, `Double` and `Int64` return for a value that is kept; another type is an error of `extractDelta` (x/ftdc/bson_extract.go:112-121) -/
def Held.read (w : World) : Held → Res Ftdc.Num
  | .own x => .ok x
  | .at p => do
    let v := Value.raw (w.vals p).start (w.vals p).offset (w.bytes (w.vals p).data)
    let t ← type v
    if t = 0x01 then do .ok (.dbl (← double v))
    else if t = 0x12 then do .ok (.int (← int64 v))
    else .err .other

/-- the accessor panics if the previous value is not of the type of the current one -/
def orPanics {α : Type} : Res α → Res α
  | .err _ => .panic
  | r => r

/-- the loop of `Add` (x/ftdc/collector_better.go:104-115), see `Ftdc.addLoop` -/
def addLoop (fsub : Nat → Nat → Nat) (w : World) (max sample : Nat) : (i : Nat) → (cur prev : List (UInt8 × Held)) → List Int →
    Res (List Int × Option Err)
  | i, (t, x) :: cur, (u, y) :: prev, deltas =>
    if t ≠ u then .ok (deltas, some .other) else do
    let a ← x.read w
    let b ← orPanics (y.read w)
    let delta ← Ftdc.extractDelta fsub a b
    addLoop fsub w max sample (i + 1) cur prev (← Ftdc.setAt deltas (Ftdc.getOffset max sample i) delta)
  | _, [], _, deltas => .ok (deltas, none)
  | _, _ :: _, [], _ => .panic

/-- `betterCollector` (x/ftdc/collector_better.go:13-21): `metadata` and `reference` are the documents of the caller -/
structure Collector where
  metadata : Option Nat
  reference : Option Nat
  last : List (UInt8 × Held)
  deltas : List Int
  numSamples : Nat
  maxDeltas : Nat

/-- `NewBaseCollector` (x/ftdc/collector_better.go:29-33), with `SetMetadata` called with a document or not (x/ftdc/collector_better.go:35-43) -/
def Collector.new (max : Nat) (md : Option Nat) : Collector := ⟨md, none, [], [], 0, max⟩

/-- `Add` (x/ftdc/collector_better.go:70-121) of a document, which `readDocument` returns as it is (x/ftdc/util.go:18-21) -/
def Collector.add (fsub : Nat → Nat → Nat) (n : Nat) (c : Collector) (d : Nat) : M (Collector × Option Err) :=
  match c.reference with
  | none => do
    let metrics ← extract n d
    pure ({ c with reference := some d, last := metrics, deltas := List.replicate (c.maxDeltas * metrics.length) 0 }, none)
  | some _ =>
    if c.numSamples ≥ c.maxDeltas then pure (c, some .other) else do
    let metrics ← extract n d
    if metrics.length ≠ c.last.length then pure (c, some .other) else do
    let (deltas, e) ← look fun w => addLoop fsub w c.maxDeltas c.numSamples 0 metrics c.last c.deltas
    match e with
    | some e => pure ({ c with deltas := deltas }, some e)
    | none => pure ({ c with deltas := deltas, numSamples := c.numSamples + 1, last := metrics }, none)

/-- a document or none, with everything in it -/
def viewOpt (w : World) (n : Nat) : Option Nat → Res (Option Doc)
  | none => .ok none
  | some d => do .ok (some (← viewDoc w n d))

/-- the collector with the documents as they are now.  Of the last sample only the number of values is left. -/
def Collector.view (w : World) (n : Nat) (c : Collector) : Res Ftdc.Better := do
  let md ← viewOpt w n c.metadata
  let ref ← viewOpt w n c.reference
  .ok ⟨md, ref, c.last.map fun x => (x.1, .int 0), c.deltas, c.numSamples, c.maxDeltas⟩

/-- `Resolve` (x/ftdc/collector_better.go:123-193), which of the last sample uses only the number of values.  The documents are written as in `Ftdc.Better.resolve`:
    simplified, as marshalling is on trees here (`Graph.marshal` is the same for documents whose scopes are as they were read, C87). -/
def Collector.resolve (zip : Bytes → Bytes) (now : Time) (w : World) (n : Nat) (c : Collector) : Res Bytes := do
  (← c.view w n).resolve zip now n

/-- what a program does: it calls functions of documents, elements and values, or adds a document to the collector -/
inductive Step where
  | call (c : Call)
  | add (d : Nat)

/-- the steps one after the other: the collector afterwards and what `Add` returned -/
def run (fsub : Nat → Nat → Nat) (n : Nat) : Collector → List Step → M (Collector × List (Option Err))
  | c, [] => pure (c, [])
  | c, .call k :: rest => fun w => run fsub n c rest (k.run w)
  | c, .add d :: rest => do
    let (c, e) ← c.add fsub n d
    let (c, es) ← run fsub n c rest
    pure (c, e :: es)

end Birch.Model.Shared
