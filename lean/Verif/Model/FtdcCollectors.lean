import Verif.Model.Ftdc
import Verif.Model.Compare

/-
FTDC (x/ftdc): the collectors built from base collectors.

The limits are not negative and the writers not nil.  `now i` is the time at which the chunk number `i` was started.
-/

namespace Birch.Model.Ftdc
open Birch Model

/-! ### batch (x/ftdc/collector_batch.go) -/

/-- `batchCollector` (x/ftdc/collector_batch.go:7-10) -/
structure Batch where
  maxSamples : Nat
  chunks : List Better

/-- `newBatchCollector` (x/ftdc/collector_batch.go:20-29) -/
def Batch.new (size : Nat) : Batch := ⟨size, [Better.new size]⟩

/-- the sums of `Info` over the chunks, SampleCount and MetricsCount (x/ftdc/collector_batch.go:31-39) -/
def sumInfo : List (Nat × Nat) → Nat × Nat
  | [] => (0, 0)
  | (s, m) :: rest => ((sumInfo rest).1 + s, (sumInfo rest).2 + m)

/-- `Info` (x/ftdc/collector_batch.go:31-39) -/
def Batch.info (c : Batch) : Nat × Nat := sumInfo (c.chunks.map Better.info)

/-- `SetMetadata` with a document (x/ftdc/collector_batch.go:45-47) -/
def Batch.setMetadata (c : Batch) (d : Doc) : Res Batch :=
  match c.chunks with
  | [] => .panic
  | ch :: rest => .ok { c with chunks := ch.setMetadata d :: rest }

/-- `Add` (x/ftdc/collector_batch.go:49-62) -/
def Batch.add (fsub : Nat → Nat → Nat) (fuel : Nat) (c : Batch) (d : Doc) : Res (Batch × Option Err) :=
  match c.chunks.getLast? with
  | none => .panic
  | some last =>
    if last.info.1 ≥ c.maxSamples then do
      let (last, e) ← (Better.new c.maxSamples).add fsub fuel d
      .ok ({ c with chunks := c.chunks ++ [last] }, e)
    else do
      let (last, e) ← last.add fsub fuel d
      .ok ({ c with chunks := c.chunks.dropLast ++ [last] }, e)

/-- `Resolve` (x/ftdc/collector_batch.go:64-77); `i` is the number of the first chunk -/
def resolveChunks (zip : Bytes → Bytes) (now : Nat → Time) (fuel : Nat) : (i : Nat) → List Better → Res Bytes
  | _, [] => .ok []
  | i, c :: cs => do
    let out ← c.resolve zip (now i) fuel
    .ok (out ++ (← resolveChunks zip now fuel (i + 1) cs))

def Batch.resolve (zip : Bytes → Bytes) (now : Nat → Time) (fuel : Nat) (c : Batch) : Res Bytes :=
  resolveChunks zip now fuel 0 c.chunks

/-! ### the hash of the keys (x/ftdc/bson_hash.go) -/

/-- `fnv.New64` (hash/fnv in the standard library) after writing `b` -/
def fnv64 (b : Bytes) : UInt64 := b.foldl (fun h c => (h * 1099511628211) ^^^ c.toUInt64) 14695981039346656037

/-- `fmt.Sprintf("%x", checksum.Sum(nil))`: eight bytes, the most significant first -/
def hashText (b : Bytes) : Bytes := hexEncode (le64 (fnv64 b).toNat).reverse

/-- `metricKeyHashDocument` (x/ftdc/bson_hash.go:18-26): the bytes written to the checksum and the number seen -/
def keysOfDocument (g : Bytes → Value → Res (Bytes × Nat)) (key : Bytes) : Doc → Res (Bytes × Nat)
  | [] => .ok ([], 0)
  | e :: d => do
    let (b, n) ← g (key ++ 46 :: (← Model.key e)) e
    let (b', n') ← keysOfDocument g key d
    .ok (b ++ b', n + n')

/-- `metricKeyHashArray` (x/ftdc/bson_hash.go:28-38) -/
def keysOfArray (g : Bytes → Value → Res (Bytes × Nat)) (key : Bytes) : (idx : Nat) → Doc → Res (Bytes × Nat)
  | _, [] => .ok ([], 0)
  | idx, v :: d => do
    let (b, n) ← g (key ++ 46 :: itoa idx) v
    let (b', n') ← keysOfArray g key (idx + 1) d
    .ok (b ++ b', n + n')

/-- `metricKeyHashValue` (x/ftdc/bson_hash.go:40-67) -/
def keysOfValue : Nat → Bytes → Value → Res (Bytes × Nat)
  | 0, _, _ => .oof
  | fuel + 1, key, v => do
    let t ← type v
    if t = 0x04 then do keysOfArray (keysOfValue fuel) key 0 (← mutableArray (fuel + 1) v)
    else if t = 0x03 then do keysOfDocument (keysOfValue fuel) key (← mutableDocument (fuel + 1) v)
    else if t = 0x08 then .ok (key, 1)
    else if t = 0x01 then .ok (key, 1)
    else if t = 0x10 then .ok (key, 1)
    else if t = 0x12 then .ok (key, 1)
    else if t = 0x09 then .ok (key, 1)
    else if t = 0x11 then .ok (key, 2)
    else .ok ([], 0)

/-- `metricKeyHash` (x/ftdc/bson_hash.go:12-16) -/
def metricKeyHash (fuel : Nat) (d : Doc) : Res (Bytes × Nat) := do
  let (b, n) ← keysOfDocument (keysOfValue fuel) [] d
  .ok (hashText b, n)

/-! ### dynamic (x/ftdc/collector_dynamic.go) -/

/-- `dynamicCollector` (x/ftdc/collector_dynamic.go:8-13) without `currentNum`, which is never read -/
structure Dynamic where
  maxSamples : Nat
  chunks : List Batch
  hash : Bytes

/-- `NewDynamicCollector` (x/ftdc/collector_dynamic.go:23-30) -/
def Dynamic.new (max : Nat) : Dynamic := ⟨max, [Batch.new max], []⟩

/-- `Info` (x/ftdc/collector_dynamic.go:32-40) -/
def Dynamic.info (c : Dynamic) : Nat × Nat := sumInfo (c.chunks.map Batch.info)

/-- `Add` (x/ftdc/collector_dynamic.go:51-78) of a document that is not nil -/
def Dynamic.add (fsub : Nat → Nat → Nat) (fuel : Nat) (c : Dynamic) (d : Doc) : Res (Dynamic × Option Err) := do
  let (docHash, _) ← metricKeyHash fuel d
  if c.hash = [] then
    match c.chunks with
    | [] => .panic
    | ch :: rest => do
      let (ch, e) ← ch.add fsub fuel d
      .ok ({ c with hash := docHash, chunks := ch :: rest }, e)
  else
    match c.chunks.getLast? with
    | none => .panic
    | some lastChunk =>
      if c.hash = docHash then do
        let (lastChunk, e) ← lastChunk.add fsub fuel d
        .ok ({ c with chunks := c.chunks.dropLast ++ [lastChunk] }, e)
      else do
        let (chunk, e) ← (Batch.new c.maxSamples).add fsub fuel d
        .ok ({ c with chunks := c.chunks ++ [chunk] }, e)

/-- `Resolve` (x/ftdc/collector_dynamic.go:80-92); the chunks are numbered through -/
def Dynamic.resolve (zip : Bytes → Bytes) (now : Nat → Time) (fuel : Nat) (c : Dynamic) : Res Bytes :=
  resolveChunks zip now fuel 0 (c.chunks.map Batch.chunks).flatten

/-! ### streaming (x/ftdc/collector_streaming.go) -/

/-- An `io.Writer`: the bytes it got, and what it will do with the next calls of `Write`.  `none` writes everything,
    `some (k, e)` writes at most `k` bytes and returns the error `e` (or nil).  After the plan everything is written. -/
structure Sink where
  out : Bytes
  plan : List (Option (Nat × Option Err))

/-- `Write`: the writer afterwards, the count and the error -/
def Sink.write (s : Sink) (p : Bytes) : Sink × Nat × Option Err :=
  match s.plan with
  | [] => ({ s with out := s.out ++ p }, p.length, none)
  | none :: plan => (⟨s.out ++ p, plan⟩, p.length, none)
  | some (k, e) :: plan => (⟨s.out ++ p.take k, plan⟩, (p.take k).length, e)

/-- `streamingCollector` around a base collector (x/ftdc/collector_streaming.go:10-15).  `flushes` counts the chunks
    written and is not part of the code, it numbers the chunks for `now`. -/
structure Streaming where
  output : Sink
  maxSamples : Nat
  count : Nat
  inner : Better
  flushes : Nat

/-- `newStreamingCollector` (x/ftdc/collector_streaming.go:27-35) -/
def Streaming.new (max : Nat) (w : Sink) : Streaming := ⟨w, max, 0, Better.new max, 0⟩

/-- `SetMetadata` of the embedded collector -/
def Streaming.setMetadata (c : Streaming) (d : Doc) : Streaming := { c with inner := c.inner.setMetadata d }

/-- `Reset` (x/ftdc/collector_streaming.go:37) -/
def Streaming.reset (c : Streaming) : Streaming := { c with count := 0, inner := c.inner.reset }

/-- `FlushCollector` (x/ftdc/collector_streaming.go:57-78) of a streaming collector with its own writer; `reset` is the
    collector's `Reset` -/
def Streaming.flushWith (reset : Streaming → Streaming) (zip : Bytes → Bytes) (now : Nat → Time) (fuel : Nat) (c : Streaming) :
    Res (Streaming × Option Err) :=
  if c.inner.info.1 = 0 then .ok (c, none)
  else match c.inner.resolve zip (now c.flushes) fuel with
    | .ok payload =>
      match c.output.write payload with
      | (w, _, some e) => .ok ({ c with output := w }, some e)
      | (w, n, none) =>
        if n ≠ payload.length then .ok ({ c with output := w }, some .other)
        else .ok (reset { c with output := w, flushes := c.flushes + 1 }, none)
    | .err e => .ok (c, some e)
    | .panic => .panic
    | .oof => .oof

/-- `FlushCollector` of a streaming collector -/
def Streaming.flush := Streaming.flushWith Streaming.reset

/-- the second half of `Add` (x/ftdc/collector_streaming.go:45-50) -/
def Streaming.push (fsub : Nat → Nat → Nat) (fuel : Nat) (c : Streaming) (d : Doc) : Res (Streaming × Option Err) := do
  let (inner, e) ← c.inner.add fsub fuel d
  match e with
  | some e => .ok ({ c with inner := inner }, some e)
  | none => .ok ({ c with inner := inner, count := c.count + 1 }, none)

/-- `Add` (x/ftdc/collector_streaming.go:38-51); `count-1 >= maxSamples` on ints -/
def Streaming.add (fsub : Nat → Nat → Nat) (zip : Bytes → Bytes) (now : Nat → Time) (fuel : Nat) (c : Streaming) (d : Doc) :
    Res (Streaming × Option Err) :=
  if (c.count : Int) - 1 ≥ c.maxSamples then do
    match ← c.flush zip now fuel with
    | (c, some e) => .ok (c, some e)
    | (c, none) => c.push fsub fuel d
  else c.push fsub fuel d

/-- `streamingDynamicCollector` (x/ftdc/collector_streaming.go:80-85).  `base.output` is both its writer and that of the
    streaming collector. -/
structure StreamingDynamic where
  hash : Bytes
  metricCount : Nat
  base : Streaming

/-- `NewStreamingDynamicCollector` (x/ftdc/collector_streaming.go:91-96) -/
def StreamingDynamic.new (max : Nat) (w : Sink) : StreamingDynamic := ⟨[], 0, Streaming.new max w⟩

/-- the part of `Reset` that concerns the streaming collector (x/ftdc/collector_streaming.go:99): a new one -/
def renew (c : Streaming) : Streaming := { Streaming.new c.maxSamples c.output with flushes := c.flushes }

/-- `FlushCollector` of a streaming dynamic collector; after a write `Reset` (x/ftdc/collector_streaming.go:98-102) -/
def StreamingDynamic.flush (zip : Bytes → Bytes) (now : Nat → Time) (fuel : Nat) (c : StreamingDynamic) :
    Res (StreamingDynamic × Option Err) := do
  let empty := c.base.inner.info.1 = 0
  let (base, e) ← c.base.flushWith renew zip now fuel
  if e = none ∧ ¬ empty then .ok (⟨[], 0, base⟩, e) else .ok ({ c with base := base }, e)

/-- `Add` of the embedded streaming collector -/
def StreamingDynamic.addBase (fsub : Nat → Nat → Nat) (zip : Bytes → Bytes) (now : Nat → Time) (fuel : Nat) (c : StreamingDynamic)
    (d : Doc) : Res (StreamingDynamic × Option Err) := do
  let (base, e) ← c.base.add fsub zip now fuel d
  .ok ({ c with base := base }, e)

/-- `Add` (x/ftdc/collector_streaming.go:104-129) -/
def StreamingDynamic.add (fsub : Nat → Nat → Nat) (zip : Bytes → Bytes) (now : Nat → Time) (fuel : Nat) (c : StreamingDynamic) (d : Doc) :
    Res (StreamingDynamic × Option Err) := do
  let (docHash, num) ← metricKeyHash fuel d
  let split := if c.hash = [] then c.base.count > 0 else c.metricCount ≠ num ∨ c.hash ≠ docHash
  let c := if c.hash = [] then { c with hash := docHash, metricCount := num } else c
  if split then do
    match ← c.flush zip now fuel with
    | (c, some e) => .ok (c, some e)
    | (c, none) => c.addBase fsub zip now fuel d
  else c.addBase fsub zip now fuel d

/-! ### callers -/

/-- a caller that adds documents one after the other and carries on after an error: the collector afterwards and the errors -/
def addEach {σ : Type} (add : σ → Doc → Res (σ × Option Err)) : σ → List Doc → Res (σ × List (Option Err))
  | c, [] => .ok (c, [])
  | c, d :: ds => do
    let (c, e) ← add c d
    let (c, es) ← addEach add c ds
    .ok (c, e :: es)

/-! ### assumptions of theorems -/

/-- every call writes all or fails without writing -/
def AllOrNothing (plan : List (Option (Nat × Option Err))) : Prop := ∀ x ∈ plan, x = none ∨ ∃ e, x = some (0, some e)

/-- no selection of the documents makes a chunk of 2 GB -/
def SmallChunks (fsub : Nat → Nat → Nat) (zip : Bytes → Bytes) (max : Nat) (md : Option Doc) (docs : List Doc) : Prop :=
  ∀ sel n c es, sel.Sublist docs → 2147483648 ≤ n → (newWith max md).addAll fsub n sel = .ok (c, es) → ∀ p, Returns c.payload (.ok p) → (zip p).length ≤ 2147482000

end Birch.Model.Ftdc
