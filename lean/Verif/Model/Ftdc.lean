import Verif.Model.Ints
import Verif.Model.Search
import Verif.Model.Stream

/-
FTDC (x/ftdc): metric extraction, the base collector, the chunk format and reading it back.

A Go `int64` is an `Int` in its range, a `float64` is its bit pattern.  Subtraction of doubles (`fsub`) and the
two directions of zlib (`zip`, `unzip`) are parameters.  A `*birch.Document` is a `Doc`; documents are not mutated
after they were added.
-/

namespace Birch.Model.Ftdc
open Birch Model

/-! ### variable-length integers (encoding/binary in the standard library) -/

/-- `binary.PutUvarint`, the bytes written -/
def putUvarint (x : UInt64) : Bytes :=
  if x < 128 then [x.toUInt8] else (x.toUInt8 ||| 128) :: putUvarint (x >>> 7)
termination_by x.toNat
decreasing_by
  rename_i h
  simp only [UInt64.not_lt, UInt64.le_iff_toNat_le, UInt64.reduceToNat] at h
  simp only [UInt64.toNat_shiftRight, UInt64.reduceToNat, Nat.shiftRight_eq_div_pow, Nat.reduceMod, Nat.reducePow]
  omega

/-- the loop of `binary.ReadUvarint`, `i` and `s` as there; returns the number and the unread bytes -/
def readUvarintLoop (i : Nat) (x s : UInt64) : Bytes → Res (UInt64 × Bytes)
  | [] => if i ≥ 10 then .err .other else .err (if i > 0 then .unexpectedEOF else .eof)
  | b :: rest =>
    if i ≥ 10 then .err .other
    else if b < 128 then
      if i = 9 ∧ b > 1 then .err .other else .ok (x ||| (b.toUInt64 <<< s), rest)
    else readUvarintLoop (i + 1) (x ||| ((b &&& 127).toUInt64 <<< s)) (s + 7) rest

/-- `binary.ReadUvarint` -/
def readUvarint (b : Bytes) : Res (UInt64 × Bytes) := readUvarintLoop 0 0 0 b

/-- `encodeValue` (x/ftdc/util.go:84-88) -/
def encodeValue (val : Int) : Bytes := putUvarint (UInt64.ofNat (u64i val))

/-! ### metrics of a document -/

/-- The value of a metric as held by `extractedMetrics` (x/ftdc/bson_extract.go:16-20): a `*birch.Value` of type
    Double or Int64, given by what its accessor returns. -/
inductive Num where
  | dbl (bits : Nat)
  | int (i : Int)
  deriving DecidableEq

/-- `epochMs` (x/ftdc/util.go:114); `UnixNano` wraps -/
def epochMs (t : Time) : Int := (i64 (t.sec * 1000000000 + t.nsec)).tdiv 1000000

/-- `timeEpocMs` (x/ftdc/util.go:115) -/
def timeEpocMs (i : Int) : Time := timeUnix (i.tdiv 1000) (i.tmod 1000 * 1000000)

/-- the loops of `extractMetricsFromDocument` and `extractMetricsFromArray` (x/ftdc/bson_extract.go:22-72);
    `values` and `types` have the same length and are paired.  No case returns an error.
    The time stamp `ts` is never set by any case, so `time.Now()` is used. -/
def extractAll (g : Value → Res (List (UInt8 × Num))) : List Value → Res (List (UInt8 × Num))
  | [] => .ok []
  | v :: d => do
    let a ← g v
    .ok (a ++ (← extractAll g d))

/-- `extractMetricsFromValue` (x/ftdc/bson_extract.go:74-110) -/
def extractValue : Nat → Value → Res (List (UInt8 × Num))
  | 0, _ => .oof
  | fuel + 1, v => do
    let t ← type v
    if t = 0x04 then do extractAll (extractValue fuel) (← mutableArray (fuel + 1) v)
    else if t = 0x03 then do extractAll (extractValue fuel) (← mutableDocument (fuel + 1) v)
    else if t = 0x08 then do .ok [(t, .int (if ← boolean v then 1 else 0))]
    else if t = 0x01 then do .ok [(t, .dbl (← double v))]
    else if t = 0x10 then do .ok [(t, .int (← int32 v))]
    else if t = 0x12 then do .ok [(t, .int (← int64 v))]
    else if t = 0x09 then do .ok [(t, .int (epochMs (← time v)))]
    else if t = 0x11 then do
      let (t', i) ← timestamp v
      .ok [(t, .int t'), (t, .int i)]
    else .ok []

/-- `extractMetricsFromDocument` -/
def extract (fuel : Nat) (d : Doc) : Res (List (UInt8 × Num)) := extractAll (extractValue fuel) d

/-- `extractDelta` (x/ftdc/bson_extract.go:112-121); the accessors panic on another type -/
def extractDelta (fsub : Nat → Nat → Nat) : Num → Num → Res Int
  | .dbl a, .dbl b => .ok (i64 (fsub a b))
  | .int a, .int b => .ok (i64 (a - b))
  | _, _ => .panic

/-! ### the base collector (x/ftdc/collector_better.go) -/

/-- `betterCollector` (x/ftdc/collector_better.go:13-21) without `startedAt`; the limit is not negative.
    `last` is `lastSample` (nil exactly when `reference` is nil). -/
structure Better where
  metadata : Option Doc
  reference : Option Doc
  last : List (UInt8 × Num)
  deltas : List Int
  numSamples : Nat
  maxDeltas : Nat

/-- `NewBaseCollector` (x/ftdc/collector_better.go:29-33) -/
def Better.new (max : Nat) : Better := ⟨none, none, [], [], 0, max⟩

/-- `SetMetadata` with a document (x/ftdc/collector_better.go:35-43) -/
def Better.setMetadata (c : Better) (d : Doc) : Better := { c with metadata := some d }

/-- `Reset` (x/ftdc/collector_better.go:45-50) -/
def Better.reset (c : Better) : Better := { c with reference := none, last := [], deltas := [], numSamples := 0 }

/-- `Info` (x/ftdc/collector_better.go:52-68): SampleCount and MetricsCount -/
def Better.info (c : Better) : Nat × Nat := ((if c.reference.isSome then 1 else 0) + c.numSamples, c.last.length)

/-- `getOffset` (x/ftdc/util.go:58) -/
def getOffset (count sample metric : Nat) : Nat := metric * count + sample

/-- `c.deltas[i] = x`; panics out of range -/
def setAt (l : List Int) (i : Nat) (x : Int) : Res (List Int) := if i < l.length then .ok (l.set i x) else .panic

/-- the loop of `Add` (x/ftdc/collector_better.go:105-116) from metric `i` on: `cur` and `prev` are the metrics of
    the new and of the last sample.  Deltas written before a type mismatch stay written. -/
def addLoop (fsub : Nat → Nat → Nat) (max sample : Nat) : (i : Nat) → (cur prev : List (UInt8 × Num)) → List Int →
    Res (List Int × Option Err)
  | i, (t, x) :: cur, (u, y) :: prev, deltas =>
    if t ≠ u then .ok (deltas, some .other) else do
    let delta ← extractDelta fsub x y
    addLoop fsub max sample (i + 1) cur prev (← setAt deltas (getOffset max sample i) delta)
  | _, [], _, deltas => .ok (deltas, none)
  | _, _ :: _, [], _ => .panic

/-- `Add` (x/ftdc/collector_better.go:70-121) of a document: the collector afterwards and the error -/
def Better.add (fsub : Nat → Nat → Nat) (fuel : Nat) (c : Better) (doc : Doc) : Res (Better × Option Err) :=
  match c.reference with
  | none => do
    let metrics ← extract fuel doc
    .ok ({ c with reference := some doc, last := metrics, deltas := List.replicate (c.maxDeltas * metrics.length) 0 }, none)
  | some _ =>
    if c.numSamples ≥ c.maxDeltas then .ok (c, some .other) else do
    let metrics ← extract fuel doc
    if metrics.length ≠ c.last.length then .ok (c, some .other) else do
    let (deltas, e) ← addLoop fsub c.maxDeltas c.numSamples 0 metrics c.last c.deltas
    match e with
    | some e => .ok ({ c with deltas := deltas }, some e)
    | none => .ok ({ c with deltas := deltas, numSamples := c.numSamples + 1, last := metrics }, none)

/-- a new collector, with `SetMetadata` called or not -/
def newWith (max : Nat) : Option Doc → Better
  | none => Better.new max
  | some m => (Better.new max).setMetadata m

/-- a caller that adds documents one after the other and carries on after an error: the collector afterwards and the errors -/
def Better.addAll (fsub : Nat → Nat → Nat) (fuel : Nat) : Better → List Doc → Res (Better × List (Option Err))
  | c, [] => .ok (c, [])
  | c, d :: ds => do
    let (c, e) ← c.add fsub fuel d
    let (c, es) ← c.addAll fsub fuel ds
    .ok (c, e :: es)

/-- state of the zero-run coder: `zeroCount` and the bytes written.  (`zeroCount` is an int64; it counts deltas in memory.) -/
structure Run where
  zeroCount : Int
  out : Bytes

/-- a pending run of zeros is written as 0 and its length less one (x/ftdc/collector_better.go:174-178, 183-186) -/
def Run.flush (r : Run) : Run :=
  if r.zeroCount > 0 then ⟨0, r.out ++ encodeValue 0 ++ encodeValue (r.zeroCount - 1)⟩ else r

/-- the body of the inner loop (x/ftdc/collector_better.go:166-181) -/
def Run.put (r : Run) (delta : Int) : Run :=
  if delta = 0 then { r with zeroCount := r.zeroCount + 1 }
  else let r := r.flush; { r with out := r.out ++ encodeValue delta }

/-- `c.deltas[i]` -/
def deltaAt (l : List Int) (i : Nat) : Res Int :=
  match l[i]? with
  | some x => .ok x
  | none => .panic

/-- the inner loop over the samples, `j` from `numSamples - n` (x/ftdc/collector_better.go:165) -/
def putRow (deltas : List Int) (max i : Nat) : (n j : Nat) → Run → Res Run
  | 0, _, r => .ok r
  | n + 1, j, r => do putRow deltas max i n (j + 1) (r.put (← deltaAt deltas (getOffset max j i)))

/-- the outer loop over the metrics (x/ftdc/collector_better.go:164) -/
def putRows (deltas : List Int) (max samples : Nat) : (n i : Nat) → Run → Res Run
  | 0, _, r => .ok r
  | n + 1, i, r => do putRows deltas max samples n (i + 1) (← putRow deltas max i samples 0 r)

/-- the deltas of a chunk (x/ftdc/collector_better.go:163-186) -/
def encodeDeltas (deltas : List Int) (max metrics samples : Nat) : Res Bytes := do
  let r ← putRows deltas max samples metrics 0 ⟨0, []⟩
  .ok r.flush.out

/-- `getPayload` (x/ftdc/collector_better.go:155-193) before compression -/
def Better.payload (fuel : Nat) (c : Better) : Res Bytes :=
  match c.reference with
  | none => .panic
  | some ref => do
    let b ← docMarshal fuel ref
    let ds ← encodeDeltas c.deltas c.maxDeltas c.last.length c.numSamples
    .ok (b ++ le32 (u32 c.last.length) ++ le32 (u32 c.numSamples) ++ ds)

/-- `compressBuffer` (x/ftdc/util.go:90-110) -/
def compressBuffer (zip : Bytes → Bytes) (input : Bytes) : Bytes := le32 (u32 input.length) ++ zip input

/-- "_id", "type", "doc", "data" -/
def kId : Bytes := [95, 105, 100]
def kType : Bytes := [116, 121, 112, 101]
def kDoc : Bytes := [100, 111, 99]
def kData : Bytes := [100, 97, 116, 97]

/-- `Resolve` (x/ftdc/collector_better.go:123-153); `now` is `startedAt` -/
def Better.resolve (zip : Bytes → Bytes) (now : Time) (fuel : Nat) (c : Better) : Res Bytes :=
  match c.reference with
  | none => .err .other
  | some _ => do
    let data := compressBuffer zip (← c.payload fuel)
    let meta_ ← match c.metadata with
      | none => .ok []
      | some d => do docMarshal fuel [← EC.time kId now, ← EC.int32 kType 0, ← EC.subDocument kDoc d]
    let chunk ← docMarshal fuel [← EC.time kId now, ← EC.int32 kType 1, ← EC.binary kData data]
    .ok (meta_ ++ chunk)

/-! ### reading -/

/-- `Metric` (x/ftdc/ftdc.go:79-104) -/
structure Metric where
  parentPath : List Bytes
  keyName : Bytes
  values : List Int
  startingValue : Int
  originalType : UInt8

/-- the loop of `metricForDocument` (x/ftdc/bson_metric.go:14-22).  The slices of `path` are values here: a later
    `append` may overwrite the last name of another `path`, but every `ParentPath` that survives has length at
    most one and such slices share no memory. -/
def metricForDocument (g : Bytes → List Bytes → Value → Res (List Metric)) (path : List Bytes) : Doc → Res (List Metric)
  | [] => .ok []
  | e :: d => do
    let k ← key e
    let ms ← g k path e
    .ok (ms ++ (← metricForDocument g path d))

/-- the loop of `metricForArray` (x/ftdc/bson_metric.go:24-38) -/
def metricForArray (g : Bytes → List Bytes → Value → Res (List Metric)) (key : Bytes) (path : List Bytes) :
    (idx : Nat) → Doc → Res (List Metric)
  | _, [] => .ok []
  | idx, v :: d => do
    let ms ← g (key ++ 46 :: itoa idx) path v
    .ok (ms ++ (← metricForArray g key path (idx + 1) d))

/-- `metricForType` (x/ftdc/bson_metric.go:40-137) -/
def metricForType : Nat → Bytes → List Bytes → Value → Res (List Metric)
  | 0, _, _, _ => .oof
  | fuel + 1, key, path, val => do
    let t ← type val
    if t = 0x04 then do metricForArray (metricForType fuel) key path 0 (← mutableArray (fuel + 1) val)
    else if t = 0x03 then do
      let path := path ++ [key]
      let ms ← metricForDocument (metricForType fuel) path (← mutableDocument (fuel + 1) val)
      .ok (ms.map fun ne => { parentPath := path, keyName := ne.keyName, values := [], startingValue := ne.startingValue,
                              originalType := ne.originalType })
    else if t = 0x08 then do .ok [⟨path, key, [], if ← boolean val then 1 else 0, t⟩]
    else if t = 0x01 then do .ok [⟨path, key, [], i64 (← double val), t⟩]
    else if t = 0x10 then do .ok [⟨path, key, [], ← int32 val, t⟩]
    else if t = 0x12 then do .ok [⟨path, key, [], ← int64 val, t⟩]
    else if t = 0x09 then do .ok [⟨path, key, [], epochMs (← time val), t⟩]
    else if t = 0x11 then do
      let (t', i) ← timestamp val
      .ok [⟨path, key, [], (t' : Int) * 1000, t⟩, ⟨path, key ++ [46, 105, 110, 99], [], i, t⟩]
    else .ok []

/-- `metricForDocument([]string{}, doc)` -/
def metricsOf (fuel : Nat) (d : Doc) : Res (List Metric) := metricForDocument (metricForType fuel) [] d

/-- `strings.Join(_, ".")` -/
def joinDots : List Bytes → Bytes
  | [] => []
  | [k] => k
  | k :: ks => k ++ 46 :: joinDots ks

/-- `Metric.Key` (x/ftdc/ftdc.go:106-108) -/
def Metric.key (m : Metric) : Bytes := joinDots (m.parentPath ++ [m.keyName])

/-- the inner loop of `readChunks` (x/ftdc/read.go:119-137): `n` deltas of one metric; `nz` is `nzeroes` -/
def readDeltas : (n : Nat) → (nz : UInt64) → Bytes → Res (List Int × UInt64 × Bytes)
  | 0, nz, b => .ok ([], nz, b)
  | n + 1, nz, b =>
    if nz ≠ 0 then do
      let (ds, nz, b) ← readDeltas n (nz - 1) b
      .ok (0 :: ds, nz, b)
    else do
      let (delta, b) ← readUvarint b
      let (nz, b) ← if delta = 0 then readUvarint b else .ok (0, b)
      let (ds, nz, b) ← readDeltas n nz b
      .ok (i64 delta.toNat :: ds, nz, b)

/-- `undelta` (x/ftdc/util.go:67-74) -/
def undelta (value : Int) : List Int → List Int
  | [] => [value]
  | d :: ds => value :: undelta (i64 (value + d)) ds

/-- `undeltaFloats` (x/ftdc/util.go:60-65) -/
def undeltaFloats (value : Int) (deltas : List Int) : List Int := value :: deltas

/-- the outer loop (x/ftdc/read.go:113-144): the metrics with their values, `nzeroes` and the unread bytes -/
def readSeries (ndeltas : Nat) : List Metric → UInt64 → Bytes → Res (List Metric × UInt64 × Bytes)
  | [], nz, b => .ok ([], nz, b)
  | m :: ms, nz, b => do
    let (ds, nz, b) ← readDeltas ndeltas nz b
    let values := if m.originalType = 0x01 then undeltaFloats m.startingValue ds else undelta m.startingValue ds
    let (ms, nz, b) ← readSeries ndeltas ms nz b
    .ok ({ m with values := values } :: ms, nz, b)

/-- `Chunk` (x/ftdc/ftdc.go:13-19) without `id` -/
structure Chunk where
  metrics : List Metric
  nPoints : Nat
  metadata : Option Doc
  reference : Doc

/-- the payload of a chunk (x/ftdc/read.go:84-151).  `Document.ReadFrom` does not depend on how the bytes are
    segmented (C11), so `buf` is a single segment. -/
def readPayload (fuel : Nat) (metadata : Option Doc) (buf : Bytes) : Res Chunk := do
  let r := Stream.readFrom fuel ⟨[buf], false⟩
  let ref ← r.result
  let metrics ← metricsOf fuel ref
  let bl := r.rest.left.take 8
  if bl.length < 8 then .err (if bl = [] then .eof else .unexpectedEOF) else do
  let nmetrics ← rdU32 bl
  let ndeltas ← rdU32 (bl.drop 4)
  if nmetrics ≠ metrics.length then .err .other else do
  let (metrics, _, _) ← readSeries ndeltas metrics 0 (r.rest.left.drop 8)
  .ok ⟨metrics, ndeltas + 1, metadata, ref⟩

/-- `isNum` (x/ftdc/util.go:117-132) for `num` = 0 or 1; `one` are the bits of 1.0.  -0 equals 0. -/
def isNum (num : Nat) : Option Value → Res Bool
  | none => .ok false
  | some v => do
    let t ← type v
    if t = 0x10 then do .ok ((← int32 v) = num)
    else if t = 0x12 then do .ok ((← int64 v) = num)
    else if t = 0x01 then do
      let b ← double v
      .ok (if num = 0 then b = 0 ∨ b = 9223372036854775808 else b = 4607182418800017408)
    else .ok false

/-- one document of the stream (x/ftdc/read.go:46-155): the metadata from now on and the chunk, if any.
    `unzip` gives `none` when the compressed data is damaged. -/
def readChunkDoc (unzip : Bytes → Option Bytes) (fuel : Nat) (metadata : Option Doc) (doc : Doc) :
    Res (Option Doc × Option Chunk) := do
  let docType ← findElemForKey kType doc
  if ← isNum 0 docType then .ok (some doc, none)
  else if !(← isNum 1 docType) then .ok (metadata, none)
  else do
    match ← findElemForKey kData doc with
    | none => .err .other
    | some zelem => do
      let (_, zBytes) ← binary zelem
      let z ← slice zBytes 4 zBytes.length
      match unzip z with
      | none => .err .other
      | some buf => do .ok (metadata, some (← readPayload fuel metadata buf))

/-- `readChunks` (x/ftdc/read.go:37-160): the chunks passed on and how the loop ended -/
def readChunks (unzip : Bytes → Option Bytes) (fuel : Nat) : Option Doc → List Doc → List Chunk × Res Unit
  | _, [] => ([], .ok ())
  | metadata, doc :: docs =>
    match readChunkDoc unzip fuel metadata doc with
    | .ok (metadata, c) =>
      let (cs, e) := readChunks unzip fuel metadata docs
      (c.toList ++ cs, e)
    | .err e => ([], .err e)
    | .panic => ([], .panic)
    | .oof => ([], .oof)

/-- `readDiagnostic` (x/ftdc/read.go:17-35): the documents passed on and how the loop ended -/
def readDiagnostic : Nat → Stream.Source → List Doc × Res Unit
  | 0, _ => ([], .oof)
  | fuel + 1, s =>
    let r := Stream.readFrom (fuel + 1) s
    match r.result with
    | .ok d =>
      let (ds, e) := readDiagnostic fuel r.rest
      (d :: ds, e)
    | .err .eof => ([], .ok ())
    | .err e => ([], .err e)
    | .panic => ([], .panic)
    | .oof => ([], .oof)

/-- `ReadChunks` (x/ftdc/iterator_chunk.go:13-43), iterated to its end: the two goroutines are run one after the
    other, as the channels preserve the order; the result is that of the first to fail. -/
def readAll (unzip : Bytes → Option Bytes) (fuel : Nat) (s : Stream.Source) : List Chunk × Res Unit :=
  let (docs, e1) := readDiagnostic fuel s
  let (chunks, e2) := readChunks unzip fuel none docs
  (chunks, match e2 with
    | .ok () => e1
    | e => e)

/-! ### restoring documents (x/ftdc/bson_restore.go) -/

/-- `metrics[idx].Values[sample]` -/
def valueAt (metrics : List Metric) (idx sample : Nat) : Res Int :=
  match metrics[idx]? with
  | none => .panic
  | some m =>
    match m.values[sample]? with
    | none => .panic
    | some x => .ok x

/-- the loop of `restoreDocument` (x/ftdc/bson_restore.go:15-34) -/
def restoreDocument (g : Value → Nat → Res (Option Value × Nat)) : Doc → (idx : Nat) → Res (Doc × Nat)
  | [], idx => .ok ([], idx)
  | e :: ref, idx => do
    let (elem, idx) ← g e idx
    let (doc, idx) ← restoreDocument g ref idx
    .ok (elem.toList ++ doc, idx)

/-- the loop over an array (x/ftdc/bson_restore.go:49-58); `EC.Interface("", val)` is `EC.Value("", val)`, or Null -/
def restoreArray (g : Value → Nat → Res (Option Value × Nat)) : Doc → (idx : Nat) → Res (Doc × Nat)
  | [], idx => .ok ([], idx)
  | v :: ref, idx => do
    let e ← match ← convertValueToElem [] v with
      | some e => .ok e
      | none => EC.null []
    let (elem, idx) ← g e idx
    let (elems, idx) ← restoreArray g ref idx
    .ok (elem.toList ++ elems, idx)

/-- `restoreElement` (x/ftdc/bson_restore.go:36-85) -/
def restoreElement (metrics : List Metric) (sample : Nat) : Nat → Value → Nat → Res (Option Value × Nat)
  | 0, _, _ => .oof
  | fuel + 1, ref, idx => do
    let t ← type ref
    let k ← key ref
    if t = 0x04 then do
      let (elems, idx) ← restoreArray (restoreElement metrics sample fuel) (← mutableArray (fuel + 1) ref) idx
      .ok (some (← EC.array k elems), idx)
    else if t = 0x03 then do
      let (doc, idx) ← restoreDocument (restoreElement metrics sample fuel) (← mutableDocument (fuel + 1) ref) idx
      .ok (some (← EC.subDocument k doc), idx)
    else if t = 0x08 then do .ok (some (← EC.boolean k ((← valueAt metrics idx sample) ≠ 0)), idx + 1)
    else if t = 0x01 then do .ok (some (← EC.double k (u64i (← valueAt metrics idx sample))), idx + 1)
    else if t = 0x10 then do .ok (some (← EC.int32 k (i32 (← valueAt metrics idx sample))), idx + 1)
    else if t = 0x12 then do .ok (some (← EC.int64 k (← valueAt metrics idx sample)), idx + 1)
    else if t = 0x09 then do .ok (some (← EC.time k (timeEpocMs (← valueAt metrics idx sample))), idx + 1)
    else if t = 0x11 then do
      let t' ← valueAt metrics idx sample
      let i ← valueAt metrics (idx + 1) sample
      .ok (some (← EC.timestamp k (u32i t') (u32i i)), idx + 2)
    else .ok (none, idx)

/-- `restoreDocument(c.reference, sample, c.Metrics, 0)` -/
def Chunk.restore (fuel : Nat) (c : Chunk) (sample : Nat) : Res Doc := do
  let (d, _) ← restoreDocument (restoreElement c.metrics sample fuel) c.reference 0
  .ok d

/-- the samples `i` to `i + n - 1` of a chunk with `g` -/
def samples (g : Nat → Res Doc) : (n i : Nat) → Res (List Doc)
  | 0, _ => .ok []
  | n + 1, i => do
    let d ← g i
    .ok (d :: (← samples g n (i + 1)))

/-- `Chunk.iterator` (x/ftdc/iterator_chunk.go:45-54), iterated to its end -/
def Chunk.structured (fuel : Nat) (c : Chunk) : Res (List Doc) := samples (c.restore fuel) c.nPoints 0

/-- all chunks with `g` -/
def overChunks (g : Chunk → Res (List Doc)) : List Chunk → Res (List Doc)
  | [] => .ok []
  | c :: cs => do
    let ds ← g c
    .ok (ds ++ (← overChunks g cs))

/-- `ReadStructuredMetrics` (x/ftdc/iterator.go:49-66), iterated to its end: all documents, or the failure -/
def readStructuredMetrics (unzip : Bytes → Option Bytes) (fuel : Nat) (s : Stream.Source) : Res (List Doc) :=
  match readAll unzip fuel s with
  | (chunks, .ok ()) => overChunks (Chunk.structured fuel) chunks
  | (_, .err e) => .err e
  | (_, .panic) => .panic
  | (_, .oof) => .oof

/-! ### flat documents and matrices -/

/-- `restoreFlat` (x/ftdc/bson_restore.go:87-103) -/
def restoreFlat (t : UInt8) (key : Bytes) (value : Int) : Res Value :=
  if t = 0x08 then EC.boolean key (value ≠ 0)
  else if t = 0x01 then EC.double key (u64i value)
  else if t = 0x10 then EC.int32 key (i32 value)
  else if t = 0x09 then EC.time key (timeEpocMs value)
  else EC.int64 key value

/-- one document of `Chunk.iteratorFlattened` (x/ftdc/iterator_chunk.go:56-75) -/
def flatSample (sample : Nat) : List Metric → Res Doc
  | [] => .ok []
  | m :: ms => do
    let x ← match m.values[sample]? with
      | none => .panic
      | some x => .ok x
    let e ← restoreFlat m.originalType m.key x
    .ok (e :: (← flatSample sample ms))

/-- `Chunk.iteratorFlattened`, iterated to its end -/
def Chunk.flattened (c : Chunk) : Res (List Doc) := samples (fun i => flatSample i c.metrics) c.nPoints 0

/-- an array of values, each made by `g` -/
def arrayOf (g : Int → Res Value) : List Int → Res Doc
  | [] => .ok []
  | p :: ps => do
    let v ← g p
    .ok (v :: (← arrayOf g ps))

/-- the loop over a timestamp metric (x/ftdc/bson_matrix.go:45-47); `incs` are the values of the next metric from `idx` on -/
def arrayOfTimestamps : (ts incs : List Int) → Res Doc
  | [], _ => .ok []
  | _ :: _, [] => .panic
  | p :: ps, i :: is => do
    let v ← EC.timestamp [] (u32i p) (u32i i)
    .ok (v :: (← arrayOfTimestamps ps is))

/-- `rehydrateMatrix` (x/ftdc/bson_matrix.go:12-53): the element and the number of metrics used; `metrics` are those
    from `sample` on, not empty -/
def rehydrateMatrix (m : Metric) (rest : List Metric) : Res (Value × Nat) := do
  let t := m.originalType
  if t = 0x11 then
    match rest with
    | [] => if m.values = [] then do .ok (← EC.array m.key [], 2) else .panic
    | m' :: _ => do .ok (← EC.array m.key (← arrayOfTimestamps m.values m'.values), 2)
  else do
    let vs ←
      if t = 0x08 then arrayOf (fun p => EC.boolean [] (p ≠ 0)) m.values
      else if t = 0x01 then arrayOf (fun p => EC.double [] (u64i p)) m.values
      else if t = 0x12 then arrayOf (fun p => EC.int64 [] p) m.values
      else if t = 0x10 then arrayOf (fun p => EC.int32 [] (i32 p)) m.values
      else if t = 0x09 then arrayOf (fun p => EC.time [] (timeEpocMs p)) m.values
      else .err .other
    .ok (← EC.array m.key vs, 1)

/-- the loop of `Chunk.export` (x/ftdc/ftdc.go:57-77): at most `n` more turns; it stops when the metrics are used up -/
def exportLoop : (n : Nat) → List Metric → Res Doc
  | 0, _ => .ok []
  | _ + 1, [] => .ok []
  | n + 1, m :: ms => do
    let (e, used) ← rehydrateMatrix m ms
    .ok (e :: (← exportLoop n ((m :: ms).drop used)))

/-- `Chunk.export` (x/ftdc/ftdc.go:57-77) -/
def Chunk.export (c : Chunk) : Res Doc := exportLoop c.metrics.length c.metrics

end Birch.Model.Ftdc
