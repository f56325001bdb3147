import Verif.Model.Ftdc

/-
Model of `ReadChunks` (x/ftdc/iterator_chunk.go:13-43) as it runs: the loop over the iterator, the goroutine of `readChunks` and that of
`readDiagnostic` (x/ftdc/read.go:17-160), the channels between them (both without a buffer), the context and the collector of errors,
as a transition system.  Every step of `Step` is one thing that one goroutine does, or a hand-over from one to another; they may be
interleaved in any way.  The iterator is ranged over once.  `ρ` is the state of the reader, `μ` the metadata of `readChunks`; what they
do on their own is given by `read` and `parse`, which are those of Model/Ftdc in `Sys.ftdc`.  A panic in a goroutine ends the process.
`metasourceImpl` and the `_id` of a chunk are left out.  `context.Context` and `erc.Collector` behave as documented: `Push(nil)` does nothing.
-/

namespace Birch.Model.ReadPipe
open Birch Model

/-- an error in the collector: `ctx.Err()` or any other -/
inductive Fault where
  | canceled
  | error (e : Err)
  deriving DecidableEq

/-- the loop (x/ftdc/iterator_chunk.go:27-39): in `select`, in `yield`, before the deferred `cancel()`, returned -/
inductive Consumer where
  | selecting
  | yielding
  | returning
  | returned
  deriving DecidableEq

/-- `readChunks` (x/ftdc/read.go:37-160): in the outer `select`, at work on a document, in the inner `select`, before the deferred
    `close(o)`, before `Push` (x/ftdc/iterator_chunk.go:24), ended -/
inductive Parser (δ γ μ : Type) where
  | selecting (m : μ)
  | parsing (m : μ) (d : δ)
  | sending (m : μ) (c : γ)
  | closing (e : Option Fault)
  | pushing (e : Option Fault)
  | ended

/-- `readDiagnostic` (x/ftdc/read.go:17-35): in `readBufBSON`, in `select`, before the deferred `close(ch)`, before `Push`
    (x/ftdc/iterator_chunk.go:25), ended -/
inductive Reader (ρ δ : Type) where
  | reading (r : ρ)
  | sending (d : δ) (r : ρ)
  | closing (e : Option Fault)
  | pushing (e : Option Fault)
  | ended

/-- what the goroutines do on their own -/
structure Sys (ρ δ γ μ : Type) where
  /-- `readBufBSON` -/
  read : ρ → Res (δ × ρ)
  /-- the body of the loop in `readChunks`: the metadata and the chunk, if any -/
  parse : μ → δ → Res (μ × Option γ)

/-- Model/Ftdc: the reader has the fuel and the bytes, as in `Ftdc.readDiagnostic` -/
def Sys.ftdc (unzip : Bytes → Option Bytes) (fuel : Nat) : Sys (Nat × Stream.Source) Doc Ftdc.Chunk (Option Doc) where
  read
    | (0, _) => .oof
    | (n + 1, s) =>
      let r := Stream.readFrom (n + 1) s
      match r.result with
      | .ok d => .ok (d, (n, r.rest))
      | .err e => .err e
      | .panic => .panic
      | .oof => .oof
  parse := Ftdc.readChunkDoc unzip fuel

structure State (ρ δ γ μ : Type) where
  consumer : Consumer
  parser : Parser δ γ μ
  reader : Reader ρ δ
  /-- `pipe` is closed -/
  pipeClosed : Bool
  /-- `ipc` is closed -/
  ipcClosed : Bool
  ctxDone : Bool
  catcher : List Fault
  /-- the collector of `ReadMetrics`, `ReadStructuredMetrics`, `ReadMatrix` or `ReadSeries` after `defer out.catcher.Push(chunks.Close())` -/
  outer : Option (List Fault)
  crashed : Bool

/-- the start (x/ftdc/iterator_chunk.go:19-25) -/
def new {ρ δ γ μ : Type} (r : ρ) (m : μ) : State ρ δ γ μ := ⟨.selecting, .selecting m, .reading r, false, false, false, [], none, false⟩

/-- what is done in a step -/
inductive Label (γ : Type) where
  /-- `yield` is called -/
  | yield (c : γ)
  /-- `yield` returns false -/
  | stop
  /-- the rest of the loop -/
  | consumer
  /-- `readChunks`, apart from giving a chunk to the loop -/
  | parser
  /-- `readDiagnostic`, apart from giving a document to `readChunks` -/
  | reader
  /-- `defer out.catcher.Push(chunks.Close())` -/
  | collect
  /-- `Close` returns these errors -/
  | close (es : List Fault)

inductive Step {ρ δ γ μ : Type} (y : Sys ρ δ γ μ) : State ρ δ γ μ → Label γ → State ρ δ γ μ → Prop where
  /-- `doc, err := readBufBSON(buf)` (x/ftdc/read.go:21) -/
  | read {s r d r'} : s.crashed = false → s.reader = .reading r → y.read r = .ok (d, r') → Step y s .reader { s with reader := .sending d r' }
  /-- `return err` (x/ftdc/read.go:22-27) -/
  | readErr {s r e} : s.crashed = false → s.reader = .reading r → y.read r = .err e →
      Step y s .reader { s with reader := .closing (if e = .eof then none else some (.error e)) }
  | readPanic {s r} : s.crashed = false → s.reader = .reading r → y.read r = .panic → Step y s .reader { s with crashed := true }
  /-- `case <-ctx.Done()` (x/ftdc/read.go:31) -/
  | readDone {s d r} : s.crashed = false → s.reader = .sending d r → s.ctxDone = true → Step y s .reader { s with reader := .closing none }
  /-- `defer close(ch)` (x/ftdc/read.go:18) -/
  | readClose {s e} : s.crashed = false → s.reader = .closing e → Step y s .reader { s with reader := .pushing e, ipcClosed := true }
  /-- `out.catcher.Push(…)` (x/ftdc/iterator_chunk.go:25) -/
  | readPush {s e} : s.crashed = false → s.reader = .pushing e → Step y s .reader { s with reader := .ended, catcher := s.catcher ++ e.toList }
  /-- `case ch <- doc` (x/ftdc/read.go:29) and `case doc, ok := <-ch` (x/ftdc/read.go:46) -/
  | handOver {s d r m} : s.crashed = false → s.reader = .sending d r → s.parser = .selecting m →
      Step y s .parser { s with reader := .reading r, parser := .parsing m d }
  /-- `if !ok { return nil }` (x/ftdc/read.go:47) -/
  | parseEnd {s m} : s.crashed = false → s.parser = .selecting m → s.ipcClosed = true → Step y s .parser { s with parser := .closing none }
  /-- `case <-ctx.Done()` (x/ftdc/read.go:44) -/
  | parseDone {s m} : s.crashed = false → s.parser = .selecting m → s.ctxDone = true → Step y s .parser { s with parser := .closing (some .canceled) }
  /-- a document without a chunk: `continue` (x/ftdc/read.go:57-66) -/
  | parseNone {s m d m'} : s.crashed = false → s.parser = .parsing m d → y.parse m d = .ok (m', none) → Step y s .parser { s with parser := .selecting m' }
  /-- a document with a chunk (x/ftdc/read.go:67-144) -/
  | parseSome {s m d m' c} : s.crashed = false → s.parser = .parsing m d → y.parse m d = .ok (m', some c) → Step y s .parser { s with parser := .sending m' c }
  /-- one of `return …` (x/ftdc/read.go:71-133) -/
  | parseErr {s m d e} : s.crashed = false → s.parser = .parsing m d → y.parse m d = .err e → Step y s .parser { s with parser := .closing (some (.error e)) }
  | parsePanic {s m d} : s.crashed = false → s.parser = .parsing m d → y.parse m d = .panic → Step y s .parser { s with crashed := true }
  /-- `case <-ctx.Done()` (x/ftdc/read.go:153) -/
  | sendDone {s m c} : s.crashed = false → s.parser = .sending m c → s.ctxDone = true → Step y s .parser { s with parser := .closing none }
  /-- `defer close(o)` (x/ftdc/read.go:38) -/
  | parseClose {s e} : s.crashed = false → s.parser = .closing e → Step y s .parser { s with parser := .pushing e, pipeClosed := true }
  /-- `out.catcher.Push(…)` (x/ftdc/iterator_chunk.go:24) -/
  | parsePush {s e} : s.crashed = false → s.parser = .pushing e → Step y s .parser { s with parser := .ended, catcher := s.catcher ++ e.toList }
  /-- `case o <- &Chunk{…}` (x/ftdc/read.go:146) and `case elem, ok := <-pipe` (x/ftdc/iterator_chunk.go:31) -/
  | yield {s m c} : s.crashed = false → s.parser = .sending m c → s.consumer = .selecting →
      Step y s (.yield c) { s with parser := .selecting m, consumer := .yielding }
  /-- `yield` returns true -/
  | again {s} : s.crashed = false → s.consumer = .yielding → Step y s .consumer { s with consumer := .selecting }
  /-- `yield` returns false (x/ftdc/iterator_chunk.go:35) -/
  | enough {s} : s.crashed = false → s.consumer = .yielding → Step y s .stop { s with consumer := .returning }
  /-- `if !ok { return }` (x/ftdc/iterator_chunk.go:32) -/
  | end_ {s} : s.crashed = false → s.consumer = .selecting → s.pipeClosed = true → Step y s .consumer { s with consumer := .returning }
  /-- `case <-ctx.Done()` (x/ftdc/iterator_chunk.go:29) -/
  | done {s} : s.crashed = false → s.consumer = .selecting → s.ctxDone = true → Step y s .consumer { s with consumer := .returning }
  /-- `defer cancel()` (x/ftdc/iterator_chunk.go:22) -/
  | cancel {s} : s.crashed = false → s.consumer = .returning → Step y s .consumer { s with consumer := .returned, ctxDone := true }
  /-- `out.catcher.Push(chunks.Close())` (x/ftdc/iterator.go:33, 55, 82, 130) -/
  | collect {s} : s.crashed = false → s.consumer = .returned → s.outer = none → Step y s .collect { s with outer := some s.catcher }
  /-- `Close` (x/ftdc/iterator.go:23) -/
  | close {s} : s.crashed = false → Step y s (.close s.catcher) s

/-- any number of steps -/
inductive Steps {ρ δ γ μ : Type} (y : Sys ρ δ γ μ) : State ρ δ γ μ → List (Label γ) → State ρ δ γ μ → Prop where
  | refl {s} : Steps y s [] s
  | step {s t u l ls} : Step y s l t → Steps y t ls u → Steps y s (l :: ls) u

end Birch.Model.ReadPipe
