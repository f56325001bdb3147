import Verif.Model.FtdcCollectors

/- The collector behind an `io.WriteCloser` (x/ftdc/writer.go) and the one that skips samples (x/ftdc/collector_sample.go). -/

namespace Birch.Model.Ftdc
open Birch

/-- `writerCollector` (x/ftdc/writer.go:10-13).  `collector.base.output` is the writer; `closes` counts the calls of its `Close`,
    which returns `closeErr`. -/
structure WriterCollector where
  collector : StreamingDynamic
  closeErr : Option Err
  closes : Nat

/-- `NewWriterCollector` (x/ftdc/writer.go:15-23) -/
def WriterCollector.new (chunkSize : Nat) (w : Sink) (closeErr : Option Err) : WriterCollector := ⟨StreamingDynamic.new chunkSize w, closeErr, 0⟩

/-- `Write` (x/ftdc/writer.go:25-34): the collector, the count and the error -/
def WriterCollector.write (fsub : Nat → Nat → Nat) (zip : Bytes → Bytes) (now : Nat → Time) (fuel : Nat) (w : WriterCollector) (b : Bytes) :
    Res (WriterCollector × Nat × Option Err) :=
  match readDocument fuel b with
  | .ok d => do
    match ← w.collector.add fsub zip now fuel d with
    | (c, some e) => .ok ({ w with collector := c }, 0, some e)
    | (c, none) => .ok ({ w with collector := c }, b.length, none)
  | .err e => .ok (w, 0, some e)
  | .panic => .panic
  | .oof => .oof

/-- `Close` (x/ftdc/writer.go:36-45) -/
def WriterCollector.close (zip : Bytes → Bytes) (now : Nat → Time) (fuel : Nat) (w : WriterCollector) : Res (WriterCollector × Option Err) := do
  match ← w.collector.flush zip now fuel with
  | (c, some e) => .ok ({ w with collector := c }, some e)
  | (c, none) => .ok ({ w with collector := c, closes := w.closes + 1 }, w.closeErr)

/-- a caller that writes one thing after the other and carries on after errors -/
def writeEach (fsub : Nat → Nat → Nat) (zip : Bytes → Bytes) (now : Nat → Time) (n : Nat) : WriterCollector → List Bytes → Res (WriterCollector × List (Nat × Option Err))
  | w, [] => .ok (w, [])
  | w, b :: bs => do
    let (w, k, e) ← w.write fsub zip now n b
    let (w, es) ← writeEach fsub zip now n w bs
    .ok (w, (k, e) :: es)

/-! ### sampling -/

/-- `samplingCollector` (x/ftdc/collector_sample.go:7-11) around any collector `σ`.  Times are nanoseconds after the zero time. -/
structure Sampling (σ : Type) where
  minimumInterval : Int
  lastCollection : Int
  inner : σ

/-- `NewSamplingCollector` (x/ftdc/collector_sample.go:17-22) -/
def Sampling.new {σ : Type} (interval : Int) (inner : σ) : Sampling σ := ⟨interval, 0, inner⟩

/-- `Time.Sub` of the standard library, which stops at the limits of a `Duration` -/
def timeSub (t u : Int) : Int := if 2 ^ 63 - 1 < t - u then 2 ^ 63 - 1 else if t - u < -2 ^ 63 then -2 ^ 63 else t - u

/-- `Add` (x/ftdc/collector_sample.go:24-32); `t` is the time of `time.Since` and `t'` that of `time.Now` -/
def Sampling.add {σ α : Type} (add : σ → α → σ × Option Err) (c : Sampling σ) (t t' : Int) (d : α) : Sampling σ × Option Err :=
  if timeSub t c.lastCollection < c.minimumInterval then (c, none)
  else ({ c with lastCollection := t', inner := (add c.inner d).1 }, (add c.inner d).2)

end Birch.Model.Ftdc
