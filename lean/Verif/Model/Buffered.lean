import Verif.Model.Interval

/-
Model of the buffered collector (x/ftdc/collector_buffered.go): any number of callers, its goroutine, the channel and the context, as a
transition system.  Every step of `Step` is one thing that one goroutine does; everything in between may be interleaved.  The collector
inside is any `σ` with any `add`; its methods are atomic here (the code does not protect it: `Resolve` and the goroutine race).
A `panic` of a caller does not stop the others here, while it ends the process if nobody recovers.
-/

namespace Birch.Model.Buffered
open Birch Model Interval

/-- a goroutine that uses the collector: not in `Add`, in the `select` of `Add`, after a panic -/
inductive Caller (α : Type) where
  | idle
  | selecting (x : α)
  | panicked

/-- the goroutine (x/ftdc/collector_buffered.go:25-41): in `select`, in `Add` of the collector inside, before `close(c.pipe)`, before
    `len(c.pipe) != 0`, in the `range` loop, in `Add` there, returned -/
inductive Worker (α : Type) where
  | selecting
  | adding (x : α)
  | closing
  | checking
  | ranging
  | draining (x : α)
  | returned

/-- `bufferedCollector` (x/ftdc/collector_buffered.go:9-14) with the channel and the goroutines -/
structure State (σ α : Type) where
  inner : σ
  pipe : List α
  closed : Bool
  catcher : List Err
  ctxDone : Bool
  worker : Worker α
  callers : Nat → Caller α

/-- `NewBufferedCollector` (x/ftdc/collector_buffered.go:18-43) -/
def new {σ α : Type} (coll : σ) : State σ α := ⟨coll, [], false, [], false, .selecting, fun _ => .idle⟩

/-- what is done in a step -/
inductive Label (σ α : Type) where
  /-- `Add` is called -/
  | call (i : Nat) (x : α)
  /-- `Add` returns nil -/
  | sent (i : Nat) (x : α)
  /-- `Add` returns the error of the context -/
  | refused (i : Nat) (x : α)
  /-- `Add` panics: send on closed channel -/
  | panicked (i : Nat) (x : α)
  /-- `Add` of the collector inside -/
  | added (x : α)
  /-- another step of the goroutine -/
  | worker
  | cancel
  /-- `Resolve` returns the errors, or what the collector inside gives in this state -/
  | resolved (r : List Err ⊕ σ)

/-- the steps, for a channel with room for `size` things -/
inductive Step {σ α : Type} (add : σ → α → σ × Option Err) (size : Nat) : State σ α → Label σ α → State σ α → Prop where
  | call {s i x} : s.callers i = .idle → Step add size s (.call i x) { s with callers := upd s.callers i (.selecting x) }
  /-- `case c.pipe <- in` with room in the channel (x/ftdc/collector_buffered.go:49) -/
  | send {s i x} : s.callers i = .selecting x → s.closed = false → s.pipe.length < size →
      Step add size s (.sent i x) { s with callers := upd s.callers i .idle, pipe := s.pipe ++ [x] }
  /-- … with the goroutine waiting -/
  | handOver {s i x} : s.callers i = .selecting x → s.closed = false → s.pipe = [] → s.worker = .selecting →
      Step add size s (.sent i x) { s with callers := upd s.callers i .idle, worker := .adding x }
  /-- … on a closed channel -/
  | panic {s i x} : s.callers i = .selecting x → s.closed = true → Step add size s (.panicked i x) { s with callers := upd s.callers i .panicked }
  /-- `case <-c.ctx.Done()` (x/ftdc/collector_buffered.go:47) -/
  | refuse {s i x} : s.callers i = .selecting x → s.ctxDone = true → Step add size s (.refused i x) { s with callers := upd s.callers i .idle }
  /-- `case in := <-c.pipe` (x/ftdc/collector_buffered.go:37) -/
  | receive {s x r} : s.worker = .selecting → s.pipe = x :: r → Step add size s .worker { s with worker := .adding x, pipe := r }
  /-- `c.catcher.Push(c.Collector.Add(in))` (x/ftdc/collector_buffered.go:38) -/
  | add {s x} : s.worker = .adding x →
      Step add size s (.added x) { s with worker := .selecting, inner := (add s.inner x).1, catcher := s.catcher ++ (add s.inner x).2.toList }
  /-- `case <-ctx.Done()` (x/ftdc/collector_buffered.go:28) -/
  | notice {s} : s.worker = .selecting → s.ctxDone = true → Step add size s .worker { s with worker := .closing }
  /-- `close(c.pipe)` (x/ftdc/collector_buffered.go:29) -/
  | close {s} : s.worker = .closing → Step add size s .worker { s with worker := .checking, closed := true }
  /-- `if len(c.pipe) != 0` (x/ftdc/collector_buffered.go:30) -/
  | check {s} : s.worker = .checking → Step add size s .worker { s with worker := if s.pipe.length ≠ 0 then .ranging else .returned }
  /-- `for in := range c.pipe` (x/ftdc/collector_buffered.go:31) -/
  | next {s x r} : s.worker = .ranging → s.pipe = x :: r → Step add size s .worker { s with worker := .draining x, pipe := r }
  /-- `c.catcher.Push(c.Collector.Add(in))` (x/ftdc/collector_buffered.go:32) -/
  | drain {s x} : s.worker = .draining x →
      Step add size s (.added x) { s with worker := .ranging, inner := (add s.inner x).1, catcher := s.catcher ++ (add s.inner x).2.toList }
  /-- the end of the loop and `return` (x/ftdc/collector_buffered.go:36) -/
  | finish {s} : s.worker = .ranging → s.pipe = [] → Step add size s .worker { s with worker := .returned }
  /-- the context ends -/
  | cancel {s} : Step add size s .cancel { s with ctxDone := true }
  /-- `Resolve` (x/ftdc/collector_buffered.go:54-60) -/
  | resolve {s} : Step add size s (.resolved (if s.catcher = [] then .inr s.inner else .inl s.catcher)) s

/-- any number of steps -/
inductive Steps {σ α : Type} (add : σ → α → σ × Option Err) (size : Nat) : State σ α → List (Label σ α) → State σ α → Prop where
  | refl {s} : Steps add size s [] s
  | step {s t u l ls} : Step add size s l t → Steps add size t ls u → Steps add size s (l :: ls) u

end Birch.Model.Buffered
