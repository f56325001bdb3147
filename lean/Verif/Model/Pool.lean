import Verif.Base

/-
Model of the worker pools of x/ftdc/metrics: `CollectAllProcesses` (process_info.go:80-116) and the parallel mode of `CollectOptions.generate` (metrics.go:94-131), as a
transition system of the workers and the goroutine that started them.

What is done for an item is a function that gives a result or panics.  Starting the workers is one step with the creation of the channels.
-/

namespace Birch.Model.Pool

/-- a pool -/
structure Sys (α β : Type) where
  /-- what a worker does with an item; `none` is a panic -/
  work : α → Option β
  /-- do the workers recover from panics? -/
  recovers : Bool
  /-- is the channel of the results closed after the workers have ended? -/
  closes : Bool

/-- `CollectAllProcesses` (x/ftdc/metrics/process_info.go:80-116): no `recover`, `close(infoChan)` -/
def processes {α β : Type} (work : α → Option β) : Sys α β := ⟨work, false, true⟩

/-- the parallel mode of `generate` (x/ftdc/metrics/metrics.go:94-131): with `recover`; `elems` is not closed -/
def collectors {α β : Type} (work : α → Option β) : Sys α β := ⟨work, true, false⟩

/-- a worker (process_info.go:99-106, metrics.go:112-123): at `range`, before the work, before the send, after `wg.Done()` on the way out of a panic, at the end -/
inductive Worker (α β : Type) where
  | receiving
  | working (x : α)
  | sending (y : β)
  | failed
  | ended

/-- has the worker called `wg.Done()`? -/
def Worker.done {α β : Type} : Worker α β → Bool
  | .failed => true
  | .ended => true
  | _ => false

/-- the goroutine that started the workers: in `wg.Wait()`, in the loop over the results, after the loop -/
inductive Main where
  | waiting
  | draining
  | returned
  deriving DecidableEq

/-- the state; `queue` is what is left in the channel of items, which is closed, `out` the channel of the results, with room for `cap`, `taken` the results that were taken from it,
    `errors` how many errors were pushed, `crashed` that a panic has ended the program -/
structure State (α β : Type) where
  queue : List α
  workers : List (Worker α β)
  out : List β
  cap : Nat
  closed : Bool
  taken : List β
  errors : Nat
  main : Main
  crashed : Bool

/-- the channels are made and filled, the workers started (process_info.go:86-99, metrics.go:94-112): at most `threads`, at most one for an item -/
def new {α β : Type} (threads : Nat) (items : List α) : State α β where
  queue := items
  workers := List.replicate (min threads items.length) .receiving
  out := []
  cap := items.length
  closed := false
  taken := []
  errors := 0
  main := .waiting
  crashed := false

/-- the steps -/
inductive Step {α β : Type} (S : Sys α β) : State α β → State α β → Prop where
  /-- `range` gives an item -/
  | receive {s a b x q} : s.crashed = false → s.workers = a ++ .receiving :: b → s.queue = x :: q → Step S s { s with workers := a ++ .working x :: b, queue := q }
  /-- `range` ends, as the channel is empty; `wg.Done()` -/
  | quit {s a b} : s.crashed = false → s.workers = a ++ .receiving :: b → s.queue = [] → Step S s { s with workers := a ++ .ended :: b }
  | finish {s a b x y} : s.crashed = false → s.workers = a ++ .working x :: b → S.work x = some y → Step S s { s with workers := a ++ .sending y :: b }
  /-- a panic: the deferred calls run from the last to the first, `wg.Done()` before `recover()` -/
  | panic {s a b x} : s.crashed = false → s.workers = a ++ .working x :: b → S.work x = none → S.recovers = true → Step S s { s with workers := a ++ .failed :: b }
  /-- `catcher.Push(…)` -/
  | push {s a b} : s.crashed = false → s.workers = a ++ .failed :: b → Step S s { s with workers := a ++ .ended :: b, errors := s.errors + 1 }
  /-- a panic that nobody recovers from -/
  | crash {s a b x} : s.crashed = false → s.workers = a ++ .working x :: b → S.work x = none → S.recovers = false → Step S s { s with crashed := true }
  /-- the send, if there is room -/
  | send {s a b y} : s.crashed = false → s.workers = a ++ .sending y :: b → s.out.length < s.cap → Step S s { s with workers := a ++ .receiving :: b, out := s.out ++ [y] }
  /-- `wg.Wait()` returns; the channel is closed or not -/
  | wait {s} : s.crashed = false → s.main = .waiting → s.workers.all Worker.done = true → Step S s { s with main := .draining, closed := S.closes }
  | drain {s y r} : s.crashed = false → s.main = .draining → s.out = y :: r → Step S s { s with out := r, taken := s.taken ++ [y] }
  /-- `range` ends only if the channel is closed -/
  | stop {s} : s.crashed = false → s.main = .draining → s.out = [] → s.closed = true → Step S s { s with main := .returned }

/-- `n` steps -/
inductive Steps {α β : Type} (S : Sys α β) : State α β → Nat → State α β → Prop where
  | refl {s} : Steps S s 0 s
  | step {s t u n} : Step S s t → Steps S t n u → Steps S s (n + 1) u

end Birch.Model.Pool
