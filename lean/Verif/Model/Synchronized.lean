import Verif.Model.Interval

/-
Model of the synchronized collector (x/ftdc/collector_sync.go): any number of callers and the lock, as a transition system.  The
collector inside is any `σ`; a method that may change it reads the state and writes the new one in two steps, so that without the
lock calls could be lost.  The fairness of the lock is not modelled.
-/

namespace Birch.Model.Synchronized
open Birch Model Interval

/-- a goroutine that uses the collector: not in a call, blocked in `c.mu.Lock()` or `c.mu.RLock()`, holding the lock, after reading the
    state, before unlocking -/
inductive Caller (σ ω ρ : Type) where
  | idle
  | waiting (o : ω)
  | inside (o : ω)
  | loaded (o : ω) (v : σ)
  | done (o : ω) (r : ρ)

/-- `synchronizedCollector` (x/ftdc/collector_sync.go:7-10) with the goroutines; `writer` holds the lock, `readers` the read lock -/
structure State (σ ω ρ : Type) where
  inner : σ
  writer : Option Nat
  readers : List Nat
  callers : Nat → Caller σ ω ρ

/-- `NewSynchronizedCollector` (x/ftdc/collector_sync.go:15-19) -/
def new {σ ω ρ : Type} (coll : σ) : State σ ω ρ := ⟨coll, none, [], fun _ => .idle⟩

/-- what is done in a step -/
inductive Label (ω ρ : Type) where
  | call (i : Nat) (o : ω)
  | lock (i : Nat)
  | load (i : Nat)
  /-- the method of the collector inside ends -/
  | effect (i : Nat) (o : ω) (r : ρ)
  /-- the lock is given back and the method returns -/
  | ret (i : Nat) (o : ω) (r : ρ)

/-- the steps; `isRead` says which methods use the read lock (`Info`), `apply` what the methods of the collector inside do -/
inductive Step {σ ω ρ : Type} (isRead : ω → Bool) (apply : ω → σ → σ × ρ) : State σ ω ρ → Label ω ρ → State σ ω ρ → Prop where
  | call {s i o} : s.callers i = .idle → Step isRead apply s (.call i o) { s with callers := upd s.callers i (.waiting o) }
  /-- `c.mu.Lock()` (x/ftdc/collector_sync.go:22, 28, 35, 42) -/
  | lock {s i o} : s.callers i = .waiting o → isRead o = false → s.writer = none → s.readers = [] →
      Step isRead apply s (.lock i) { s with callers := upd s.callers i (.inside o), writer := some i }
  /-- `c.mu.RLock()` (x/ftdc/collector_sync.go:49) -/
  | rlock {s i o} : s.callers i = .waiting o → isRead o = true → s.writer = none →
      Step isRead apply s (.lock i) { s with callers := upd s.callers i (.inside o), readers := i :: s.readers }
  | load {s i o} : s.callers i = .inside o → Step isRead apply s (.load i) { s with callers := upd s.callers i (.loaded o s.inner) }
  | store {s i o v} : s.callers i = .loaded o v → isRead o = false →
      Step isRead apply s (.effect i o (apply o v).2) { s with callers := upd s.callers i (.done o (apply o v).2), inner := (apply o v).1 }
  | answer {s i o v} : s.callers i = .loaded o v → isRead o = true →
      Step isRead apply s (.effect i o (apply o v).2) { s with callers := upd s.callers i (.done o (apply o v).2) }
  /-- `c.mu.Unlock()` -/
  | unlock {s i o r} : s.callers i = .done o r → isRead o = false →
      Step isRead apply s (.ret i o r) { s with callers := upd s.callers i .idle, writer := none }
  /-- `c.mu.RUnlock()` -/
  | runlock {s i o r} : s.callers i = .done o r → isRead o = true →
      Step isRead apply s (.ret i o r) { s with callers := upd s.callers i .idle, readers := s.readers.erase i }

/-- any number of steps -/
inductive Steps {σ ω ρ : Type} (isRead : ω → Bool) (apply : ω → σ → σ × ρ) : State σ ω ρ → List (Label ω ρ) → State σ ω ρ → Prop where
  | refl {s} : Steps isRead apply s [] s
  | step {s t u l ls} : Step isRead apply s l t → Steps isRead apply t ls u → Steps isRead apply s (l :: ls) u

end Birch.Model.Synchronized
