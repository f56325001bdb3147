import Verif.Model.Recorders
import Verif.Model.Synchronized

/-
Model of the recorders that wrap another one: the synchronized recorder (x/ftdc/events/recorder_wrapper_sync.go), as a transition system of any number of callers
and its mutex, and the shim for the testing package (x/ftdc/events/recorder_wrapper_stdlib.go).  The recorder inside is any `σ`; its methods may panic.  A method reads
the state and writes the new one in two steps, so that without the lock calls could be lost.  The fairness of the lock is not modelled.
-/

namespace Birch.Model.SyncRecorder
open Birch Model
open _root_.Birch.Model.Recorders (Call)
open _root_.Birch.Model.Interval (upd)

/-- the method of the recorder inside that each method calls (x/ftdc/events/recorder_wrapper_sync.go:62-80) -/
def forward : Call → Call
  | .setID i => .setID i
  | .setTime t => .setTime t
  | .setTotalDuration d => .setTotalDuration d
  | .setDuration d => .setDuration d
  | .incOperations v => .incOperations v
  | .incIterations v => .incIterations v
  | .incSize v => .incSize v
  | .incError v => .incError v
  | .setState v => .setState v
  | .setWorkers v => .setWorkers v
  | .setFailed b => .setFailed b
  | .beginIteration => .beginIteration
  | .endIteration d => .endIteration d
  | .endTest => .endTest
  | .reset => .reset

/-- a goroutine that uses the recorder: not in a call, blocked in `r.Lock()`, holding the lock, after reading the state, before unlocking -/
inductive Caller (σ ρ : Type) where
  | idle
  | waiting (c : Call)
  | inside (c : Call)
  | loaded (c : Call) (v : σ)
  | done (c : Call) (r : ρ)

/-- `syncRecorder` (x/ftdc/events/recorder_wrapper_sync.go:8-11) with the goroutines; `holder` has the lock -/
structure State (σ ρ : Type) where
  inner : σ
  holder : Option Nat
  callers : Nat → Caller σ ρ

/-- `NewSynchronizedRecorder` (x/ftdc/events/recorder_wrapper_sync.go:19-23) -/
def new {σ ρ : Type} (r : σ) : State σ ρ := ⟨r, none, fun _ => .idle⟩

/-- what is done in a step -/
inductive Label (ρ : Type) where
  | call (i : Nat) (c : Call)
  | lock (i : Nat)
  | load (i : Nat)
  /-- the method of the recorder inside ends: with a result, or with a panic (`none`) -/
  | effect (i : Nat) (c : Call) (r : Option ρ)
  /-- the lock is given back and the method returns -/
  | ret (i : Nat) (c : Call) (r : ρ)

/-- the steps; `apply` says what the methods of the recorder inside do: from a state to a state, with a result or a panic.  There may be several outcomes, as the clock is read.
    `doOpInt`, `doOpDur`, `doOpTime`, `doOpBool`, `doOpErr` and `doOp` (x/ftdc/events/recorder_wrapper_sync.go:25-60) are the same apart from the types. -/
inductive Step {σ ρ : Type} (apply : Call → σ → σ × Option ρ → Prop) : State σ ρ → Label ρ → State σ ρ → Prop where
  | call {s i c} : s.callers i = .idle → Step apply s (.call i c) { s with callers := upd s.callers i (.waiting c) }
  /-- `r.Lock()` -/
  | lock {s i c} : s.callers i = .waiting c → s.holder = none → Step apply s (.lock i) { s with callers := upd s.callers i (.inside c), holder := some i }
  | load {s i c} : s.callers i = .inside c → Step apply s (.load i) { s with callers := upd s.callers i (.loaded c s.inner) }
  /-- `op(val)` -/
  | store {s i c v w r} : s.callers i = .loaded c v → apply (forward c) v (w, some r) →
      Step apply s (.effect i (forward c) (some r)) { s with callers := upd s.callers i (.done c r), inner := w }
  /-- `op(val)` panics: `r.Unlock()` is not deferred, so it is skipped.  The caller may recover. -/
  | panic {s i c v w} : s.callers i = .loaded c v → apply (forward c) v (w, none) →
      Step apply s (.effect i (forward c) none) { s with callers := upd s.callers i .idle, inner := w }
  /-- `r.Unlock()` -/
  | unlock {s i c r} : s.callers i = .done c r → Step apply s (.ret i c r) { s with callers := upd s.callers i .idle, holder := none }

/-- any number of steps -/
inductive Steps {σ ρ : Type} (apply : Call → σ → σ × Option ρ → Prop) : State σ ρ → List (Label ρ) → State σ ρ → Prop where
  | refl {s} : Steps apply s [] s
  | step {s t u l ls} : Step apply s l t → Steps apply t ls u → Steps apply s (l :: ls) u

/-- the recorders of Model/Recorders as the recorder inside: the clock shows anything -/
def performance (k : Recorders.Flavor) (c : Call) (r : Recorders.Recorder) (o : Recorders.Recorder × Option Unit) : Prop :=
  ∃ now, o = (Recorders.call k r now c, some ())

/-! ### the synchronized collector of the events package -/

/-- the methods of `Collector` (x/ftdc/events/collector.go:14-33); `Add` and `AddEvent` with what is added -/
inductive Method (α β μ : Type) where
  | add (x : α)
  | addEvent (p : β)
  | setMetadata (m : μ)
  | resolve
  | reset
  | info

/-- `Info` takes the read lock, the others the lock (x/ftdc/events/collector.go:217-255).  They are deferred to be given back, also after a panic, so that the transition
    system of Model/Synchronized is that of this collector, with a panic as one more result. -/
def Method.isRead {α β μ : Type} : Method α β μ → Bool
  | .info => true
  | _ => false

/-! ### the shim -/

/-- the methods of `TimerManager` (x/ftdc/events/recorder_wrapper_stdlib.go:6-10) -/
inductive TimerOp where
  | reset
  | start
  | stop
  deriving DecidableEq

/-- what the shim does: a call of the timer or of the recorder inside -/
inductive Act where
  | timer (o : TimerOp)
  | recorder (c : Call)

/-- the methods of `Recorder` of `stdShim` (x/ftdc/events/recorder_wrapper_stdlib.go:24-32): `Reset` is its own, all others are those of the embedded recorder -/
def shimCall : Call → List Act
  | .reset => [.timer .reset, .recorder .reset]
  | c => [.recorder c]

/-- `stdShim.Begin` (x/ftdc/events/recorder_wrapper_stdlib.go:33-36), which is not a method of `Recorder` -/
def shimBegin : List Act := [.timer .start, .recorder .beginIteration]

/-- `stdShim.End` (x/ftdc/events/recorder_wrapper_stdlib.go:37-40), which is not a method of `Recorder` -/
def shimEnd (d : Int) : List Act := [.timer .stop, .recorder (.endIteration d)]

end Birch.Model.SyncRecorder
