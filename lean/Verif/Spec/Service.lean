import Verif.Model.Service
import Verif.Spec.Registry

/- What a connection of the service asks for, and what the client gets. -/

namespace Birch.Spec.Service
open Birch Model Model.Wire Model.Registry Model.Service Spec.Registry Spec.Wire

variable {H : Type}

/-- What the client sends when no context ends: these messages for these handlers, and then it ends with this error for the error handlers. -/
inductive Asks (y : Sys H) : Stream.Source → List (H × Message) → Option Fault → Prop where
  | eof {s s' fs} : readMessage y.fuel [] s = (.err .eof, s', fs) → Asks y s [] none
  | err {s e s' fs} : readMessage y.fuel [] s = (.err e, s', fs) → e ≠ .eof → Asks y s [] (some (.reading e))
  | panic {s s' fs} : readMessage y.fuel [] s = (.panic, s', fs) → Asks y s [] (some .panic)
  | undefined {s m s' fs} : readMessage y.fuel [] s = (.ok m, s', fs) → dispatch y.ops m = .ok none → Asks y s [] (some .undefined)
  | noScope {s m s' fs} : readMessage y.fuel [] s = (.ok m, s', fs) → dispatch y.ops m = .panic → Asks y s [] (some .panic)
  | next {s m s' fs h hs f} : readMessage y.fuel [] s = (.ok m, s', fs) → dispatch y.ops m = .ok (some h) → Asks y s' hs f → Asks y s ((h, m) :: hs) f

/-- the handlers that were started, and their messages -/
def started (s : State H) : List (H × Message) := s.tasks.map fun t => (t.handler, t.message)

/-- what the client gets from one handler -/
def reply (s : State H) (i : Nat) : List Bytes := (s.out.filter fun x => x.1 = i).map (·.2)

/-- The dispatcher and all handlers have returned. -/
def Over (s : State H) : Prop := s.crashed = false ∧ s.dispatcher = .ended ∧ ∀ t ∈ s.tasks, t.running = false

/-- the handler for a scope: the one registered for it, or else for it without context -/
def HandlerFor (cs : List (Scope × Option H)) (s : Scope) (h : H) : Prop :=
  Registered cs s h ∨ (∀ h', ¬ Registered cs s h') ∧ Registered cs { s with context := [] } h

/-- The first messages have these handlers; the connection ends with the last of them, or with a message that has no handler, or with a reply. -/
inductive Wants (cs : List (Scope × Option H)) : List WMsg → List (H × WMsg) → Option Fault → Prop where
  | done : Wants cs [] [] none
  | reply {w ws} : scopeOf w = none → Wants cs (w :: ws) [] (some .panic)
  | undefined {w ws s} : scopeOf w = some s → (∀ h, ¬ HandlerFor cs s h) → Wants cs (w :: ws) [] (some .undefined)
  | next {w ws s h hs f} : scopeOf w = some s → HandlerFor cs s h → Wants cs ws hs f → Wants cs (w :: ws) ((h, w) :: hs) f

/-- the goroutines got these messages, in this order -/
inductive Got : List (H × Message) → List (H × WMsg) → Prop where
  | nil : Got [] []
  | cons {h m w ms ws} : RepMsg m w → Got ms ws → Got ((h, m) :: ms) ((h, w) :: ws)

/-- the connections accepted in an execution of `Run` -/
def accepted {C : Type} : List (Option (Accepted C)) → List C
  | [] => []
  | some (.conn c) :: ls => c :: accepted ls
  | _ :: ls => accepted ls

/-- how many errors `Accept` has returned, apart from those that say that the context has ended -/
def refused {C : Type} : List (Option (Accepted C)) → Nat
  | [] => 0
  | some .err :: ls => refused ls + 1
  | _ :: ls => refused ls

end Birch.Spec.Service
