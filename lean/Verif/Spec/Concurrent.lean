import Verif.Model.Buffered
import Verif.Model.Synchronized

/- What executions of the concurrent collectors say. -/

namespace Birch.Spec.Concurrent
open Birch

section
open Model.Buffered
variable {σ α : Type}

/-- the items for which `Add` returned nil, in the order in which it did -/
def sent : List (Label σ α) → List α
  | [] => []
  | .sent _ x :: ls => x :: sent ls
  | _ :: ls => sent ls

/-- the items given to the collector inside -/
def added : List (Label σ α) → List α
  | [] => []
  | .added x :: ls => x :: added ls
  | _ :: ls => added ls

/-- the items with which the caller `i` called `Add` -/
def called (i : Nat) : List (Label σ α) → List α
  | [] => []
  | .call j x :: ls => if j = i then x :: called i ls else called i ls
  | _ :: ls => called i ls

/-- what happened to the items of the caller `i` -/
inductive Outcome where
  | accepted
  | refused
  | panicked
  deriving DecidableEq

def outcomes (i : Nat) : List (Label σ α) → List (α × Outcome)
  | [] => []
  | .sent j x :: ls => if j = i then (x, .accepted) :: outcomes i ls else outcomes i ls
  | .refused j x :: ls => if j = i then (x, .refused) :: outcomes i ls else outcomes i ls
  | .panicked j x :: ls => if j = i then (x, .panicked) :: outcomes i ls else outcomes i ls
  | _ :: ls => outcomes i ls

/-- adding all of them one after the other: the collector and the errors -/
def addAll (add : σ → α → σ × Option Err) : σ → List α → σ × List Err
  | c, [] => (c, [])
  | c, x :: xs => ((addAll add (add c x).1 xs).1, (add c x).2.toList ++ (addAll add (add c x).1 xs).2)

/-- the steps of the goroutine -/
def IsWorker : Label σ α → Prop
  | .worker => True
  | .added _ => True
  | _ => False

/-- the number of steps of the goroutine -/
def workerSteps : List (Label σ α) → Nat
  | [] => 0
  | .added _ :: ls => workerSteps ls + 1
  | .worker :: ls => workerSteps ls + 1
  | _ :: ls => workerSteps ls

end

section
open Model.Synchronized
variable {σ ω ρ : Type}

/-- the method whose lock the caller has -/
def held : Caller σ ω ρ → Option ω
  | .inside o => some o
  | .loaded o _ => some o
  | .done o _ => some o
  | _ => none

/-- the calls of the methods of the collector inside, in the order in which they end: who, what and with which result -/
def effects : List (Label ω ρ) → List (Nat × ω × ρ)
  | [] => []
  | .effect i o r :: ls => (i, o, r) :: effects ls
  | _ :: ls => effects ls

/-- a history of calls one after the other, from a state to a state: each result is that of the method -/
inductive Sequential (apply : ω → σ → σ × ρ) : σ → List (Nat × ω × ρ) → σ → Prop where
  | nil {v} : Sequential apply v [] v
  | cons {v i o l w} : Sequential apply (apply o v).1 l w → Sequential apply v ((i, o, (apply o v).2) :: l) w

/-- what the caller `i` does, without the lock -/
def ofCaller (i : Nat) : List (Label ω ρ) → List (Label ω ρ)
  | [] => []
  | .call j o :: ls => if j = i then .call j o :: ofCaller i ls else ofCaller i ls
  | .effect j o r :: ls => if j = i then .effect j o r :: ofCaller i ls else ofCaller i ls
  | .ret j o r :: ls => if j = i then .ret j o r :: ofCaller i ls else ofCaller i ls
  | _ :: ls => ofCaller i ls

/-- Calls one after the other: each is called, has its effect, and returns with the result of the effect; the last one may not be over. -/
inductive Calls (i : Nat) : List (Label ω ρ) → Prop where
  | nil : Calls i []
  | called {o} : Calls i [.call i o]
  | pending {o r} : Calls i [.call i o, .effect i o r]
  | cons {o r l} : Calls i l → Calls i (.call i o :: .effect i o r :: .ret i o r :: l)

end
end Birch.Spec.Concurrent
