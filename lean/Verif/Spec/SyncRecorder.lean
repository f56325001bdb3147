import Verif.Model.SyncRecorder

/- What executions of the synchronized recorder and the shim say. -/

namespace Birch.Spec.SyncRecorder
open Birch Model Model.SyncRecorder
open _root_.Birch.Model.Recorders (Call)

variable {σ ρ : Type}

/-- the caller has the lock -/
def Holds : Caller σ ρ → Prop
  | .inside _ => True
  | .loaded .. => True
  | .done .. => True
  | _ => False

/-- the calls of the methods of the recorder inside, in the order in which they end: who, what and with which result -/
def effects : List (Label ρ) → List (Nat × Call × Option ρ)
  | [] => []
  | .effect i c r :: ls => (i, c, r) :: effects ls
  | _ :: ls => effects ls

/-- a history of calls one after the other, from a state to a state -/
inductive Sequential (apply : Call → σ → σ × Option ρ → Prop) : σ → List (Nat × Call × Option ρ) → σ → Prop where
  | nil {v} : Sequential apply v [] v
  | cons {v i c r w l u} : apply c v (w, r) → Sequential apply w l u → Sequential apply v ((i, c, r) :: l) u

/-- what the caller `i` does, without the lock -/
def ofCaller (i : Nat) : List (Label ρ) → List (Label ρ)
  | [] => []
  | .call j o :: ls => if j = i then .call j o :: ofCaller i ls else ofCaller i ls
  | .effect j o r :: ls => if j = i then .effect j o r :: ofCaller i ls else ofCaller i ls
  | .ret j o r :: ls => if j = i then .ret j o r :: ofCaller i ls else ofCaller i ls
  | _ :: ls => ofCaller i ls

/-- Calls one after the other: each is called, the same method of the recorder inside has its effect, and the call returns with its result or panics as it does;
    the last one may not be over. -/
inductive Calls (i : Nat) : List (Label ρ) → Prop where
  | nil : Calls i []
  | called {c} : Calls i [.call i c]
  | pending {c r} : Calls i [.call i c, .effect i c (some r)]
  | returned {c r l} : Calls i l → Calls i (.call i c :: .effect i c (some r) :: .ret i c r :: l)
  | panicked {c l} : Calls i l → Calls i (.call i c :: .effect i c none :: l)

/-- a method of the recorder inside panicked -/
def Panicked (ls : List (Label ρ)) : Prop := ∃ i c, .effect i c none ∈ ls

/-- a new call of a method -/
def IsCall : Label ρ → Prop
  | .call .. => True
  | _ => False

def recorderCalls : List Act → List Call
  | [] => []
  | .recorder c :: as => c :: recorderCalls as
  | .timer _ :: as => recorderCalls as

def timerCalls : List Act → List TimerOp
  | [] => []
  | .timer o :: as => o :: timerCalls as
  | .recorder _ :: as => timerCalls as

def isReset : Call → Bool
  | .reset => true
  | _ => false

end Birch.Spec.SyncRecorder
