import Verif.Model.ReadPipe

/- What an execution of `ReadChunks` says. -/

namespace Birch.Spec.ReadPipe
open Birch Model.ReadPipe

variable {γ : Type}

/-- the things the loop over the iterator gets, in this order -/
def yields : List (Label γ) → List γ
  | [] => []
  | .yield c :: ls => c :: yields ls
  | _ :: ls => yields ls

/-- The loop is not left early. -/
def Whole (ls : List (Label γ)) : Prop := ∀ l ∈ ls, l ≠ .stop

/-- how many things are done, without `Close` -/
def work : List (Label γ) → Nat
  | [] => 0
  | .close _ :: ls => work ls
  | _ :: ls => work ls + 1

/-- The loop and both goroutines have returned. -/
def Over {ρ δ μ : Type} (s : State ρ δ γ μ) : Prop := s.consumer = .returned ∧ s.parser = .ended ∧ s.reader = .ended

end Birch.Spec.ReadPipe
