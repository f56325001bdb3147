import Verif.Model.Pool

/- What the worker pools of x/ftdc/metrics should do. -/

namespace Birch.Spec.Pool
open Birch.Model.Pool

variable {α β : Type}

/-- nothing more can happen -/
def Stuck (S : Sys α β) (s : State α β) : Prop := ¬ ∃ t, Step S s t

end Birch.Spec.Pool
