import Verif.Model.Collect
import Verif.Model.Ftdc
import Verif.Spec.FtdcDocs
import Verif.Spec.Custom

/- What `CollectRuntime` is to leave in its files (C84). -/

namespace Birch.Spec.Collect
open Birch Model Model.Ftdc Model.Collect

/-- options that make sense -/
def Valid (o : Options) : Prop :=
  1000000 ≤ o.collectionInterval ∧ o.collectionInterval ≤ o.flushInterval ∧ 10 ≤ o.sampleCount ∧ ¬ (o.skipGolang = true ∧ o.skipSystem = true ∧ o.skipProcess = true) ∧
  (o.parallel = true → o.collectors ≠ [])

/-- the order of collectors -/
def before (a b : Collector) : Bool := decide (a.name < b.name)

/-- what happens: a sample is taken, the time for a new file comes, no sample can be taken, the context is cancelled -/
inductive Turn where
  | sample (f : Fields)
  | rotate
  | fail
  | stop

/-- the turns of the loop are these; the samples are numbered from `i` on -/
def Turns : Nat → List Event → List Turn → Prop
  | _, [], [] => True
  | i, .collect g :: evs, .sample f :: ts => (∃ d, g i = .ok d ∧ RepFields d f) ∧ Turns (i + 1) evs ts
  | i, .collect g :: evs, .fail :: ts => (∃ e, g i = .err e) ∧ Turns i evs ts
  | i, .flush :: evs, .rotate :: ts => Turns i evs ts
  | i, .done :: evs, .stop :: ts => Turns i evs ts
  | _, _, _ => False

/-- the samples until the end -/
def sampled : List Turn → List Fields
  | .sample f :: ts => f :: sampled ts
  | .rotate :: ts => sampled ts
  | _ => []

/-- the samples of each file, the first having some already: rotation starts another file, unless this has no samples -/
def filesFrom (cur : List Fields) : List Turn → List (List Fields)
  | .sample f :: ts => filesFrom (cur ++ [f]) ts
  | .rotate :: ts => if cur = [] then filesFrom [] ts else cur :: filesFrom [] ts
  | _ => [cur]

/-- samples are read from the file, in chunks of `max + 1` -/
def Reads (fsub : Nat → Nat → Nat) (unzip : Bytes → Option Bytes) (max : Nat) (file : Bytes) (fss : List Fields) : Prop :=
  ∃ segs, segs.flatten = fss ∧ Blocks (max + 1) segs ∧
    ∀ s : Stream.Source, s.left = file → ∃ M, ∀ m, M ≤ m → ∃ ds, readStructuredMetrics unzip m s = .ok ds ∧ RepDocs ds (backChunks fsub segs)

/-- each file has its samples -/
def EachReads (fsub : Nat → Nat → Nat) (unzip : Bytes → Option Bytes) (max : Nat) : List Bytes → List (List Fields) → Prop
  | [], [] => True
  | b :: bs, fss :: rest => Reads fsub unzip max b fss ∧ EachReads fsub unzip max bs rest
  | _, _ => False

end Birch.Spec.Collect
