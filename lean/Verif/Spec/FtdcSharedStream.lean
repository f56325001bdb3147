import Verif.Spec.FtdcShared

/- Programs that add documents to a streaming collector, chunk by chunk. -/

namespace Birch.Spec.Shared
open Birch Model Model.Graph Model.Shared Spec.Graph

/-- a part of a program, the fields of the documents it adds, and what has become of the first of them and of the metadata at its end -/
structure Part where
  steps : List Step
  first : Fields
  rest : List Fields
  late : Fields
  md : Option Fields

/-- The program does what its parts say.  In a part it does not write to the values a base collector keeps of the last document, but it may write to everything else. -/
def Parts (fsub : Nat → Nat → Nat) (n max : Nat) (md : Option Nat) : World → List Part → Prop
  | _, [] => True
  | w, p :: ps => Adds fsub n OfLast w (Collector.new max md) p.steps (p.first :: p.rest) ∧
    ∀ w' r, Shared.run fsub n (Collector.new max md) p.steps w = (w', .ok r) →
      (∃ d, firstAdded p.steps = some d ∧ Says w' d p.late) ∧ SaysMeta w' md p.md ∧ Parts fsub n max md w' ps

/-- Every part but the last adds `max` documents after the first one; every part but the first begins with `Add`. -/
def Filled (max : Nat) : List Part → Prop
  | [] => True
  | [p] => p.rest.length ≤ max
  | p :: q :: ps => p.rest.length = max ∧ (∃ d more, q.steps = .add d :: more) ∧ Filled max (q :: ps)

/-- documents of the same shape that are not too large -/
structure Part.Small (fsub : Nat → Nat → Nat) (zip : Bytes → Bytes) (p : Part) : Prop where
  docs : ∀ f ∈ p.first :: p.rest, (encDoc f).length < 2147483648
  shape : ∀ f ∈ p.first :: p.rest, ∀ h ∈ p.first :: p.rest, f.metrics.SameShape h.metrics
  late : (encDoc p.late).length < 2147483648
  md : ∀ f, p.md = some f → (encDoc f).length ≤ 2147483000
  count : p.rest.length < 4294967296
  payload : (zip (payloadOn fsub p.late p.first p.rest)).length ≤ 2147482000

/-- one chunk for each part: the document that was added first, as it is at the end of the part, and the differences as they were -/
def fileOn (fsub : Nat → Nat → Nat) (zip : Bytes → Bytes) (ms : Nat → Int) : Nat → List Part → Bytes
  | _, [] => []
  | j, p :: ps => layoutOn fsub zip (ms j) p.md p.late p.first p.rest ++ fileOn fsub zip ms (j + 1) ps

end Birch.Spec.Shared
