import Verif.Model.JsonFiles
import Verif.Model.JsonStream
import Verif.Spec.ExtJson
import Verif.Spec.EventFile
import Verif.Spec.FtdcDocs

/- What the files of `CollectJSONStream` should hold (C105). -/

namespace Birch.Spec.JsonFiles
open Birch Model Spec Model.ExtJson Model.JsonFiles Model.Ftdc

/-- the line is a JSON object, in whichever way it is written, that stands for these fields -/
def Says (S : Gjson.Strconv) (C : Clock) (l : Bytes) (fs : Fields) : Prop :=
  (∃ lax es, JsonText.Text lax l (.obj es) ∧ ExtJson.ReadsFields S C es fs) ∧ fs.WF

/-- the turns say this, where `none` is for the flush timer -/
def Turns (S : Gjson.Strconv) (C : Clock) : List Turn → List (Option Fields) → Prop
  | [], [] => True
  | .tick :: ts, none :: xs => Turns S C ts xs
  | .line l :: ts, some fs :: xs => Says S C l fs ∧ Turns S C ts xs
  | _, _ => False

/-- the samples before each flush, if `held` are there at first -/
def closed : List Fields → List (Option Fields) → List (List Fields)
  | _, [] => []
  | held, none :: xs => held :: closed [] xs
  | held, some f :: xs => closed (held ++ [f]) xs

/-- the samples since the last flush -/
def pending : List Fields → List (Option Fields) → List Fields
  | held, [] => held
  | _, none :: xs => pending [] xs
  | held, some f :: xs => pending (held ++ [f]) xs

/-- the samples of each session: between one flush and the next, of which the last is at the end -/
def sessions (xs : List (Option Fields)) : List (List Fields) := closed [] xs ++ [pending [] xs]

/-- there is a file for each session that has samples -/
def filled (gs : List (List Fields)) : List (List Fields) := gs.filter fun g => !g.isEmpty

/-- the numbers are at the same places and have the same types -/
def Alike (f g : Fields) : Prop := f.paths [] = g.paths [] ∧ f.metrics.SameShape g.metrics

/-- The samples of a session are alike; or the first of them are, and the checksums of the keys of the others all differ from theirs. -/
def Orderly (g : List Fields) : Prop :=
  ∃ pre rest, g = pre ++ rest ∧ (∀ f ∈ pre, ∀ h ∈ pre, Alike f h) ∧ (pre = [] → rest = []) ∧
    ∀ f ∈ rest, ∀ h ∈ pre, hashText (f.paths []).flatten ≠ hashText (h.paths []).flatten

/-- reading the file returns a document for each sample, in order, with the numbers of the sample under their keys -/
def Holds (unzip : Bytes → Option Bytes) (file : Bytes) (samples : List Fields) : Prop :=
  ∀ s : Stream.Source, s.left = file → ∃ M, ∀ m, M ≤ m → ∃ ds, readStructuredMetrics unzip m s = .ok ds ∧ RepDocs ds (samples.map Fields.metrics)

/-- the lines among the turns -/
def linesOf (ts : List Turn) : List Bytes := ts.filterMap fun | .line l => some l | .tick => none

/-- The transition system of `Model/JsonStream` makes of a line what `lineDoc` returns. -/
def Parses (S : Gjson.Strconv) (C : Clock) (sys : JsonStream.Sys Doc) : Prop :=
  ∀ l d, (∃ N, ∀ n, N ≤ n → lineDoc S C n l = .ok d) → sys.parse l = some (.ok d)

end Birch.Spec.JsonFiles
