import Verif.Spec.Events
import Verif.Spec.Rep
import Verif.Spec.FtdcDocs
import Verif.Model.Recorders
import Verif.Model.Ftdc

/-
Performance events that are written to an FTDC file and read again.
-/

namespace Birch.Spec.Events
open Birch Model Spec Model.Events Model.Ftdc

/-- lists of the same length whose elements are related one by one -/
def Pairs {α β : Type} (R : α → β → Prop) : List α → List β → Prop
  | [], [] => True
  | a :: as, b :: bs => R a b ∧ Pairs R as bs
  | _, _ => False

/-- a time from the year 1677 to the year 2262: its milliseconds, as nanoseconds, are an int64 -/
def InYears (t : Time) : Prop :=
  Normal t ∧ -9223372036854 ≤ nanoseconds t / 1000000 ∧ nanoseconds t / 1000000 ≤ 9223372036854

/-- an event whose numbers are int64 and whose time is from 1677 to 2262 -/
def Recordable (p : Perf) : Prop := Fits p ∧ InYears p.ts

/-- `r` is what `q` becomes when `p` is read into it: everything of `p`, the time rounded down to milliseconds,
    but the ID and the number of operations of `q` -/
def ReadInto (q p r : Perf) : Prop :=
  r.counters.number = p.counters.number ∧ r.counters.size = p.counters.size ∧ r.counters.errors = p.counters.errors ∧
  r.timers = p.timers ∧ r.gauges = p.gauges ∧ Normal r.ts ∧ nanoseconds r.ts = nanoseconds p.ts / 1000000 * 1000000 ∧
  r.id = q.id ∧ r.counters.operations = q.counters.operations

/-- Reading the file returns one document for every event, in order, with all that the event says;
    and unmarshalling the documents restores the events as far as `ReadInto` says. -/
def HoldsEvents (unzip : Bytes → Option Bytes) (file : Bytes) (es : List Perf) : Prop :=
  ∀ s : Stream.Source, s.left = file → ∃ M, ∀ m, M ≤ m → ∃ ds, readStructuredMetrics unzip m s = .ok ds ∧
    RepDocs ds (es.map perfFields) ∧
    ∀ q, ∃ rs, Pairs (fun d r => Returns (fun fuel => unmarshal fuel q d) (.ok r)) ds rs ∧ Pairs (ReadInto q) es rs

/-- the arguments of the methods of a recorder are int64 and times from 1677 to 2262, and so is what the clock shows -/
def CallFits : Recorders.Call × (Nat → Time) → Prop
  | (c, now) => (∀ i, InYears (now i)) ∧
    match c with
    | .setTime t => InYears t
    | .setID v | .setTotalDuration v | .setDuration v | .incOperations v | .incIterations v | .incSize v | .incError v
    | .setState v | .setWorkers v | .endIteration v => IsInt64 v
    | _ => True

end Birch.Spec.Events
