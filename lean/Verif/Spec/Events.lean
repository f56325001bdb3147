import Verif.Model.Events
import Verif.Spec.Bson
import Verif.Spec.Ints

/-
What the documents of performance events say, and running totals.
-/

namespace Birch.Spec.Events
open Birch Model Spec Model.Events

def IsInt64 (i : Int) : Prop := -9223372036854775808 ≤ i ∧ i < 9223372036854775808

/-- the numbers of an event are int64 and its time has a whole number of milliseconds in int64 -/
def Fits (p : Perf) : Prop :=
  IsInt64 p.id ∧
  (IsInt64 p.counters.number ∧ IsInt64 p.counters.operations ∧ IsInt64 p.counters.size ∧ IsInt64 p.counters.errors) ∧
  (IsInt64 p.timers.duration ∧ IsInt64 p.timers.total) ∧
  (IsInt64 p.gauges.state ∧ IsInt64 p.gauges.workers) ∧
  Normal p.ts ∧ IsInt64 (nanoseconds p.ts / 1000000)

/-- `{ts: …, id: …, counters: {n, ops, size, errors}, timers: {dur, total}, gauges: {state, workers, failed}}`,
    the time rounded down to milliseconds -/
def perfFields (p : Perf) : Fields :=
  .cons [116, 115] (.datetime (nanoseconds p.ts / 1000000)) <|
  .cons [105, 100] (.int64 p.id) <|
  .cons [99, 111, 117, 110, 116, 101, 114, 115] (.doc <|
    .cons [110] (.int64 p.counters.number) <|
    .cons [111, 112, 115] (.int64 p.counters.operations) <|
    .cons [115, 105, 122, 101] (.int64 p.counters.size) <|
    .cons [101, 114, 114, 111, 114, 115] (.int64 p.counters.errors) .nil) <|
  .cons [116, 105, 109, 101, 114, 115] (.doc <|
    .cons [100, 117, 114] (.int64 p.timers.duration) <|
    .cons [116, 111, 116, 97, 108] (.int64 p.timers.total) .nil) <|
  .cons [103, 97, 117, 103, 101, 115] (.doc <|
    .cons [115, 116, 97, 116, 101] (.int64 p.gauges.state) <|
    .cons [119, 111, 114, 107, 101, 114, 115] (.int64 p.gauges.workers) <|
    .cons [102, 97, 105, 108, 101, 100] (.bool p.gauges.failed) .nil) .nil

/-! ### running totals -/

/-- the sum of a field over events, as an int64 -/
def sumOf (f : Perf → Int) (es : List Perf) : Int := i64 (es.map f).sum

/-- the ID after these events: the ID of an event, or one more than the one before if it has none -/
def ident (es : List Perf) : Int := es.foldl (fun last e => if e.id = 0 then i64 (last + 1) else e.id) (-1)

/-- the total of the events, of which `e` is the last -/
def total (es : List Perf) (e : Perf) : Perf where
  ts := e.ts
  id := ident es
  counters :=
    { number := sumOf (·.counters.number) es
      operations := sumOf (·.counters.operations) es
      size := sumOf (·.counters.size) es
      errors := sumOf (·.counters.errors) es }
  timers :=
    { duration := sumOf (·.timers.duration) es
      total := sumOf (·.timers.total) es }
  gauges := e.gauges

/-- the totals of the first event, of the first two, and so on -/
def totals (es : List Perf) : List Perf := es.mapIdx fun i e => total (es.take (i + 1)) e

/-- the events that a program adds, with the values that the program gave them -/
def added (h : Heap) : List Act → List Perf
  | [] => []
  | .write a p :: as => added (h.set a p) as
  | .add ⟨none, _, _, _⟩ :: as => added h as
  | .add ⟨some a, _, _, _⟩ :: as => h a :: added h as

/-- the program neither writes nor adds an event that it has added (or that is in `used`) -/
def Fresh (used : List Nat) : List Act → Prop
  | [] => True
  | .write a _ :: as => a ∉ used ∧ Fresh used as
  | .add ⟨none, _, _, _⟩ :: as => Fresh used as
  | .add ⟨some a, _, _, _⟩ :: as => a ∉ used ∧ Fresh (a :: used) as

/-- what the random numbers are -/
def draws : List Act → List Int
  | [] => []
  | .write _ _ :: as => draws as
  | .add ⟨none, _, _, _⟩ :: as => draws as
  | .add ⟨some _, d, _, _⟩ :: as => d :: draws as

/-- the clock does not go backwards and all is over at `e` (nanoseconds since 1970) -/
def Clock (t e : Int) : List Act → Prop
  | [] => t ≤ e
  | .write _ _ :: as => Clock t e as
  | .add i :: as => t ≤ nanoseconds i.now1 ∧ nanoseconds i.now1 ≤ nanoseconds i.now2 ∧ Clock (nanoseconds i.now2) e as

end Birch.Spec.Events
