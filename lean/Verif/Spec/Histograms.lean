import Verif.Model.Histograms
import Verif.Spec.Recorders
import Verif.Spec.Events
import Verif.Spec.GoValue

/-
What a history of calls to a histogram recorder amounts to.  Histories have the last call first.
The types of calls, events and histograms come from the model, and `timeSub`, which is `Time.Sub` of the standard library.
-/

namespace Birch.Spec.Histograms
open Birch Model Model.Events Model.Histograms Spec Spec.Recorders
open Birch.Model.Recorders (Call)

abbrev History := List (Call × Env)

/-- the readings of the clock -/
def clock (cs : History) : Timed := cs.map fun c => (c.1, c.2.now)

/-- the values that the calls since the last `Reset` or `EndTest` report, in order -/
def reported (f : Call → List Int) : History → List Int
  | [] => []
  | (c, _) :: cs =>
    match c with
    | .endTest | .reset => []
    | c => reported f cs ++ f c

def numbers : Call → List Int
  | .incIterations v => [v]
  | .endIteration _ => [1]
  | _ => []

def operations : Call → List Int
  | .incOperations v => [v]
  | _ => []

def sizes : Call → List Int
  | .incSize v => [v]
  | _ => []

def errors : Call → List Int
  | .incError v => [v]
  | _ => []

def durations : Call → List Int
  | .setDuration d => [d]
  | .endIteration d => [d]
  | _ => []

/-- what one more call adds to the total durations: the time from `BeginIteration` to `EndIteration`, or what is set -/
def totalsOf (c : Call) (e : Env) (before : History) : List Int :=
  match c with
  | .setTotalDuration d => [d]
  | .endIteration _ => if began (clock before) = noTime then [] else [timeSub (e.now 0) (began (clock before))]
  | _ => []

/-- the total durations since the last `Reset` or `EndTest` -/
def totals : History → List Int
  | [] => []
  | (c, e) :: cs =>
    match c with
    | .endTest | .reset => []
    | c => totals cs ++ totalsOf c e cs

/-- the last ID set since the last `Reset` or `EndTest`, or 0 -/
def lastID : History → Int
  | [] => 0
  | (c, _) :: cs =>
    match c with
    | .setID i => i
    | .endTest | .reset => 0
    | _ => lastID cs

variable {H : Type}

/-- a histogram with values recorded in it; values that the histogram does not take are left out by it -/
def filled (L : Lib H) (lo hi : Int) (vs : List Int) : H := vs.foldl (fun h v => (L.record h v).1) (L.new lo hi 5)

/-- counters from 0 to 10 thousand -/
def counter (L : Lib H) (vs : List Int) : H := filled L 0 10000 vs

/-- timers from a microsecond to a minute, in nanoseconds -/
def timer (L : Lib H) (vs : List Int) : H := filled L 1000 60000000000 vs

/-- does `BeginIteration` give the event its time? -/
def early : Form → Bool
  | .single => false
  | _ => true

/-- the event after the calls -/
def event (L : Lib H) (k : Form) (cs : History) : Point H where
  ts := stamp (early k) (clock cs)
  id := lastID cs
  number := counter L (reported numbers cs)
  operations := counter L (reported operations cs)
  size := counter L (reported sizes cs)
  errors := counter L (reported errors cs)
  duration := timer L (reported durations cs)
  total := timer L (totals cs)
  gauges := gauges (cs.map (·.1))

/-- is the time before the other one? -/
def earlier (t u : Time) : Bool := nanoseconds t < nanoseconds u

/-- when the grouped recorder has recorded an event for the last time since the last `Reset` or `EndTest` -/
def collected : History → Time
  | [] => noTime
  | (c, e) :: cs =>
    match c with
    | .endIteration _ => if earlier (e.now 2) (collected cs) then collected cs else e.now 3
    | .endTest | .reset => noTime
    | _ => collected cs

/-- the events that one more call records -/
def records (L : Lib H) (k : Form) (c : Call) (e : Env) (before : History) : List (Point H) :=
  match c with
  | .endIteration _ =>
    match k with
    | .stream => [event L k ((c, e) :: before)]
    | .single => []
    | .grouped => if earlier (e.now 2) (collected before) then [] else [event L k ((c, e) :: before)]
  | .endTest =>
    match k with
    | .single => [{ event L k before with ts := orElse (stamp false (clock before)) (orElse (began (clock before)) (e.now 0)) }]
    | k => if stamp true (clock before) = noTime then [] else [event L k before]
  | _ => []

/-- all events recorded -/
def events (L : Lib H) (k : Form) : History → List (Point H)
  | [] => []
  | (c, e) :: cs => events L k cs ++ records L k c e cs

/-- does the histogram refuse one of the values? -/
def refuses (L : Lib H) (h : H) (vs : List Int) : Bool := vs.any fun v => (L.record h v).2

/-- does one more call fail? -/
def fails (L : Lib H) (k : Form) (c : Call) (e : Env) (before : History) : Bool :=
  refuses L (counter L (reported numbers before)) (numbers c) ||
  refuses L (counter L (reported operations before)) (operations c) ||
  refuses L (counter L (reported sizes before)) (sizes c) ||
  refuses L (counter L (reported errors before)) (errors c) ||
  refuses L (timer L (reported durations before)) (durations c) ||
  refuses L (timer L (totals before)) (totalsOf c e before) ||
  (!(records L k c e before).isEmpty && e.addFails)

/-- did anything fail since the last `Reset` or `EndTest`? -/
def failed (L : Lib H) (k : Form) : History → Bool
  | [] => false
  | (c, e) :: cs =>
    match c with
    | .endTest | .reset => false
    | c => failed L k cs || fails L k c e cs

/-- whether each call of `EndTest` has returned an error -/
def results (L : Lib H) (k : Form) : History → List Bool
  | [] => []
  | (c, e) :: cs =>
    match c with
    | .endTest => results L k cs ++ [failed L k cs || fails L k .endTest e cs]
    | _ => results L k cs

/-! ### documents -/

/-- `{lowest: …, highest: …, figures: …, counts: […]}` -/
def snapshotFields (s : Snapshot) : Fields :=
  .cons [108, 111, 119, 101, 115, 116] (.int64 s.lowest) <|
  .cons [104, 105, 103, 104, 101, 115, 116] (.int64 s.highest) <|
  .cons [102, 105, 103, 117, 114, 101, 115] (.int64 s.figures) <|
  .cons [99, 111, 117, 110, 116, 115] (.array (valsOf .int64 s.counts)) .nil

/-- as the document of a performance event, with histograms instead of sums -/
def pointFields (L : Lib H) (p : Point H) : Fields :=
  .cons [116, 115] (.datetime (nanoseconds p.ts / 1000000)) <|
  .cons [105, 100] (.int64 p.id) <|
  .cons [99, 111, 117, 110, 116, 101, 114, 115] (.doc <|
    .cons [110] (.doc (snapshotFields (L.snapshot p.number))) <|
    .cons [111, 112, 115] (.doc (snapshotFields (L.snapshot p.operations))) <|
    .cons [115, 105, 122, 101] (.doc (snapshotFields (L.snapshot p.size))) <|
    .cons [101, 114, 114, 111, 114, 115] (.doc (snapshotFields (L.snapshot p.errors))) .nil) <|
  .cons [116, 105, 109, 101, 114, 115] (.doc <|
    .cons [100, 117, 114] (.doc (snapshotFields (L.snapshot p.duration))) <|
    .cons [116, 111, 116, 97, 108] (.doc (snapshotFields (L.snapshot p.total))) .nil) <|
  .cons [103, 97, 117, 103, 101, 115] (.doc <|
    .cons [115, 116, 97, 116, 101] (.int64 p.gauges.state) <|
    .cons [119, 111, 114, 107, 101, 114, 115] (.int64 p.gauges.workers) <|
    .cons [102, 97, 105, 108, 101, 100] (.bool p.gauges.failed) .nil) .nil

/-- the numbers of a snapshot are int64 -/
def SnapshotFits (s : Snapshot) : Prop :=
  Spec.Events.IsInt64 s.lowest ∧ Spec.Events.IsInt64 s.highest ∧ Spec.Events.IsInt64 s.figures ∧ ∀ i ∈ s.counts, Spec.Events.IsInt64 i

def PointFits (L : Lib H) (p : Point H) : Prop :=
  Spec.Events.IsInt64 p.id ∧ Normal p.ts ∧ Spec.Events.IsInt64 (nanoseconds p.ts / 1000000) ∧
  Spec.Events.IsInt64 p.gauges.state ∧ Spec.Events.IsInt64 p.gauges.workers ∧ ∀ h, SnapshotFits (L.snapshot h)

end Birch.Spec.Histograms
