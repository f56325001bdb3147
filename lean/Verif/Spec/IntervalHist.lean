import Verif.Model.IntervalHist
import Verif.Spec.Histograms

/-
When the lock of the interval histogram recorder is lost, and what a history of calls and ticks amounts to.  Histories have the last item first; an item is a
call between `Lock` and `Unlock`, or a tick at which the worker records.  The types of calls, events and histograms come from the model, and `timeSub`,
which is `Time.Sub` of the standard library.
-/

namespace Birch.Spec.IntervalHist
open Birch Model Model.Events Model.IntervalHist Spec
open Birch.Spec.Recorders (noTime orElse gauges)
open Birch.Model.Recorders (Call)
open Birch.Model.Histograms (Lib Point Env)
open Birch.Spec.Histograms (numbers operations sizes errors durations counter timer refuses)

/-! ### the lock -/

variable {H : Type}

/-- a worker has the lock and has returned, or will: it has yet to look at its context, which is done -/
def Doomed (s : State H) : Prop :=
  ∃ j, s.lock = some (.worker j) ∧ (s.workers j = .returned ∨ (s.workers j = .checking ∧ (s.cancelled j = true ∨ s.rootDone = true)))

def Reachable (L : Lib H) (s : State H) : Prop := ∃ ls, Steps L (new L) ls s

/-- caller `i` is in a call and has the lock -/
def Has (s : State H) (i : Nat) : Prop := (∃ c, s.callers i = .inside c) ∨ s.callers i = .done

/-- worker `j` runs and its own context has not been cancelled -/
def Live (s : State H) (j : Nat) : Prop := s.workers j ≠ .none ∧ s.workers j ≠ .returned ∧ s.cancelled j = false

/-! ### the events -/

inductive Item where
  | call (c : Call) (e : Env)
  | tick (e : Env)

abbrev History := List Item

/-- what happens under the lock in these steps, the last first -/
def history : List Label → History
  | [] => []
  | .body _ c e :: ls => history ls ++ [.call c e]
  | .record _ e :: ls => history ls ++ [.tick e]
  | _ :: ls => history ls

def calls : History → List Call
  | [] => []
  | .call c _ :: is => c :: calls is
  | .tick _ :: is => calls is

/-- these items end no test, and the recorder is not reset -/
def NoReset (is : History) : Prop := ∀ c ∈ calls is, c ≠ .endTest ∧ c ≠ .reset

/-- does a new event begin after the item? -/
def renews : Item → Bool
  | .tick _ => true
  | .call .endTest _ => true
  | .call .reset _ => true
  | _ => false

/-- the values that were reported for the event, in order -/
def reported (f : Call → List Int) : History → List Int
  | [] => []
  | i :: is =>
    if renews i then [] else
    match i with
    | .call c _ => reported f is ++ f c
    | .tick _ => []

/-- everything that the calls of a history report, in order -/
def all (f : Call → List Int) : History → List Int
  | [] => []
  | .call c _ :: is => all f is ++ f c
  | .tick _ :: is => all f is

/-- when the last iteration since the last `Reset` or `EndTest` was begun; ticks and `EndIteration` do not matter -/
def began : History → Time
  | [] => noTime
  | i :: is =>
    match i with
    | .call .beginIteration e => e.now 0
    | .call .endTest _ => noTime
    | .call .reset _ => noTime
    | _ => began is

/-- the time since the last iteration was begun, if there is one -/
def elapsed (is : History) (e : Env) : List Int := if began is = noTime then [] else [timeSub (e.now 0) (began is)]

/-- what one more call adds to the total durations: every `EndIteration` adds the time since the last `BeginIteration` -/
def totalsOf (c : Call) (e : Env) (before : History) : List Int :=
  match c with
  | .setTotalDuration d => [d]
  | .endIteration _ => elapsed before e
  | .endTest => elapsed before e
  | _ => []

/-- the total durations of the event -/
def totals : History → List Int
  | [] => []
  | i :: is =>
    if renews i then [] else
    match i with
    | .call c e => totals is ++ totalsOf c e is
    | .tick _ => []

/-- the time of the event -/
def stamp : History → Time
  | [] => noTime
  | i :: is =>
    if renews i then noTime else
    match i with
    | .call (.setTime t) _ => t
    | .call .beginIteration e => orElse (stamp is) (orElse (e.now 0) (e.now 1))
    | .call (.endIteration _) e => orElse (stamp is) (orElse (began is) (e.now 1))
    | _ => stamp is

/-- the last ID set for the event, or 0 -/
def lastID : History → Int
  | [] => 0
  | i :: is =>
    if renews i then 0 else
    match i with
    | .call (.setID i) _ => i
    | _ => lastID is

/-- the event that is being filled -/
def event (L : Lib H) (is : History) : Point H where
  ts := stamp is
  id := lastID is
  number := counter L (reported numbers is)
  operations := counter L (reported operations is)
  size := counter L (reported sizes is)
  errors := counter L (reported errors is)
  duration := timer L (reported durations is)
  total := timer L (totals is)
  gauges := gauges (calls is)

/-- the events that one more item records: a tick records the event, with a time if it has none; `EndTest` records it if it has a time, with one more total duration if
    an iteration was begun -/
def records (L : Lib H) (i : Item) (before : History) : List (Point H) :=
  match i with
  | .tick e => [{ event L before with ts := orElse (stamp before) (orElse (began before) (e.now 0)) }]
  | .call .endTest e =>
    if stamp before = noTime then [] else [{ event L before with total := timer L (totals before ++ elapsed before e) }]
  | _ => []

/-- all events recorded -/
def events (L : Lib H) : History → List (Point H)
  | [] => []
  | i :: is => events L is ++ records L i is

/-- does the underlying collector fail when it is called? -/
def addFails : Item → Bool
  | .call _ e => e.addFails
  | .tick e => e.addFails

/-- does one more item fail? -/
def fails (L : Lib H) (i : Item) (before : History) : Bool :=
  (match i with
  | .call c e =>
    refuses L (counter L (reported numbers before)) (numbers c) ||
    refuses L (counter L (reported operations before)) (operations c) ||
    refuses L (counter L (reported sizes before)) (sizes c) ||
    refuses L (counter L (reported errors before)) (errors c) ||
    refuses L (timer L (reported durations before)) (durations c) ||
    refuses L (timer L (totals before)) (totalsOf c e before)
  | .tick _ => false) ||
  (!(records L i before).isEmpty && addFails i)

/-- did anything fail since the last `Reset` or `EndTest`? -/
def failed (L : Lib H) : History → Bool
  | [] => false
  | i :: is =>
    match i with
    | .call .endTest _ => false
    | .call .reset _ => false
    | i => failed L is || fails L i is

/-- whether each call of `EndTest` has returned an error -/
def results (L : Lib H) : History → List Bool
  | [] => []
  | i :: is =>
    match i with
    | .call .endTest e => results L is ++ [failed L is || fails L (.call .endTest e) is]
    | _ => results L is

end Birch.Spec.IntervalHist
