import Verif.Model.Recorders

/-
What a history of calls to a recorder adds up to.
-/

namespace Birch.Spec.Recorders
open Birch Model Model.Events Model.Recorders

/-- Go's zero time, 1 January of the year 1, as seconds from 1970 -/
def noTime : Time := ⟨-62135596800, 0⟩

/-- the calls since the last `Reset` or `EndTest` -/
def sinceReset (cs : List Call) : List Call :=
  (cs.reverse.takeWhile fun c => match c with | .endTest => false | .reset => false | _ => true).reverse

/-- what a call adds to the number of iterations -/
def iterations : Call → Int
  | .incIterations v => v
  | .endIteration _ => 1
  | _ => 0

def operations : Call → Int
  | .incOperations v => v
  | _ => 0

def size : Call → Int
  | .incSize v => v
  | _ => 0

def errors : Call → Int
  | .incError v => v
  | _ => 0

/-- the sums of what the calls add, as int64 -/
def counters (cs : List Call) : Counters :=
  ⟨i64 (cs.map iterations).sum, i64 (cs.map operations).sum, i64 (cs.map size).sum, i64 (cs.map errors).sum⟩

/-- what a call adds to the duration -/
def duration : Call → Int
  | .setDuration d => d
  | .endIteration d => d
  | _ => 0

/-- the duration that the raw recorder has: `SetDuration` replaces it -/
def rawDuration : List Call → Int
  | [] => 0
  | c :: cs =>   -- the last call comes first
    match c with
    | .setDuration d => d
    | .endIteration d => i64 (rawDuration cs + d)
    | _ => rawDuration cs

/-- the last values that were set, or the zero values -/
def gauges : List Call → Gauges
  | [] => ⟨0, 0, false⟩
  | c :: cs =>   -- the last call comes first
    match c with
    | .setState v => { gauges cs with state := v }
    | .setWorkers v => { gauges cs with workers := v }
    | .setFailed b => { gauges cs with failed := b }
    | _ => gauges cs

/-- the last ID that was set, or 0 -/
def ident : List Call → Int
  | [] => 0
  | c :: cs =>   -- the last call comes first
    match c with
    | .setID i => i
    | _ => ident cs

/-- calls with what the clock shows during the call, the last one first -/
abbrev Timed := List (Call × (Nat → Time))

/-- when the current iteration was begun; the zero time if none is running -/
def began : Timed → Time
  | [] => noTime
  | (c, now) :: cs =>
    match c with
    | .beginIteration => now 0
    | .endIteration _ | .endTest | .reset => noTime
    | _ => began cs

/-- The total duration since the last `Reset` or `EndTest`: the time from `BeginIteration` to `EndIteration`, and what `SetTotalDuration` adds or, in
    the raw recorder, sets. -/
def total (raw : Bool) : Timed → Int
  | [] => 0
  | (c, now) :: cs =>
    match c with
    | .setTotalDuration d => if raw then d else i64 (total raw cs + d)
    | .endIteration _ => if began cs = noTime then total raw cs else i64 (total raw cs + timeSub (now 0) (began cs))
    | .endTest | .reset => 0
    | _ => total raw cs

/-- a time if it is not the zero time, or another one -/
def orElse (t u : Time) : Time := if t = noTime then u else t

/-- The time of the event: the last one set since the last `Reset` or `EndTest`, or else that of the first call of the recorder that needs a time
    (`EndIteration`, and `BeginIteration` if `early`); an iteration has the time at which it was begun. -/
def stamp (early : Bool) : Timed → Time
  | [] => noTime
  | (c, now) :: cs =>
    match c with
    | .setTime t => t
    | .beginIteration => if early then orElse (stamp early cs) (orElse (now 0) (now 1)) else stamp early cs
    | .endIteration _ => orElse (stamp early cs) (orElse (began cs) (now 1))
    | .endTest | .reset => noTime
    | _ => stamp early cs

end Birch.Spec.Recorders
