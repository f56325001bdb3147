import Verif.Model.GoStats
import Verif.Spec.Events

/- What collections of Go runtime statistics are to return (C82).  Histories are newest first. -/

namespace Birch.Spec.GoStats
open Birch Model Model.GoStats

/-- the four counters of the runtime, which only grow -/
inductive Counter where
  | mallocs
  | frees
  | collections
  | cgoCalls

/-- what the runtime has counted since the start of the process -/
def total : Counter → Seen → Int
  | .mallocs, x => x.mem.mallocs
  | .frees, x => x.mem.frees
  | .collections, x => x.mem.numGC
  | .cgoCalls, x => x.cgoCalls

/-- where the counter is in what is returned -/
def given : Counter → Info → Int
  | .mallocs, i => i.mallocs
  | .frees, i => i.frees
  | .collections, i => i.gc
  | .cgoCalls, i => i.cgoCalls

/-- counters that fit an int64 -/
def Plausible (x : Seen) : Prop := x.mem.numGC < 4294967296 ∧ ∀ c, 0 ≤ total c x ∧ total c x < 9223372036854775808

/-- the counter at the last collection, of whatever kind -/
def totalBefore (c : Counter) : List Collection → Int
  | [] => 0
  | (_, x) :: _ => total c x

/-- the time of the last collection, of whatever kind; the start of year 1 if there was none -/
def timeBefore : List Collection → Int
  | [] => -62135596800 * 1000000000
  | (_, x) :: _ => nanoseconds x.now

/-- what a `time.Duration` can hold of a number of nanoseconds -/
def duration (d : Int) : Int := min (max d (-9223372036854775808)) 9223372036854775807

/-- the nanoseconds since the last collection -/
def elapsed (before : List Collection) (x : Seen) : Int := duration (nanoseconds x.now - timeBefore before)

/-- the counter in what a collection returns: the total; what was added since the last collection; or that, divided by the nanoseconds (rounded towards zero).
    The last two are zero if no time has passed. -/
def value (k : Kind) (c : Counter) (before : List Collection) (x : Seen) : Int :=
  match k with
  | .current => total c x
  | .deltas => if elapsed before x = 0 then 0 else total c x - totalBefore c before
  | .rates => if elapsed before x = 0 then 0 else (total c x - totalBefore c before).tdiv (elapsed before x)

/-- the counter in what each collection returns -/
def values (c : Counter) (before : List Collection) : List Collection → List (Option Int)
  | [] => []
  | (k, x) :: cs => k.map (value · c before x) :: values c ((k, x) :: before) cs

/-- the counter in what `CollectBasicGoStats` returns: what was added since the last collection divided by the nanoseconds, as a double; zero if no time has passed -/
def basicRate (fdiv : Int → Int → Nat) (c : Counter) (before : List Collection) (x : Seen) : Nat :=
  if elapsed before x = 0 then 0 else fdiv (total c x - totalBefore c before) (elapsed before x)

/-- each collection has another time than the one before -/
def Moves (t : Int) : List Seen → Prop
  | [] => True
  | x :: xs => nanoseconds x.now ≠ t ∧ Moves (nanoseconds x.now) xs

/-- the last 256 pauses (oldest first) are in a buffer, each at its number modulo 256; the rest of the buffer is zero -/
def Ring (pauses : List Nat) (buf : Nat → Nat) : Prop :=
  (∀ n, n < pauses.length → pauses.length ≤ n + 256 → buf (n % 256) = pauses[n]?.getD 0) ∧ ∀ i, pauses.length ≤ i → i < 256 → buf i = 0

/-- the document of the statistics -/
def infoFields (i : Info) : Fields :=
  .cons [109, 101, 109, 111, 114, 121, 46, 111, 98, 106, 101, 99, 116, 115, 46, 104, 101, 97, 112] (.int64 i.heapObjects) <|
  .cons [109, 101, 109, 111, 114, 121, 46, 115, 117, 109, 109, 97, 114, 121, 46, 97, 108, 108, 111, 99] (.int64 i.alloc) <|
  .cons [109, 101, 109, 111, 114, 121, 46, 115, 117, 109, 109, 97, 114, 121, 46, 115, 121, 115, 116, 101, 109] (.int64 i.heapSystem) <|
  .cons [109, 101, 109, 111, 114, 121, 46, 104, 101, 97, 112, 46, 105, 100, 108, 101] (.int64 i.heapIdle) <|
  .cons [109, 101, 109, 111, 114, 121, 46, 104, 101, 97, 112, 46, 117, 115, 101, 100] (.int64 i.heapInUse) <|
  .cons [109, 101, 109, 111, 114, 121, 46, 99, 111, 117, 110, 116, 101, 114, 115, 46, 109, 97, 108, 108, 111, 99, 115] (.int64 i.mallocs) <|
  .cons [109, 101, 109, 111, 114, 121, 46, 99, 111, 117, 110, 116, 101, 114, 115, 46, 102, 114, 101, 101, 115] (.int64 i.frees) <|
  .cons [103, 99, 46, 114, 97, 116, 101] (.int64 i.gc) <|
  .cons [103, 99, 46, 112, 97, 117, 115, 101, 46, 100, 117, 114, 97, 116, 105, 111, 110, 46, 108, 97, 115, 116] (.int64 i.gcPause) <|
  .cons [103, 99, 46, 112, 97, 117, 115, 101, 46, 100, 117, 114, 97, 116, 105, 111, 110, 46, 108, 97, 116, 101, 110, 99, 121] (.int64 i.gcLatency) <|
  .cons [103, 111, 114, 111, 117, 116, 105, 110, 101, 115, 46, 116, 111, 116, 97, 108] (.int64 i.goroutines) <|
  .cons [99, 103, 111, 46, 99, 97, 108, 108, 115] (.int64 i.cgoCalls) .nil

/-- the sizes fit an int64, and the rest are int64 -/
def InfoFits (i : Info) : Prop :=
  i.heapObjects < 9223372036854775808 ∧ i.alloc < 9223372036854775808 ∧ i.heapSystem < 9223372036854775808 ∧ i.heapIdle < 9223372036854775808 ∧
  i.heapInUse < 9223372036854775808 ∧ (∀ c, Spec.Events.IsInt64 (given c i)) ∧ Spec.Events.IsInt64 i.gcPause ∧ Spec.Events.IsInt64 i.gcLatency ∧ Spec.Events.IsInt64 i.goroutines

end Birch.Spec.GoStats
