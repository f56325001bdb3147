import Verif.Spec.Recorders
import Verif.Proofs.Totals

namespace Birch.Proofs.Recorders
open Birch.Model.Events hiding run
open Birch Model Model.Recorders Spec.Recorders Proofs.Events

theorem run_append (k : Flavor) (cs ds : List (Call × (Nat → Time))) : ∀ r, run k r (cs ++ ds) = run k (run k r cs) ds := by
  induction cs with
  | nil => intro r; rfl
  | cons c cs ih => intro r; exact ih _

theorem sinceReset_append (cs : List Call) (c : Call) :
    sinceReset (cs ++ [c]) = match c with | .endTest => [] | .reset => [] | c => sinceReset cs ++ [c] := by
  unfold sinceReset
  rw [List.reverse_append, List.reverse_singleton, List.singleton_append, List.takeWhile_cons]
  cases c <;> simp

theorem counters_append (cs : List Call) (c : Call) :
    counters (cs ++ [c]) = ⟨i64 ((counters cs).number + iterations c), i64 ((counters cs).operations + operations c),
      i64 ((counters cs).size + size c), i64 ((counters cs).errors + errors c)⟩ := by
  simp only [counters, List.map_append, List.sum_append, i64_add, List.map_cons, List.map_nil, List.sum_cons, List.sum_nil, Int.add_zero]

theorem setTimestamp_keeps (p : Perf) (s n : Time) : (setTimestamp p s n).counters = p.counters ∧ (setTimestamp p s n).timers = p.timers ∧
    (setTimestamp p s n).gauges = p.gauges ∧ (setTimestamp p s n).id = p.id := by
  unfold setTimestamp
  split
  · split <;> exact ⟨rfl, rfl, rfl, rfl⟩
  · exact ⟨rfl, rfl, rfl, rfl⟩

theorem addTotal_keeps (r : Recorder) (n : Time) : (addTotal r n).point.counters = r.point.counters ∧ (addTotal r n).point.gauges = r.point.gauges ∧
    (addTotal r n).point.id = r.point.id ∧ (addTotal r n).recorded = r.recorded ∧ (addTotal r n).started = r.started ∧ (addTotal r n).last = r.last ∧
    (addTotal r n).point.ts = r.point.ts ∧ (addTotal r n).point.timers.duration = r.point.timers.duration := by
  unfold addTotal
  split <;> exact ⟨rfl, rfl, rfl, rfl, rfl, rfl, rfl, rfl⟩

theorem i64_i64 (a : Int) : i64 (i64 a) = i64 a := by unfold i64; omega

/-- what the recorder holds after a history -/
def Good (k : Flavor) (hist : List Call) (r : Recorder) : Prop :=
  r.point.counters = counters (sinceReset hist) ∧ r.point.gauges = gauges hist.reverse ∧ r.point.id = ident (sinceReset hist).reverse ∧
  r.point.timers.duration = (match k with
    | .raw => rawDuration (sinceReset hist).reverse
    | _ => i64 ((sinceReset hist).map duration).sum)

theorem counters_nil : counters [] = ⟨0, 0, 0, 0⟩ := rfl

theorem counters_fix (cs : List Call) : i64 (counters cs).number = (counters cs).number ∧ i64 (counters cs).operations = (counters cs).operations ∧
    i64 (counters cs).size = (counters cs).size ∧ i64 (counters cs).errors = (counters cs).errors := by
  simp only [counters, i64_i64, and_self]

theorem doReset_good {k : Flavor} {hist : List Call} {r r' : Recorder} (h : r.point.gauges = gauges hist.reverse) (hg : r'.point.gauges = r.point.gauges)
    (c : Call) (hc : c = .endTest ∨ c = .reset) : Good k (hist ++ [c]) (doReset k r') := by
  have e : sinceReset (hist ++ [c]) = [] := by rw [sinceReset_append]; rcases hc with rfl | rfl <;> rfl
  unfold Good
  rw [e, List.reverse_append, List.reverse_singleton, List.singleton_append]
  have g : gauges (c :: hist.reverse) = gauges hist.reverse := by rcases hc with rfl | rfl <;> rfl
  rw [g, ← h, ← hg]
  cases k <;> exact ⟨rfl, rfl, rfl, rfl⟩

theorem endIteration_keeps (k : Flavor) (r : Recorder) (d : Int) (now : Nat → Time) :
    (endIteration k r d now).point.counters = { r.point.counters with number := i64 (r.point.counters.number + 1) } ∧
    (endIteration k r d now).point.gauges = r.point.gauges ∧ (endIteration k r d now).point.id = r.point.id ∧
    (endIteration k r d now).point.timers.duration = i64 (r.point.timers.duration + d) := by
  cases k with
  | raw =>
    obtain ⟨a1, a2, a3, a4, a5, a6, a7, a8⟩ := addTotal_keeps (addNumber r 1) (now 0)
    obtain ⟨b1, b2, b3, b4⟩ := setTimestamp_keeps (addTotal (addNumber r 1) (now 0)).point (addTotal (addNumber r 1) (now 0)).started (now 1)
    simp only [endIteration, persist, addDuration, b1, b2, b3, b4, a1, a2, a3, a8]
    exact ⟨rfl, rfl, rfl, rfl⟩
  | single =>
    obtain ⟨b1, b2, b3, b4⟩ := setTimestamp_keeps r.point r.started (now 1)
    obtain ⟨a1, a2, a3, a4, a5, a6, a7, a8⟩ := addTotal_keeps (addNumber { r with point := setTimestamp r.point r.started (now 1) } 1) (now 0)
    simp only [endIteration, addDuration, a1, a2, a3, a8]
    simp only [addNumber, b1, b2, b3, b4, and_self]
  | grouped i =>
    obtain ⟨a1, a2, a3, a4, a5, a6, a7, a8⟩ := addTotal_keeps (addNumber r 1) (now 0)
    obtain ⟨b1, b2, b3, b4⟩ := setTimestamp_keeps (addDuration (addTotal (addNumber r 1) (now 0)) d).point
      (addDuration (addTotal (addNumber r 1) (now 0)) d).started (now 1)
    simp only [endIteration]
    split
    · simp only [persist, b1, b2, b3, b4]
      simp only [addDuration, a1, a2, a3, a8]
      exact ⟨rfl, rfl, rfl, rfl⟩
    · simp only [addDuration, a1, a2, a3, a8]
      exact ⟨rfl, rfl, rfl, rfl⟩

theorem call_good {k : Flavor} {hist : List Call} {r : Recorder} (now : Nat → Time) (c : Call) (h : Good k hist r) :
    Good k (hist ++ [c]) (call k r now c) := by
  have h0 := h
  obtain ⟨h1, h2, h3, h4⟩ := h
  by_cases hc : c = .endTest ∨ c = .reset
  · rcases hc with rfl | rfl
    · simp only [call, endTest]
      cases k with
      | single => exact doReset_good h2 (setTimestamp_keeps _ _ _).2.2.1 _ (.inl rfl)
      | raw => exact doReset_good h2 (by split <;> rfl) _ (.inl rfl)
      | grouped i => exact doReset_good h2 (by split <;> rfl) _ (.inl rfl)
    · exact doReset_good h2 rfl _ (.inr rfl)
  · have e : sinceReset (hist ++ [c]) = sinceReset hist ++ [c] := by
      rw [sinceReset_append]; cases c <;> simp at hc ⊢
    unfold Good
    rw [e, counters_append, List.reverse_append, List.reverse_singleton, List.singleton_append, List.reverse_append, List.reverse_singleton,
      List.singleton_append, List.map_append, List.sum_append]
    obtain ⟨f1, f2, f3, f4⟩ := counters_fix (sinceReset hist)
    cases c with
    | endTest => simp at hc
    | reset => simp at hc
    | beginIteration =>
      simp only [iterations, operations, size, errors, duration, gauges, ident, rawDuration, List.map_cons, List.map_nil, List.sum_cons, List.sum_nil,
        Int.add_zero, f1, f2, f3, f4]
      obtain ⟨b1, b2, b3, b4⟩ := setTimestamp_keeps r.point (now 0) (now 1)
      cases k with
      | raw => simp only [call, b1, b2, b3, b4]; exact h0
      | grouped i => simp only [call, b1, b2, b3, b4]; exact h0
      | single => exact h0
    | endIteration d =>
      obtain ⟨a1, a2, a3, a4⟩ := endIteration_keeps k r d now
      simp only [iterations, operations, size, errors, duration, gauges, ident, rawDuration, List.map_cons, List.map_nil, List.sum_cons, List.sum_nil,
        Int.add_zero, f2, f3, f4]
      simp only [call, a1, a2, a3, a4, h1, h2, h3, h4]
      refine ⟨trivial, trivial, trivial, ?_⟩
      cases k
      · rfl
      · exact i64_add _ _
      · exact i64_add _ _
    | setDuration d =>
      simp only [iterations, operations, size, errors, duration, gauges, ident, rawDuration, List.map_cons, List.map_nil, List.sum_cons, List.sum_nil,
        Int.add_zero, f1, f2, f3, f4]
      cases k with
      | raw => exact ⟨h1, h2, h3, rfl⟩
      | single => exact ⟨h1, h2, h3, by simp only [call, addDuration, h4, i64_add]⟩
      | grouped i => exact ⟨h1, h2, h3, by simp only [call, addDuration, h4, i64_add]⟩
    | setTotalDuration d =>
      simp only [iterations, operations, size, errors, duration, gauges, ident, rawDuration, List.map_cons, List.map_nil, List.sum_cons, List.sum_nil,
        Int.add_zero, f1, f2, f3, f4]
      cases k <;> exact h0
    | setTime t =>
      simp only [iterations, operations, size, errors, duration, gauges, ident, rawDuration, List.map_cons, List.map_nil, List.sum_cons, List.sum_nil,
        Int.add_zero, f1, f2, f3, f4]
      exact h0
    | setID i =>
      simp only [iterations, operations, size, errors, duration, gauges, ident, rawDuration, List.map_cons, List.map_nil, List.sum_cons, List.sum_nil,
        Int.add_zero, f1, f2, f3, f4]
      exact ⟨h1, h2, rfl, h4⟩
    | incOperations v =>
      simp only [iterations, operations, size, errors, duration, gauges, ident, rawDuration, List.map_cons, List.map_nil, List.sum_cons, List.sum_nil,
        Int.add_zero, f1, f3, f4]
      exact ⟨by simp only [call, h1], h2, h3, h4⟩
    | incIterations v =>
      simp only [iterations, operations, size, errors, duration, gauges, ident, rawDuration, List.map_cons, List.map_nil, List.sum_cons, List.sum_nil,
        Int.add_zero, f2, f3, f4]
      exact ⟨by simp only [call, addNumber, h1], h2, h3, h4⟩
    | incSize v =>
      simp only [iterations, operations, size, errors, duration, gauges, ident, rawDuration, List.map_cons, List.map_nil, List.sum_cons, List.sum_nil,
        Int.add_zero, f1, f2, f4]
      exact ⟨by simp only [call, h1], h2, h3, h4⟩
    | incError v =>
      simp only [iterations, operations, size, errors, duration, gauges, ident, rawDuration, List.map_cons, List.map_nil, List.sum_cons, List.sum_nil,
        Int.add_zero, f1, f2, f3]
      exact ⟨by simp only [call, h1], h2, h3, h4⟩
    | setState v =>
      simp only [iterations, operations, size, errors, duration, gauges, ident, rawDuration, List.map_cons, List.map_nil, List.sum_cons, List.sum_nil,
        Int.add_zero, f1, f2, f3, f4]
      exact ⟨h1, by simp only [call, h2], h3, h4⟩
    | setWorkers v =>
      simp only [iterations, operations, size, errors, duration, gauges, ident, rawDuration, List.map_cons, List.map_nil, List.sum_cons, List.sum_nil,
        Int.add_zero, f1, f2, f3, f4]
      exact ⟨h1, by simp only [call, h2], h3, h4⟩
    | setFailed b =>
      simp only [iterations, operations, size, errors, duration, gauges, ident, rawDuration, List.map_cons, List.map_nil, List.sum_cons, List.sum_nil,
        Int.add_zero, f1, f2, f3, f4]
      exact ⟨h1, by simp only [call, h2], h3, h4⟩

theorem run_good {k : Flavor} (cs : List (Call × (Nat → Time))) : ∀ {hist : List Call} {r : Recorder}, Good k hist r → Good k (hist ++ cs.map (·.1)) (run k r cs) := by
  induction cs with
  | nil => intro hist r h; simpa [run] using h
  | cons c cs ih =>
    intro hist r h
    obtain ⟨c, now⟩ := c
    have := ih (call_good now c h)
    simpa [run] using this

theorem new_good (k : Flavor) (now : Time) : Good k [] (new k now) := by
  cases k <;> exact ⟨rfl, rfl, rfl, rfl⟩

/-- the raw recorder -/
theorem endIteration_raw (r : Recorder) (d : Int) (now : Nat → Time) :
    ∃ p, (endIteration .raw r d now).recorded = r.recorded ++ [p] ∧ p = (endIteration .raw r d now).point := by
  obtain ⟨a1, a2, a3, a4, a5, a6, a7, a8⟩ := addTotal_keeps (addNumber r 1) (now 0)
  refine ⟨_, ?_, rfl⟩
  simp only [endIteration, persist, addDuration, a4]
  rfl

theorem endIteration_single (r : Recorder) (d : Int) (now : Nat → Time) : (endIteration .single r d now).recorded = r.recorded := by
  obtain ⟨a1, a2, a3, a4, a5, a6, a7, a8⟩ := addTotal_keeps (addNumber { r with point := setTimestamp r.point r.started (now 1) } 1) (now 0)
  simp only [endIteration, addDuration, a4]
  rfl

theorem endIteration_grouped (i : Int) (r : Recorder) (d : Int) (now : Nat → Time) :
    (timeSub (now 2) r.last ≥ i → ∃ p, (endIteration (.grouped i) r d now).recorded = r.recorded ++ [p] ∧
      p.counters = (endIteration (.grouped i) r d now).point.counters ∧ p.timers = (endIteration (.grouped i) r d now).point.timers ∧
      p.gauges = (endIteration (.grouped i) r d now).point.gauges ∧ (endIteration (.grouped i) r d now).point.ts = zeroTime) ∧
    (¬ timeSub (now 2) r.last ≥ i → (endIteration (.grouped i) r d now).recorded = r.recorded) := by
  obtain ⟨a1, a2, a3, a4, a5, a6, a7, a8⟩ := addTotal_keeps (addNumber r 1) (now 0)
  have hl : (addDuration (addTotal (addNumber r 1) (now 0)) d).last = r.last := by
    show (addTotal (addNumber r 1) (now 0)).last = _
    rw [a6]; rfl
  have hr : (addDuration (addTotal (addNumber r 1) (now 0)) d).recorded = r.recorded := by
    show (addTotal (addNumber r 1) (now 0)).recorded = _
    rw [a4]; rfl
  simp only [endIteration, hl]
  constructor
  · intro h
    simp only [h, if_true, persist, hr]
    exact ⟨_, rfl, rfl, rfl, rfl, trivial⟩
  · intro h
    simp only [h, if_false, hr]

theorem doReset_recorded (k : Flavor) (r : Recorder) : (doReset k r).recorded = r.recorded := by
  cases k <;> rfl

theorem endTest_single (r : Recorder) (now : Nat → Time) :
    ∃ p, (endTest .single r now).recorded = r.recorded ++ [p] ∧ p.counters = r.point.counters ∧ p.timers = r.point.timers ∧ p.gauges = r.point.gauges := by
  obtain ⟨b1, b2, b3, b4⟩ := setTimestamp_keeps r.point r.started (now 0)
  exact ⟨_, rfl, b1, b2, b3⟩

theorem endTest_other {k : Flavor} (hk : k ≠ .single) (r : Recorder) (now : Nat → Time) :
    (endTest k r now).recorded = r.recorded ++ if r.point.ts ≠ zeroTime then [r.point] else [] := by
  cases k with
  | single => exact absurd rfl hk
  | raw =>
    simp only [endTest, doReset_recorded]
    split <;> simp [persist]
  | grouped i =>
    simp only [endTest, doReset_recorded]
    split <;> simp [persist]

theorem call_recorded (k : Flavor) (r : Recorder) (now : Nat → Time) (c : Call) (h1 : ∀ d, c ≠ .endIteration d) (h2 : c ≠ .endTest) :
    (call k r now c).recorded = r.recorded := by
  cases c with
  | endIteration d => exact absurd rfl (h1 d)
  | endTest => exact absurd rfl h2
  | reset => exact doReset_recorded k r
  | beginIteration => cases k <;> rfl
  | setTotalDuration d => cases k <;> rfl
  | setDuration d => cases k <;> rfl
  | _ => rfl

/-! ### times -/

def Flavor.isRaw : Flavor → Bool
  | .raw => true
  | _ => false

def Flavor.isSingle : Flavor → Bool
  | .single => true
  | _ => false

def Flavor.isGrouped : Flavor → Bool
  | .grouped _ => true
  | _ => false

/-- the times of a recorder after a history, the last call first -/
def GoodTimes (k : Flavor) (hist : Timed) (r : Recorder) : Prop :=
  r.started = began hist ∧ r.point.timers.total = total (Flavor.isRaw k) hist ∧
  (Flavor.isGrouped k = false → r.point.ts = stamp (!(Flavor.isSingle k)) hist)

theorem noTime_eq : noTime = zeroTime := rfl

theorem setTimestamp_ts (p : Perf) (s n : Time) : (setTimestamp p s n).ts = orElse p.ts (orElse s n) := by
  unfold setTimestamp orElse
  rw [noTime_eq]
  by_cases h : p.ts = zeroTime
  · by_cases hs : s = zeroTime
    · simp [h, hs]
    · simp [h, hs]
  · simp [h]

theorem addTotal_total (r : Recorder) (n : Time) : (addTotal r n).point.timers.total =
    if r.started = zeroTime then r.point.timers.total else i64 (r.point.timers.total + timeSub n r.started) := by
  unfold addTotal
  by_cases h : r.started = zeroTime
  · simp [h]
  · simp [h]

theorem endIteration_times (k : Flavor) (r : Recorder) (d : Int) (now : Nat → Time) :
    (endIteration k r d now).started = zeroTime ∧
    (endIteration k r d now).point.timers.total =
      (if r.started = zeroTime then r.point.timers.total else i64 (r.point.timers.total + timeSub (now 0) r.started)) ∧
    (Flavor.isGrouped k = false → (endIteration k r d now).point.ts = orElse r.point.ts (orElse r.started (now 1))) := by
  cases k with
  | raw =>
    obtain ⟨a1, a2, a3, a4, a5, a6, a7, a8⟩ := addTotal_keeps (addNumber r 1) (now 0)
    obtain ⟨b1, b2, b3, b4⟩ := setTimestamp_keeps (addTotal (addNumber r 1) (now 0)).point (addTotal (addNumber r 1) (now 0)).started (now 1)
    refine ⟨rfl, ?_, fun _ => ?_⟩
    · simp only [endIteration, persist, addDuration, b2, addTotal_total]
      rfl
    · simp only [endIteration, persist, addDuration, setTimestamp_ts, a5, a7]
      rfl
  | single =>
    obtain ⟨b1, b2, b3, b4⟩ := setTimestamp_keeps r.point r.started (now 1)
    obtain ⟨a1, a2, a3, a4, a5, a6, a7, a8⟩ := addTotal_keeps (addNumber { r with point := setTimestamp r.point r.started (now 1) } 1) (now 0)
    simp only [endIteration, addDuration, a7, addTotal_total]
    simp only [addNumber, b2, setTimestamp_ts, implies_true, and_self]
  | grouped i =>
    obtain ⟨a1, a2, a3, a4, a5, a6, a7, a8⟩ := addTotal_keeps (addNumber r 1) (now 0)
    obtain ⟨b1, b2, b3, b4⟩ := setTimestamp_keeps (addDuration (addTotal (addNumber r 1) (now 0)) d).point
      (addDuration (addTotal (addNumber r 1) (now 0)) d).started (now 1)
    simp only [endIteration]
    split
    · simp only [persist, b2]
      simp only [addDuration, addTotal_total]
      exact ⟨trivial, rfl, fun h => by cases h⟩
    · simp only [addDuration, addTotal_total]
      exact ⟨trivial, rfl, fun h => by cases h⟩

theorem call_times {k : Flavor} {hist : Timed} {r : Recorder} (now : Nat → Time) (c : Call) (h : GoodTimes k hist r) :
    GoodTimes k ((c, now) :: hist) (call k r now c) := by
  obtain ⟨h1, h2, h3⟩ := h
  cases c with
  | beginIteration =>
    obtain ⟨b1, b2, b3, b4⟩ := setTimestamp_keeps r.point (now 0) (now 1)
    cases k with
    | raw => exact ⟨rfl, by simp only [call, b2, h2, total], fun hk => by simp only [call, setTimestamp_ts, h3 hk, stamp]; rfl⟩
    | grouped i => exact ⟨rfl, by simp only [call, b2, h2, total], fun hk => by cases hk⟩
    | single => exact ⟨rfl, h2, h3⟩
  | endIteration d =>
    obtain ⟨e1, e2, e3⟩ := endIteration_times k r d now
    exact ⟨e1, by rw [call, e2, h1, h2]; rfl, fun hk => by rw [call, e3 hk, h1, h3 hk]; rfl⟩
  | endTest =>
    cases k <;> exact ⟨rfl, rfl, fun _ => rfl⟩
  | reset => cases k <;> exact ⟨rfl, rfl, fun _ => rfl⟩
  | setTime t => exact ⟨h1, h2, fun _ => rfl⟩
  | setTotalDuration d =>
    cases k with
    | raw => exact ⟨h1, rfl, h3⟩
    | single => exact ⟨h1, by simp only [call, h2, total, Flavor.isRaw, Bool.false_eq_true, if_false], h3⟩
    | grouped i => exact ⟨h1, by simp only [call, h2, total, Flavor.isRaw, Bool.false_eq_true, if_false], h3⟩
  | setDuration d => cases k <;> exact ⟨h1, h2, h3⟩
  | _ => exact ⟨h1, h2, h3⟩

theorem run_times {k : Flavor} (cs : List (Call × (Nat → Time))) : ∀ {hist : Timed} {r : Recorder}, GoodTimes k hist r →
    GoodTimes k (cs.reverse ++ hist) (run k r cs) := by
  induction cs with
  | nil => intro hist r h; exact h
  | cons c cs ih =>
    intro hist r h
    obtain ⟨c, now⟩ := c
    have := ih (call_times now c h)
    simpa [run] using this

theorem new_times (k : Flavor) (now : Time) : GoodTimes k [] (new k now) := by
  cases k <;> exact ⟨rfl, rfl, fun _ => rfl⟩

theorem endIteration_grouped_ts (i : Int) (r : Recorder) (d : Int) (now : Nat → Time) (h : timeSub (now 2) r.last ≥ i) :
    ∃ p, (endIteration (.grouped i) r d now).recorded = r.recorded ++ [p] ∧ p.timers.total = (endIteration (.grouped i) r d now).point.timers.total ∧
      p.ts = orElse r.point.ts (orElse r.started (now 1)) := by
  obtain ⟨a1, a2, a3, a4, a5, a6, a7, a8⟩ := addTotal_keeps (addNumber r 1) (now 0)
  have hl : (addDuration (addTotal (addNumber r 1) (now 0)) d).last = r.last := by
    show (addTotal (addNumber r 1) (now 0)).last = _
    rw [a6]; rfl
  have hr : (addDuration (addTotal (addNumber r 1) (now 0)) d).recorded = r.recorded := by
    show (addTotal (addNumber r 1) (now 0)).recorded = _
    rw [a4]; rfl
  have hs : (addDuration (addTotal (addNumber r 1) (now 0)) d).started = r.started := a5
  have ht : (addDuration (addTotal (addNumber r 1) (now 0)) d).point.ts = r.point.ts := a7
  simp only [endIteration, hl, h, if_true, persist, hr]
  exact ⟨_, rfl, rfl, by rw [setTimestamp_ts, hs, ht]⟩

end Birch.Proofs.Recorders
