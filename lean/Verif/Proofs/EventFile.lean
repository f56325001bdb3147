import Verif.Spec.EventFile
import Verif.Proofs.Recorders
import Verif.Props.Events
import Verif.Props.FtdcChunks
import Verif.Props.Recorders

namespace Birch.Proofs.Events
open Birch Model Spec Model.Events Spec.Events Model.Ftdc Proofs Proofs.Ftdc

theorem marshal_all {es : List Perf} (h : ∀ p ∈ es, Fits p) :
    ∃ docs, Pairs (fun p d => marshal p = .ok d) es docs ∧ RepDocs docs (es.map perfFields) := by
  induction es with
  | nil => exact ⟨[], trivial, trivial⟩
  | cons p es ih =>
    obtain ⟨d, h1, h2⟩ := Props.C50_marshal p (h p (by simp))
    obtain ⟨ds, h3, h4⟩ := ih fun q hq => h q (by simp [hq])
    exact ⟨d :: ds, ⟨h1, h3⟩, h2, h4⟩

theorem unmarshal_all (q : Perf) : ∀ {es : List Perf} {ds : List Doc}, RepDocs ds (es.map perfFields) →
    ∃ rs, Pairs (fun d r => Returns (fun fuel => unmarshal fuel q d) (.ok r)) ds rs ∧ Pairs (ReadInto q) es rs
  | [], [], _ => ⟨[], trivial, trivial⟩
  | p :: es, d :: ds, ⟨h, hs⟩ => by
    obtain ⟨r, h1, h2⟩ := Props.C50_roundtrip_partial p q d h
    obtain ⟨rs, h3, h4⟩ := unmarshal_all q hs
    exact ⟨r :: rs, ⟨h1, h3⟩, h2, h4⟩
  | [], _ :: _, h => h.elim
  | _ :: _, [], h => h.elim

theorem perfFields_metrics (p : Perf) : (perfFields p).metrics = perfFields p := rfl

theorem map_metrics (es : List Perf) : (es.map perfFields).map Fields.metrics = es.map perfFields := by
  rw [List.map_map]; rfl

theorem perfFields_length (p : Perf) : (encDoc (perfFields p)).length < 2147483648 := by
  simp [encDoc, wrapDoc_length, perfFields, Fields.enc, BVal.enc]

theorem perf_lengths (es : List Perf) : ∀ fs ∈ es.map perfFields, (encDoc fs).length < 2147483648 := by
  intro fs h
  obtain ⟨p, -, rfl⟩ := List.mem_map.mp h
  exact perfFields_length p

theorem perf_shapes (es : List Perf) : ∀ f ∈ es.map perfFields, ∀ g ∈ es.map perfFields, f.metrics.SameShape g.metrics := by
  intro f hf g hg
  obtain ⟨p, -, rfl⟩ := List.mem_map.mp hf
  obtain ⟨q, -, rfl⟩ := List.mem_map.mp hg
  simp [perfFields, Fields.metrics, BVal.metric, Fields.SameShape, BVal.SameShape, BVal.tag]

theorem perf_kept {es : List Perf} (h : ∀ p ∈ es, Recordable p) : ∀ f ∈ es.map perfFields, f.metrics.Kept := by
  intro f hf
  obtain ⟨p, hp, rfl⟩ := List.mem_map.mp hf
  have := (h p hp).2
  simp [perfFields, Fields.metrics, BVal.metric, Fields.Kept, BVal.Kept, this.2.1, this.2.2]

theorem holds_of_read {unzip : Bytes → Option Bytes} {file : Bytes} {es : List Perf}
    (h : ∀ s : Stream.Source, s.left = file → ∃ M, ∀ m, M ≤ m → ∃ ds, readStructuredMetrics unzip m s = .ok ds ∧
      RepDocs ds ((es.map perfFields).map Fields.metrics)) : HoldsEvents unzip file es := by
  intro s hs
  obtain ⟨M, h⟩ := h s hs
  refine ⟨M, fun m hm => ?_⟩
  obtain ⟨ds, h1, h2⟩ := h m hm
  rw [map_metrics] at h2
  exact ⟨ds, h1, h2, fun q => unmarshal_all q h2⟩

/-! ### running totals -/

theorem isInt64_i64 (x : Int) : IsInt64 (i64 x) := i64_range x

theorem ident_fits {es : List Perf} (h : ∀ p ∈ es, Fits p) : IsInt64 (ident es) := by
  unfold ident
  have : ∀ (es : List Perf) (x : Int), IsInt64 x → (∀ p ∈ es, Fits p) →
      IsInt64 (es.foldl (fun last e => if e.id = 0 then i64 (last + 1) else e.id) x) := by
    intro es
    induction es with
    | nil => intro x hx _; exact hx
    | cons p es ih =>
      intro x hx hp
      refine ih _ ?_ fun q hq => hp q (by simp [hq])
      show IsInt64 (if p.id = 0 then i64 (x + 1) else p.id)
      split
      · exact isInt64_i64 _
      · exact (hp p (by simp)).1
  exact this es (-1) ⟨by omega, by omega⟩ h

theorem totals_recordable {es : List Perf} (h : ∀ p ∈ es, Recordable p) : ∀ p ∈ totals es, Recordable p := by
  intro p hp
  unfold totals at hp
  obtain ⟨i, hi, rfl⟩ := List.mem_mapIdx.mp hp
  have he := h _ (List.getElem_mem hi)
  refine ⟨⟨ident_fits fun p hp => (h p (List.mem_of_mem_take hp)).1, ⟨isInt64_i64 _, isInt64_i64 _, isInt64_i64 _, isInt64_i64 _⟩,
    ⟨isInt64_i64 _, isInt64_i64 _⟩, he.1.2.2.2.1, he.1.2.2.2.2⟩, he.2⟩

/-! ### recorders -/

open Model.Recorders in
/-- what stays true of a recorder -/
structure Sane (r : Recorder) : Prop where
  started : r.started = zeroTime ∨ InYears r.started
  ts : r.point.ts = zeroTime ∨ InYears r.point.ts
  id : IsInt64 r.point.id
  number : IsInt64 r.point.counters.number
  operations : IsInt64 r.point.counters.operations
  size : IsInt64 r.point.counters.size
  errors : IsInt64 r.point.counters.errors
  duration : IsInt64 r.point.timers.duration
  total : IsInt64 r.point.timers.total
  state : IsInt64 r.point.gauges.state
  workers : IsInt64 r.point.gauges.workers
  recorded : ∀ p ∈ r.recorded, Recordable p

section
open Model.Recorders

theorem isInt64_zero : IsInt64 0 := ⟨by omega, by omega⟩

theorem sane_new (k : Flavor) (t : Time) : Sane (Recorders.new k t) := by
  cases k <;> exact ⟨.inl rfl, .inl rfl, isInt64_zero, isInt64_zero, isInt64_zero, isInt64_zero, isInt64_zero, isInt64_zero, isInt64_zero, isInt64_zero,
    isInt64_zero, by simp [Recorders.new]⟩

theorem sane_reset {r : Recorder} (k : Flavor) (h : Sane r) : Sane (doReset k r) := by
  cases k <;> exact ⟨.inl rfl, .inl rfl, isInt64_zero, isInt64_zero, isInt64_zero, isInt64_zero, isInt64_zero, isInt64_zero, isInt64_zero, h.state,
    h.workers, h.recorded⟩

theorem recordable_of_sane {r : Recorder} (h : Sane r) (ht : InYears r.point.ts) : Recordable r.point :=
  ⟨⟨h.id, ⟨h.number, h.operations, h.size, h.errors⟩, ⟨h.duration, h.total⟩, ⟨h.state, h.workers⟩, ht.1, by have := ht.2; unfold IsInt64; omega⟩, ht⟩

theorem sane_persist {r : Recorder} (h : Sane r) (ht : InYears r.point.ts) : Sane (persist r) :=
  { h with
    recorded := by
      intro p hp
      rcases List.mem_append.mp hp with hp | hp
      · exact h.recorded p hp
      · rw [List.mem_singleton.mp hp]; exact recordable_of_sane h ht }

theorem stamped {r : Recorder} (h : Sane r) {t : Time} (ht : InYears t) : InYears (setTimestamp r.point r.started t).ts := by
  unfold setTimestamp
  split
  · split
    · exact h.started.resolve_left ‹_›
    · exact ht
  · exact h.ts.resolve_left ‹_›

theorem setTimestamp_same (p : Perf) (s t : Time) : (setTimestamp p s t).id = p.id ∧ (setTimestamp p s t).counters = p.counters ∧
    (setTimestamp p s t).timers = p.timers ∧ (setTimestamp p s t).gauges = p.gauges := by
  unfold setTimestamp
  split
  · split <;> exact ⟨rfl, rfl, rfl, rfl⟩
  · exact ⟨rfl, rfl, rfl, rfl⟩

theorem sane_point {r : Recorder} (h : Sane r) {p : Perf} (hp : p.id = r.point.id ∧ p.counters = r.point.counters ∧ p.timers = r.point.timers ∧
    p.gauges = r.point.gauges) (ht : p.ts = zeroTime ∨ InYears p.ts) : Sane { r with point := p } := by
  obtain ⟨h1, h2, h3, h4⟩ := hp
  exact ⟨h.started, ht, h1 ▸ h.id, h2 ▸ h.number, h2 ▸ h.operations, h2 ▸ h.size, h2 ▸ h.errors, h3 ▸ h.duration, h3 ▸ h.total, h4 ▸ h.state,
    h4 ▸ h.workers, h.recorded⟩

theorem sane_stamp {r : Recorder} (h : Sane r) {t : Time} (ht : InYears t) : Sane { r with point := setTimestamp r.point r.started t } :=
  sane_point h (setTimestamp_same _ _ _) (.inr (stamped h ht))

theorem sane_addNumber {r : Recorder} (h : Sane r) (v : Int) : Sane (addNumber r v) := { h with number := isInt64_i64 _ }
theorem sane_addDuration {r : Recorder} (h : Sane r) (v : Int) : Sane (addDuration r v) := { h with duration := isInt64_i64 _ }
theorem sane_addTotal {r : Recorder} (h : Sane r) (t : Time) : Sane (addTotal r t) := by
  unfold addTotal
  split
  · exact { h with total := isInt64_i64 _ }
  · exact h

theorem sane_stop {r : Recorder} (h : Sane r) : Sane { r with started := zeroTime } := { h with started := .inl rfl }

theorem sane_endIteration {r : Recorder} (k : Flavor) (h : Sane r) (d : Int) {now : Nat → Time} (hn : ∀ i, InYears (now i)) :
    Sane (endIteration k r d now) := by
  cases k with
  | raw =>
    have h1 := sane_addTotal (sane_addNumber h 1) (now 0)
    exact sane_stop (sane_persist (sane_addDuration (sane_stamp h1 (hn 1)) d) (stamped h1 (hn 1)))
  | single => exact sane_addDuration (sane_stop (sane_addTotal (sane_addNumber (sane_stamp h (hn 1)) 1) (now 0))) d
  | grouped i =>
    have h1 := sane_addDuration (sane_addTotal (sane_addNumber h 1) (now 0)) d
    refine sane_stop ?_
    split
    · have h2 := sane_persist (sane_stamp h1 (hn 1)) (stamped h1 (hn 1))
      exact { h2 with ts := .inl rfl }
    · exact h1

theorem sane_endTest {r : Recorder} (k : Flavor) (h : Sane r) {now : Nat → Time} (hn : ∀ i, InYears (now i)) : Sane (endTest k r now) := by
  cases k with
  | single => exact sane_reset .single (sane_persist (sane_stamp h (hn 0)) (stamped h (hn 0)))
  | raw =>
    refine sane_reset .raw ?_
    split
    · exact sane_persist h (h.ts.resolve_left ‹_›)
    · exact h
  | grouped i =>
    refine sane_reset (.grouped i) ?_
    split
    · exact sane_persist h (h.ts.resolve_left ‹_›)
    · exact h

theorem sane_call {r : Recorder} (k : Flavor) (h : Sane r) {c : Call} {now : Nat → Time} (hc : CallFits (c, now)) : Sane (call k r now c) := by
  obtain ⟨hn, hc⟩ := hc
  cases c with
  | beginIteration =>
    have h1 : Sane { r with started := now 0 } := { h with started := .inr (hn 0) }
    cases k with
    | single => exact h1
    | raw => exact sane_stamp h1 (hn 1)
    | grouped i => exact sane_stamp h1 (hn 1)
  | setTime t => exact { h with ts := .inr hc }
  | setID v => exact { h with id := hc }
  | setTotalDuration v =>
    cases k with
    | raw => exact { h with total := hc }
    | single => exact { h with total := isInt64_i64 _ }
    | grouped i => exact { h with total := isInt64_i64 _ }
  | setDuration v =>
    cases k with
    | raw => exact { h with duration := hc }
    | single => exact { h with duration := isInt64_i64 _ }
    | grouped i => exact { h with duration := isInt64_i64 _ }
  | incOperations v => exact { h with operations := isInt64_i64 _ }
  | incIterations v => exact sane_addNumber h v
  | incSize v => exact { h with size := isInt64_i64 _ }
  | incError v => exact { h with errors := isInt64_i64 _ }
  | setState v => exact { h with state := hc }
  | setWorkers v => exact { h with workers := hc }
  | setFailed b => exact { h with }
  | endIteration v => exact sane_endIteration k h v hn
  | endTest => exact sane_endTest k h hn
  | reset => exact sane_reset k h

theorem sane_run (k : Flavor) : ∀ (cs : List (Call × (Nat → Time))) {r : Recorder}, Sane r → (∀ c ∈ cs, CallFits c) → Sane (Recorders.run k r cs)
  | [], _, h, _ => h
  | (c, now) :: cs, r, h, hc => sane_run k cs (sane_call k h (hc _ (by simp))) fun c h => hc c (by simp [h])

theorem single_silent (t : Time) (cs : List (Call × (Nat → Time))) (h : ∀ c ∈ cs, c.1 ≠ .endTest) :
    (Recorders.run .single (Recorders.new .single t) cs).recorded = [] := by
  have : ∀ (cs pre : List (Call × (Nat → Time))), (∀ c ∈ cs, c.1 ≠ .endTest) →
      (Recorders.run .single (Recorders.new .single t) (pre ++ cs)).recorded = (Recorders.run .single (Recorders.new .single t) pre).recorded := by
    intro cs
    induction cs with
    | nil => intro pre _; rw [List.append_nil]
    | cons c cs ih =>
      intro pre hc
      rw [← List.singleton_append, ← List.append_assoc, ih _ fun c h => hc c (by simp [h])]
      exact (Props.C49_single t pre c.1 c.2).1 (hc c (by simp))
  exact this cs [] h

theorem sinceReset_all {cs : List (Call × (Nat → Time))} (h : ∀ c ∈ cs, c.1 ≠ .reset ∧ c.1 ≠ .endTest) :
    Spec.Recorders.sinceReset (cs.map (·.1)) = cs.map (·.1) := by
  unfold Spec.Recorders.sinceReset
  have self : ∀ (f : Call → Bool) (l : List Call), (∀ c ∈ l, f c = true) → l.takeWhile f = l := by
    intro f l
    induction l with
    | nil => intro _; rfl
    | cons c l ih => intro hl; rw [List.takeWhile_cons, if_pos (hl c (by simp)), ih fun c h => hl c (by simp [h])]
  rw [self, List.reverse_reverse]
  intro c hc
  obtain ⟨x, hx, rfl⟩ := List.mem_map.mp (List.mem_reverse.mp hc)
  have := h x hx
  split <;> simp_all

end

/-! ### times -/

theorem repDocs_one {ds : List Doc} {fs : Fields} (h : RepDocs ds [fs]) : ∃ d, ds = [d] ∧ RepFields d fs := by
  match ds, h with
  | [d], ⟨h, _⟩ => exact ⟨d, rfl, h⟩

theorem pairs_one {α β : Type} {R : α → β → Prop} {a : α} {bs : List β} (h : Pairs R [a] bs) : ∃ b, bs = [b] ∧ R a b := by
  match bs, h with
  | [b], ⟨h, _⟩ => exact ⟨b, rfl, h⟩

theorem addEach_one {fsub : Nat → Nat → Nat} {n : Nat} {c c' : Batch} {d : Doc} (h : addEach (fun c d => c.add fsub n d) c [d] = .ok (c', [none])) :
    c.add fsub n d = .ok (c', none) := by
  simp only [addEach] at h
  obtain ⟨⟨x, e⟩, h1, h2⟩ := Res.bind_eq_ok.mp h
  simp at h2
  rw [h1, h2.1, h2.2]

/-- the time that an event comes back with -/
def wrapped (t : Time) : Time :=
  let x := (i64 (nanoseconds t / 1000000 * 1000000)).tdiv 1000000
  ⟨x / 1000, x % 1000 * 1000000⟩

theorem wrapped_ms (t : Time) : nanoseconds (wrapped t) = (i64 (nanoseconds t / 1000000 * 1000000)).tdiv 1000000 * 1000000 := by
  show (i64 (nanoseconds t / 1000000 * 1000000)).tdiv 1000000 / 1000 * 1000000000 + (i64 (nanoseconds t / 1000000 * 1000000)).tdiv 1000000 % 1000 * 1000000 = _
  omega

theorem back_event (fsub : Nat → Nat → Nat) (p : Perf) :
    backAll fsub ([perfFields p].map Fields.metrics) = [perfFields { p with ts := wrapped p.ts }] := by
  have : (i64 (nanoseconds p.ts / 1000000 * 1000000)).tdiv 1000000 = nanoseconds (wrapped p.ts) / 1000000 := by rw [wrapped_ms]; omega
  simp [backAll, backFrom, perfFields, Fields.metrics, BVal.metric, Fields.back, BVal.back, this]

theorem wrapped_time (t : Time) :
    nanoseconds (wrapped t) / 1000000 * 1000000 = (i64 (nanoseconds t / 1000000 * 1000000)).tdiv 1000000 * 1000000 ∧
    -9223372036854 ≤ (i64 (nanoseconds t / 1000000 * 1000000)).tdiv 1000000 ∧ (i64 (nanoseconds t / 1000000 * 1000000)).tdiv 1000000 ≤ 9223372036854 := by
  refine ⟨by rw [wrapped_ms]; omega, ?_⟩
  have := i64_range (nanoseconds t / 1000000 * 1000000)
  generalize i64 _ = x at *
  rcases Int.le_total 0 x with h | h
  · rw [Int.tdiv_eq_ediv_of_nonneg h]; omega
  · obtain ⟨y, rfl⟩ : ∃ y, x = -y := ⟨-x, by omega⟩
    rw [Int.neg_tdiv, Int.tdiv_eq_ediv_of_nonneg (by omega)]; omega

end Birch.Proofs.Events
