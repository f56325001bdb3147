import Verif.Proofs.Events
import Verif.Proofs.Totals
import Verif.Props.Bson

/-
C47 (collectors of performance events), C50 (documents of performance events).
-/

namespace Birch.Props
open Birch Model Spec Model.Events Spec.Events Proofs Proofs.Events

/-! ### C50 -/

def exPerf : Perf := ⟨⟨1500000000, 123456789⟩, 7, ⟨1, 20, -3, 4⟩, ⟨5000000000, 6⟩, ⟨-9223372036854775808, 9223372036854775807, true⟩⟩

theorem exPerf_fits : Fits exPerf := by
  unfold Fits IsInt64 Normal; decide

/-- `MarshalDocument` gives the document with all fields of the event. -/
theorem C50_marshal (p : Perf) (h : Fits p) : ∃ d, marshal p = .ok d ∧ RepFields d (perfFields p) := marshal_rep h

example : Fits exPerf := exPerf_fits

/-- Reading such a document into any event `q` restores every field but two; the time is rounded down to milliseconds.
    Missing: the ID and the number of operations, which stay what they were in `q` (`C50_lost`). -/
theorem C50_roundtrip_partial (p q : Perf) (d : Doc) (h : RepFields d (perfFields p)) :
    ∃ r, Returns (fun fuel => unmarshal fuel q d) (.ok r) ∧
      r.counters.number = p.counters.number ∧ r.counters.size = p.counters.size ∧ r.counters.errors = p.counters.errors ∧
      r.timers = p.timers ∧ r.gauges = p.gauges ∧ Normal r.ts ∧ nanoseconds r.ts = nanoseconds p.ts / 1000000 * 1000000 ∧
      r.id = q.id ∧ r.counters.operations = q.counters.operations := by
  obtain ⟨t, -, h2, h3⟩ := unmarshal_rep 1000 (by omega) q h
  refine ⟨⟨t, q.id, { p.counters with operations := q.counters.operations }, p.timers, p.gauges⟩, ⟨1000, fun m hm => ?_⟩,
    rfl, rfl, rfl, rfl, rfl, h2, h3, rfl, rfl⟩
  obtain ⟨t', h1', h2', h3'⟩ := unmarshal_rep m hm q h
  have : t' = t := by
    unfold Normal nanoseconds at *
    cases t; cases t'
    simp only [Time.mk.injEq] at *
    omega
  rw [← this]; exact h1'

example : ∃ d, RepFields d (perfFields exPerf) := (C50_marshal _ exPerf_fits).imp fun _ h => h.2

/-- the same through bytes: `MarshalBSON`, then `ReadDocument`, then `UnmarshalDocument` -/
theorem C50_bytes_partial (p q : Perf) (h : Fits p) :
    ∃ d b d' r, marshal p = .ok d ∧ Returns (fun fuel => docMarshal fuel d) (.ok b) ∧ Returns (fun fuel => readDocument fuel b) (.ok d') ∧
      Returns (fun fuel => unmarshal fuel q d') (.ok r) ∧
      r.counters.number = p.counters.number ∧ r.counters.size = p.counters.size ∧ r.counters.errors = p.counters.errors ∧
      r.timers = p.timers ∧ r.gauges = p.gauges ∧ Normal r.ts ∧ nanoseconds r.ts = nanoseconds p.ts / 1000000 * 1000000 := by
  obtain ⟨d, h1, h2⟩ := marshal_rep h
  have hl : (encDoc (perfFields p)).length < 2147483648 := by
    simp [encDoc, wrapDoc_length, perfFields, Fields.enc, BVal.enc]
  have wf := repFields_wf h2
  obtain ⟨d', e0, e2⟩ := readDocument_enc ((encDoc (perfFields p)).length + 1) _ wf [] (by omega) (by simpa using hl)
  rw [List.append_nil] at e0
  have e1 := readDocument_returns e0 (by simp)
  obtain ⟨r, r1, r2, r3, r4, r5, r6, r7, r8, -⟩ := C50_roundtrip_partial p q d' e2
  exact ⟨d, _, d', r, h1, C01_marshal_represented d _ h2 hl, e1, r1, r2, r3, r4, r5, r6, r7, r8⟩

/-- The ID and the number of operations never come back: an event that has one of them is not what a new event becomes. -/
theorem C50_lost (p : Perf) (d : Doc) (h : RepFields d (perfFields p)) (hp : p.id ≠ 0 ∨ p.counters.operations ≠ 0) (r : Perf)
    (hr : Returns (fun fuel => unmarshal fuel ⟨zeroTime, 0, ⟨0, 0, 0, 0⟩, ⟨0, 0⟩, ⟨0, 0, false⟩⟩ d) (.ok r)) : r.id = 0 ∧ r.counters.operations = 0 ∧ r ≠ p := by
  obtain ⟨r', h1, -, -, -, -, -, -, -, h2, h3⟩ := C50_roundtrip_partial p ⟨zeroTime, 0, ⟨0, 0, 0, 0⟩, ⟨0, 0⟩, ⟨0, 0, false⟩⟩ d h
  have : r = r' := by
    obtain ⟨n, hn⟩ := hr
    obtain ⟨m, hm⟩ := h1
    have a := hn (max n m) (by omega)
    have b := hm (max n m) (by omega)
    simp only at a b
    rw [a] at b
    exact Res.ok.inj b
  subst this
  exact ⟨h2, h3, by rintro rfl; exact hp.elim (fun c => c h2) (fun c => c h3)⟩

example : ∃ d, RepFields d (perfFields exPerf) ∧ exPerf.id ≠ 0 := by
  obtain ⟨d, _, h⟩ := C50_marshal _ exPerf_fits
  exact ⟨d, h, by decide⟩

/-- The number of operations is read from a field of another name: `{counters: {opts: n}}` sets it. -/
theorem C50_opts (q : Perf) (n : Int) (d : Doc)
    (h : RepFields d (.cons [99, 111, 117, 110, 116, 101, 114, 115] (.doc (.cons [111, 112, 116, 115] (.int64 n) .nil)) .nil)) :
    Returns (fun fuel => unmarshal fuel q d) (.ok { q with counters := { q.counters with operations := n } }) := by
  match d, h with
  | [v], ⟨hv, _⟩ =>
    refine ⟨1000, fun m hm => ?_⟩
    obtain ⟨d', h1, h2⟩ := mutableDocument_rep (fuel := m) hv (by simp [BVal.enc, Fields.enc]) (by simp [BVal.enc, Fields.enc]; omega)
    match d', h2 with
    | [w], ⟨hw, _⟩ =>
      simp only [unmarshal, unmarshalCounters, key_rep hv, key_rep hw, h1, int64_rep hw, Res.bind_ok]
      simp [kTs, kIdent, kCounters, kN, kOpts]

example : ∃ d, RepFields d (.cons [99, 111, 117, 110, 116, 101, 114, 115] (.doc (.cons [111, 112, 116, 115] (.int64 7) .nil)) .nil) := by
  obtain ⟨d, _, h⟩ := buildDoc_rep (.cons [99, 111, 117, 110, 116, 101, 114, 115] (.doc (.cons [111, 112, 116, 115] (.int64 7) .nil)) .nil)
    (by simp [Fields.WF, BVal.WF, NulFree]) (by simp [Fields.enc, BVal.enc])
  exact ⟨d, h⟩

/-! ### C47 -/

/-- The basic collector records the running totals of the events that are added: after `i` events the sums of all their counters and timers,
    with the time and gauges of the last.  The program may write events before it adds them, and add nil.
    Missing: events that are added twice, or changed after they are added (`C47_same_event`, `C47_reuse`). -/
theorem C47_basic_partial (h : Heap) (as : List Act) (hf : Fresh [] as) (fit : ∀ e ∈ added h as, Fits e) :
    ∃ w, run .basic (World.new h) as = .ok w ∧ w.recorded = totals (added h as) := by
  obtain ⟨w, h1, -, h2⟩ := run_inv (k := .basic) (by simp) (by simp) (fun es _ w => w.recorded = totals es)
    (fun _ _ _ _ _ _ h => h) (fun _ _ _ _ _ _ h => h)
    (by
      intro es a d t u as e w w' hp _ hr _ _ _
      simp only [picks, if_true] at hr
      rw [hr, hp, totals_append])
    as [] h [] (World.new h) (inv_new h) hf fit (by rfl)
  exact ⟨w, h1, by simpa using h2⟩

def exHeap : Heap := fun a => { exPerf with id := a, counters := { exPerf.counters with number := a + 1 } }

def exActs : List Act :=
  [.add ⟨some 3, 0, zeroTime, zeroTime⟩, .add ⟨none, 0, zeroTime, zeroTime⟩, .write 0 exPerf, .add ⟨some 1, 50, zeroTime, zeroTime⟩,
    .add ⟨some 0, 100, zeroTime, zeroTime⟩]

example : Fresh [] exActs ∧ (∀ e ∈ added exHeap exActs, Fits e) ∧ (totals (added exHeap exActs)).map (·.counters.number) = [4, 6, 7] := by
  refine ⟨by simp [exActs, Fresh], ?_, by decide⟩
  simp only [exActs, added, List.mem_cons, List.not_mem_nil, or_false, forall_eq_or_imp, forall_eq]
  refine ⟨?_, ?_, ?_⟩ <;> (unfold Fits IsInt64 Normal; decide)

/-- The sampling collector records every `n`-th of these totals, beginning with the first.  Missing: as above. -/
theorem C47_sampling_partial (n : Nat) (hn : 0 < n) (h : Heap) (as : List Act) (hl : as.length < 9223372036854775808) (hf : Fresh [] as)
    (fit : ∀ e ∈ added h as, Fits e) :
    ∃ w, run (.sampling n) (World.new h) as = .ok w ∧
      w.recorded = ((totals (added h as)).zipIdx.filter fun x => x.2 % n = 0).map (·.1) := by
  obtain ⟨w, h1, -, h2, -⟩ := run_inv (k := .sampling n) (by simp) (by intro e; injection e; omega)
    (fun es as w => w.recorded = ((totals es).zipIdx.filter fun x => x.2 % n = 0).map (·.1) ∧ w.count = es.length ∧ es.length + as.length < 9223372036854775808)
    (fun _ _ _ _ _ _ ⟨h1, h2, h3⟩ => ⟨h1, h2, by simp at h3; omega⟩) (fun _ _ _ _ _ _ ⟨h1, h2, h3⟩ => ⟨h1, h2, by simp at h3; omega⟩)
    (by
      rintro es a d t u as e w w' ⟨hp, hc, hlen⟩ _ hr hcount _ _
      simp only [List.length_cons] at hlen
      refine ⟨?_, ?_, by simp; omega⟩
      · have hpick : picks (.sampling n) w ⟨some a, d, t, u⟩ = decide (es.length % n = 0) := by
          simp only [picks, hc]
          congr 1
          rw [← Int.ofNat_tmod]
          simp only [eq_iff_iff]
          omega
        rw [hr, hp, totals_append, List.zipIdx_append, List.filter_append, List.map_append, hpick, totals_length]
        simp only [List.zipIdx_cons, List.zipIdx_nil, Nat.zero_add]
        by_cases hz : es.length % n = 0
        · simp [hz]
        · simp [hz]
      · rw [hcount n rfl, hc]
        rw [i64_small (by omega) (by omega)]; simp)
    as [] h [] (World.new h) (inv_new h) hf fit ⟨rfl, rfl, by simpa using hl⟩
  exact ⟨w, h1, by simpa using h2⟩

example : (((totals (added exHeap exActs)).zipIdx.filter fun x => x.2 % 2 = 0).map (·.1)).map (·.counters.number) = [4, 7] := by decide

/-- The random collector records those totals for which the random number is below the percentage.  Missing: as above. -/
theorem C47_random_partial (percent : Int) (hp : 0 < percent ∧ percent ≤ 100) (h : Heap) (as : List Act) (hf : Fresh [] as)
    (fit : ∀ e ∈ added h as, Fits e) :
    ∃ w, run (.random percent) (World.new h) as = .ok w ∧ (totals (added h as)).length = (draws as).length ∧
      w.recorded = (((totals (added h as)).zip (draws as)).filter fun x => x.2 < percent).map (·.1) := by
  obtain ⟨w, h1, -, ds, h2, h3, h4⟩ := run_inv (k := .random percent) (by simp) (by simp)
    (fun es bs w => ∃ ds : List Int, ds.length = es.length ∧ w.recorded = (((totals es).zip ds).filter fun x => x.2 < percent).map (·.1) ∧ ds ++ draws bs = draws as)
    (fun _ _ _ _ _ _ h => h) (fun _ _ _ _ _ _ h => h)
    (by
      rintro es a d t u bs e w w' ⟨ds, hd, hw, hds⟩ _ hr _ _ _
      refine ⟨ds ++ [d], by simp [hd], ?_, by simpa [draws] using hds⟩
      have hpick : picks (.random percent) w ⟨some a, d, t, u⟩ = decide (d < percent) := by
        have h1 : ¬ percent > 100 := by omega
        have h2 : percent > 0 := by omega
        simp [picks, h1, h2]
      rw [hr, hw, hpick, totals_append, List.zip_append (by rw [totals_length, hd]), List.filter_append, List.map_append]
      by_cases hz : d < percent
      · simp [hz]
      · simp [hz])
    as [] h [] (World.new h) (inv_new h) hf fit ⟨[], rfl, rfl, by simp⟩
  simp only [draws, List.append_nil] at h4
  subst h4
  exact ⟨w, h1, by rw [totals_length, h2]; simp, by simpa using h3⟩

example : draws exActs = [0, 50, 100] := rfl

/-- Every collector that sums records only such totals, in order.  Missing: as above. -/
theorem C47_only_totals_partial (k : Kind) (hk : k ≠ .passthrough) (hn : k ≠ .sampling 0) (h : Heap) (as : List Act) (hf : Fresh [] as)
    (fit : ∀ e ∈ added h as, Fits e) :
    ∃ w, run k (World.new h) as = .ok w ∧ w.recorded.Sublist (totals (added h as)) := by
  obtain ⟨w, h1, -, h2⟩ := run_inv hk hn (fun es _ w => w.recorded.Sublist (totals es))
    (fun _ _ _ _ _ _ h => h) (fun _ _ _ _ _ _ h => h)
    (by
      intro es a d t u as e w w' hp _ hr _ _ _
      rw [hr, totals_append]
      refine List.Sublist.append hp ?_
      split
      · exact List.Sublist.refl _
      · exact List.nil_sublist _)
    as [] h [] (World.new h) (inv_new h) hf fit (List.Sublist.refl _)
  exact ⟨w, h1, by simpa using h2⟩

example : Kind.interval 5 ≠ .passthrough ∧ Kind.interval 5 ≠ .sampling 0 := by simp

/-- The interval collector records at most one total per interval: if the clock never goes backwards and all calls are between `t` and `e`,
    the intervals between what it records fit between `t` and `e`. -/
theorem C47_interval_partial (dur : Int) (hd : 0 ≤ dur) (h : Heap) (as : List Act) (hf : Fresh [] as) (fit : ∀ x ∈ added h as, Fits x)
    (t e : Int) (hc : Clock t e as) :
    ∃ w, run (.interval dur) (World.new h) as = .ok w ∧ ((w.recorded.length : Int) - 1) * dur ≤ e - t ∧
      (added h as ≠ [] → w.recorded.head? = (totals (added h as)).head?) := by
  obtain ⟨w, h1, -, s, h2, h3, h4, h5, h6, h7⟩ := run_inv (k := .interval dur) (by simp) (by simp)
    (fun es bs w => ∃ s : Int, Clock s e bs ∧ t ≤ s ∧ (es = [] → w.recorded = []) ∧ (es ≠ [] → w.recorded.head? = (totals es).head?) ∧
      (es ≠ [] → nanoseconds w.last ≤ s ∧ ((w.recorded.length : Int) - 1) * dur ≤ nanoseconds w.last - t) ∧ (es = [] ↔ w.recorded = []))
    (fun _ _ _ _ _ _ h => h) 
    (by
      rintro es d t1 u bs w ⟨s, ⟨h1, h2, h3⟩, h4, h5, h6, h7, h8⟩
      exact ⟨_, h3, by simp only at *; omega, h5, h6, fun he => ⟨by have := (h7 he).1; simp only at *; omega, (h7 he).2⟩, h8⟩)
    (by
      rintro es a d t1 u bs x w w' ⟨s, ⟨h1, h2, h3⟩, h4, h5, h6, h7, h8⟩ hcur hr _ hlast _
      have hl := hlast dur rfl
      simp only at h1 h2 h3
      refine ⟨_, h3, by omega, by simp, ?_, ?_, ?_⟩
      · intro _
        by_cases he : es = []
        · have : picks (.interval dur) w ⟨some a, d, t1, u⟩ = true := by
            have : w.current = none := by simpa [he] using hcur
            simp [picks, this]
          rw [hr, h5 he, this, he]; rfl
        · have h9 := h6 he
          rw [hr, totals_append, List.head?_append, List.head?_append, h9]
          cases hz : (totals es).head? with
          | none =>
            have : (totals es) = [] := by simpa using hz
            have := congrArg List.length this
            rw [totals_length] at this
            exact absurd (List.length_eq_zero_iff.1 this) he
          | some y => rfl
      · intro _
        by_cases he : es = []
        · have hp : picks (.interval dur) w ⟨some a, d, t1, u⟩ = true := by
            have : w.current = none := by simpa [he] using hcur
            simp [picks, this]
          rw [hl, hp, if_pos rfl, hr, h5 he, hp]
          simp only [if_true, List.nil_append, List.length_cons, List.length_nil]
          exact ⟨Int.le_refl _, by omega⟩
        · obtain ⟨h9, h10⟩ := h7 he
          have hsome : w.current.isNone = false := by
            have := hcur.2 he
            cases hw : w.current with
            | none => rw [hw] at this; cases this
            | some _ => rfl
          by_cases hp : picks (.interval dur) w ⟨some a, d, t1, u⟩ = true
          · rw [hl, hp, if_pos rfl, hr, hp]
            simp only [picks, hsome, Bool.false_or, decide_eq_true_eq] at hp
            have hsub : dur ≤ nanoseconds t1 - nanoseconds w.last := by
              unfold timeSub at hp
              unfold nanoseconds
              simp only at hp
              split at hp
              · omega
              · split at hp <;> omega
            refine ⟨Int.le_refl _, ?_⟩
            simp only [if_true, List.length_append, List.length_cons, List.length_nil]
            have : ((w.recorded.length + (0 + 1) : Nat) - 1 : Int) * dur = ((w.recorded.length : Int) - 1) * dur + dur := by
              rw [show ((w.recorded.length + (0 + 1) : Nat) - 1 : Int) = (w.recorded.length : Int) - 1 + 1 by omega, Int.add_mul, Int.one_mul]
            rw [this]
            omega
          · have hp : picks (.interval dur) w ⟨some a, d, t1, u⟩ = false := by simpa using hp
            rw [hl, hp, hr, hp]
            simp only [Bool.false_eq_true, if_false, List.append_nil]
            exact ⟨by omega, h10⟩
      · simp only [List.append_eq_nil_iff, List.cons_ne_self, and_false, false_iff]
        rw [hr]
        by_cases he : es = []
        · have hp : picks (.interval dur) w ⟨some a, d, t1, u⟩ = true := by
            have : w.current = none := by simpa [he] using hcur
            simp [picks, this]
          rw [hp]; simp
        · have : w.recorded ≠ [] := fun c => he (h8.2 c)
          simp [this])
    as [] h [] (World.new h) (inv_new h) hf fit ⟨t, hc, Int.le_refl _, fun _ => rfl, by simp, by simp, by simp [World.new]⟩
  refine ⟨w, h1, ?_, by simpa using h5⟩
  simp only [Clock] at h2
  simp only [List.nil_append] at *
  by_cases he : added h as = []
  · rw [h4 he]
    simp only [List.length_nil]
    have : ((0 : Nat) - 1 : Int) * dur = -dur := by omega
    rw [this]; omega
  · have := h6 he; omega

example : Clock 0 100 [.add ⟨some 0, 0, ⟨0, 1⟩, ⟨0, 2⟩⟩, .add ⟨some 1, 0, ⟨0, 3⟩, ⟨0, 90⟩⟩] := by simp [Clock, nanoseconds]

/-- The pass-through collector records the events as they are, whatever the program does. -/
theorem C47_passthrough (h : Heap) (as : List Act) :
    ∃ w, run .passthrough (World.new h) as = .ok w ∧ w.recorded = added h as := by
  suffices ∀ (as : List Act) (w : World), ∃ w', run .passthrough w as = .ok w' ∧ w'.recorded = w.recorded ++ added w.heap as by
    obtain ⟨w, h1, h2⟩ := this as (World.new h)
    exact ⟨w, h1, by simpa [World.new] using h2⟩
  intro as
  induction as with
  | nil => intro w; exact ⟨w, rfl, by simp [added]⟩
  | cons x as ih =>
    intro w
    match x with
    | .write a p =>
      obtain ⟨w', h1, h2⟩ := ih { w with heap := w.heap.set a p }
      exact ⟨w', by rw [run, act]; exact h1, by rw [h2]; rfl⟩
    | .add ⟨none, d, t, u⟩ =>
      obtain ⟨w', h1, h2⟩ := ih w
      exact ⟨w', by rw [run, act_nil]; exact h1, by rw [h2]; rfl⟩
    | .add ⟨some a, d, t, u⟩ =>
      obtain ⟨w', h1, h2⟩ := ih (w.record a)
      refine ⟨w', ?_, ?_⟩
      · rw [run, act]; exact h1
      · rw [h2]; simp [World.record, added]

/-- Adding the same event three times does not give the totals: the collector keeps the first event that it gets and adds to it,
    so it records `x`, `2x` and `4x`. -/
theorem C47_same_event (h : Heap) (a : Nat) (d : Int) (t u : Time) :
    ∃ w, run .basic (World.new h) [.add ⟨some a, d, t, u⟩, .add ⟨some a, d, t, u⟩, .add ⟨some a, d, t, u⟩] = .ok w ∧
      w.recorded.map (·.counters.number) = [(h a).counters.number, i64 (2 * (h a).counters.number), i64 (4 * (h a).counters.number)] := by
  refine ⟨_, rfl, ?_⟩
  have key : ∀ h : Heap, (add h a a a).counters.number = i64 ((h a).counters.number + (h a).counters.number) := by
    intro h
    unfold add Heap.set
    by_cases hz : (h a).id = 0
    · simp [hz]
    · simp [hz]
  have h2 := key h
  have h4 := key (add h a a)
  show [_, _, _] = _
  simp only [List.cons.injEq, and_true]
  refine ⟨rfl, ?_, ?_⟩
  · show (add h a a a).counters.number = _
    rw [h2]; unfold i64; omega
  · show (add (add h a a) a a a).counters.number = _
    rw [h4, h2]; unfold i64; omega

/-- so that the last one is not a total -/
example : ∃ h : Heap, ∃ as, (∀ e ∈ added h as, Fits e) ∧ ∀ w, run .basic (World.new h) as = .ok w → w.recorded ≠ totals (added h as) := by
  refine ⟨fun _ => exPerf, [.add ⟨some 0, 0, zeroTime, zeroTime⟩, .add ⟨some 0, 0, zeroTime, zeroTime⟩, .add ⟨some 0, 0, zeroTime, zeroTime⟩], ?_, ?_⟩
  · simp [added, exPerf_fits]
  · intro w hw e
    obtain ⟨w', h1, h2⟩ := C47_same_event (fun _ => exPerf) 0 0 zeroTime zeroTime
    rw [h1] at hw
    obtain rfl := Res.ok.inj hw
    rw [e] at h2
    revert h2; decide

/-- A program that uses one event for everything it reports loses what it reported before: what is recorded is twice the last. -/
theorem C47_reuse (h : Heap) (a : Nat) (d : Int) (t u : Time) (p : Perf) :
    ∃ w, run .basic (World.new h) [.add ⟨some a, d, t, u⟩, .write a p, .add ⟨some a, d, t, u⟩] = .ok w ∧
      w.recorded.map (·.counters.number) = [(h a).counters.number, i64 (2 * p.counters.number)] := by
  refine ⟨_, rfl, ?_⟩
  have key : (add (h.set a p) a a a).counters.number = i64 (p.counters.number + p.counters.number) := by
    unfold add Heap.set
    by_cases hz : p.id = 0
    · simp [hz]
    · simp [hz]
  show [_, _] = _
  simp only [List.cons.injEq, and_true]
  refine ⟨rfl, ?_⟩
  show (add (h.set a p) a a a).counters.number = _
  rw [key]; unfold i64; omega

/-- The collector changes the events of the program: the first becomes the total, one without ID gets one. -/
theorem C47_changes_events (h : Heap) (a b : Nat) (hab : a ≠ b) (fa : Fits (h a)) (d : Int) (t u : Time) :
    ∃ w, run .basic (World.new h) [.add ⟨some a, d, t, u⟩, .add ⟨some b, d, t, u⟩] = .ok w ∧
      w.heap a = total [h a, h b] (h b) ∧ ((h b).id = 0 → (w.heap b).id = i64 ((h a).id + 1)) := by
  refine ⟨_, rfl, ?_, ?_⟩
  · exact add_total (es := [h a]) (e := h a) hab (total_single fa).symm
  · intro hz
    show (add h a b b).id = _
    unfold add Heap.set
    simp [hz, Ne.symm hab]

example : Fits (exHeap 1) := by unfold Fits IsInt64 Normal; decide

/-- A sampling collector made with 0 panics at the first event. -/
theorem C47_sampling_zero (w : World) (a : Nat) (d : Int) (t u : Time) : addEvent (.sampling 0) w ⟨some a, d, t, u⟩ = .panic := rfl

end Birch.Props
