import Verif.Proofs.EventFile
import Verif.Props.Recorders

/-
C103: performance events written to an FTDC file and read again.
-/

namespace Birch.Props
open Birch Model Spec Model.Events Spec.Events Model.Ftdc Proofs Proofs.Events Proofs.Ftdc

/-- the event of 2017 that `exPerf` is, and one that is a second later and has no ID -/
def exRecordable : List Perf := [exPerf, { exPerf with ts := ⟨1500000001, 5⟩, id := 0 }]

theorem exRecordable_ok : ∀ p ∈ exRecordable, Recordable p := by
  simp only [exRecordable, exPerf, List.mem_cons, List.not_mem_nil, or_false]
  rintro p (rfl | rfl) <;>
    simp [Recordable, Fits, InYears, IsInt64, Normal, nanoseconds]

/-- Events are marshalled, added to a base collector that is large enough, with or without metadata, and what it resolves to holds the events: the
    documents that are read have all the numbers, and unmarshalling restores all but the ID and the number of operations.
    Missing: those two (`C50_lost`), the fraction of the milliseconds, and times outside of the years 1677 to 2262 (`C103_times_change`). -/
theorem C103_base_partial {fsub : Nat → Nat → Nat}
    (hsub : ∀ a b, a < 18446744073709551616 → b < 18446744073709551616 → fsub a b < 18446744073709551616)
    {zip : Bytes → Bytes} {unzip : Bytes → Option Bytes} (hz : ∀ b, unzip (zip b) = some b)
    {es : List Perf} (he : ∀ p ∈ es, Recordable p) (hne : es ≠ []) {max : Nat} (hmax : es.length ≤ max + 1) (h32 : es.length < 4294967296)
    (md : Option Doc) (hmd : ∀ m, md = some m → ∃ mfs, RepFields m mfs ∧ (encDoc mfs).length ≤ 2147483000) :
    ∃ docs, Pairs (fun p d => marshal p = .ok d) es docs ∧ ∃ N, ∀ n, N ≤ n → ∃ c,
      (newWith max md).addAll fsub n docs = .ok (c, es.map fun _ => none) ∧
      ((∀ p, Returns c.payload (.ok p) → (zip p).length ≤ 2147482000) →
        ∀ now, ∃ file, Returns (c.resolve zip now) (.ok file) ∧ HoldsEvents unzip file es) := by
  obtain ⟨docs, h1, h2⟩ := marshal_all fun p hp => (he p hp).1
  obtain ⟨N, h⟩ := C33_kept_partial hsub hz h2 (by simpa using hne) (perf_lengths es) (perf_shapes es) (perf_kept he) (max := max)
    (by simpa using hmax) (by simpa using h32) md hmd
  refine ⟨docs, h1, N, fun n hn => ?_⟩
  obtain ⟨c, h3, h4⟩ := h n hn
  refine ⟨c, by simpa [Function.comp_def] using h3, fun hs now => ?_⟩
  obtain ⟨file, h5, h6⟩ := h4 hs now
  exact ⟨file, h5, holds_of_read h6⟩

example : exRecordable ≠ [] ∧ exRecordable.length ≤ 1 + 1 := by decide

/-- The same for a batch collector, which makes chunks of `size` events. -/
theorem C103_batch_partial {fsub : Nat → Nat → Nat}
    (hsub : ∀ a b, a < 18446744073709551616 → b < 18446744073709551616 → fsub a b < 18446744073709551616)
    {zip : Bytes → Bytes} {unzip : Bytes → Option Bytes} (hz : ∀ b, unzip (zip b) = some b)
    {es : List Perf} (he : ∀ p ∈ es, Recordable p) (hne : es ≠ []) {size : Nat} (hs : 1 ≤ size) (h32 : size < 4294967295)
    (md : Option Doc) (hmd : ∀ m, md = some m → ∃ mfs, RepFields m mfs ∧ (encDoc mfs).length ≤ 2147483000) :
    ∃ docs c0, Pairs (fun p d => marshal p = .ok d) es docs ∧ batchWith size md = .ok c0 ∧ ∃ N, ∀ n, N ≤ n → ∃ c,
      addEach (fun c d => c.add fsub n d) c0 docs = .ok (c, docs.map fun _ => none) ∧
      ((∀ ch ∈ c.chunks, ∀ p, Returns ch.payload (.ok p) → (zip p).length ≤ 2147482000) →
        ∀ now, ∃ file, Returns (c.resolve zip now) (.ok file) ∧ HoldsEvents unzip file es) := by
  obtain ⟨docs, h1, h2⟩ := marshal_all fun p hp => (he p hp).1
  obtain ⟨c0, h0, N, h⟩ := C35_kept_partial hsub hz h2 (by simpa using hne) (perf_lengths es) (perf_shapes es) (perf_kept he) hs h32 md hmd
  refine ⟨docs, c0, h1, h0, N, fun n hn => ?_⟩
  obtain ⟨c, h3, h4⟩ := h n hn
  refine ⟨c, h3, fun hs now => ?_⟩
  obtain ⟨file, h5, h6⟩ := h4 hs now
  exact ⟨file, h5, holds_of_read h6⟩

example : ∀ p ∈ exRecordable, Recordable p := exRecordable_ok

/-- The same for a streaming collector whose writer does not fail and that is flushed at the end. -/
theorem C103_streaming_partial {fsub : Nat → Nat → Nat}
    (hsub : ∀ a b, a < 18446744073709551616 → b < 18446744073709551616 → fsub a b < 18446744073709551616)
    {zip : Bytes → Bytes} {unzip : Bytes → Option Bytes} (hz : ∀ b, unzip (zip b) = some b)
    {es : List Perf} (he : ∀ p ∈ es, Recordable p) {max : Nat} (h32 : max < 4294967295)
    (md : Option Doc) (hmd : ∀ m, md = some m → ∃ mfs, RepFields m mfs ∧ (encDoc mfs).length ≤ 2147483000) (now : Nat → Time) :
    ∃ docs, Pairs (fun p d => marshal p = .ok d) es docs ∧ (SmallChunks fsub zip max md docs → ∃ N, ∀ n, N ≤ n → ∃ c c',
      addEach (fun c d => c.add fsub zip now n d) (streamingWith max ⟨[], []⟩ md) docs = .ok (c, docs.map fun _ => none) ∧
      c.flush zip now n = .ok (c', none) ∧ HoldsEvents unzip c'.output.out es) := by
  obtain ⟨docs, h1, h2⟩ := marshal_all fun p hp => (he p hp).1
  refine ⟨docs, h1, fun hsm => ?_⟩
  obtain ⟨N, h⟩ := C36_kept_partial hsub hz h2 (perf_lengths es) (perf_shapes es) (perf_kept he) h32 md hmd hsm now
  refine ⟨N, fun n hn => ?_⟩
  obtain ⟨c, c', h3, h4, h5⟩ := h n hn
  exact ⟨c, c', h3, h4, holds_of_read h5⟩

/-- A program gives its events to a cumulative collector over a batch collector: the file holds the running totals, one for every event. -/
theorem C103_totals_partial {fsub : Nat → Nat → Nat}
    (hsub : ∀ a b, a < 18446744073709551616 → b < 18446744073709551616 → fsub a b < 18446744073709551616)
    {zip : Bytes → Bytes} {unzip : Bytes → Option Bytes} (hz : ∀ b, unzip (zip b) = some b)
    (h : Heap) (as : List Act) (hf : Fresh [] as) (he : ∀ p ∈ added h as, Recordable p) (hne : added h as ≠ [])
    {size : Nat} (hs : 1 ≤ size) (h32 : size < 4294967295) :
    ∃ w docs, run .basic (World.new h) as = .ok w ∧ Pairs (fun p d => marshal p = .ok d) w.recorded docs ∧ ∃ N, ∀ n, N ≤ n → ∃ c,
      addEach (fun c d => c.add fsub n d) (Batch.new size) docs = .ok (c, docs.map fun _ => none) ∧
      ((∀ ch ∈ c.chunks, ∀ p, Returns ch.payload (.ok p) → (zip p).length ≤ 2147482000) →
        ∀ now, ∃ file, Returns (c.resolve zip now) (.ok file) ∧ HoldsEvents unzip file (totals (added h as))) := by
  obtain ⟨w, h1, h2⟩ := C47_basic_partial h as hf fun p hp => (he p hp).1
  obtain ⟨docs, c0, h3, h4, h5⟩ := C103_batch_partial hsub hz (totals_recordable he)
    (fun e => hne (List.length_eq_zero_iff.mp (by rw [← totals_length, e]; rfl))) hs h32 none nofun
  cases h4
  exact ⟨w, docs, h1, h2 ▸ h3, h5⟩

theorem exActs_recordable : ∀ p ∈ added exHeap exActs, Recordable p := by
  simp only [exActs, added, List.mem_cons, List.not_mem_nil, or_false, forall_eq_or_imp, forall_eq]
  refine ⟨?_, ?_, ?_⟩ <;> simp [Recordable, Fits, InYears, IsInt64, Normal, nanoseconds, exHeap, exPerf, Heap.set]

example : Fresh [] exActs ∧ added exHeap exActs ≠ [] ∧ (totals (added exHeap exActs)).map (·.counters.number) = [4, 6, 7] :=
  ⟨by simp [exActs, Fresh], by simp [exActs, added], by decide⟩

/-- Whatever is called on a recorder of any of the three kinds: the events that it gives to a streaming collector are in the file. -/
theorem C103_recorder_partial {fsub : Nat → Nat → Nat}
    (hsub : ∀ a b, a < 18446744073709551616 → b < 18446744073709551616 → fsub a b < 18446744073709551616)
    {zip : Bytes → Bytes} {unzip : Bytes → Option Bytes} (hz : ∀ b, unzip (zip b) = some b)
    (k : Recorders.Flavor) (t : Time) (cs : List (Recorders.Call × (Nat → Time))) (hc : ∀ c ∈ cs, CallFits c)
    {max : Nat} (h32 : max < 4294967295) (now : Nat → Time) :
    ∃ docs, Pairs (fun p d => marshal p = .ok d) (Recorders.run k (Recorders.new k t) cs).recorded docs ∧
      (SmallChunks fsub zip max none docs → ∃ N, ∀ n, N ≤ n → ∃ c c',
        addEach (fun c d => c.add fsub zip now n d) (streamingWith max ⟨[], []⟩ none) docs = .ok (c, docs.map fun _ => none) ∧
        c.flush zip now n = .ok (c', none) ∧ HoldsEvents unzip c'.output.out (Recorders.run k (Recorders.new k t) cs).recorded) :=
  C103_streaming_partial hsub hz (sane_run k cs (sane_new k t) hc).recorded h32 none nofun now

/-- two iterations of 3 and 4 ns with two bytes and an error -/
def exTest : List (Recorders.Call × (Nat → Time)) :=
  [(.beginIteration, fun _ => ⟨1500000000, 5⟩), (.incSize 2, fun _ => ⟨1500000000, 6⟩), (.endIteration 3, fun _ => ⟨1500000000, 8⟩),
    (.incError 1, fun _ => ⟨1500000000, 9⟩), (.setWorkers 6, fun _ => ⟨1500000000, 9⟩), (.endIteration 4, fun _ => ⟨1500000001, 0⟩)]

example : (∀ c ∈ exTest, CallFits c) ∧ ∀ c ∈ exTest, c.1 ≠ .reset ∧ c.1 ≠ .endTest := by
  constructor <;> simp [exTest, CallFits, InYears, IsInt64, Normal, nanoseconds]

/-- One test with a recorder that sums: the file has one event, and it tells how many iterations, bytes and errors there were,
    how long they took and what was last set. -/
theorem C103_test_partial {fsub : Nat → Nat → Nat}
    (hsub : ∀ a b, a < 18446744073709551616 → b < 18446744073709551616 → fsub a b < 18446744073709551616)
    {zip : Bytes → Bytes} {unzip : Bytes → Option Bytes} (hz : ∀ b, unzip (zip b) = some b)
    (t : Time) (cs : List (Recorders.Call × (Nat → Time))) (hc : ∀ c ∈ cs, CallFits c)
    (hr : ∀ c ∈ cs, c.1 ≠ .reset ∧ c.1 ≠ .endTest) (now : Nat → Time) (hn : ∀ i, InYears (now i)) :
    ∃ p d, (Recorders.run .single (Recorders.new .single t) (cs ++ [(.endTest, now)])).recorded = [p] ∧ marshal p = .ok d ∧ ∃ N, ∀ n, N ≤ n → ∃ c,
      (Batch.new 1).add fsub n d = .ok (c, none) ∧
      ((∀ ch ∈ c.chunks, ∀ p, Returns ch.payload (.ok p) → (zip p).length ≤ 2147482000) →
        ∀ now, ∃ file, Returns (c.resolve zip now) (.ok file) ∧
          ∀ s : Stream.Source, s.left = file → ∃ M, ∀ m, M ≤ m → ∃ d', readStructuredMetrics unzip m s = .ok [d'] ∧
            ∀ q, ∃ r, Returns (fun fuel => unmarshal fuel q d') (.ok r) ∧
              r.counters.number = i64 (cs.map (Spec.Recorders.iterations ·.1)).sum ∧
              r.counters.size = i64 (cs.map (Spec.Recorders.size ·.1)).sum ∧
              r.counters.errors = i64 (cs.map (Spec.Recorders.errors ·.1)).sum ∧
              r.timers.duration = i64 (cs.map (Spec.Recorders.duration ·.1)).sum ∧
              r.gauges = Spec.Recorders.gauges (cs.map (·.1)).reverse) := by
  have hall : ∀ c ∈ cs ++ [(.endTest, now)], CallFits c := by
    intro c h
    rcases List.mem_append.mp h with h | h
    · exact hc c h
    · rw [List.mem_singleton.mp h]; exact ⟨hn, trivial⟩
  obtain ⟨p, h1, h2, h3, h4⟩ := (C49_single t cs .endTest now).2
  rw [single_silent t cs (fun c h => (hr c h).2), List.nil_append] at h1
  rw [sinceReset_all hr] at h2 h3
  have hp : Recordable p := (sane_run .single _ (sane_new .single t) hall).recorded p (by rw [h1]; simp)
  obtain ⟨docs, c0, e1, e2, N, e3⟩ := C103_batch_partial hsub hz (es := [p]) (by simpa using hp) (by simp) (size := 1) (by omega) (by omega) none nofun
  cases e2
  match docs, e1 with
  | [d], ⟨e1, _⟩ =>
    refine ⟨p, d, h1, e1, N, fun n hn => ?_⟩
    obtain ⟨c, e4, e5⟩ := e3 n hn
    refine ⟨c, addEach_one e4, fun hs now => ?_⟩
    obtain ⟨file, e6, e7⟩ := e5 hs now
    refine ⟨file, e6, fun s hs => ?_⟩
    obtain ⟨M, e8⟩ := e7 s hs
    refine ⟨M, fun m hm => ?_⟩
    obtain ⟨ds, e9, e10, e11⟩ := e8 m hm
    obtain ⟨d', rfl, -⟩ := repDocs_one e10
    refine ⟨d', e9, fun q => ?_⟩
    obtain ⟨rs, e12, e13⟩ := e11 q
    obtain ⟨r, rfl, e14⟩ := pairs_one e13
    obtain ⟨r1, r2, r3, r4, r5, -⟩ := e14
    refine ⟨r, e12.1, ?_, ?_, ?_, ?_, ?_⟩
    · rw [r1, h2]; simp [Spec.Recorders.counters, Function.comp_def]
    · rw [r2, h2]; simp [Spec.Recorders.counters, Function.comp_def]
    · rw [r3, h2]; simp [Spec.Recorders.counters, Function.comp_def]
    · rw [r4, h3]; simp [Function.comp_def]
    · rw [r5, h4]

/-- A time outside of the years 1677 to 2262 is not refused: the file is written without an error, and the event that is read has another time. -/
theorem C103_times_change {fsub : Nat → Nat → Nat}
    (hsub : ∀ a b, a < 18446744073709551616 → b < 18446744073709551616 → fsub a b < 18446744073709551616)
    {zip : Bytes → Bytes} {unzip : Bytes → Option Bytes} (hz : ∀ b, unzip (zip b) = some b) (p : Perf) (hp : Fits p) (ho : ¬ InYears p.ts) :
    ∃ d, marshal p = .ok d ∧ ∃ N, ∀ n, N ≤ n → ∃ c, (Better.new 1).addAll fsub n [d] = .ok (c, [none]) ∧
      ((∀ p, Returns c.payload (.ok p) → (zip p).length ≤ 2147482000) → ∀ now, ∃ file, Returns (c.resolve zip now) (.ok file) ∧
        ∀ s : Stream.Source, s.left = file → ∃ M, ∀ m, M ≤ m → ∃ d', readStructuredMetrics unzip m s = .ok [d'] ∧
          ∀ q, ∃ r, Returns (fun fuel => unmarshal fuel q d') (.ok r) ∧
            nanoseconds r.ts = (i64 (nanoseconds p.ts / 1000000 * 1000000)).tdiv 1000000 * 1000000 ∧
            nanoseconds r.ts ≠ nanoseconds p.ts / 1000000 * 1000000) := by
  obtain ⟨d, h1, h2⟩ := C50_marshal p hp
  obtain ⟨N, h⟩ := C33_structured (fss := [perfFields p]) hsub hz (docs := [d]) ⟨h2, trivial⟩ (by simp)
    (by simpa using perfFields_length p) (by simpa using perf_shapes [p]) (max := 1) (by simp) (by simp) none nofun
  refine ⟨d, h1, N, fun n hn => ?_⟩
  obtain ⟨c, h3, h4⟩ := h n hn
  refine ⟨c, h3, fun hs now => ?_⟩
  obtain ⟨file, h5, h6⟩ := h4 hs now
  refine ⟨file, h5, fun s hs => ?_⟩
  obtain ⟨M, h7⟩ := h6 s hs
  refine ⟨M, fun m hm => ?_⟩
  obtain ⟨ds, h8, h9⟩ := h7 m hm
  rw [back_event] at h9
  obtain ⟨d', rfl, h10⟩ := repDocs_one h9
  refine ⟨d', h8, fun q => ?_⟩
  obtain ⟨r, r1, -, -, -, -, -, -, r2, -⟩ := C50_roundtrip_partial _ q d' h10
  have hb := wrapped_time p.ts
  have hx : nanoseconds r.ts = (i64 (nanoseconds p.ts / 1000000 * 1000000)).tdiv 1000000 * 1000000 := by rw [r2, hb.1]
  refine ⟨r, r1, hx, ?_⟩
  rw [hx]
  intro e
  exact ho ⟨hp.2.2.2.2.1, by have := hb.2; omega⟩

/-- An event whose time was never set comes back with a time in August of 1754. -/
example : ¬ InYears zeroTime ∧ (i64 (nanoseconds zeroTime / 1000000 * 1000000)).tdiv 1000000 = -6795364578871 := by
  constructor
  · simp [InYears, nanoseconds, zeroTime]
  · decide

end Birch.Props
