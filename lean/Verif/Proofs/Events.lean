import Verif.Spec.Events
import Verif.Proofs.FtdcTree
import Verif.Proofs.Compare
import Verif.Props.Scalars

namespace Birch.Proofs.Events
open Birch Model Spec Model.Events Spec.Events Proofs Proofs.Ftdc

theorem repFields_cons {d : Doc} {k : Bytes} {t : BVal} {fs : Fields} (h : RepFields d (.cons k t fs)) :
    ∃ v d', d = v :: d' ∧ Rep v k t ∧ RepFields d' fs := by
  cases d with
  | nil => simp [RepFields] at h
  | cons v d' => simp only [RepFields] at h; exact ⟨v, d', rfl, h.1, h.2⟩

theorem repFields_nil {d : Doc} (h : RepFields d .nil) : d = [] := by
  cases d with
  | nil => rfl
  | cons v d' => simp [RepFields] at h

theorem int64_ok {k : Bytes} {i : Int} (hk : NulFree k) (hl : k.length < 100) (h : IsInt64 i) :
    ∃ v, EC.int64 k i = .ok v ∧ Rep v k (.int64 i) := by
  obtain ⟨v, hv, hr⟩ := buildVal_rep k (.int64 i) hk (by simp only [BVal.WF]; unfold IsInt64 at h; omega) (by simp [BVal.enc]; omega)
  exact ⟨v, by simpa only [buildVal] using hv, hr⟩

theorem boolean_ok {k : Bytes} {b : Bool} (hk : NulFree k) (hl : k.length < 100) :
    ∃ v, EC.boolean k b = .ok v ∧ Rep v k (.bool b) := by
  obtain ⟨v, hv, hr⟩ := buildVal_rep k (.bool b) hk (by simp [BVal.WF]) (by simp [BVal.enc]; omega)
  exact ⟨v, by simpa only [buildVal] using hv, hr⟩

theorem time_ok {k : Bytes} {t : Time} (hk : NulFree k) (hl : k.length < 100) (ht : Normal t) (h : IsInt64 (nanoseconds t / 1000000)) :
    ∃ v, EC.time k t = .ok v ∧ Rep v k (.datetime (nanoseconds t / 1000000)) := by
  unfold Normal at ht
  unfold IsInt64 at h
  have hms : nanoseconds t / 1000000 = t.sec * 1000 + t.nsec / 1000000 := by unfold nanoseconds; omega
  have hwrap : i64 (i64 (t.sec * 1000) + t.nsec.tdiv 1000000) = nanoseconds t / 1000000 := by
    rw [Int.tdiv_eq_ediv_of_nonneg ht.1]
    rw [hms] at h ⊢; unfold i64; omega
  obtain ⟨v, hv, hr⟩ := buildVal_rep k (.datetime (nanoseconds t / 1000000)) hk (by simp only [BVal.WF]; omega) (by simp [BVal.enc]; omega)
  exact ⟨v, by unfold EC.time; rw [hwrap]; simpa only [buildVal] using hv, hr⟩

theorem marshal_rep {p : Perf} (h : Fits p) : ∃ d, marshal p = .ok d ∧ RepFields d (perfFields p) := by
  obtain ⟨h1, ⟨h2, h3, h4, h5⟩, ⟨h6, h7⟩, ⟨h8, h9⟩, h10, h11⟩ := h
  obtain ⟨v1, e1, r1⟩ := time_ok (k := kTs) (by simp [NulFree, kTs]) (by decide) h10 h11
  obtain ⟨v2, e2, r2⟩ := int64_ok (k := kIdent) (by simp [NulFree, kIdent]) (by decide) h1
  obtain ⟨v3, e3, r3⟩ := int64_ok (k := kN) (by simp [NulFree, kN]) (by decide) h2
  obtain ⟨v4, e4, r4⟩ := int64_ok (k := kOps) (by simp [NulFree, kOps]) (by decide) h3
  obtain ⟨v5, e5, r5⟩ := int64_ok (k := kSize) (by simp [NulFree, kSize]) (by decide) h4
  obtain ⟨v6, e6, r6⟩ := int64_ok (k := kErrors) (by simp [NulFree, kErrors]) (by decide) h5
  obtain ⟨v7, e7, r7⟩ := int64_ok (k := kDur) (by simp [NulFree, kDur]) (by decide) h6
  obtain ⟨v8, e8, r8⟩ := int64_ok (k := kTotal) (by simp [NulFree, kTotal]) (by decide) h7
  obtain ⟨v9, e9, r9⟩ := int64_ok (k := kState) (by simp [NulFree, kState]) (by decide) h8
  obtain ⟨v10, e10, r10⟩ := int64_ok (k := kWorkers) (by simp [NulFree, kWorkers]) (by decide) h9
  obtain ⟨v11, e11, r11⟩ := boolean_ok (k := kFailed) (b := p.gauges.failed) (by simp [NulFree, kFailed]) (by decide)
  obtain ⟨v12, e12, r12⟩ := subDocument_rep (k := kCounters) (d := [v3, v4, v5, v6]) (by simp [NulFree, kCounters]) (by decide)
    (show RepFields _ (.cons kN (.int64 p.counters.number) (.cons kOps (.int64 p.counters.operations)
      (.cons kSize (.int64 p.counters.size) (.cons kErrors (.int64 p.counters.errors) .nil)))) from ⟨r3, r4, r5, r6, trivial⟩)
  obtain ⟨v13, e13, r13⟩ := subDocument_rep (k := kTimers) (d := [v7, v8]) (by simp [NulFree, kTimers]) (by decide)
    (show RepFields _ (.cons kDur (.int64 p.timers.duration) (.cons kTotal (.int64 p.timers.total) .nil)) from ⟨r7, r8, trivial⟩)
  obtain ⟨v14, e14, r14⟩ := subDocument_rep (k := kGauges) (d := [v9, v10, v11]) (by simp [NulFree, kGauges]) (by decide)
    (show RepFields _ (.cons kState (.int64 p.gauges.state) (.cons kWorkers (.int64 p.gauges.workers)
      (.cons kFailed (.bool p.gauges.failed) .nil))) from ⟨r9, r10, r11, trivial⟩)
  refine ⟨[v1, v2, v12, v13, v14], ?_, r1, r2, r12, r13, r14, trivial⟩
  unfold marshal
  simp only [e1, e2, e3, e4, e5, e6, e7, e8, e9, e10, e11, e12, e13, e14, Res.bind_ok]

theorem unmarshalCounters_rep {d : Doc} {n o s e : Int} (c : Counters)
    (h : RepFields d (.cons kN (.int64 n) (.cons kOps (.int64 o) (.cons kSize (.int64 s) (.cons kErrors (.int64 e) .nil))))) :
    unmarshalCounters c d = .ok ⟨n, c.operations, s, e⟩ := by
  obtain ⟨v1, d, rfl, r1, h⟩ := repFields_cons h
  obtain ⟨v2, d, rfl, r2, h⟩ := repFields_cons h
  obtain ⟨v3, d, rfl, r3, h⟩ := repFields_cons h
  obtain ⟨v4, d, rfl, r4, h⟩ := repFields_cons h
  obtain rfl := repFields_nil h
  simp only [unmarshalCounters, key_rep r1, key_rep r2, key_rep r3, key_rep r4, int64_rep r1, int64_rep r3, int64_rep r4, Res.bind_ok]
  simp [kN, kOps, kOpts, kSize, kErrors]

theorem unmarshalTimers_rep {d : Doc} {n o : Int} (c : Timers)
    (h : RepFields d (.cons kDur (.int64 n) (.cons kTotal (.int64 o) .nil))) :
    unmarshalTimers c d = .ok ⟨n, o⟩ := by
  obtain ⟨v1, d, rfl, r1, h⟩ := repFields_cons h
  obtain ⟨v2, d, rfl, r2, h⟩ := repFields_cons h
  obtain rfl := repFields_nil h
  simp only [unmarshalTimers, key_rep r1, key_rep r2, int64_rep r1, int64_rep r2, Res.bind_ok]
  simp [kDur, kTotal]

theorem unmarshalGauges_rep {d : Doc} {n o : Int} {b : Bool} (c : Gauges)
    (h : RepFields d (.cons kState (.int64 n) (.cons kWorkers (.int64 o) (.cons kFailed (.bool b) .nil)))) :
    unmarshalGauges c d = .ok ⟨n, o, b⟩ := by
  obtain ⟨v1, d, rfl, r1, h⟩ := repFields_cons h
  obtain ⟨v2, d, rfl, r2, h⟩ := repFields_cons h
  obtain ⟨v3, d, rfl, r3, h⟩ := repFields_cons h
  obtain rfl := repFields_nil h
  simp only [unmarshalGauges, key_rep r1, key_rep r2, key_rep r3, int64_rep r1, int64_rep r2, boolean_rep r3, Res.bind_ok]
  simp [kState, kWorkers, kFailed]

theorem unmarshal_rep {d : Doc} {p : Perf} (fuel : Nat) (hf : 1000 ≤ fuel) (q : Perf) (h : RepFields d (perfFields p)) :
    ∃ t, unmarshal fuel q d = .ok { ts := t, id := q.id, counters := { p.counters with operations := q.counters.operations }, timers := p.timers, gauges := p.gauges } ∧
      Normal t ∧ nanoseconds t = nanoseconds p.ts / 1000000 * 1000000 := by
  obtain ⟨v1, d, rfl, r1, h⟩ := repFields_cons h
  obtain ⟨v2, d, rfl, r2, h⟩ := repFields_cons h
  obtain ⟨v3, d, rfl, r3, h⟩ := repFields_cons h
  obtain ⟨v4, d, rfl, r4, h⟩ := repFields_cons h
  obtain ⟨v5, d, rfl, r5, h⟩ := repFields_cons h
  obtain rfl := repFields_nil h
  obtain ⟨t, e1, n1, n2, n3⟩ := time_rep r1
  obtain ⟨d3, e3, s3⟩ := mutableDocument_rep (fuel := fuel) r3 (by simp [BVal.enc, wrapDoc_length, Fields.enc]) (by simp [BVal.enc, wrapDoc_length, Fields.enc]; omega)
  obtain ⟨d4, e4, s4⟩ := mutableDocument_rep (fuel := fuel) r4 (by simp [BVal.enc, wrapDoc_length, Fields.enc]) (by simp [BVal.enc, wrapDoc_length, Fields.enc]; omega)
  obtain ⟨d5, e5, s5⟩ := mutableDocument_rep (fuel := fuel) r5 (by simp [BVal.enc, wrapDoc_length, Fields.enc]) (by simp [BVal.enc, wrapDoc_length, Fields.enc]; omega)
  refine ⟨t, ?_, ⟨n2, n3⟩, n1⟩
  have k1 : key v1 = .ok kTs := key_rep r1
  have k2 : key v2 = .ok kIdent := key_rep r2
  have k3 : key v3 = .ok kCounters := key_rep r3
  have k4 : key v4 = .ok kTimers := key_rep r4
  have k5 : key v5 = .ok kGauges := key_rep r5
  have f1 : (kIdent = kTs) = False := by simp [kIdent, kTs]
  have f2 : (kCounters = kTs) = False := by simp [kCounters, kTs]
  have f3 : (kTimers = kTs) = False := by simp [kTimers, kTs]
  have f4 : (kGauges = kTs) = False := by simp [kGauges, kTs]
  have f5 : (kCounters = kIdent) = False := by simp [kCounters, kIdent]
  have f6 : (kTimers = kIdent) = False := by simp [kTimers, kIdent]
  have f7 : (kGauges = kIdent) = False := by simp [kGauges, kIdent]
  have f8 : (kTimers = kCounters) = False := by simp [kTimers, kCounters]
  have f9 : (kGauges = kCounters) = False := by simp [kGauges, kCounters]
  have f10 : (kGauges = kTimers) = False := by simp [kGauges, kTimers]
  simp only [unmarshal, k1, k2, k3, k4, k5, e1, e3, e4, e5, Res.bind_ok, f1, f2, f3, f4, f5, f6, f7, f8, f9, f10, if_true, if_false,
    unmarshalCounters_rep _ s3, unmarshalTimers_rep _ s4, unmarshalGauges_rep _ s5]

end Birch.Proofs.Events
