import Verif.Proofs.FtdcHistory

/- C33, C34: what a base collector takes and what is read back from its output. -/

namespace Birch.Props
open Birch Model Model.Ftdc Spec Proofs Proofs.Ftdc

/-! ### C33

`zip` and `unzip` are the compressor and the decompressor, `fsub` is the subtraction of doubles, on their bits. -/

/-- samples with the same numeric fields, beside a string; `{n: i, s: …, sub: {t: true, d: …}, a: [x, i]}` -/
def exSample (i : Int) (s : Bytes) : Fields :=
  .cons [110] (.int32 i) (.cons [115] (.string s) (.cons [97] (.doc (.cons [116] (.bool true) (.cons [100] (.datetime (i * 1000)) .nil)))
    (.cons [98] (.array (.cons (.string s) (.cons (.int64 (-i)) .nil))) .nil)))

theorem exSamples : ∃ docs, RepDocs docs [exSample 1 [120], exSample 1 [], exSample 700 [121, 122]] := by
  have h : ∀ i s, -1000000 < i → i < 1000000 → s.length < 10 → (exSample i s).enc.length < 2000 → ∃ d, RepFields d (exSample i s) := by
    intro i s h0 h1 hs hl
    obtain ⟨d, _, h⟩ := buildDoc_rep (exSample i s) (by
      simp only [exSample, Fields.WF, BVal.WF, Vals.WF, NulFree]
      refine ⟨by decide, ⟨by omega, by omega⟩, by decide, ?_, ?_, ?_⟩ <;> simp <;> omega) (by omega)
    exact ⟨d, h⟩
  obtain ⟨d1, h1⟩ := h 1 [120] (by decide) (by decide) (by decide) (by decide)
  obtain ⟨d2, h2⟩ := h 1 [] (by decide) (by decide) (by decide) (by decide)
  obtain ⟨d3, h3⟩ := h 700 [121, 122] (by decide) (by decide) (by decide) (by decide)
  exact ⟨[d1, d2, d3], h1, h2, h3, trivial⟩

theorem exSamples_size : ∀ fs ∈ [exSample 1 [120], exSample 1 [], exSample 700 [121, 122]], (encDoc fs).length < 2147483648 := by decide +kernel

theorem exSamples_shape : ∀ f ∈ [exSample 1 [120], exSample 1 [], exSample 700 [121, 122]], ∀ g ∈ [exSample 1 [120], exSample 1 [], exSample 700 [121, 122]],
    f.metrics.SameShape g.metrics := by
  simp only [List.mem_cons, List.not_mem_nil, or_false]
  rintro f (rfl | rfl | rfl) g (rfl | rfl | rfl) <;>
    simp [exSample, Fields.metrics, BVal.metric, Vals.metrics, Fields.SameShape, BVal.SameShape, Vals.SameShape, BVal.tag]

/-- Documents whose numeric fields have the same structure and types are all taken by a base collector that is large enough, with or
    without metadata, and reading what it resolves to returns the documents `backAll` for their numeric fields: the same fields, in the same order and of
    the same types, and the values that `BVal.back` describes. -/
theorem C33_structured {fsub : Nat → Nat → Nat}
    (hsub : ∀ a b, a < 18446744073709551616 → b < 18446744073709551616 → fsub a b < 18446744073709551616)
    {zip : Bytes → Bytes} {unzip : Bytes → Option Bytes} (hz : ∀ b, unzip (zip b) = some b)
    {docs : List Doc} {fss : List Fields} (hd : RepDocs docs fss) (hne : fss ≠ [])
    (hl : ∀ fs ∈ fss, (encDoc fs).length < 2147483648) (hs : ∀ f ∈ fss, ∀ g ∈ fss, f.metrics.SameShape g.metrics)
    {max : Nat} (hmax : fss.length ≤ max + 1) (h32 : fss.length < 4294967296)
    (md : Option Doc) (hmd : ∀ m, md = some m → ∃ mfs, RepFields m mfs ∧ (encDoc mfs).length ≤ 2147483000) :
    ∃ N, ∀ n, N ≤ n → ∃ c, (newWith max md).addAll fsub n docs = .ok (c, fss.map fun _ => none) ∧
      ((∀ p, Returns c.payload (.ok p) → (zip p).length ≤ 2147482000) → ∀ now, ∃ bytes, Returns (c.resolve zip now) (.ok bytes) ∧
        ∀ s : Stream.Source, s.left = bytes → ∃ M, ∀ m, M ≤ m → ∃ ds, readStructuredMetrics unzip m s = .ok ds ∧
          RepDocs ds (backAll fsub (fss.map Fields.metrics))) := by
  refine ⟨2147483648, fun n hn => ?_⟩
  obtain ⟨c, es, d0, h1, h2, h3, _, h4⟩ := collect_ok (fuel := n) docs fss (by cases md <;> exact ⟨rfl, rfl, rfl, rfl, rfl⟩ : State fsub max md (newWith max md) none []) hd
    (fun fs hfs => ⟨hl fs hfs, by have := hl fs hfs; omega⟩)
  rw [collect_all fss [] (by simpa using fun f hf g hg => kinds_shape (hs f hf g hg)) (by simpa using hmax)] at h2 h3
  refine ⟨c, by rw [h1, isNone_all h2], fun hp now => ?_⟩
  match fss, docs, hne, hd with
  | f0 :: fss, d0 :: docs, _, hd =>
    obtain rfl := h4 rfl
    obtain ⟨e1, e2, e3, e4⟩ := h3
    have wf := repDocs_wf _ _ hd
    have hss : Samples f0 fss (fss.map numsF) := ⟨wf f0 (by simp), fun fs hfs => wf fs (by simp [hfs]), rfl, fun fs hfs => hs f0 (by simp) fs (by simp [hfs])⟩
    have hpl := hp _ ⟨2147483648, fun m hm => payload_ok e4 e3 (hl f0 (by simp)) (by simp at h32 ⊢; omega) m (Nat.lt_of_lt_of_le (hl f0 (by simp)) hm)⟩
    obtain ⟨gss, g1, g2, g3⟩ := resolve_yields hsub hz e4 hss e3 (hl f0 (by simp)) (by simp at h32 ⊢; omega) (by rw [e2]; exact hmd) hpl now
    refine ⟨_, ⟨10000000000, fun m hm => (g3 m hm).1⟩, fun s hs => ?_⟩
    rw [← g2]
    exact readStructured_ok gss g1 10000000000 (fun fuel hf => (g3 fuel hf).2) s hs

example : ∃ docs, ∃ N, ∀ n, N ≤ n → ∃ c, (Better.new 2).addAll (fun a _ => a) n docs = .ok (c, [none, none, none]) := by
  obtain ⟨docs, h⟩ := exSamples
  obtain ⟨N, h⟩ := C33_structured (fsub := fun a _ => a) (fun a _ h _ => h) (zip := id) (unzip := some) (fun _ => rfl) h (by simp) exSamples_size
    exSamples_shape (max := 2) (by simp) (by simp) none nofun
  exact ⟨docs, N, fun n hn => by obtain ⟨c, h, _⟩ := h n hn; exact ⟨c, h⟩⟩

/-- Without doubles and timestamps, and with dates of the years 1677 to 2262, the samples themselves come back. -/
theorem C33_kept_partial {fsub : Nat → Nat → Nat}
    (hsub : ∀ a b, a < 18446744073709551616 → b < 18446744073709551616 → fsub a b < 18446744073709551616)
    {zip : Bytes → Bytes} {unzip : Bytes → Option Bytes} (hz : ∀ b, unzip (zip b) = some b)
    {docs : List Doc} {fss : List Fields} (hd : RepDocs docs fss) (hne : fss ≠ [])
    (hl : ∀ fs ∈ fss, (encDoc fs).length < 2147483648) (hs : ∀ f ∈ fss, ∀ g ∈ fss, f.metrics.SameShape g.metrics)
    (hk : ∀ f ∈ fss, f.metrics.Kept)
    {max : Nat} (hmax : fss.length ≤ max + 1) (h32 : fss.length < 4294967296)
    (md : Option Doc) (hmd : ∀ m, md = some m → ∃ mfs, RepFields m mfs ∧ (encDoc mfs).length ≤ 2147483000) :
    ∃ N, ∀ n, N ≤ n → ∃ c, (newWith max md).addAll fsub n docs = .ok (c, fss.map fun _ => none) ∧
      ((∀ p, Returns c.payload (.ok p) → (zip p).length ≤ 2147482000) → ∀ now, ∃ bytes, Returns (c.resolve zip now) (.ok bytes) ∧
        ∀ s : Stream.Source, s.left = bytes → ∃ M, ∀ m, M ≤ m → ∃ ds, readStructuredMetrics unzip m s = .ok ds ∧
          RepDocs ds (fss.map Fields.metrics)) := by
  have h : backAll fsub (fss.map Fields.metrics) = fss.map Fields.metrics := by
    cases fss with
    | nil => rfl
    | cons f fss =>
      simp only [List.map_cons, backAll]
      rw [backF_kept _ _ _ _ (shapeF_refl _) (hk f (by simp)), back_all]
      intro c hc
      obtain ⟨g, hg, rfl⟩ := List.mem_map.mp hc
      exact ⟨hs f (by simp) g (by simp [hg]), hk g (by simp [hg])⟩
  have := C33_structured hsub hz hd hne hl hs hmax h32 md hmd
  rwa [h] at this

example : ∀ f ∈ [exSample 1 [120], exSample 1 [], exSample 700 [121, 122]], f.metrics.Kept := by
  simp [exSample, Fields.metrics, BVal.metric, Vals.metrics, Fields.Kept, BVal.Kept, Vals.Kept]

/-- the document `{x: v}` -/
def oneField (v : BVal) : Fields := .cons [0x78] v .nil

/-- The property does not hold for doubles: after the sample `{x: 1.5}` a second sample `{x: 1.5}` comes back as `{x: 1.5 - 1.5}`. -/
theorem C33_doubles_differ {fsub : Nat → Nat → Nat}
    (hsub : ∀ a b, a < 18446744073709551616 → b < 18446744073709551616 → fsub a b < 18446744073709551616)
    (h0 : fsub 0x3ff8000000000000 0x3ff8000000000000 = 0)
    {zip : Bytes → Bytes} {unzip : Bytes → Option Bytes} (hz : ∀ b, unzip (zip b) = some b) {d1 d2 : Doc}
    (h1 : RepFields d1 (oneField (.double 0x3ff8000000000000))) (h2 : RepFields d2 (oneField (.double 0x3ff8000000000000))) :
    ∃ N, ∀ n, N ≤ n → ∃ c, (Better.new 1).addAll fsub n [d1, d2] = .ok (c, [none, none]) ∧
      ((∀ p, Returns c.payload (.ok p) → (zip p).length ≤ 2147482000) → ∀ now, ∃ bytes, Returns (c.resolve zip now) (.ok bytes) ∧
        ∀ s : Stream.Source, s.left = bytes → ∃ M, ∀ m, M ≤ m → ∃ ds, readStructuredMetrics unzip m s = .ok ds ∧
          RepDocs ds [oneField (.double 0x3ff8000000000000), oneField (.double 0)]) := by
  have := C33_structured (fss := [oneField (.double 0x3ff8000000000000), oneField (.double 0x3ff8000000000000)]) hsub hz (docs := [d1, d2])
    ⟨h1, h2, trivial⟩ (by simp) (by simp only [List.mem_cons, List.not_mem_nil, or_false]; rintro fs (rfl | rfl) <;> decide) (by
      simp only [List.mem_cons, List.not_mem_nil, or_false]; rintro f (rfl | rfl) g (rfl | rfl) <;> exact shapeF_refl _) (max := 1) (by simp) (by simp) none nofun
  simpa [backAll, backFrom, oneField, Fields.metrics, BVal.metric, Fields.back, BVal.back, newWith, h0] using this

/-- It does not hold for timestamps either: the single sample `{x: Timestamp(1, 7)}` comes back as `{x: Timestamp(1000, 7)}`. -/
theorem C33_timestamps_scaled {fsub : Nat → Nat → Nat}
    (hsub : ∀ a b, a < 18446744073709551616 → b < 18446744073709551616 → fsub a b < 18446744073709551616)
    {zip : Bytes → Bytes} {unzip : Bytes → Option Bytes} (hz : ∀ b, unzip (zip b) = some b) {d : Doc}
    (h1 : RepFields d (oneField (.timestamp 1 7))) :
    ∃ N, ∀ n, N ≤ n → ∃ c, (Better.new 1).addAll fsub n [d] = .ok (c, [none]) ∧
      ((∀ p, Returns c.payload (.ok p) → (zip p).length ≤ 2147482000) → ∀ now, ∃ bytes, Returns (c.resolve zip now) (.ok bytes) ∧
        ∀ s : Stream.Source, s.left = bytes → ∃ M, ∀ m, M ≤ m → ∃ ds, readStructuredMetrics unzip m s = .ok ds ∧
          RepDocs ds [oneField (.timestamp 1000 7)]) := by
  have := C33_structured (fss := [oneField (.timestamp 1 7)]) hsub hz (docs := [d])
    ⟨h1, trivial⟩ (by simp) (by simp only [List.mem_cons, List.not_mem_nil, or_false]; rintro fs rfl; decide) (by
      simp only [List.mem_cons, List.not_mem_nil, or_false]; rintro f rfl g rfl; exact shapeF_refl _) (max := 1) (by simp) (by simp) none nofun
  simpa [backAll, backFrom, oneField, Fields.metrics, BVal.metric, Fields.back, BVal.back, newWith] using this

/-- Nor for dates far in the future: 9223372036855 milliseconds (the year 2262) come back as a date of the year 1677. -/
theorem C33_dates_wrap {fsub : Nat → Nat → Nat}
    (hsub : ∀ a b, a < 18446744073709551616 → b < 18446744073709551616 → fsub a b < 18446744073709551616)
    {zip : Bytes → Bytes} {unzip : Bytes → Option Bytes} (hz : ∀ b, unzip (zip b) = some b) {d : Doc}
    (h1 : RepFields d (oneField (.datetime 9223372036855))) :
    ∃ N, ∀ n, N ≤ n → ∃ c, (Better.new 1).addAll fsub n [d] = .ok (c, [none]) ∧
      ((∀ p, Returns c.payload (.ok p) → (zip p).length ≤ 2147482000) → ∀ now, ∃ bytes, Returns (c.resolve zip now) (.ok bytes) ∧
        ∀ s : Stream.Source, s.left = bytes → ∃ M, ∀ m, M ≤ m → ∃ ds, readStructuredMetrics unzip m s = .ok ds ∧
          RepDocs ds [oneField (.datetime (-9223372036854))]) := by
  have := C33_structured (fss := [oneField (.datetime 9223372036855)]) hsub hz (docs := [d])
    ⟨h1, trivial⟩ (by simp) (by simp only [List.mem_cons, List.not_mem_nil, or_false]; rintro fs rfl; decide) (by
      simp only [List.mem_cons, List.not_mem_nil, or_false]; rintro f rfl g rfl; exact shapeF_refl _) (max := 1) (by simp) (by simp) none nofun
  have hw : (i64 9223372036855000000).tdiv 1000000 = -9223372036854 := by decide
  simpa [backAll, backFrom, oneField, Fields.metrics, BVal.metric, Fields.back, BVal.back, newWith, hw] using this

example : ∃ d1 d2 d3, RepFields d1 (oneField (.double 0x3ff8000000000000)) ∧ RepFields d2 (oneField (.timestamp 1 7)) ∧
    RepFields d3 (oneField (.datetime 9223372036855)) := by
  obtain ⟨d1, _, h1⟩ := buildDoc_rep (oneField (.double 0x3ff8000000000000)) (by simp [oneField, Fields.WF, BVal.WF, NulFree]) (by decide)
  obtain ⟨d2, _, h2⟩ := buildDoc_rep (oneField (.timestamp 1 7)) (by simp [oneField, Fields.WF, BVal.WF, NulFree]) (by decide)
  obtain ⟨d3, _, h3⟩ := buildDoc_rep (oneField (.datetime 9223372036855)) (by simp [oneField, Fields.WF, BVal.WF, NulFree]) (by decide)
  exact ⟨d1, d2, d3, h1, h2, h3⟩

/-! ### C34 -/

/-- Every history of documents, with any types, is decided as `collect` says: the first document is taken, then those with the same
    types while there is room; all others return an error.  `Info` counts the documents taken. -/
theorem C34_history (fsub : Nat → Nat → Nat) (max : Nat) {docs : List Doc} {fss : List Fields} (hd : RepDocs docs fss)
    (hl : ∀ fs ∈ fss, (encDoc fs).length < 2147483648) :
    ∃ N, ∀ n, N ≤ n → ∃ c es, (Better.new max).addAll fsub n docs = .ok (c, es) ∧ es.map Option.isNone = (collect max [] fss).1 ∧
      c.info.1 = (collect max [] fss).2.length := by
  refine ⟨2147483648, fun n hn => ?_⟩
  obtain ⟨c, es, d0, h1, h2, h3, _, _⟩ := collect_ok (fuel := n) docs fss (state_new fsub max) hd
    (fun fs hfs => ⟨hl fs hfs, by have := hl fs hfs; omega⟩)
  exact ⟨c, es, h1, h2, by rw [info_state h3]⟩

/-- a chunk for two samples; the second document has other types, the fourth finds the chunk full -/
example : collect 1 [] [exSample 1 [120], oneField (.bool true), exSample 1 [], exSample 700 []] =
    ([true, false, true, false], [exSample 1 [120], exSample 1 []]) := by with_unfolding_all rfl

/-- With documents of the same types exactly the first `max + 1` are taken: `Add` number `i` (from 0) returns no error if and only if `i ≤ max`. -/
theorem C34_capacity (fsub : Nat → Nat → Nat) (max : Nat) {docs : List Doc} {fss : List Fields} (hd : RepDocs docs fss)
    (hl : ∀ fs ∈ fss, (encDoc fs).length < 2147483648) (hk : ∀ f ∈ fss, ∀ g ∈ fss, g.kinds = f.kinds) :
    ∃ N, ∀ n, N ≤ n → ∃ c es, (Better.new max).addAll fsub n docs = .ok (c, es) ∧ es.length = docs.length ∧
      (∀ i e, es[i]? = some e → (e = none ↔ i ≤ max)) ∧ c.info.1 = min docs.length (max + 1) := by
  obtain ⟨N, h⟩ := C34_history fsub max hd hl
  refine ⟨N, fun n hn => ?_⟩
  obtain ⟨c, es, h1, h2, h3⟩ := h n hn
  have hlen : docs.length = fss.length := repDocs_len docs fss hd
  have hc : (∀ i b, (collect max [] fss).1[i]? = some b → b = decide (i ≤ max)) ∧ (collect max [] fss).2.length = min fss.length (max + 1) := by
    cases fss with
    | nil => simp [collect]
    | cons f0 rest =>
      obtain ⟨i1, i2⟩ := collect_same (max := max) rest [f0] (by simp) (by simp) (by simpa using hk)
      simp only [collect, fits, if_true, List.nil_append]
      constructor
      · intro i b hb
        cases i with
        | zero => simp at hb ⊢; exact hb
        | succ i =>
          simp only [List.getElem?_cons_succ] at hb
          rw [i1 i b hb]; congr 1; simp; omega
      · rw [i2]; simp; omega
  refine ⟨c, es, h1, ?_, ?_, by rw [h3, hlen, hc.2]⟩
  · rw [← List.length_map (f := Option.isNone), h2, collect_length, hlen]
  · intro i e he
    have := hc.1 i e.isNone (by rw [← h2, List.getElem?_map, he]; rfl)
    rw [← Option.isNone_iff_eq_none, this, decide_eq_true_eq]

example := @C34_capacity (fun a _ => a) 1 _ _ exSamples.choose_spec exSamples_size (fun f hf g hg => kinds_shape (exSamples_shape f hf g hg))

/-- Adds that return an error do no harm: the collector resolves to the same bytes, and reports the same, as one to which only the
    documents taken were added. -/
theorem C34_rejected_harmless (fsub : Nat → Nat → Nat) (max : Nat) {docs : List Doc} {fss : List Fields} (hd : RepDocs docs fss)
    (hl : ∀ fs ∈ fss, (encDoc fs).length < 2147483648) :
    ∃ N, ∀ n, N ≤ n → ∃ c es c', (Better.new max).addAll fsub n docs = .ok (c, es) ∧
      (Better.new max).addAll fsub n (taken docs (es.map Option.isNone)) = .ok (c', (taken docs (es.map Option.isNone)).map fun _ => none) ∧
      c.info = c'.info ∧ ∀ zip now m, c.resolve zip now m = c'.resolve zip now m := by
  refine ⟨2147483648, fun n hn => ?_⟩
  obtain ⟨c, es, d0, h1, h2, h3, _, h4⟩ := collect_ok (fuel := n) docs fss (state_new fsub max) hd
    (fun fs hfs => ⟨hl fs hfs, by have := hl fs hfs; omega⟩)
  obtain ⟨c', es', d0', g1, g2, g3, _, g4⟩ := collect_ok (fuel := n) (taken docs (es.map Option.isNone)) (taken fss (es.map Option.isNone))
    (state_new fsub max) (taken_rep docs fss _ hd)
    (fun fs hfs => ⟨hl fs (taken_mem _ _ _ hfs), by have := hl fs (taken_mem _ _ _ hfs); omega⟩)
  rw [h2] at g2 g3
  rw [collect_again] at g2 g3
  have hdd : d0' = d0 := by
    rw [h4 rfl, g4 rfl, h2]
    cases fss with
    | nil => cases docs with
      | nil => simp [taken]
      | cons d ds => exact hd.elim
    | cons f fss =>
      cases docs with
      | nil => exact hd.elim
      | cons d ds => simp [collect, fits, taken]
  subst hdd
  refine ⟨c, es, c', h1, ?_, ?_, ?_⟩
  · rw [g1, isNone_all g2, h2]
    congr 2
    have hlen : (taken docs (collect max [] fss).1).length = (taken fss (collect max [] fss).1).length :=
      repDocs_len _ _ (taken_rep docs fss _ hd)
    rw [List.map_const', List.map_const', hlen]
  · exact (same_resolve h3 g3 id ⟨0, 0⟩ 0).2
  · intro zip now m; exact (same_resolve h3 g3 zip now m).1

example := @C34_rejected_harmless (fun a _ => a) 1 _ _ exSamples.choose_spec exSamples_size

/-- Names are not compared: after `{x: 1}` the document `{y: 2}` is taken, with the same result as `{x: 2}`. -/
theorem C34_key_change_accepted (fsub : Nat → Nat → Nat) (max : Nat) {d1 d2 d3 : Doc} (h1 : RepFields d1 (.cons [0x78] (.int32 1) .nil))
    (h2 : RepFields d2 (.cons [0x79] (.int32 2) .nil)) (h3 : RepFields d3 (.cons [0x78] (.int32 2) .nil)) (hm : 1 ≤ max) :
    ∃ N, ∀ n, N ≤ n → ∃ c, (Better.new max).addAll fsub n [d1, d2] = .ok (c, [none, none]) ∧
      (Better.new max).addAll fsub n [d1, d3] = .ok (c, [none, none]) := by
  refine ⟨100, fun n hn => ?_⟩
  have hr : RepDocs [d1, d2] [.cons [0x78] (.int32 1) .nil, .cons [0x79] (.int32 2) .nil] := ⟨h1, h2, trivial⟩
  obtain ⟨c, es, d0, e1, e2, _⟩ := collect_ok (fuel := n) _ _ (state_new fsub max) hr (by
    simp only [List.mem_cons, List.not_mem_nil, or_false]; rintro fs (rfl | rfl) <;> exact ⟨by decide, Nat.lt_of_lt_of_le (by decide) hn⟩)
  rw [collect_all _ [] (by
    simp only [List.nil_append, List.mem_cons, List.not_mem_nil, or_false]; rintro f (rfl | rfl) g (rfl | rfl) <;> rfl) (by simp; omega)] at e2
  have := isNone_all e2
  subst this
  simp only [List.map_cons, List.map_nil] at e1
  refine ⟨c, e1, ?_⟩
  rw [← e1]
  have x2 := extract_rep n h2 (by decide) (Nat.lt_of_lt_of_le (by decide) hn)
  have x3 := extract_rep n h3 (by decide) (Nat.lt_of_lt_of_le (by decide) hn)
  have hh : ∀ c : Better, c.reference ≠ none → c.add fsub n d3 = c.add fsub n d2 := by
    intro c hc
    unfold Better.add
    rw [x2, x3]
    have : numsF (.cons [0x78] (.int32 2) .nil) = numsF (.cons [0x79] (.int32 2) .nil) := rfl
    rw [this]
    cases hr : c.reference with
    | none => exact absurd hr hc
    | some _ => rfl
  obtain ⟨c1, e, a1, a2, a3, _⟩ := state_add (state_new fsub max) h1 (by decide) (fuel := n) (Nat.lt_of_lt_of_le (by decide) hn)
  have he : e = none := a2.mpr (by simp)
  have href : c1.reference ≠ none := by
    have := (a3 he).2.2
    simp only [List.nil_append] at this
    rw [this.2.ref]; simp
  simp only [Better.addAll, a1, Res.bind_ok, hh c1 href]

end Birch.Props
