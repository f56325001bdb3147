import Verif.Proofs.FtdcViews

/- C38, C39: the keys of the metrics, and the views of a chunk. -/

namespace Birch.Props
open Birch Model Model.Ftdc Spec Proofs Proofs.Ftdc

/-! ### C38 -/

/-- The metrics of a document are its numbers, in order, a timestamp twice.  The key of each has the name of the outermost document and
    that of the field, but not the names in between. -/
theorem C38_keys {d : Doc} {fs : Fields} (h : RepFields d fs) (hl : (encDoc fs).length < 2147483648) {n : Nat} (hn : (encDoc fs).length < n) :
    ∃ ms, metricsOf n d = .ok ms ∧ ms.map Metric.key = metricNames (fun t => dotted (firstLast t)) fs.numbers := by
  simp only [encDoc, wrapDoc_length] at hl hn
  refine ⟨_, metricsOf_rep n h (by omega) (by omega), ?_⟩
  rw [← tags_names, ← metsF_tags, List.map_map]
  rfl

/-- `{a: {b: [1, true], ts: Timestamp(7, 8)}, s: "x", c: 2.0}` -/
def exNested : Fields :=
  .cons [97] (.doc (.cons [98] (.array (.cons (.int64 1) (.cons (.bool true) .nil))) (.cons [116, 115] (.timestamp 7 8) .nil)))
    (.cons [115] (.string [120]) (.cons [99] (.double 4611686018427387904) .nil))

theorem exNested_wf : exNested.WF := by simp [exNested, Fields.WF, BVal.WF, Vals.WF, NulFree]

theorem exNested_size : (encDoc exNested).length < 200 := by decide +kernel

/-- the keys are a.b.0, a.b.1, a.ts, a.ts.inc and c -/
example : ∃ d, RepFields d exNested ∧ metricNames (fun t => dotted (firstLast t)) exNested.numbers =
    [[97, 46, 98, 46, 48], [97, 46, 98, 46, 49], [97, 46, 116, 115], [97, 46, 116, 115, 46, 105, 110, 99], [99]] := by
  obtain ⟨d, _, h⟩ := buildDoc_rep exNested exNested_wf (by decide +kernel)
  exact ⟨d, h, by decide +kernel⟩

/-- In documents with at most one level of documents inside, arrays not counted, every key is the whole dotted path.

    Missing from C38: documents with more levels (`C38_middle_lost`). -/
theorem C38_keys_partial {d : Doc} {fs : Fields} (h : RepFields d fs) (hl : (encDoc fs).length < 2147483648) {n : Nat} (hn : (encDoc fs).length < n)
    (hd : ∀ t ∈ fs.numbers, t.1.length ≤ 2) :
    ∃ ms, metricsOf n d = .ok ms ∧ ms.map Metric.key = metricNames dotted fs.numbers := by
  obtain ⟨ms, h1, h2⟩ := C38_keys h hl hn
  refine ⟨ms, h1, ?_⟩
  rw [h2]
  unfold metricNames
  simp only [List.flatMap_def]
  congr 1
  apply List.map_congr_left
  intro t ht
  have : firstLast t.1 = t.1 := by
    match ht1 : t.1, hd t ht with
    | [], _ => rfl
    | [a], _ => rfl
    | [a, b], _ => rfl
    | a :: b :: c :: r, h => simp at h
  rw [this]

example : ∀ t ∈ exNested.numbers, t.1.length ≤ 2 := by decide +kernel

/-- If moreover no name has a dot and no document has a name twice, no two metrics have the same key. -/
theorem C38_distinct_partial {d : Doc} {fs : Fields} (h : RepFields d fs) (hl : (encDoc fs).length < 2147483648) {n : Nat} (hn : (encDoc fs).length < n)
    (hd : ∀ t ∈ fs.numbers, t.1.length ≤ 2) (hp : fs.Plain) :
    ∃ ms, metricsOf n d = .ok ms ∧ (ms.map Metric.key).Nodup := by
  obtain ⟨ms, h1, h2⟩ := C38_keys_partial h hl hn hd
  exact ⟨ms, h1, by rw [h2]; exact numbersF_nodup fs hp⟩

example : exNested.Plain := by simp [exNested, Fields.Plain, BVal.Plain, Vals.Plain, Fields.toList]

/-- `{a: {b: {x: 1}, c: {x: 2}}}` has no dots and no repeated names, but both its metrics have the key `a.x`. -/
theorem C38_middle_lost : ∃ fs : Fields, fs.Plain ∧ metricNames dotted fs.numbers = [[97, 46, 98, 46, 120], [97, 46, 99, 46, 120]] ∧
    ∃ d, RepFields d fs ∧ ∃ N, ∀ n, N ≤ n → ∃ ms, metricsOf n d = .ok ms ∧ ms.map Metric.key = [[97, 46, 120], [97, 46, 120]] := by
  let fs : Fields := .cons [97] (.doc (.cons [98] (.doc (.cons [120] (.int32 1) .nil)) (.cons [99] (.doc (.cons [120] (.int32 2) .nil)) .nil))) .nil
  refine ⟨fs, by simp [fs, Fields.Plain, BVal.Plain, Fields.toList], by decide +kernel, ?_⟩
  obtain ⟨d, _, h⟩ := buildDoc_rep fs (by simp [fs, Fields.WF, BVal.WF, NulFree]) (by decide +kernel)
  refine ⟨d, h, 100, fun n hn => ?_⟩
  have hs : (encDoc fs).length < 100 := by decide +kernel
  obtain ⟨ms, h1, h2⟩ := C38_keys h (by omega) (show (encDoc fs).length < n by omega)
  exact ⟨ms, h1, by rw [h2]; decide +kernel⟩

/-- `{a.b: 1, a: {b: 2}}`: both metrics have the key `a.b`, with only one level. -/
theorem C38_dots_collide : ∃ fs : Fields, (∀ t ∈ fs.numbers, t.1.length ≤ 2) ∧
    ∃ d, RepFields d fs ∧ ∃ N, ∀ n, N ≤ n → ∃ ms, metricsOf n d = .ok ms ∧ ms.map Metric.key = [[97, 46, 98], [97, 46, 98]] := by
  let fs : Fields := .cons [97, 46, 98] (.int32 1) (.cons [97] (.doc (.cons [98] (.int32 2) .nil)) .nil)
  refine ⟨fs, by decide +kernel, ?_⟩
  obtain ⟨d, _, h⟩ := buildDoc_rep fs (by simp [fs, Fields.WF, BVal.WF, NulFree]) (by decide +kernel)
  refine ⟨d, h, 100, fun n hn => ?_⟩
  have hs : (encDoc fs).length < 100 := by decide +kernel
  obtain ⟨ms, h1, h2⟩ := C38_keys h (by omega) (show (encDoc fs).length < n by omega)
  exact ⟨ms, h1, by rw [h2]; decide +kernel⟩

/-! ### C39 -/

/-- The three views of any chunk that can be read.  The structured documents have the shape of the metrics of the reference document.  The
    flat documents have the metric keys as names and the leaves of the structured documents as values, where a timestamp is
    two 64 bit numbers whose low 32 bits are its parts.  The matrix has the leaves of the structured documents as columns.

    Missing from C39: the high bits of timestamps (`C39_timestamps_differ`), and elements of arrays that are not numbers (`C39_array_names`). -/
theorem C39_views_partial {fs : Fields} (wf : fs.WF) (hl : (encDoc fs).length ≤ 2147482990) {tail : Bytes} {n : Nat} (hn : (encDoc fs).length < n)
    {md : Option Doc} {c : Chunk} (h : readPayload n md (encDoc fs ++ tail) = .ok c) :
    ∃ (ds : List Doc) (Ss : List Fields) (fl : List Doc) (Fs : List Fields) (m : Doc) (M : Fields), c.structured n = .ok ds ∧ RepDocs ds Ss ∧ c.flattened = .ok fl ∧ RepDocs fl Fs ∧ c.export = .ok m ∧ RepFields m M ∧
      Ss.length = c.nPoints ∧ Fs.length = c.nPoints ∧ (∀ S ∈ Ss, S.SameShape fs.metrics) ∧
      (∀ (i : Nat) (S F : Fields), Ss[i]? = some S → Fs[i]? = some F →
        F.toList.map Prod.fst = metricNames (fun t => dotted (firstLast t)) fs.numbers ∧ Flat S.leaves (F.toList.map Prod.snd)) ∧
      M.toList = (columns (fs.numbers.map fun t => dotted (firstLast t.1)) (Ss.map Fields.leaves)).map fun col => (col.1, .array (Vals.of col.2)) := by
  have hg := readPayload_good wf (by omega) hn h
  have hk := keys_good hg wf hl
  obtain ⟨ds, Ss, fl, Fs, a1, a2, b1, b2, a3, b3, a4, b4⟩ := chunk_views wf hl hn h
  have ht : c.metrics.map tag = wide (keyed fs.numbers) := by rw [hg.tags, tags_wide]
  obtain ⟨m, M, c1, c2, c3⟩ := exportLoop_rep (n := c.nPoints) (keyed fs.numbers) c.metrics c.metrics.length ht (Nat.le_refl _)
    (fun p hp => by
      simp only [keyed, List.mem_map] at hp
      obtain ⟨q, hq, rfl⟩ := hp
      exact numbersF_types fs q hq) hg.vals hk
  refine ⟨ds, Ss, fl, Fs, m, M, a1, a2, b1, b2, c1, c2, a3, b3, ?_, ?_, ?_⟩
  · intro S hS
    obtain ⟨i, hi⟩ := List.getElem?_of_mem hS
    exact (a4 i S hi).1
  · intro i S F hS hF
    rw [(a4 i S hS).2, b4 i F hF, List.map_map, List.map_map]
    constructor
    · rw [← tags_names, ← hg.tags, List.map_map]; rfl
    · rw [← keyed_snd]; exact flat_join i _ _ ht
  · rw [c3, keyed_snd, keyed_fst]
    congr 2
    apply List.ext_getElem
    · simp [a3]
    · intro j h1 h2
      simp only [List.length_map] at h2
      simp [(a4 j _ (List.getElem?_eq_getElem h2)).2]

/-- a chunk with three samples of two metrics; the second metric does not change -/
example : ∃ c, readPayload 100 none (encDoc (.cons [97] (.int64 5) (.cons [98] (.bool true) .nil)) ++ (le32 2 ++ (le32 2 ++ [1, 3, 0, 1]))) = .ok c ∧
    c.metrics.map Metric.values = [[5, 6, 9], [1, 1, 1]] := by
  have h : (readPayload 100 none (encDoc (.cons [97] (.int64 5) (.cons [98] (.bool true) .nil)) ++ (le32 2 ++ (le32 2 ++ [1, 3, 0, 1]))) >>=
      fun c => .ok (c.metrics.map Metric.values)) = .ok [[5, 6, 9], [1, 1, 1]] := by decide +kernel
  obtain ⟨c, h1, h2⟩ := Res.bind_eq_ok.mp h
  exact ⟨c, h1, by simpa using h2⟩

/-- Without timestamps the flat documents have exactly the leaves of the structured ones. -/
theorem C39_no_timestamps_partial {fs : Fields} (wf : fs.WF) (hl : (encDoc fs).length ≤ 2147482990) {tail : Bytes} {n : Nat} (hn : (encDoc fs).length < n)
    {md : Option Doc} {c : Chunk} (h : readPayload n md (encDoc fs ++ tail) = .ok c) (hts : ∀ t ∈ fs.numbers, t.2 ≠ 0x11) :
    ∃ (ds : List Doc) (Ss : List Fields) (fl : List Doc) (Fs : List Fields), c.structured n = .ok ds ∧ RepDocs ds Ss ∧ c.flattened = .ok fl ∧ RepDocs fl Fs ∧
      Ss.length = c.nPoints ∧ Fs.length = c.nPoints ∧
      ∀ (i : Nat) (S F : Fields), Ss[i]? = some S → Fs[i]? = some F → F.toList = (fs.numbers.map fun t => dotted (firstLast t.1)).zip S.leaves := by
  have hg := readPayload_good wf (by omega) hn h
  obtain ⟨ds, Ss, fl, Fs, a1, a2, b1, b2, a3, b3, a4, b4⟩ := chunk_views wf hl hn h
  refine ⟨ds, Ss, fl, Fs, a1, a2, b1, b2, a3, b3, fun i S F hS hF => ?_⟩
  rw [(a4 i S hS).2, b4 i F hF, ← keyed_fst, ← keyed_snd]
  refine joinL_plain i _ _ (by rw [hg.tags, tags_wide]) (fun p hp => ?_)
  simp only [keyed, List.mem_map] at hp
  obtain ⟨q, hq, rfl⟩ := hp
  exact hts q hq

example : ∀ t ∈ Fields.numbers (.cons [97] (.int64 5) (.cons [98] (.bool true) .nil)), t.2 ≠ 0x11 := by decide +kernel

/-- The first sample of a chunk is the document `{x: Timestamp(5000000, 1)}`.  The structured view shows `{x: Timestamp(705032704, 1)}`,
    the flat view `{x: 5000000000, x.inc: 1}`. -/
theorem C39_timestamps_differ : ∃ fs tail, fs = .cons [120] (.timestamp 5000000 1) .nil ∧ ∃ N, ∀ n, N ≤ n → ∃ c d e,
    readPayload n none (encDoc fs ++ tail) = .ok c ∧ c.structured n = .ok [d] ∧ RepFields d (.cons [120] (.timestamp 705032704 1) .nil) ∧
    c.flattened = .ok [e] ∧ RepFields e (.cons [120] (.int64 5000000000) (.cons [120, 46, 105, 110, 99] (.int64 1) .nil)) := by
  refine ⟨_, le32 2 ++ le32 0, rfl, 100, fun n hn => ?_⟩
  have wf : Fields.WF (.cons [120] (.timestamp 5000000 1) .nil) := by simp [Fields.WF, BVal.WF, NulFree]
  have hs : (encDoc (.cons [120] (.timestamp 5000000 1) .nil)).length = 16 := by decide +kernel
  obtain ⟨ref, h⟩ := readPayload_one wf (by omega) (show _ < n by omega) none
  have hg := readPayload_good wf (by omega) (by omega) h
  obtain ⟨d, h1, h2⟩ := restore_fill hg (by omega) (show _ < n by omega) (i := 0) (by simp)
  obtain ⟨e, F, h3, h4, h5⟩ := flatSample_rep (i := 0) _ (fun m hm => ⟨by have := (hg.vals m hm).1; simp only at this; omega, (hg.vals m hm).2⟩)
    (keys_good hg wf (by omega))
  refine ⟨_, d, e, h, ?_, ?_, ?_, ?_⟩
  · simp only [Chunk.structured, samples, h1, Res.bind_ok]
  · simpa [fillF, fill, metsF, mets, val, u32i, count] using h2
  · simp only [Chunk.flattened, samples, h3, Res.bind_ok]
  · match F, h5 with
    | .nil, h5 => simp [Fields.toList, metsF, mets] at h5
    | .cons _ _ .nil, h5 => simp [Fields.toList, metsF, mets] at h5
    | .cons _ _ (.cons _ _ (.cons _ _ _)), h5 => simp [Fields.toList, metsF, mets] at h5
    | .cons _ _ (.cons _ _ .nil), h5 =>
      simp [Fields.toList, metsF, mets, Metric.key, joinDots, leafOf, val] at h5
      obtain ⟨⟨rfl, rfl⟩, rfl, rfl⟩ := h5
      exact h4

/-- The first sample of a chunk is the document `{a: ["", 7]}`.  The structured view shows `{a: [7]}`, where 7 is the element 0, and the
    flat view `{a.1: 7}`. -/
theorem C39_array_names : ∃ fs tail, fs = .cons [97] (.array (.cons (.string []) (.cons (.int32 7) .nil))) .nil ∧ ∃ N, ∀ n, N ≤ n → ∃ c d e,
    readPayload n none (encDoc fs ++ tail) = .ok c ∧ c.structured n = .ok [d] ∧ RepFields d (.cons [97] (.array (.cons (.int32 7) .nil)) .nil) ∧
    c.flattened = .ok [e] ∧ RepFields e (.cons [97, 46, 49] (.int32 7) .nil) := by
  refine ⟨_, le32 1 ++ le32 0, rfl, 100, fun n hn => ?_⟩
  have wf : Fields.WF (.cons [97] (.array (.cons (.string []) (.cons (.int32 7) .nil))) .nil) := by simp [Fields.WF, BVal.WF, Vals.WF, NulFree]
  have hs : (encDoc (.cons [97] (.array (.cons (.string []) (.cons (.int32 7) .nil))) .nil)).length < 100 := by decide +kernel
  obtain ⟨ref, h⟩ := readPayload_one wf (by omega) (show _ < n by omega) none
  have hg := readPayload_good wf (by omega) (by omega) h
  obtain ⟨d, h1, h2⟩ := restore_fill hg (by omega) (show _ < n by omega) (i := 0) (by simp)
  obtain ⟨e, F, h3, h4, h5⟩ := flatSample_rep (i := 0) _ (fun m hm => ⟨by have := (hg.vals m hm).1; simp only at this; omega, (hg.vals m hm).2⟩)
    (keys_good hg wf (by omega))
  refine ⟨_, d, e, h, ?_, ?_, ?_, ?_⟩
  · simp only [Chunk.structured, samples, h1, Res.bind_ok]
  · simpa [fillF, fill, fillV, metsF, mets, metsV, val, u32i, count, i32] using h2
  · simp only [Chunk.flattened, samples, h3, Res.bind_ok]
  · match F, h5 with
    | .nil, h5 => simp [Fields.toList, metsF, mets, metsV] at h5
    | .cons _ _ (.cons _ _ _), h5 => simp [Fields.toList, metsF, mets, metsV] at h5
    | .cons _ _ .nil, h5 =>
      simp [Fields.toList, metsF, mets, metsV, Metric.key, joinDots, leafOf, val, i32] at h5
      obtain ⟨rfl, rfl⟩ := h5
      exact h4

end Birch.Props
