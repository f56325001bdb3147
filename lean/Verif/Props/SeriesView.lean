import Verif.Proofs.SeriesView
import Verif.Props.FtdcViews
import Verif.Props.FtdcCollect

/- C89: the series of a chunk, and reading without a registered marshaler. -/

namespace Birch.Props
open Birch Model Model.Ftdc Spec Proofs Proofs.Ftdc

/-- The series of any chunk that can be read: one for each metric key.  The series of a key has as many values as there are samples; its value for a sample is
    that of the last field of this name in the flat document of the sample. -/
theorem C89_series {fs : Fields} (wf : fs.WF) (hl : (encDoc fs).length ≤ 2147482990) {tail : Bytes} {n : Nat} (hn : (encDoc fs).length < n)
    {md : Option Doc} {c : Chunk} (h : readPayload n md (encDoc fs ++ tail) = .ok c) :
    (c.exportMatrix.map Prod.fst).Nodup ∧
    (∀ k, k ∈ c.exportMatrix.map Prod.fst ↔ k ∈ metricNames (fun t => dotted (firstLast t)) fs.numbers) ∧
    ∃ (fl : List Doc) (Fs : List Fields), c.flattened = .ok fl ∧ RepDocs fl Fs ∧ Fs.length = c.nPoints ∧
      ∀ k s, (k, s) ∈ c.exportMatrix → (Series.column s).length = c.nPoints ∧
        ∀ (i : Nat) (F : Fields), Fs[i]? = some F → (Series.column s)[i]? = lastNamed k F.toList := by
  have hg := readPayload_good wf (by omega) hn h
  obtain ⟨_, _, fl, Fs, _, _, b1, b2, _, b3, _, b4⟩ := chunk_views wf hl hn h
  obtain ⟨h1, h2⟩ := matrix_spec c.metrics
  refine ⟨h1, fun k => ?_, fl, Fs, b1, b2, b3, fun k s hs => ?_⟩
  · rw [← tags_names, ← hg.tags, List.map_map]
    have e : k ∈ c.exportMatrix.map Prod.fst ↔ ∃ m, lastKeyed k c.metrics = some m := by
      simp only [List.mem_map, Prod.exists, exists_and_right, exists_eq_right]
      constructor
      · rintro ⟨s, hs⟩
        obtain ⟨m, hm, _⟩ := (h2 k s).mp hs
        exact ⟨m, hm⟩
      · rintro ⟨m, hm⟩
        exact ⟨_, (h2 k _).mpr ⟨m, hm, rfl⟩⟩
    rw [e]
    have e2 : k ∈ List.map (Prod.fst ∘ tag) c.metrics ↔ k ∈ c.metrics.map Metric.key := Iff.rfl
    rw [e2]
    cases hm : lastKeyed k c.metrics with
    | none => simp [lastKeyed_none.mp hm]
    | some m =>
      obtain ⟨m1, m2⟩ := lastKeyed_some hm
      simp only [Option.some.injEq, exists_eq', true_iff]
      exact List.mem_map.mpr ⟨m, m1, m2⟩
  · obtain ⟨m, hm, rfl⟩ := (h2 k s).mp hs
    obtain ⟨m1, m2⟩ := lastKeyed_some hm
    obtain ⟨v1, _⟩ := hg.vals m m1
    rw [getSeries_column (good_numbers hg m m1)]
    refine ⟨by simpa using v1, fun i F hF => ?_⟩
    rw [b4 i F hF, lastNamed_flat, hm, List.getElem?_map, Option.map_some]
    have hi : i < m.values.length := by
      have := (List.getElem?_eq_some_iff.mp hF).1
      omega
    simp [val, List.getElem?_eq_getElem hi]

/-- the chunk of `C39_views_partial`: two series, of three values each -/
example : ∃ c, readPayload 100 none (encDoc (.cons [97] (.int64 5) (.cons [98] (.bool true) .nil)) ++ (le32 2 ++ (le32 2 ++ [1, 3, 0, 1]))) = .ok c ∧
    c.exportMatrix.map (fun e => (e.1, (Series.column e.2).length)) = [([97], 3), ([98], 3)] := by
  have h : (readPayload 100 none (encDoc (.cons [97] (.int64 5) (.cons [98] (.bool true) .nil)) ++ (le32 2 ++ (le32 2 ++ [1, 3, 0, 1]))) >>=
      fun c => .ok (c.exportMatrix.map (fun e => (e.1, (Series.column e.2).length)))) = .ok [([97], 3), ([98], 3)] := by decide +kernel
  obtain ⟨c, h1, h2⟩ := Res.bind_eq_ok.mp h
  exact ⟨c, h1, by simpa using h2⟩

/-- If no two metrics have the same key there is a series for every metric, in order, with its values.

    Missing from C89: metrics with equal keys (`C89_lost`). -/
theorem C89_every_metric_partial {fs : Fields} (wf : fs.WF) (hl : (encDoc fs).length ≤ 2147482990) {tail : Bytes} {n : Nat} (hn : (encDoc fs).length < n)
    {md : Option Doc} {c : Chunk} (h : readPayload n md (encDoc fs ++ tail) = .ok c) (hd : (metricNames (fun t => dotted (firstLast t)) fs.numbers).Nodup) :
    ∃ (fl : List Doc) (Fs : List Fields), c.flattened = .ok fl ∧ RepDocs fl Fs ∧ Fs.length = c.nPoints ∧
      c.exportMatrix.map (fun e => (e.1, Series.column e.2)) = columns (metricNames (fun t => dotted (firstLast t)) fs.numbers) (Fs.map fun F => F.toList.map Prod.snd) := by
  have hg := readPayload_good wf (by omega) hn h
  obtain ⟨_, _, fl, Fs, _, _, b1, b2, _, b3, _, b4⟩ := chunk_views wf hl hn h
  have hk : metricNames (fun t => dotted (firstLast t)) fs.numbers = c.metrics.map Metric.key := by
    rw [← tags_names, ← hg.tags, List.map_map]; rfl
  rw [hk] at hd ⊢
  refine ⟨fl, Fs, b1, b2, b3, ?_⟩
  rw [exportMatrix_nodup hd, List.map_map]
  have hF : Fs.map (fun F => F.toList.map Prod.snd) = (List.range c.nPoints).map fun i => c.metrics.map fun m => leafOf m.originalType (val i m) := by
    apply List.ext_getElem
    · simp [b3]
    · intro i h1 h2
      simp only [List.length_map] at h1
      simp only [List.getElem_map, List.getElem_range]
      rw [b4 i _ (List.getElem?_eq_getElem h1), List.map_map]
      rfl
  rw [hF]
  have key : ∀ ms : List Metric, (∀ m ∈ ms, Number m.originalType ∧ m.values.length = c.nPoints) →
      ms.map ((fun e => (e.1, Series.column e.2)) ∘ fun m => (m.key, m.getSeries)) =
        columns (ms.map Metric.key) ((List.range c.nPoints).map fun i => ms.map fun m => leafOf m.originalType (val i m)) := by
    intro ms
    induction ms with
    | nil => intro _; rfl
    | cons m ms ih =>
      intro hm
      obtain ⟨m1, m2⟩ := hm m (by simp)
      simp only [List.map_cons, columns, Function.comp_apply]
      rw [getSeries_column m1, ← val_map (leafOf m.originalType) m2]
      have e1 : (List.map (fun i => leafOf m.originalType (val i m) :: ms.map fun m => leafOf m.originalType (val i m)) (List.range c.nPoints)).filterMap List.head? =
          (List.range c.nPoints).map fun i => leafOf m.originalType (val i m) := by
        rw [List.filterMap_map]
        exact List.filterMap_eq_map' ▸ rfl
      rw [e1]
      congr 1
      have := ih (fun m hm' => hm m (by simp [hm']))
      simp only [List.map_map]
      exact this
  exact key c.metrics (fun m hm => ⟨good_numbers hg m hm, (hg.vals m hm).1⟩)

example : (metricNames (fun t => dotted (firstLast t)) exNested.numbers).Nodup := by decide +kernel

/-- Of metrics with the same key only the last has a series: in a chunk of `{a: {b: {x: 1}, c: {x: 2}}}` the value 1 is lost. -/
theorem C89_lost : ∃ fs : Fields, fs.Plain ∧ fs.leaves = [.int32 1, .int32 2] ∧ ∃ tail c, readPayload 1000 none (encDoc fs ++ tail) = .ok c ∧
    c.exportMatrix.map (fun e => (e.1, Series.column e.2)) = [([97, 46, 120], [.int32 2])] := by
  let fs : Fields := .cons [97] (.doc (.cons [98] (.doc (.cons [120] (.int32 1) .nil)) (.cons [99] (.doc (.cons [120] (.int32 2) .nil)) .nil))) .nil
  have hw : fs.WF := by simp [fs, Fields.WF, BVal.WF, NulFree]
  obtain ⟨ref, h⟩ := readPayload_one hw (by decide +kernel) (show (encDoc fs).length < 1000 by decide +kernel) none
  refine ⟨fs, by simp [fs, Fields.Plain, BVal.Plain, Fields.toList], by simp [fs, Fields.leaves, BVal.leaves], _, _, h, ?_⟩
  simp [fs, metsF, mets, Chunk.exportMatrix, assign, Metric.key, joinDots, Metric.getSeries, Series.column, i32]

/-- Without a registered marshaler, reading the series of what a collector has written panics, though reading the samples does not. -/
theorem C89_unregistered {fsub : Nat → Nat → Nat}
    (hsub : ∀ a b, a < 18446744073709551616 → b < 18446744073709551616 → fsub a b < 18446744073709551616)
    {zip : Bytes → Bytes} {unzip : Bytes → Option Bytes} (hz : ∀ b, unzip (zip b) = some b)
    {docs : List Doc} {fss : List Fields} (hd : RepDocs docs fss) (hne : fss ≠ [])
    (hl : ∀ fs ∈ fss, (encDoc fs).length < 2147483648) (hs : ∀ f ∈ fss, ∀ g ∈ fss, f.metrics.SameShape g.metrics)
    {max : Nat} (hmax : fss.length ≤ max + 1) (h32 : fss.length < 4294967296) :
    ∃ N, ∀ n, N ≤ n → ∃ c, (Better.new max).addAll fsub n docs = .ok (c, fss.map fun _ => none) ∧
      ((∀ p, Returns c.payload (.ok p) → (zip p).length ≤ 2147482000) → ∀ now, ∃ bytes, Returns (c.resolve zip now) (.ok bytes) ∧
        ∀ s : Stream.Source, s.left = bytes → ∃ M, ∀ m, M ≤ m → readSeriesDocs unzip m none s = .panic ∧ ∃ ds, readStructuredMetrics unzip m s = .ok ds) := by
  obtain ⟨N, h⟩ := C33_structured hsub hz hd hne hl hs hmax h32 none nofun
  refine ⟨N, fun n hn => ?_⟩
  obtain ⟨c, h1, h2⟩ := h n hn
  refine ⟨c, h1, fun hp now => ?_⟩
  obtain ⟨bytes, h3, h4⟩ := h2 hp now
  refine ⟨bytes, h3, fun s hs => ?_⟩
  obtain ⟨M, h5⟩ := h4 s hs
  refine ⟨M, fun m hm => ?_⟩
  obtain ⟨ds, h6, h7⟩ := h5 m hm
  refine ⟨?_, ds, h6⟩
  unfold readStructuredMetrics at h6
  unfold readSeriesDocs
  cases hr : readAll unzip m s with
  | mk chunks e =>
    cases chunks with
    | cons c cs => simp [seriesLoop]
    | nil =>
      exfalso
      rw [hr] at h6
      cases e <;> simp [overChunks] at h6
      subst h6
      match fss, hne, h7 with
      | f :: fss, _, h7 => simp [backAll, RepDocs] at h7

example := fun (docs : List Doc) (h : RepDocs docs [exSample 1 [120], exSample 1 [], exSample 700 [121, 122]]) =>
  C89_unregistered (fsub := fun a _ => a) (fun _ _ h _ => h) (zip := id) (unzip := some) (fun _ => rfl) h (by simp) exSamples_size
    exSamples_shape (max := 2) (by simp) (by simp)

/-- With a registered marshaler the documents are what it makes of the series of the chunks, in order.  A chunk for which it fails is left out and its error is collected;
    the error that ended the reading of the chunks comes last. -/
theorem C89_registered {unzip : Bytes → Option Bytes} {fuel : Nat} {f : List (Bytes × Series) → Option Bytes} {g : List (Bytes × Series) → Option Fields}
    (hfg : ∀ m, f m = (g m).map encDoc) {s : Stream.Source} {chunks : List Chunk} {e : Res Unit} (hr : readAll unzip fuel s = (chunks, e)) (he : e = .ok () ∨ ∃ x, e = .err x)
    (hsz : ∀ c ∈ chunks, ∀ fs, g c.exportMatrix = some fs → fs.WF ∧ (encDoc fs).length < 2147483648 ∧ (encDoc fs).length < fuel) :
    ∃ ds es, readSeriesDocs unzip fuel (some f) s = .ok (ds, es) ∧ RepDocs ds (chunks.filterMap fun c => g c.exportMatrix) ∧
      es.length = (chunks.filter fun c => (g c.exportMatrix).isNone).length + (if e = .ok () then 0 else 1) ∧ ∀ x, e = .err x → es.getLast? = some x := by
  obtain ⟨ds, h1, h2⟩ := seriesLoop_some hfg chunks hsz
  simp only [readSeriesDocs, hr, h1, Res.bind_ok]
  rcases he with rfl | ⟨x, rfl⟩
  · exact ⟨ds, _, rfl, h2, by simp, nofun⟩
  · exact ⟨ds, _, rfl, h2, by simp, by rintro _ ⟨⟩; simp⟩

/-- a file with one chunk of one sample, and the start of another document -/
private def exSeriesFile : Stream.Source :=
  ⟨[[50, 0, 0, 0, 16, 116, 121, 112, 101, 0, 1, 0, 0, 0, 5, 100, 97, 116, 97, 0, 24, 0, 0, 0, 0, 0, 0, 0, 0, 12, 0, 0, 0,
    16, 97, 0, 5, 0, 0, 0, 0, 1, 0, 0, 0, 0, 0, 0, 0, 0], [9, 0, 0, 0, 1]], false⟩

private theorem exSeriesFile_chunks : (readAll some 100 exSeriesFile).1.length = 1 ∧ (readAll some 100 exSeriesFile).2 = .err .unexpectedEOF := by decide +kernel

/-- a marshaler that makes the same document of all series -/
example : ∃ ds, readSeriesDocs some 100 (some fun _ => some (encDoc (.cons [97] (.int32 7) .nil))) exSeriesFile = .ok (ds, [.unexpectedEOF]) ∧ RepDocs ds [.cons [97] (.int32 7) .nil] := by
  obtain ⟨ds, es, h1, h2, h3, h4⟩ := C89_registered (unzip := some) (fuel := 100) (f := fun _ => some (encDoc (.cons [97] (.int32 7) .nil)))
    (g := fun _ => some (.cons [97] (.int32 7) .nil)) (fun _ => rfl) (s := exSeriesFile) (chunks := (readAll some 100 exSeriesFile).1) (e := (readAll some 100 exSeriesFile).2) rfl
    (.inr ⟨_, exSeriesFile_chunks.2⟩) (by rintro _ _ _ ⟨⟩; exact ⟨by simp [Fields.WF, BVal.WF, NulFree], by decide, by decide⟩)
  match hc : (readAll some 100 exSeriesFile).1, exSeriesFile_chunks.1 with
  | [c], _ =>
    rw [hc] at h2 h3
    rw [exSeriesFile_chunks.2] at h3 h4
    have h5 := h4 _ rfl
    match es, h3, h5 with
    | [x], _, h5 =>
      simp only [List.getLast?_singleton, Option.some.injEq] at h5
      subst h5
      exact ⟨ds, h1, h2⟩

/-- A marshaler may return anything: a payload that can be read as a document becomes one of the documents, for one that cannot be read the error is collected, and each chunk gives
    the one or the other.  But if reading the chunks panics, so does reading the series. -/
theorem C89_any_payload {unzip : Bytes → Option Bytes} {fuel : Nat} {f : List (Bytes × Series) → Option Bytes} {s : Stream.Source} {chunks : List Chunk} {e : Res Unit}
    (hr : readAll unzip fuel s = (chunks, e))
    (hp : ∀ c ∈ chunks, ∀ p, f c.exportMatrix = some p → (∃ d, readDocument fuel p = .ok d) ∨ ∃ e, readDocument fuel p = .err e) :
    (e = .ok () → ∃ ds es, readSeriesDocs unzip fuel (some f) s = .ok (ds, es) ∧ ds.length + es.length = chunks.length ∧
      (∀ c ∈ chunks, ∀ p d, f c.exportMatrix = some p → readDocument fuel p = .ok d → d ∈ ds) ∧
      (∀ c ∈ chunks, ∀ p e, f c.exportMatrix = some p → readDocument fuel p = .err e → e ∈ es) ∧
      ∀ d ∈ ds, ∃ c ∈ chunks, ∃ p, f c.exportMatrix = some p ∧ readDocument fuel p = .ok d) ∧
    (e = .panic → readSeriesDocs unzip fuel (some f) s = .panic) := by
  obtain ⟨ds, es, h1, h2⟩ := seriesLoop_any chunks hp
  simp only [readSeriesDocs, hr, h1, Res.bind_ok]
  constructor
  · rintro rfl
    exact ⟨ds, es, rfl, h2⟩
  · rintro rfl
    rfl

/-- a file with a chunk whose data have three bytes -/
private def exDamagedFile : Stream.Source :=
  ⟨[[29, 0, 0, 0, 16, 116, 121, 112, 101, 0, 1, 0, 0, 0, 5, 100, 97, 116, 97, 0, 3, 0, 0, 0, 0, 9, 0, 0, 0]], false⟩

example : readSeriesDocs some 100 (some fun _ => some []) exDamagedFile = .panic :=
  (C89_any_payload (unzip := some) (fuel := 100) (f := fun _ => some []) (s := exDamagedFile) (chunks := (readAll some 100 exDamagedFile).1)
    (e := (readAll some 100 exDamagedFile).2) rfl (by rintro _ _ _ ⟨⟩; exact .inr ⟨.tooSmall, rfl⟩)).2 (by decide +kernel)

/-- a marshaler that returns nothing readable: there are no documents, and an error for every chunk -/
example (s : Stream.Source) (h : (readAll some 100 s).2 = .ok ()) : ∃ es, readSeriesDocs some 100 (some fun _ => some []) s = .ok ([], es) := by
  obtain ⟨ds, es, h1, _, _, _, h5⟩ := (C89_any_payload (unzip := some) (fuel := 100) (f := fun _ => some []) (s := s) (chunks := (readAll some 100 s).1)
    (e := (readAll some 100 s).2) rfl (by rintro _ _ _ ⟨⟩; exact .inr ⟨.tooSmall, rfl⟩)).1 h
  cases ds with
  | nil => exact ⟨es, h1⟩
  | cons d ds =>
    obtain ⟨_, _, _, hp, hd⟩ := h5 d (by simp)
    cases hp
    cases hd

end Birch.Props
