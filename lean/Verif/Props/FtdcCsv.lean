import Verif.Proofs.FtdcCsv
import Verif.Props.FtdcDynamic
import Verif.Props.FtdcViews

/- C66, C67: CSV files. -/

namespace Birch.Props
open Birch Model Model.Ftdc Spec Proofs Proofs.Ftdc

/-- `c` was read from a payload whose reference document is `fs` -/
def ReadChunk (fs : Fields) (c : Chunk) : Prop :=
  ∃ tail n md, fs.WF ∧ (encDoc fs).length ≤ 2147482990 ∧ (encDoc fs).length < n ∧ readPayload n md (encDoc fs ++ tail) = .ok c

theorem readChunk_good {fs : Fields} {c : Chunk} (h : ReadChunk fs c) : Good c fs := by
  obtain ⟨tail, n, md, h1, h2, h3, h4⟩ := h
  exact readPayload_good h1 (by omega) h3 h4

theorem readChunk_names {fs : Fields} {c : Chunk} (h : ReadChunk fs c) :
    c.metrics.map Metric.key = metricNames (fun t => dotted (firstLast t)) fs.numbers := by
  rw [← tags_names, ← (readChunk_good h).tags, List.map_map]
  rfl

/-! ### C66 -/

/-- If all chunks have the same number of metrics, `WriteCSV` writes the names of the metrics of the first chunk and then a row for
    every sample of every chunk, with a field for every metric.

    Missing from C66: the names of the other chunks are not compared (`C66_names_not_compared`), doubles are written as the integer that
    has the same bits and dates lose their milliseconds (`C66_fields`). -/
theorem C66_table_partial (date : Int → Bytes) {fs : Fields} {c : Chunk} {cs : List Chunk} (hc : ReadChunk fs c) (hcs : ∀ x ∈ cs, ∃ gs, ReadChunk gs x)
    (hn : 0 < c.metrics.length) (hl : ∀ x ∈ cs, x.metrics.length = c.metrics.length) :
    ∃ ts w, AreTables date (c :: cs) ts ∧ writeCSV date (c :: cs) [] = .ok (w, none) ∧
      w.out = metricNames (fun t => dotted (firstLast t)) fs.numbers :: ts.flatten := by
  obtain ⟨ts, h1, h2⟩ := writeCSV_ok date hn (cs := cs) (by
    intro x hx
    rcases List.mem_cons.mp hx with rfl | hx
    · exact ⟨full_good (readChunk_good hc), rfl⟩
    · obtain ⟨gs, hg⟩ := hcs x hx
      exact ⟨full_good (readChunk_good hg), hl x hx⟩)
  obtain ⟨w, e, h3, h4, h5⟩ := h2 [] (by simp) []
  obtain ⟨h6, h7⟩ := h5 rfl
  rw [h7 rfl, List.append_nil] at h3
  exact ⟨ts, w, h1, h3, by rw [h6, readChunk_names hc]⟩

/-- `{a: 5, b: true}` and then `{a: 6, b: true}`, `{a: 9, b: true}` -/
theorem exTable_read : ∃ c, ReadChunk (.cons [97] (.int64 5) (.cons [98] (.bool true) .nil)) c ∧ c.nPoints = 3 ∧
    c.metrics.map (fun m => (m.key, m.originalType, m.values)) = [([97], 0x12, [5, 6, 9]), ([98], 0x08, [1, 1, 1])] := by
  have h : (readPayload 100 none (encDoc (.cons [97] (.int64 5) (.cons [98] (.bool true) .nil)) ++ (le32 2 ++ (le32 2 ++ [1, 3, 0, 1]))) >>=
      fun c => .ok (c.nPoints, c.metrics.map (fun m => (m.key, m.originalType, m.values)))) = .ok (3, [([97], 0x12, [5, 6, 9]), ([98], 0x08, [1, 1, 1])]) := by decide +kernel
  obtain ⟨c, h1, h2⟩ := Res.bind_eq_ok.mp h
  simp only [Res.ok.injEq, Prod.mk.injEq] at h2
  exact ⟨c, ⟨_, 100, none, by simp [Fields.WF, BVal.WF, NulFree], by decide +kernel, by decide +kernel, h1⟩, h2.1, h2.2⟩

/-- hypotheses of `C66_table_partial` -/
example : ∃ c, ReadChunk (.cons [97] (.int64 5) (.cons [98] (.bool true) .nil)) c ∧ 0 < c.metrics.length ∧ ∀ x ∈ [c], x.metrics.length = c.metrics.length := by
  obtain ⟨c, h1, _, h2⟩ := exTable_read
  have := congrArg List.length h2
  simp at this
  exact ⟨c, h1, by omega, by simp⟩

/-- Whatever the writer does: if `WriteCSV` returns no error, the number of metrics did not change and everything was written. -/
theorem C66_complete (date : Int → Bytes) {fs : Fields} {c : Chunk} {cs : List Chunk} (hc : ReadChunk fs c) (hcs : ∀ x ∈ cs, ∃ gs, ReadChunk gs x)
    (hn : 0 < c.metrics.length) (plan : List Bool) {w : CsvWriter} (h : writeCSV date (c :: cs) plan = .ok (w, none)) :
    (∀ x ∈ cs, x.metrics.length = c.metrics.length) ∧
    ∃ ts, AreTables date (c :: cs) ts ∧ w.out = metricNames (fun t => dotted (firstLast t)) fs.numbers :: ts.flatten := by
  let pre := cs.takeWhile fun x => x.metrics.length = c.metrics.length
  let rest := cs.dropWhile fun x => x.metrics.length = c.metrics.length
  have hsp : cs = pre ++ rest := (List.takeWhile_append_dropWhile ..).symm
  have hpre : ∀ x ∈ pre, x.metrics.length = c.metrics.length := by
    intro x hx
    have := List.all_takeWhile (l := cs) (p := fun x : Chunk => decide (x.metrics.length = c.metrics.length))
    simpa using List.all_eq_true.mp this x hx
  obtain ⟨ts, h1, h2⟩ := writeCSV_ok date hn (cs := pre) (by
    intro x hx
    rcases List.mem_cons.mp hx with rfl | hx
    · exact ⟨full_good (readChunk_good hc), rfl⟩
    · obtain ⟨gs, hg⟩ := hcs x (by rw [hsp]; simp [hx])
      exact ⟨full_good (readChunk_good hg), hpre x hx⟩)
  obtain ⟨w', e, h3, h4, h5⟩ := h2 rest (by
    intro x hx
    have := List.head?_dropWhile_not (fun x : Chunk => decide (x.metrics.length = c.metrics.length)) cs
    rw [show cs.dropWhile _ = rest from rfl, hx] at this
    simpa using this) plan
  rw [List.cons_append, ← hsp, h] at h3
  simp only [Res.ok.injEq, Prod.mk.injEq] at h3
  obtain ⟨rfl, rfl⟩ := h3
  obtain ⟨h6, h7⟩ := h4 rfl
  rw [h6, List.append_nil] at hsp
  rw [hsp]
  exact ⟨hpre, ts, h1, by rw [h7, readChunk_names hc]⟩

/-- with a plan of three calls that do not fail -/
example : ∃ c w, ReadChunk (.cons [97] (.int64 5) (.cons [98] (.bool true) .nil)) c ∧ writeCSV (fun _ => []) [c] [true, true] = .ok (w, none) := by
  obtain ⟨c, h1, h2, h3⟩ := exTable_read
  have := congrArg List.length h3
  simp at this
  match hc : c, h2, h3 with
  | ⟨ms, np, md, ref⟩, h2, h3 =>
    simp only at h2 h3
    match ms, h3 with
    | [m1, m2], h3 =>
      simp only [List.map_cons, List.map_nil, List.cons.injEq, Prod.mk.injEq, and_true] at h3
      obtain ⟨⟨_, t1, v1⟩, _, t2, v2⟩ := h3
      refine ⟨_, ⟨[[m1.key, m2.key], [[53], [49]], [[54], [49]], [[57], [49]]], [], []⟩, h1, ?_⟩
      subst h2
      have f1 : ∀ i x, m1.values[i]? = some x → m1.field (fun _ => []) i = .ok (Json.formatInt x) := fun i x h => by simp [Metric.field, t1, h]
      have f2 : ∀ i x, m2.values[i]? = some x → m2.field (fun _ => []) i = .ok (Json.formatInt x) := fun i x h => by simp [Metric.field, t2, h]
      simp [writeCSV, writeChunks, writeChunk, writePoints, getRecord, CsvWriter.write, CsvWriter.flush, Chunk.fieldNames,
        f1 0 5 (by rw [v1]; rfl), f1 1 6 (by rw [v1]; rfl), f1 2 9 (by rw [v1]; rfl), f2 0 1 (by rw [v2]; rfl), f2 1 1 (by rw [v2]; rfl), f2 2 1 (by rw [v2]; rfl)]
      decide +kernel

/-- A chunk with another number of metrics is an error; the rows of the chunks before it were written. -/
theorem C66_schema_change (date : Int → Bytes) {fs : Fields} {c x : Chunk} {cs rest : List Chunk} (hc : ReadChunk fs c) (hcs : ∀ x ∈ cs, ∃ gs, ReadChunk gs x)
    (hn : 0 < c.metrics.length) (hl : ∀ x ∈ cs, x.metrics.length = c.metrics.length) (hx : x.metrics.length ≠ c.metrics.length) :
    ∃ ts w e, AreTables date (c :: cs) ts ∧ writeCSV date (c :: cs ++ x :: rest) [] = .ok (w, some e) ∧
      w.out = metricNames (fun t => dotted (firstLast t)) fs.numbers :: ts.flatten := by
  obtain ⟨ts, h1, h2⟩ := writeCSV_ok date hn (cs := cs) (by
    intro x hx
    rcases List.mem_cons.mp hx with rfl | hx
    · exact ⟨full_good (readChunk_good hc), rfl⟩
    · obtain ⟨gs, hg⟩ := hcs x hx
      exact ⟨full_good (readChunk_good hg), hl x hx⟩)
  obtain ⟨w, e, h3, h4, h5⟩ := h2 (x :: rest) (by simpa using hx) []
  obtain ⟨h6, _⟩ := h5 rfl
  match e, h4 with
  | none, h4 => have := (h4 rfl).1; cases this
  | some e, _ => exact ⟨ts, w, e, h1, h3, by rw [h6, readChunk_names hc]⟩

/-- `{x: 0}` -/
def exOne : Fields := .cons [120] (.int32 0) .nil

/-- a chunk with one sample -/
theorem one_read {fs : Fields} (wf : fs.WF) (hl : (encDoc fs).length < 1000) : ∃ c, ReadChunk fs c ∧ c.nPoints = 1 := by
  obtain ⟨ref, h⟩ := readPayload_one wf (by omega) (show (encDoc fs).length < 1000 by omega) none
  exact ⟨_, ⟨_, 1000, none, wf, by omega, hl, h⟩, rfl⟩

example : ∃ c x, ReadChunk (.cons [97] (.int64 5) (.cons [98] (.bool true) .nil)) c ∧ ReadChunk exOne x ∧ x.metrics.length ≠ c.metrics.length := by
  obtain ⟨c, h1, _, h2⟩ := exTable_read
  obtain ⟨x, h3, _⟩ := one_read (fs := exOne) (by simp [exOne, Fields.WF, BVal.WF, NulFree]) (by decide +kernel)
  have := congrArg List.length h2
  have h4 := congrArg List.length (readChunk_names h3)
  simp [exOne, metricNames, Fields.numbers, BVal.numbers] at this h4
  exact ⟨c, x, h1, h3, by omega⟩

/-- `DumpCSV` writes a file for every group of chunks that have the same number of metrics: the names of the metrics of its first chunk
    and a row for every sample.

    Missing from C66: what is missing from `C66_table_partial`. -/
theorem C66_files_partial (date : Int → Bytes) {gs : List (List Chunk)} (h : Grouped 0 gs) (hr : ∀ g ∈ gs, ∀ c ∈ g, ∃ fs, ReadChunk fs c) :
    ∃ fs, AreFiles date gs fs ∧ dumpCSV date gs.flatten = .ok fs :=
  dumpCSV_ok date h (fun g hg c hc => by obtain ⟨fs, h⟩ := hr g hg c hc; exact full_good (readChunk_good h))

example : ∃ c x, Grouped 0 [[c, c], [x], [c]] ∧ (∀ g ∈ [[c, c], [x], [c]], ∀ c ∈ g, ∃ fs, ReadChunk fs c) := by
  obtain ⟨c, h1, _, h2⟩ := exTable_read
  obtain ⟨x, h3, _⟩ := one_read (fs := exOne) (by simp [exOne, Fields.WF, BVal.WF, NulFree]) (by decide +kernel)
  have := congrArg List.length h2
  have h4 := congrArg List.length (readChunk_names h3)
  simp [exOne, metricNames, Fields.numbers, BVal.numbers] at this h4
  refine ⟨c, x, ⟨2, by omega, by omega, by simp, by simp [this], 1, by omega, by omega, by simp, by simp [h4], 2, by omega, by omega, by simp, by simp [this], trivial⟩, ?_⟩
  intro g hg y hy
  simp only [List.mem_cons, List.not_mem_nil, or_false] at hg
  rcases hg with rfl | rfl | rfl <;> simp at hy <;> subst hy <;> first | exact ⟨_, h1⟩ | exact ⟨_, h3⟩

/-- A chunk of `{x: 0}` and one of `{y: 7}`: no error, and the row of the second is under the name `x`. -/
theorem C66_names_not_compared (date : Int → Bytes) : ∃ c x w, ReadChunk (intField 0x78 0) c ∧ ReadChunk (intField 0x79 7) x ∧
    writeCSV date [c, x] [] = .ok (w, none) ∧ w.out = [[[0x78]], [[48]], [[55]]] := by
  have wf : ∀ k i, k ≠ 0 → -2147483648 ≤ i → i < 2147483648 → (intField k i).WF := fun k i hk h1 h2 => by
    simp [intField, Fields.WF, BVal.WF, NulFree, hk, h1, h2]
  have w1 := wf 0x78 0 (by decide) (by decide) (by decide)
  have w2 := wf 0x79 7 (by decide) (by decide) (by decide)
  have hs := intField_size
  obtain ⟨r1, h1⟩ := readPayload_one w1 (by rw [hs]; decide) (show _ < 1000 by rw [hs]; decide) none
  obtain ⟨r2, h2⟩ := readPayload_one w2 (by rw [hs]; decide) (show _ < 1000 by rw [hs]; decide) none
  refine ⟨_, _, ⟨[[[0x78]], [[48]], [[55]]], [], []⟩, ⟨_, 1000, none, w1, by rw [hs]; decide, by rw [hs]; decide, h1⟩, ⟨_, 1000, none, w2, by rw [hs]; decide, by rw [hs]; decide, h2⟩, ?_, rfl⟩
  simp [writeCSV, writeChunks, writeChunk, writePoints, getRecord, CsvWriter.write, CsvWriter.flush, Chunk.fieldNames, intField, metsF, mets, Metric.field, Metric.key, joinDots]
  decide +kernel

/-- Of `{d: 2.0, t: 1500 ms}` the double is written as the integer with the same bits, and the date with its second only. -/
theorem C66_fields (date : Int → Bytes) : ∃ fs c w, fs = .cons [100] (.double 4611686018427387904) (.cons [116] (.datetime 1500) .nil) ∧ ReadChunk fs c ∧
    writeCSV date [c] [] = .ok (w, none) ∧
    w.out = [[[100], [116]], [[52, 54, 49, 49, 54, 56, 54, 48, 49, 56, 52, 50, 55, 51, 56, 55, 57, 48, 52], date 1]] := by
  have wf : Fields.WF (.cons [100] (.double 4611686018427387904) (.cons [116] (.datetime 1500) .nil)) := by simp [Fields.WF, BVal.WF, NulFree]
  have hs : (encDoc (.cons [100] (.double 4611686018427387904) (.cons [116] (.datetime 1500) .nil))).length = 27 := by decide +kernel
  obtain ⟨ref, h⟩ := readPayload_one wf (by omega) (show _ < 1000 by omega) none
  refine ⟨_, _, ⟨[[[100], [116]], [[52, 54, 49, 49, 54, 56, 54, 48, 49, 56, 52, 50, 55, 51, 56, 55, 57, 48, 52], date 1]], [], []⟩, rfl,
    ⟨_, 1000, none, wf, by omega, by omega, h⟩, ?_, rfl⟩
  have e1 : Json.formatInt (i64 4611686018427387904) = [52, 54, 49, 49, 54, 56, 54, 48, 49, 56, 52, 50, 55, 51, 56, 55, 57, 48, 52] := by decide +kernel
  have e2 : (wrapMs 1500).tdiv 1000 = 1 := by decide +kernel
  simp [writeCSV, writeChunks, writeChunk, writePoints, getRecord, CsvWriter.write, CsvWriter.flush, Chunk.fieldNames, metsF, mets, Metric.field, Metric.key, joinDots, e1, e2]

/-! ### C67 -/

/-- the numbers of a row -/
theorem rowFields_metrics : ∀ (header row : List Bytes), (rowFields header row).metrics = rowFields header row
  | [], _ => by simp [rowFields, Fields.metrics]
  | _ :: _, [] => by simp [rowFields, Fields.metrics]
  | k :: ks, f :: fs => by
    simp only [rowFields]
    cases textInt f with
    | none => exact rowFields_metrics ks fs
    | some x => simp [Fields.metrics, BVal.metric, rowFields_metrics ks fs]

theorem rowFields_kept : ∀ (header row : List Bytes), (rowFields header row).Kept
  | [], _ => by simp [rowFields, Fields.Kept]
  | _ :: _, [] => by simp [rowFields, Fields.Kept]
  | k :: ks, f :: fs => by
    simp only [rowFields]
    cases textInt f with
    | none => exact rowFields_kept ks fs
    | some x => exact ⟨trivial, rowFields_kept ks fs⟩

/-- A file in which all rows have as many fields as the header is converted without error, and what is read from the result are the rows,
    in order: the fields that are numbers, under the names in the header.

    Missing from C67: rows with different columns that have the same fingerprint (`C67_columns_mixed`), rows of another width
    (`C67_width_change`), errors of the writer (`C67_flush_error_lost`). -/
theorem C67_rows_partial {fsub : Nat → Nat → Nat}
    (hsub : ∀ a b, a < 18446744073709551616 → b < 18446744073709551616 → fsub a b < 18446744073709551616)
    {zip : Bytes → Bytes} {unzip : Bytes → Option Bytes} (hz : ∀ b, unzip (zip b) = some b)
    {header row : Record} {rows : List Record} (hw : ∀ r ∈ row :: rows, r.length = header.length) (hk : ∀ k ∈ header, NulFree k)
    (hcol : ∀ r ∈ row :: rows, ∀ q ∈ row :: rows, fingerprint (rowFields header r) = fingerprint (rowFields header q) →
      (rowFields header r).SameShape (rowFields header q))
    {L : Nat} (hL : ∀ r ∈ row :: rows, (encDoc (rowFields header r)).length ≤ L) (hL' : L < 2147483648) {bucket : Nat} (h32 : bucket < 4294967295)
    (hzL : ∀ b, b.length ≤ L + 28 + 30 * (L * bucket) → (zip b).length ≤ 2147482000) (now : Nat → Time) :
    ∃ N, ∀ n, N ≤ n → ∃ c, convertFromCSV fsub zip now n bucket ⟨header :: row :: rows, none⟩ ⟨[], []⟩ = .ok (c, none) ∧
      ∀ s : Stream.Source, s.left = c.base.output.out → ∃ M, ∀ m, M ≤ m → ∃ ds, readStructuredMetrics unzip m s = .ok ds ∧
        RepDocs ds ((row :: rows).map (rowFields header)) := by
  obtain ⟨docs, h0, h1, h2⟩ := rows_docs hk (row :: rows) (fun r hr => by have := hL r hr; simp only [encDoc, wrapDoc_length] at this; omega)
  match docs, h0, h1 with
  | d :: docs, h0, h1 =>
    obtain ⟨N, h⟩ := C37_streaming_kept_partial hsub hz (d := d) (docs := docs) (f := rowFields header row) (fss := rows.map (rowFields header)) h1
      (fun fs hfs => by
        rw [← List.map_cons (f := rowFields header), List.mem_map] at hfs
        obtain ⟨r, hr, rfl⟩ := hfs
        have := hL r hr; omega)
      (fun g hg h hh he => by
        rw [← List.map_cons (f := rowFields header), List.mem_map] at hg hh
        obtain ⟨r, hr, rfl⟩ := hg
        obtain ⟨q, hq, rfl⟩ := hh
        rw [rowFields_metrics, rowFields_metrics]
        exact hcol r hr q hq he)
      (fun g hg => by
        rw [← List.map_cons (f := rowFields header), List.mem_map] at hg
        obtain ⟨r, hr, rfl⟩ := hg
        rw [rowFields_metrics]; exact rowFields_kept _ _)
      h32 none (by simp)
      (fun md => smallChunks_of h1 (fun fs hfs => by
        rw [List.mem_map] at hfs
        obtain ⟨r, hr, rfl⟩ := hfs
        exact hL r hr) hL' h32 hzL fsub md) now
    refine ⟨N, fun n hn => ?_⟩
    obtain ⟨c, c', a1, a2, a3⟩ := h n hn
    refine ⟨c', ?_, fun s hs => ?_⟩
    · unfold convertFromCSV
      simp only
      rw [streamingDynamicWith_new] at a1
      rw [convertLoop_add none (row :: rows) (d :: docs) _ c hw h0 h2 a1]
      simp only [Res.bind_ok, a2]
    · obtain ⟨M, h3⟩ := a3 s hs
      refine ⟨M, fun m hm => ?_⟩
      obtain ⟨ds, h4, h5⟩ := h3 m hm
      refine ⟨ds, h4, ?_⟩
      rw [← List.map_cons (f := rowFields header), List.map_map] at h5
      have e : Fields.metrics ∘ rowFields header = rowFields header := by funext r; exact rowFields_metrics header r
      rwa [e] at h5

theorem rowFields_shape : ∀ (header r q : List Bytes), (∀ f ∈ r, (textInt f).isSome) → (∀ f ∈ q, (textInt f).isSome) → r.length = q.length →
    (rowFields header r).SameShape (rowFields header q)
  | [], _, _, _, _, _ => by simp [rowFields, Fields.SameShape]
  | _ :: _, [], [], _, _, _ => by simp [rowFields, Fields.SameShape]
  | _ :: _, [], _ :: _, _, _, h => by simp at h
  | _ :: _, _ :: _, [], _, _, h => by simp at h
  | k :: ks, f :: r, g :: q, hr, hq, h => by
    obtain ⟨x, hx⟩ := Option.isSome_iff_exists.mp (hr f (by simp))
    obtain ⟨y, hy⟩ := Option.isSome_iff_exists.mp (hq g (by simp))
    simp only [rowFields, hx, hy, Fields.SameShape, BVal.SameShape, BVal.tag, true_and]
    exact rowFields_shape ks r q (fun f hf => hr f (by simp [hf])) (fun f hf => hq f (by simp [hf])) (by simpa using h)

/-- A table of numbers with a header is converted without error and read back.

    Missing from C67: tables with other fields (`C67_rows_partial`). -/
theorem C67_numbers_partial {fsub : Nat → Nat → Nat}
    (hsub : ∀ a b, a < 18446744073709551616 → b < 18446744073709551616 → fsub a b < 18446744073709551616)
    {zip : Bytes → Bytes} {unzip : Bytes → Option Bytes} (hz : ∀ b, unzip (zip b) = some b)
    {header row : Record} {rows : List Record} (hw : ∀ r ∈ row :: rows, r.length = header.length) (hk : ∀ k ∈ header, NulFree k)
    (hx : ∀ r ∈ row :: rows, ∀ f ∈ r, (textInt f).isSome)
    {L : Nat} (hL : ∀ r ∈ row :: rows, (encDoc (rowFields header r)).length ≤ L) (hL' : L < 2147483648) {bucket : Nat} (h32 : bucket < 4294967295)
    (hzL : ∀ b, b.length ≤ L + 28 + 30 * (L * bucket) → (zip b).length ≤ 2147482000) (now : Nat → Time) :
    ∃ N, ∀ n, N ≤ n → ∃ c, convertFromCSV fsub zip now n bucket ⟨header :: row :: rows, none⟩ ⟨[], []⟩ = .ok (c, none) ∧
      ∀ s : Stream.Source, s.left = c.base.output.out → ∃ M, ∀ m, M ≤ m → ∃ ds, readStructuredMetrics unzip m s = .ok ds ∧
        RepDocs ds ((row :: rows).map (rowFields header)) :=
  C67_rows_partial hsub hz hw hk (fun r hr q hq _ => rowFields_shape header r q (hx r hr) (hx q hq) (by rw [hw r hr, hw q hq])) hL hL' h32 hzL now

/-- header `a,b`, rows `1,x` and `-7,12`: the second field of the first row is no number -/
example : rowFields [[97], [98]] [[49], [120]] = .cons [97] (.int64 1) .nil ∧ rowFields [[97], [98]] [[45, 55], [49, 50]] = .cons [97] (.int64 (-7)) (.cons [98] (.int64 12) .nil) ∧
    fingerprint (rowFields [[97], [98]] [[49], [120]]) ≠ fingerprint (rowFields [[97], [98]] [[45, 55], [49, 50]]) := by
  refine ⟨rfl, rfl, by decide +kernel⟩

/-- with the sizes of `C67_numbers_partial` -/
example : (∀ r ∈ [[[49], [50]], [[45, 55], [49, 50]]], ∀ f ∈ r, (textInt f).isSome) ∧
    (∀ r ∈ [[[49], [50]], [[45, 55], [49, 50]]], (encDoc (rowFields [[97], [98]] r)).length ≤ 27) ∧ 27 + 28 + 30 * (27 * 1000) ≤ 2147482000 := by
  decide +kernel

/-- The file with the header `a,b.c,a.b,c` and the rows `1,2,x,x` and `x,x,3,4`: converted without error, but the values of the second row
    are read back under the names of the first. -/
theorem C67_columns_mixed :
    (do
      let (c, e) ← convertFromCSV (fun _ _ => 0) id (fun _ => ⟨0, 0⟩) 200 10
        ⟨[[[97], [98, 46, 99], [97, 46, 98], [99]], [[49], [50], [120], [120]], [[120], [120], [51], [52]]], none⟩ ⟨[], []⟩
      let ds ← readStructuredMetrics some 2000 ⟨[c.base.output.out], false⟩
      let bs ← ds.foldr (fun d acc => do let b ← docMarshal 200 d; let r ← acc; .ok (b :: r)) (.ok [])
      .ok (e, bs)) =
    .ok (none, [encDoc (.cons [97] (.int64 1) (.cons [98, 46, 99] (.int64 2) .nil)), encDoc (.cons [97] (.int64 3) (.cons [98, 46, 99] (.int64 4) .nil))]) ∧
    rowFields [[97], [98, 46, 99], [97, 46, 98], [99]] [[120], [120], [51], [52]] = .cons [97, 46, 98] (.int64 3) (.cons [99] (.int64 4) .nil) := by
  exact ⟨by decide +kernel, by rfl⟩

/-- From the first row of another width on nothing is recorded, whatever follows; and if there is ever a row of the first width again,
    the conversion ends with an error.  (The comment of `ConvertFromCSV` says that such a row becomes the header for the following rows.) -/
theorem C67_width_change (fsub : Nat → Nat → Nat) (zip : Bytes → Bytes) (now : Nat → Time) (fuel bucket : Nat) (w : Sink) {header : Record} {rows : List Record}
    {c : StreamingDynamic} (h : convertFromCSV fsub zip now fuel bucket ⟨header :: rows, none⟩ w = .ok (c, none))
    {row : Record} (hr : row.length ≠ header.length) (rest : List Record) (bad : Option Err) :
    ∃ e, convertFromCSV fsub zip now fuel bucket ⟨header :: (rows ++ row :: rest), bad⟩ w = .ok (c, e) ∧
      ((∀ r ∈ rest, r.length ≠ header.length) → e = bad) ∧ ((∃ r ∈ rest, r.length = header.length) → e ≠ none) := by
  unfold convertFromCSV at h
  simp only at h
  obtain ⟨⟨c1, e1⟩, h1, h⟩ := Res.bind_eq_ok.mp h
  obtain ⟨⟨c2, e2⟩, h2, h⟩ := Res.bind_eq_ok.mp h
  simp only [Res.ok.injEq, Prod.mk.injEq] at h
  obtain ⟨rfl, rfl⟩ := h
  obtain ⟨header', h3⟩ := convertLoop_append bad (row :: rest) rows header _ c1 h1
  obtain ⟨e, h4, h5, h6⟩ := convertLoop_stuck (fsub := fsub) (zip := zip) (now := now) (fuel := fuel) (width := header.length) bad rest row c1 hr
  have h7 : convertLoop fsub zip now fuel header.length bad header' c1 (row :: rest) = .ok (c1, e) := by
    simp only [convertLoop, ne_eq, hr, not_false_eq_true, if_true]; exact h4
  refine ⟨e, ?_, h5, fun hx => by rw [h6 hx]; simp⟩
  unfold convertFromCSV
  simp only
  rw [h3, h7]
  simp only [Res.bind_ok, h2]

/-- header `a`, row `1` -/
example (fsub : Nat → Nat → Nat) (now : Nat → Time) : ∃ c, convertFromCSV fsub id now 100 5 ⟨[[[97]]], none⟩ ⟨[], []⟩ = .ok (c, none) ∧ ([[98], [99]] : Record).length ≠ ([[97]] : Record).length :=
  ⟨_, rfl, by decide⟩

/-- A file that cannot be read to its end is converted as far as it could be read, and the error is returned.  A file without a header
    is an error. -/
theorem C67_read_error (fsub : Nat → Nat → Nat) (zip : Bytes → Bytes) (now : Nat → Time) (fuel bucket : Nat) (w : Sink) (e : Err) :
    (∀ {header : Record} {rows : List Record} {c : StreamingDynamic}, convertFromCSV fsub zip now fuel bucket ⟨header :: rows, none⟩ w = .ok (c, none) →
      convertFromCSV fsub zip now fuel bucket ⟨header :: rows, some e⟩ w = .ok (c, some e)) ∧
    ∀ bad, ∃ c e', convertFromCSV fsub zip now fuel bucket ⟨[], bad⟩ w = .ok (c, some e') ∧ c.base.output = w := by
  refine ⟨fun {header rows c} h => ?_, fun bad => ⟨_, _, rfl, rfl⟩⟩
  unfold convertFromCSV at h
  simp only at h
  obtain ⟨⟨c1, e1⟩, h1, h⟩ := Res.bind_eq_ok.mp h
  obtain ⟨⟨c2, e2⟩, h2, h⟩ := Res.bind_eq_ok.mp h
  simp only [Res.ok.injEq, Prod.mk.injEq] at h
  obtain ⟨rfl, rfl⟩ := h
  obtain ⟨header', h3⟩ := convertLoop_append (some e) [] rows header _ c1 h1
  unfold convertFromCSV
  simp only
  rw [List.append_nil] at h3
  rw [h3, convertLoop]
  simp only [Res.bind_ok, h2]

/-- If the writer fails in the final flush, nothing is written and no error is returned. -/
theorem C67_flush_error_lost {fsub : Nat → Nat → Nat}
    (hsub : ∀ a b, a < 18446744073709551616 → b < 18446744073709551616 → fsub a b < 18446744073709551616)
    {zip : Bytes → Bytes} {unzip : Bytes → Option Bytes} (hz : ∀ b, unzip (zip b) = some b)
    {header row : Record} (hw : row.length = header.length) (hk : ∀ k ∈ header, NulFree k)
    {L : Nat} (hL : (encDoc (rowFields header row)).length ≤ L) (hL' : L < 2147483648) {bucket : Nat} (h32 : bucket < 4294967295)
    (hzL : ∀ b, b.length ≤ L + 28 + 30 * (L * bucket) → (zip b).length ≤ 2147482000) (now : Nat → Time) (e : Err) :
    ∃ N, ∀ n, N ≤ n → ∃ c, convertFromCSV fsub zip now n bucket ⟨[header, row], none⟩ ⟨[], [some (0, some e)]⟩ = .ok (c, none) ∧
      c.base.output.out = [] := by
  refine ⟨10000000000, fun n hn => ?_⟩
  obtain ⟨d, h1, h2⟩ := rowElems_ok header row hk (by simp only [encDoc, wrapDoc_length] at hL; omega)
  obtain ⟨c, c', h3, h4, h5⟩ := one_flush_fails hsub hz now hn h32 h2 (by omega)
    (smallChunks_of (docs := [d]) (fss := [rowFields header row]) ⟨h2, trivial⟩ (by simpa using hL) hL' h32 hzL fsub none) e
  refine ⟨c', ?_, h5⟩
  unfold convertFromCSV
  simp only [convertLoop, hw, ne_eq, not_true, if_false, h1, Res.bind_ok, h3, h4]

example : ([[49]] : Record).length = ([[97]] : Record).length ∧ (∀ k ∈ ([[97]] : Record), NulFree k) ∧ (encDoc (rowFields [[97]] [[49]])).length ≤ 16 ∧
    16 + 28 + 30 * (16 * 1000) ≤ 2147482000 := by
  refine ⟨rfl, by simp [NulFree], by decide +kernel, by decide⟩

/-! ### there and back -/

theorem rowFields_values : ∀ (ms : List Metric) (i : Nat) (row : Record), (∀ m ∈ ms, m.originalType ≠ 0x09 ∧ ∀ x ∈ m.values, I64 x) → row.length = ms.length →
    (∀ (j : Nat) (m : Metric), ms[j]? = some m → ∃ x, m.values[i]? = some x ∧ row[j]? = some (numberText date m.originalType x)) →
    rowFields (ms.map Metric.key) row = Fields.ofList (ms.map fun m => (m.key, .int64 ((m.values[i]?).getD 0))) ∧ ∀ f ∈ row, (textInt f).isSome
  | [], i, [], _, _, _ => by simp [rowFields, Fields.ofList]
  | [], i, _ :: _, _, h, _ => by simp at h
  | _ :: _, i, [], _, h, _ => by simp at h
  | m :: ms, i, f :: row, ht, hl, h => by
    obtain ⟨x, h1, h2⟩ := h 0 m rfl
    simp only [List.getElem?_cons_zero, Option.some.injEq] at h2
    have hm := ht m (by simp)
    have hx : textInt f = some x := by
      rw [h2, numberText, if_neg hm.1]
      exact textInt_intText (hm.2 x (List.mem_of_getElem? h1))
    obtain ⟨e1, e2⟩ := rowFields_values ms i row (fun m hm => ht m (by simp [hm])) (by simpa using hl) (fun j m' hj => by simpa using h (j + 1) m' (by simpa using hj))
    refine ⟨by simp [rowFields, hx, Fields.ofList, h1, e1], fun g hg => ?_⟩
    rcases List.mem_cons.mp hg with rfl | hg
    · simp [hx]
    · exact e2 g hg

theorem table_rows {date : Int → Bytes} {c : Chunk} {rows : List Record} (h : IsTable date c rows) (ht : ∀ m ∈ c.metrics, m.originalType ≠ 0x09 ∧ ∀ x ∈ m.values, I64 x) :
    rows.map (rowFields (c.metrics.map Metric.key)) = chunkSamples c ∧ ∀ r ∈ rows, r.length = c.metrics.length ∧ ∀ f ∈ r, (textInt f).isSome := by
  constructor
  · apply List.ext_getElem
    · simp [chunkSamples, h.1]
    · intro i h1 h2
      simp only [List.length_map] at h1
      obtain ⟨h3, h4⟩ := h.2 i rows[i] (List.getElem?_eq_getElem h1)
      simp only [List.getElem_map, chunkSamples, List.getElem_range]
      exact (rowFields_values (date := date) c.metrics i _ ht h3 h4).1
  · intro r hr
    obtain ⟨i, hi⟩ := List.getElem?_of_mem hr
    obtain ⟨h3, h4⟩ := h.2 i r hi
    exact ⟨h3, (rowFields_values (date := date) c.metrics i _ ht h3 h4).2⟩

theorem tables_rows {date : Int → Bytes} {names : List Bytes} : ∀ (cs : List Chunk) (ts : List (List Record)), AreTables date cs ts →
    (∀ c ∈ cs, c.metrics.map Metric.key = names ∧ ∀ m ∈ c.metrics, m.originalType ≠ 0x09 ∧ ∀ x ∈ m.values, I64 x) →
    ts.flatten.map (rowFields names) = (cs.map chunkSamples).flatten ∧ ∀ r ∈ ts.flatten, r.length = names.length ∧ ∀ f ∈ r, (textInt f).isSome
  | [], ts, h, _ => by simp only [AreTables] at h; subst h; simp
  | c :: cs, ts, ⟨t, rest, e, h1, h2⟩, hc => by
    subst e
    obtain ⟨hn, hm⟩ := hc c (by simp)
    obtain ⟨a1, a2⟩ := table_rows h1 hm
    obtain ⟨b1, b2⟩ := tables_rows cs rest h2 (fun c hc' => hc c (by simp [hc']))
    rw [hn] at a1
    refine ⟨by simp [a1, b1], fun r hr => ?_⟩
    simp only [List.flatten_cons, List.mem_append] at hr
    rcases hr with hr | hr
    · have := a2 r hr
      rw [← hn]; simpa using this
    · exact b2 r hr

/-- `WriteCSV` and then `ConvertFromCSV`: every sample of chunks that have the same names and no dates comes back, as 64 bit numbers. -/
theorem C67_roundtrip_partial {fsub : Nat → Nat → Nat}
    (hsub : ∀ a b, a < 18446744073709551616 → b < 18446744073709551616 → fsub a b < 18446744073709551616)
    {zip : Bytes → Bytes} {unzip : Bytes → Option Bytes} (hz : ∀ b, unzip (zip b) = some b) (date : Int → Bytes)
    {c : Chunk} {cs : List Chunk} (hr : ∀ x ∈ c :: cs, ∃ fs, ReadChunk fs x) (hn : 0 < c.metrics.length)
    (hnames : ∀ x ∈ cs, x.metrics.map Metric.key = c.metrics.map Metric.key) (hd : ∀ x ∈ c :: cs, ∀ m ∈ x.metrics, m.originalType ≠ 0x09)
    {L : Nat} (hL : ∀ x ∈ c :: cs, ∀ g ∈ chunkSamples x, (encDoc g).length ≤ L) (hL' : L < 2147483648) {bucket : Nat} (h32 : bucket < 4294967295)
    (hzL : ∀ b, b.length ≤ L + 28 + 30 * (L * bucket) → (zip b).length ≤ 2147482000) (now : Nat → Time) :
    ∃ w, writeCSV date (c :: cs) [] = .ok (w, none) ∧
      ∃ N, ∀ n, N ≤ n → ∃ c', convertFromCSV fsub zip now n bucket ⟨w.out, none⟩ ⟨[], []⟩ = .ok (c', none) ∧
        ∀ s : Stream.Source, s.left = c'.base.output.out → ∃ M, ∀ m, M ≤ m → ∃ ds, readStructuredMetrics unzip m s = .ok ds ∧
          RepDocs ds (((c :: cs).map chunkSamples).flatten) := by
  obtain ⟨fs, hc⟩ := hr c (by simp)
  obtain ⟨ts, w, h1, h2, h3⟩ := C66_table_partial date hc (fun x hx => hr x (List.mem_cons_of_mem _ hx)) hn
    (fun x hx => by have := congrArg List.length (hnames x hx); simpa using this)
  refine ⟨w, h2, ?_⟩
  rw [← readChunk_names hc] at h3
  obtain ⟨a1, a2⟩ := tables_rows (names := c.metrics.map Metric.key) (c :: cs) ts h1 (fun x hx => by
    refine ⟨?_, fun m hm => ⟨hd x hx m hm, ?_⟩⟩
    · rcases List.mem_cons.mp hx with rfl | hx
      · rfl
      · exact hnames x hx
    · obtain ⟨gs, hg⟩ := hr x hx
      exact ((readChunk_good hg).vals m hm).2)
  have hpt : 0 < c.nPoints := by
    obtain ⟨tail, n, md, _, _, _, h⟩ := hc
    unfold readPayload at h
    obtain ⟨_, _, h⟩ := Res.bind_eq_ok.mp h
    obtain ⟨_, _, h⟩ := Res.bind_eq_ok.mp h
    simp only at h
    split at h
    · cases h
    obtain ⟨_, _, h⟩ := Res.bind_eq_ok.mp h
    obtain ⟨_, _, h⟩ := Res.bind_eq_ok.mp h
    split at h
    · cases h
    obtain ⟨⟨_, _, _⟩, _, h⟩ := Res.bind_eq_ok.mp h
    cases h
    simp
  have hk : ∀ k ∈ c.metrics.map Metric.key, NulFree k := by
    intro k hk'
    obtain ⟨m, hm, rfl⟩ := List.mem_map.mp hk'
    have hg := readChunk_good hc
    obtain ⟨_, _, _, wf, hs, _⟩ := hc
    exact (keys_good hg wf hs m hm).1
  match hf : ts.flatten with
  | [] =>
    rw [hf] at a1
    have := congrArg List.length a1
    simp [chunkSamples] at this
    omega
  | row :: rows =>
    rw [hf] at a1 a2
    rw [h3, hf, ← a1]
    refine C67_numbers_partial hsub hz (fun r hr => (a2 r hr).1) hk (fun r hr => (a2 r hr).2) (fun r hr' => ?_) hL' h32 hzL now
    have hm : rowFields (c.metrics.map Metric.key) r ∈ (row :: rows).map (rowFields (c.metrics.map Metric.key)) := List.mem_map_of_mem hr'
    rw [a1, List.mem_flatten] at hm
    obtain ⟨l, hl, hm⟩ := hm
    obtain ⟨x, hx, rfl⟩ := List.mem_map.mp hl
    exact hL x hx _ hm

/-- the chunk of three samples twice -/
example : ∃ c, (∀ x ∈ [c, c], ∃ fs, ReadChunk fs x) ∧ 0 < c.metrics.length ∧ (∀ x ∈ [c, c], ∀ m ∈ x.metrics, m.originalType ≠ 0x09) ∧
    chunkSamples c = [.cons [97] (.int64 5) (.cons [98] (.int64 1) .nil), .cons [97] (.int64 6) (.cons [98] (.int64 1) .nil), .cons [97] (.int64 9) (.cons [98] (.int64 1) .nil)] := by
  obtain ⟨c, h1, h2, h3⟩ := exTable_read
  obtain ⟨ms, np, md, ref⟩ := c
  simp only at h2 h3
  subst h2
  match ms, h3, h1 with
  | [m1, m2], h3, h1 =>
    simp only [List.map_cons, List.map_nil, List.cons.injEq, Prod.mk.injEq, and_true] at h3
    obtain ⟨⟨k1, t1, v1⟩, k2, t2, v2⟩ := h3
    refine ⟨_, by simpa using ⟨_, h1⟩, by simp, by simp [t1, t2], ?_⟩
    simp [chunkSamples, List.range_succ, k1, k2, v1, v2, Fields.ofList]
  | [], h3, _ => simp at h3
  | [_], h3, _ => simp at h3
  | _ :: _ :: _ :: _, h3, _ => simp at h3

end Birch.Props
