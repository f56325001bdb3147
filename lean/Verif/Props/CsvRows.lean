import Verif.Proofs.CsvRows
import Verif.Props.FtdcCsv
import Verif.Props.FtdcLayout

/- C109: the table of an FTDC file.

`zip` and `unzip` are the compressor and the decompressor, `fsub` is the subtraction of doubles, on their bits, and `date` the text of a second. -/

namespace Birch.Props
open Birch Model Model.Ftdc Spec Proofs Proofs.Ftdc

theorem good_names {c : Chunk} {fs : Fields} (h : Good c fs) : c.metrics.map Metric.key = metricNames (fun t => dotted (firstLast t)) fs.numbers := by
  rw [← tags_names, ← h.tags, List.map_map]
  rfl

/-- whatever the values are: a file of chunks whose first documents have equally many numbers has a table -/
theorem file_table {fsub : Nat → Nat → Nat} (hsub : ∀ a b, a < 18446744073709551616 → b < 18446744073709551616 → fsub a b < 18446744073709551616)
    {zip : Bytes → Bytes} {unzip : Bytes → Option Bytes} (hz : ∀ b, unzip (zip b) = some b) (date : Int → Bytes) {c : LaidChunk} {cs : List LaidChunk}
    (h : ∀ x ∈ c :: cs, x.Good fsub zip) (hn : 0 < (numsF c.first).length) (hl : ∀ x ∈ cs, (numsF x.first).length = (numsF c.first).length)
    (s : Stream.Source) (hs : s.left = (c :: cs).flatMap (LaidChunk.bytes fsub zip)) :
    ∃ M, ∀ m, M ≤ m → ∃ chunks w ts, readAll unzip m s = (chunks, .ok ()) ∧ writeCSV date chunks [] = .ok (w, none) ∧ AreRead fsub (c :: cs) chunks ∧ AreTables date chunks ts ∧
      w.out = metricNames (fun t => dotted (firstLast t)) c.first.numbers :: ts.flatten := by
  obtain ⟨M, hM⟩ := laid_readAll hsub hz h s hs
  refine ⟨M, fun m hm => ?_⟩
  obtain ⟨chunks, h1, h2⟩ := hM m hm
  have key : ∀ (xs : List LaidChunk) (chs : List Chunk), AreRead fsub xs chs → (∀ x ∈ xs, (numsF x.first).length = (numsF c.first).length) →
      ∀ ch ∈ chs, Full ch ∧ ch.metrics.length = (numsF c.first).length := by
    intro xs
    induction xs with
    | nil => intro chs e _ ch hc; cases e; cases hc
    | cons x xs ih =>
      rintro chs ⟨y, rest, rfl, a1, _, a3, a4⟩ hx ch hc
      rcases List.mem_cons.mp hc with rfl | hc
      · exact ⟨full_good a3, by rw [← hx x (by simp)]; simpa using congrArg List.length a1.types⟩
      · exact ih rest a4 (fun z hz => hx z (by simp [hz])) ch hc
  have hk := key _ _ h2 (by
    intro x hx
    rcases List.mem_cons.mp hx with rfl | hx
    · rfl
    · exact hl x hx)
  obtain ⟨ch, rest, rfl, a1, a2, a3, a4⟩ := h2
  have hlen := (hk ch (by simp)).2
  obtain ⟨ts, t1, t2⟩ := writeCSV_ok date (c := ch) (cs := rest) (by omega) (fun x hx => ⟨(hk x hx).1, by rw [(hk x hx).2, hlen]⟩)
  obtain ⟨w, e, h3, _, h5⟩ := t2 [] (by simp) []
  obtain ⟨h6, h7⟩ := h5 rfl
  rw [h7 rfl, List.append_nil] at h3
  exact ⟨_, w, ts, h1, h3, ⟨ch, rest, rfl, a1, a2, a3, a4⟩, t1, by rw [h6, good_names a3]⟩

theorem csv_length (date : Int → Bytes) {f : Fields} (h : f.Kept) : (f.csv date).length = (numsF f).length := by
  rw [csvF_nums date f h, List.length_map]

/-- Reading an FTDC file and writing it as CSV gives the names of the numbers of the first document, and then a row for every document that was collected, in order, with its numbers.
    Partial: the documents may not have doubles, timestamps or dates outside of 1677 to 2262, see below; and all must have equally many numbers. -/
theorem C109_table_partial {fsub : Nat → Nat → Nat} (hsub : ∀ a b, a < 18446744073709551616 → b < 18446744073709551616 → fsub a b < 18446744073709551616)
    {zip : Bytes → Bytes} {unzip : Bytes → Option Bytes} (hz : ∀ b, unzip (zip b) = some b) (date : Int → Bytes) {c : LaidChunk} {cs : List LaidChunk}
    (h : ∀ x ∈ c :: cs, x.Good fsub zip) (hk : ∀ x ∈ c :: cs, ∀ f ∈ x.first :: x.rest, f.Kept)
    (hn : 0 < (c.first.csv date).length) (hl : ∀ x ∈ cs, (x.first.csv date).length = (c.first.csv date).length)
    (s : Stream.Source) (hs : s.left = (c :: cs).flatMap (LaidChunk.bytes fsub zip)) :
    ∃ M, ∀ m, M ≤ m → ∃ chunks w, readAll unzip m s = (chunks, .ok ()) ∧ writeCSV date chunks [] = .ok (w, none) ∧
      w.out = metricNames (fun t => dotted (firstLast t)) c.first.numbers :: ((c :: cs).flatMap fun x => x.first :: x.rest).map (Fields.csv date) := by
  have hc := hk c (by simp) c.first (by simp)
  rw [csv_length date hc] at hn hl
  obtain ⟨M, hM⟩ := file_table hsub hz date h hn (fun x hx => by rw [← hl x hx, csv_length date (hk x (by simp [hx]) x.first (by simp))]) s hs
  refine ⟨M, fun m hm => ?_⟩
  obtain ⟨chunks, w, ts, h1, h2, h3, h4, h5⟩ := hM m hm
  refine ⟨chunks, w, h1, h2, ?_⟩
  rw [h5, read_tables date (c :: cs) chunks ts h3 (fun x hx f hf => ?_) h4]
  obtain ⟨_, _, _, g, _⟩ := h x hx
  exact ⟨(g f hf).1, hk x hx f hf, (g x.first (by simp)).2.2 f hf⟩

/-- What is in the table in any case, also with doubles, timestamps and dates of any year: for every chunk the rows that `csvRows` describes. -/
theorem C109_exact {fsub : Nat → Nat → Nat} (hsub : ∀ a b, a < 18446744073709551616 → b < 18446744073709551616 → fsub a b < 18446744073709551616)
    {zip : Bytes → Bytes} {unzip : Bytes → Option Bytes} (hz : ∀ b, unzip (zip b) = some b) (date : Int → Bytes) {c : LaidChunk} {cs : List LaidChunk}
    (h : ∀ x ∈ c :: cs, x.Good fsub zip) (hn : 0 < (c.first.csv date).length) (hl : ∀ x ∈ cs, (x.first.csv date).length = (c.first.csv date).length)
    (s : Stream.Source) (hs : s.left = (c :: cs).flatMap (LaidChunk.bytes fsub zip)) :
    ∃ M, ∀ m, M ≤ m → ∃ chunks w, readAll unzip m s = (chunks, .ok ()) ∧ writeCSV date chunks [] = .ok (w, none) ∧
      w.out = metricNames (fun t => dotted (firstLast t)) c.first.numbers :: (c :: cs).flatMap fun x => csvRows fsub date x.first.metrics (x.rest.map Fields.metrics) := by
  simp only [csv_countF] at hn hl
  obtain ⟨M, hM⟩ := file_table hsub hz date h hn hl s hs
  refine ⟨M, fun m hm => ?_⟩
  obtain ⟨chunks, w, ts, h1, h2, h3, h4, h5⟩ := hM m hm
  refine ⟨chunks, w, h1, h2, ?_⟩
  rw [h5, read_csv date (c :: cs) chunks ts h3 (fun x hx f hf => ?_) h4]
  obtain ⟨_, _, _, g, _⟩ := h x hx
  exact ⟨(g f hf).1, (g x.first (by simp)).2.2 f hf⟩

/-- `{x: 2.0, t: Timestamp(3, 4)}` and then `{x: 5.0, t: Timestamp(5, 6)}`, with 3.0 for the difference -/
example : csvRows (fun _ _ => 0x4008000000000000) (fun _ => []) (.cons [120] (.double 0x4000000000000000) (.cons [116] (.timestamp 3 4) .nil))
      [.cons [120] (.double 0x4014000000000000) (.cons [116] (.timestamp 5 6) .nil)] =
    [[ascii "4611686018427387904", ascii "3000", ascii "4"], [ascii "4613937818241073152", ascii "3002", ascii "6"]] := by
  simp only [csvRows, csvFrom, Fields.csvAfter, BVal.csvAfter]
  decide +kernel

/-- a file of such a chunk -/
example : ∀ x ∈ [(⟨0, none, .cons [120] (.double 0x4000000000000000) (.cons [116] (.timestamp 3 4) .nil),
      [.cons [120] (.double 0x4014000000000000) (.cons [116] (.timestamp 5 6) .nil)]⟩ : LaidChunk)], x.Good (fun _ _ => 0x4008000000000000) (fun _ => []) := by
  simp only [List.mem_singleton]
  rintro x rfl
  refine ⟨by decide, by decide, nofun, ?_, by simp, by simp⟩
  simp [Fields.WF, BVal.WF, NulFree, encDoc, Fields.enc, BVal.enc, Fields.metrics, BVal.metric, Fields.SameShape, BVal.SameShape, BVal.tag]

theorem read_append {fsub : Nat → Nat → Nat} : ∀ (xs ys : List LaidChunk) (chs : List Chunk), AreRead fsub (xs ++ ys) chs → ∃ a b, chs = a ++ b ∧ AreRead fsub xs a ∧ AreRead fsub ys b
  | [], ys, chs, h => ⟨[], chs, rfl, rfl, h⟩
  | x :: xs, ys, _, ⟨ch, rest, e, h1, h2, h3, h4⟩ => by
    obtain ⟨a, b, rfl, ha, hb⟩ := read_append xs ys rest h4
    exact ⟨ch :: a, b, e, ⟨ch, a, rfl, h1, h2, h3, ha⟩, hb⟩

theorem read_counts {fsub : Nat → Nat → Nat} {n : Nat} : ∀ (xs : List LaidChunk) (chs : List Chunk), AreRead fsub xs chs → (∀ x ∈ xs, (numsF x.first).length = n) →
    ∀ ch ∈ chs, Full ch ∧ ch.metrics.length = n
  | [], _, e, _, ch, hc => by cases e; cases hc
  | x :: xs, _, ⟨y, rest, e, a1, _, a3, a4⟩, hx, ch, hc => by
    subst e
    rcases List.mem_cons.mp hc with rfl | hc
    · exact ⟨full_good a3, by rw [← hx x (by simp)]; simpa using congrArg List.length a1.types⟩
    · exact read_counts xs rest a4 (fun z hz => hx z (by simp [hz])) ch hc

theorem read_groups {fsub : Nat → Nat → Nat} (date : Int → Bytes) : ∀ (gs : List (LaidChunk × List LaidChunk)) (b : Nat) (chs : List Chunk), CsvGroups date b gs →
    (∀ g ∈ gs, ∀ c ∈ g.1 :: g.2, ∀ f ∈ c.first :: c.rest, f.WF ∧ c.first.metrics.SameShape f.metrics) → AreRead fsub (gs.flatMap fun g => g.1 :: g.2) chs →
    ∃ cgs, chs = cgs.flatten ∧ Grouped b cgs ∧ (∀ g ∈ cgs, ∀ c ∈ g, Full c) ∧ ∀ fs, AreFiles date cgs fs → fs = gs.map fun g =>
      metricNames (fun t => dotted (firstLast t)) g.1.first.numbers :: (g.1 :: g.2).flatMap fun x => csvRows fsub date x.first.metrics (x.rest.map Fields.metrics)
  | [], _, _, _, _, h => by cases h; exact ⟨[], rfl, trivial, nofun, fun fs h => h⟩
  | (c, cs) :: gs, b, chs, ⟨g1, g2, g3, g4⟩, wf, h => by
    rw [List.flatMap_cons] at h
    obtain ⟨p, q, rfl, hp, hq⟩ := read_append _ _ _ h
    obtain ⟨cgs, rfl, k1, k2, k3⟩ := read_groups date gs _ q g4 (fun g hg => wf g (by simp [hg])) hq
    simp only [csv_countF] at g1 g2 g3 k1
    have hc := read_counts (n := (numsF c.first).length) _ _ hp (by
      intro x hx
      rcases List.mem_cons.mp hx with rfl | hx
      · rfl
      · exact g3 x hx)
    refine ⟨p :: cgs, rfl, ⟨_, g1, g2, ?_, fun x hx => (hc x hx).2, k1⟩, ?_, ?_⟩
    · obtain ⟨ch, rest, rfl, _⟩ := hp; simp
    · intro g hg x hx
      rcases List.mem_cons.mp hg with rfl | hg
      · exact (hc x hx).1
      · exact k2 g hg x hx
    · rintro fs ⟨ch, ts, rest, e1, rfl, e2, e3⟩
      rw [k3 rest e3, read_csv date (c :: cs) p ts hp (wf (c, cs) (by simp)) e2]
      obtain ⟨ch', rest', rfl, _, _, a3, _⟩ := hp
      simp only [List.head?_cons, Option.some.injEq] at e1
      subst e1
      rw [good_names a3, List.map_cons]

/-- `DumpCSV` of a file writes such a table for every group of chunks with as many numbers, each with the names of its own first document. -/
theorem C109_files {fsub : Nat → Nat → Nat} (hsub : ∀ a b, a < 18446744073709551616 → b < 18446744073709551616 → fsub a b < 18446744073709551616)
    {zip : Bytes → Bytes} {unzip : Bytes → Option Bytes} (hz : ∀ b, unzip (zip b) = some b) (date : Int → Bytes) {gs : List (LaidChunk × List LaidChunk)}
    (h : ∀ g ∈ gs, ∀ x ∈ g.1 :: g.2, x.Good fsub zip) (hg : CsvGroups date 0 gs)
    (s : Stream.Source) (hs : s.left = (gs.flatMap fun g => g.1 :: g.2).flatMap (LaidChunk.bytes fsub zip)) :
    ∃ M, ∀ m, M ≤ m → ∃ chunks, readAll unzip m s = (chunks, .ok ()) ∧ dumpCSV date chunks = .ok (gs.map fun g =>
      metricNames (fun t => dotted (firstLast t)) g.1.first.numbers :: (g.1 :: g.2).flatMap fun x => csvRows fsub date x.first.metrics (x.rest.map Fields.metrics)) := by
  obtain ⟨M, hM⟩ := laid_readAll hsub hz (fun c hc => by obtain ⟨g, h1, h2⟩ := List.mem_flatMap.mp hc; exact h g h1 c h2) s hs
  refine ⟨M, fun m hm => ?_⟩
  obtain ⟨chs, h1, h2⟩ := hM m hm
  obtain ⟨cgs, rfl, k1, k2, k3⟩ := read_groups date gs 0 chs hg (fun g hg c hc f hf => by
    obtain ⟨_, _, _, w, _⟩ := h g hg c hc
    exact ⟨(w f hf).1, (w c.first (by simp)).2.2 f hf⟩) h2
  obtain ⟨fs, f1, f2⟩ := dumpCSV_ok date k1 k2
  exact ⟨_, h1, by rw [f2, k3 fs f1]⟩

/-- two groups: documents with four numbers, then one with one number -/
example : CsvGroups (fun _ => []) 0 [(⟨1500, none, exSample 1 [120], [exSample 1 []]⟩, [⟨1700, none, exSample 700 [121, 122], []⟩]), (⟨1800, none, oneField (.int32 5), []⟩, [])] ∧
    (⟨1800, none, oneField (.int32 5), []⟩ : LaidChunk).Good (fun a _ => a) (fun _ => []) := by
  constructor
  · simp [CsvGroups, exSample, oneField, Fields.csv, BVal.csv, Vals.csv]
  · refine ⟨by decide, by decide, nofun, ?_, by simp, by simp⟩
    simp [oneField, Fields.WF, BVal.WF, NulFree, encDoc, Fields.enc, BVal.enc, Fields.metrics, BVal.metric, Fields.SameShape, BVal.SameShape, BVal.tag]

/-- What a base collector was given is what is in the table of what it resolves to.  Partial as above. -/
theorem C109_collected_partial {fsub : Nat → Nat → Nat} (hsub : ∀ a b, a < 18446744073709551616 → b < 18446744073709551616 → fsub a b < 18446744073709551616)
    {zip : Bytes → Bytes} {unzip : Bytes → Option Bytes} (hz : ∀ b, unzip (zip b) = some b) (date : Int → Bytes) {docs : List Doc} {f0 : Fields} {fss : List Fields}
    (hd : RepDocs docs (f0 :: fss)) (hl : ∀ fs ∈ f0 :: fss, (encDoc fs).length < 2147483648) (hs : ∀ f ∈ f0 :: fss, ∀ g ∈ f0 :: fss, f.metrics.SameShape g.metrics)
    (hk : ∀ f ∈ f0 :: fss, f.Kept) (hn : 0 < (f0.csv date).length) {max : Nat} (hmax : fss.length ≤ max) (h32 : fss.length < 4294967295)
    (hp : (zip (chunkPayload fsub f0 fss)).length ≤ 2147482000) {now : Time} (hnow : 0 ≤ now.nsec) :
    ∃ N, ∀ n, N ≤ n → ∃ c, (Better.new max).addAll fsub n docs = .ok (c, docs.map fun _ => none) ∧ ∃ bytes, Returns (c.resolve zip now) (.ok bytes) ∧
      ∀ s : Stream.Source, s.left = bytes → ∃ M, ∀ m, M ≤ m → ∃ chunks w, readAll unzip m s = (chunks, .ok ()) ∧ writeCSV date chunks [] = .ok (w, none) ∧
        w.out = metricNames (fun t => dotted (firstLast t)) f0.numbers :: (f0 :: fss).map (Fields.csv date) := by
  obtain ⟨N, hN⟩ := C76_written hsub zip hd hl hs hmax h32 (md := none) (mfs := none) trivial nofun hp hnow
  refine ⟨N, fun n hn' => ?_⟩
  obtain ⟨c, h1, h2⟩ := hN n hn'
  refine ⟨c, h1, _, h2, fun s hb => ?_⟩
  have hr := i64_range (now.sec * 1000 + now.nsec / 1000000)
  have := C109_table_partial hsub hz date (c := ⟨i64 (now.sec * 1000 + now.nsec / 1000000), none, f0, fss⟩) (cs := []) (by
    simp only [List.mem_singleton]
    rintro x rfl
    exact ⟨hr.1, hr.2, nofun, fun f hf => ⟨repDocs_wf _ _ hd f hf, hl f hf, hs f hf⟩, h32, hp⟩) (by
    simp only [List.mem_singleton]
    rintro x rfl
    exact hk) hn nofun s (by rw [hb]; simp [LaidChunk.bytes])
  simpa using this

/-- a table of one column with the numbers `xs` -/
theorem table_one {date : Int → Bytes} {ch : Chunk} {rows : List (List Bytes)} (ht : IsTable date ch rows) {ty : UInt8} (hty : ch.metrics.map Metric.originalType = [ty]) {xs : List Int}
    (hn : ch.nPoints = xs.length) (hv : ∀ (j : Nat) (x : Int), xs[j]? = some x → valueAt ch.metrics 0 j = .ok x) : rows = xs.map fun x => [numberText date ty x] := by
  match hm : ch.metrics, hty with
  | [mt], hty =>
    simp only [List.map_cons, List.map_nil, List.cons.injEq, and_true] at hty
    apply List.ext_getElem
    · rw [ht.1, hn, List.length_map]
    · intro j h1 h2
      rw [List.getElem_map]
      obtain ⟨r1, r2⟩ := ht.2 j rows[j] (List.getElem?_eq_getElem h1)
      obtain ⟨x, x1, x2⟩ := r2 0 mt (by rw [hm]; rfl)
      rw [hm] at r1
      have := valueAt_ok (hv j _ (List.getElem?_eq_getElem (by simpa using h2))) (by rw [hm]; rfl : ch.metrics[0]? = some mt)
      rw [x1] at this
      generalize rows[j] = row at r1 x2
      match row, r1 with
      | [b], _ =>
        simp only [List.getElem?_cons_zero, Option.some.injEq] at x2
        rw [x2, hty, Option.some.inj this]

/-- The property does not hold for doubles: of two samples, the row of the second has not the bits of its double but those of the difference. -/
theorem C109_doubles {fsub : Nat → Nat → Nat} (hsub : ∀ a b, a < 18446744073709551616 → b < 18446744073709551616 → fsub a b < 18446744073709551616)
    {zip : Bytes → Bytes} {unzip : Bytes → Option Bytes} (hz : ∀ b, unzip (zip b) = some b) (date : Int → Bytes) {ms : Int} {a b : Nat}
    (h : (⟨ms, none, oneField (.double a), [oneField (.double b)]⟩ : LaidChunk).Good fsub zip) (s : Stream.Source)
    (hs : s.left = chunkLayout fsub zip ms none (oneField (.double a)) [oneField (.double b)]) :
    ∃ M, ∀ m, M ≤ m → ∃ chunks w, readAll unzip m s = (chunks, .ok ()) ∧ writeCSV date chunks [] = .ok (w, none) ∧
      w.out = [[[0x78]], [intText (i64 a)], [intText (i64 (fsub b a))]] := by
  obtain ⟨M, hM⟩ := file_table hsub hz date (c := ⟨ms, none, oneField (.double a), [oneField (.double b)]⟩) (cs := []) (by simpa using h) (by simp [oneField, numsF, nums]) nofun s
    (by rw [hs]; simp [LaidChunk.bytes])
  refine ⟨M, fun m hm => ?_⟩
  obtain ⟨chunks, w, ts, h1, h2, ⟨ch, rest, rfl, c1, c2, _, rfl⟩, ⟨t, ts', rfl, t1, rfl⟩, h5⟩ := hM m hm
  refine ⟨_, w, h1, h2, ?_⟩
  have := table_one t1 (ty := 0x01) (by simpa [oneField, numsF, nums] using c1.types) (xs := [i64 a, i64 (fsub b a)]) (by simpa using c2) (by
    intro j x hx
    rcases j with _ | _ | j
    · simp only [List.getElem?_cons_zero, Option.some.injEq] at hx
      subst hx
      exact c1.first 0 (i64 a) (0x01, .dbl a) rfl rfl
    · simp only [List.getElem?_cons_succ, List.getElem?_cons_zero, Option.some.injEq, Nat.zero_add] at hx
      subst hx
      exact c1.next 0 (i64 a) (0x01, .dbl a) rfl rfl 0 _ _ (0x01, .dbl a) (0x01, .dbl b) rfl rfl rfl rfl
    · simp at hx)
  rw [h5, this]
  have hn : metricNames (fun t => dotted (firstLast t)) (oneField (.double a)).numbers = [[0x78]] := rfl
  simp [numberText, hn]

/-- Nor for timestamps: the row of the first sample has a thousand times its seconds. -/
theorem C109_timestamps {fsub : Nat → Nat → Nat} (hsub : ∀ a b, a < 18446744073709551616 → b < 18446744073709551616 → fsub a b < 18446744073709551616)
    {zip : Bytes → Bytes} {unzip : Bytes → Option Bytes} (hz : ∀ b, unzip (zip b) = some b) (date : Int → Bytes) {ms : Int} {t i : Nat}
    (h : (⟨ms, none, oneField (.timestamp t i), []⟩ : LaidChunk).Good fsub zip) (s : Stream.Source)
    (hs : s.left = chunkLayout fsub zip ms none (oneField (.timestamp t i)) []) :
    ∃ M, ∀ m, M ≤ m → ∃ chunks w, readAll unzip m s = (chunks, .ok ()) ∧ writeCSV date chunks [] = .ok (w, none) ∧
      w.out.tail = [[intText ((t : Int) * 1000), intText i]] := by
  obtain ⟨M, hM⟩ := file_table hsub hz date (c := ⟨ms, none, oneField (.timestamp t i), []⟩) (cs := []) (by simpa using h) (by simp [oneField, numsF, nums]) nofun s
    (by rw [hs]; simp [LaidChunk.bytes])
  refine ⟨M, fun m hm => ?_⟩
  obtain ⟨chunks, w, ts, h1, h2, ⟨ch, rest, rfl, c1, c2, _, rfl⟩, ⟨tb, ts', rfl, t1, rfl⟩, h5⟩ := hM m hm
  refine ⟨_, w, h1, h2, ?_⟩
  rw [h5]
  simp only [List.tail_cons, List.flatten_cons, List.flatten_nil, List.append_nil]
  have v0 := c1.first 0 ((t : Int) * 1000) (0x11, .int t) rfl rfl
  have v1 := c1.first 1 (i : Int) (0x11, .int i) rfl rfl
  have hty : ch.metrics.map Metric.originalType = [0x11, 0x11] := by simpa [oneField, numsF, nums] using c1.types
  have hlen : tb.length = 1 := by rw [t1.1, c2]; rfl
  match tb, hlen with
  | [row], _ =>
    obtain ⟨r1, r2⟩ := t1.2 0 row rfl
    have hml : ch.metrics.length = 2 := by simpa using congrArg List.length hty
    match hm : ch.metrics, hml with
    | [m0, m1], _ =>
      rw [hm] at hty
      simp only [List.map_cons, List.map_nil, List.cons.injEq, and_true] at hty
      obtain ⟨x, x1, x2⟩ := r2 0 m0 (by rw [hm]; rfl)
      obtain ⟨y, y1, y2⟩ := r2 1 m1 (by rw [hm]; rfl)
      have e0 := valueAt_ok v0 (by rw [hm]; rfl : ch.metrics[0]? = some m0)
      have e1 := valueAt_ok v1 (by rw [hm]; rfl : ch.metrics[1]? = some m1)
      rw [x1] at e0
      rw [y1] at e1
      rw [hm] at r1
      match row, r1 with
      | [p, q], _ =>
        simp only [List.getElem?_cons_zero, List.getElem?_cons_succ, Option.some.injEq] at x2 y2
        rw [x2, y2, hty.1, hty.2, Option.some.inj e0, Option.some.inj e1]
        simp [numberText]

/-- Nor for late dates: 9223372036855 milliseconds (the year 2262) are written as a second of the year 1677. -/
theorem C109_dates {fsub : Nat → Nat → Nat} (hsub : ∀ a b, a < 18446744073709551616 → b < 18446744073709551616 → fsub a b < 18446744073709551616)
    {zip : Bytes → Bytes} {unzip : Bytes → Option Bytes} (hz : ∀ b, unzip (zip b) = some b) (date : Int → Bytes) {ms : Int}
    (h : (⟨ms, none, oneField (.datetime 9223372036855), []⟩ : LaidChunk).Good fsub zip) (s : Stream.Source)
    (hs : s.left = chunkLayout fsub zip ms none (oneField (.datetime 9223372036855)) []) :
    ∃ M, ∀ m, M ≤ m → ∃ chunks w, readAll unzip m s = (chunks, .ok ()) ∧ writeCSV date chunks [] = .ok (w, none) ∧
      w.out = [[[0x78]], [date (-9223372036)]] := by
  obtain ⟨M, hM⟩ := file_table hsub hz date (c := ⟨ms, none, oneField (.datetime 9223372036855), []⟩) (cs := []) (by simpa using h) (by simp [oneField, numsF, nums]) nofun s
    (by rw [hs]; simp [LaidChunk.bytes])
  refine ⟨M, fun m hm => ?_⟩
  obtain ⟨chunks, w, ts, h1, h2, ⟨ch, rest, rfl, c1, c2, _, rfl⟩, ⟨t, ts', rfl, t1, rfl⟩, h5⟩ := hM m hm
  refine ⟨_, w, h1, h2, ?_⟩
  have hw : wrapMs 9223372036855 = -9223372036854 := by decide
  have := table_one t1 (ty := 0x09) (by simpa [oneField, numsF, nums] using c1.types) (xs := [-9223372036854]) (by simpa using c2) (by
    intro j x hx
    rcases j with _ | j
    · simp only [List.getElem?_cons_zero, Option.some.injEq] at hx
      subst hx
      exact c1.first 0 _ (0x09, .int (wrapMs 9223372036855)) (by simp [oneField, headsF, heads, hw]) rfl
    · simp at hx)
  have hd : (-9223372036854 : Int).tdiv 1000 = -9223372036 := by decide
  have hn : metricNames (fun t => dotted (firstLast t)) (oneField (.datetime 9223372036855)).numbers = [[0x78]] := by decide +kernel
  rw [h5, this]
  simp [numberText, hn, hd]

/-- what the table of these samples should have and has -/
example : exSample 1 [120] ≠ exSample 700 [121, 122] ∧ ∀ f ∈ [exSample 1 [120], exSample 1 [], exSample 700 [121, 122]], f.Kept ∧ (f.csv fun _ => []).length = 4 := by
  refine ⟨by simp [exSample], ?_⟩
  simp [exSample, Fields.Kept, BVal.Kept, Vals.Kept, Fields.csv, BVal.csv, Vals.csv]

/-- `{n: 700, s: …, sub: {t: true, d: …}, a: [x, -700]}` -/
example : (exSample 700 [121]).csv (fun s => decimalKey s.natAbs) = [ascii "700", ascii "1", ascii "700", ascii "-700"] := by
  simp only [exSample, Fields.csv, BVal.csv, Vals.csv]
  decide +kernel

theorem exTable_good : ∀ x ∈ [(⟨1500, none, exSample 1 [120], [exSample 1 []]⟩ : LaidChunk), ⟨1700, none, exSample 700 [121, 122], []⟩], x.Good (fun a _ => a) (fun b => b) := by
  have w : ∀ f ∈ [exSample 1 [120], exSample 1 [], exSample 700 [121, 122]], f.WF := by
    simp [exSample, Fields.WF, BVal.WF, Vals.WF, NulFree]
  have l1 : (chunkPayload (fun a _ => a) (exSample 1 [120]) [exSample 1 []]).length ≤ 2147482000 := by decide +kernel
  have l2 : (chunkPayload (fun a _ => a) (exSample 700 [121, 122]) []).length ≤ 2147482000 := by decide +kernel
  intro x hx
  simp only [List.mem_cons, List.not_mem_nil, or_false] at hx
  rcases hx with rfl | rfl
  · refine ⟨by decide, by decide, nofun, fun f hf => ?_, by simp, l1⟩
    have hf' : f ∈ [exSample 1 [120], exSample 1 [], exSample 700 [121, 122]] := by simp at hf ⊢; rcases hf with h | h <;> simp [h]
    exact ⟨w f hf', exSamples_size f hf', fun g hg => exSamples_shape f hf' g (by simp at hg ⊢; rcases hg with h | h <;> simp [h])⟩
  · refine ⟨by decide, by decide, nofun, fun f hf => ?_, by simp, l2⟩
    have hf' : f ∈ [exSample 1 [120], exSample 1 [], exSample 700 [121, 122]] := by simp at hf ⊢; simp [hf]
    exact ⟨w f hf', exSamples_size f hf', fun g hg => exSamples_shape f hf' g (by simp at hg ⊢; simp [hg])⟩

/-- two chunks, of two documents and of one -/
example (s : Stream.Source) (hs : s.left = [(⟨1500, none, exSample 1 [120], [exSample 1 []]⟩ : LaidChunk), ⟨1700, none, exSample 700 [121, 122], []⟩].flatMap
      (LaidChunk.bytes (fun a _ => a) fun b => b)) :
    ∃ M, ∀ m, M ≤ m → ∃ chunks w, readAll some m s = (chunks, .ok ()) ∧ writeCSV (fun s => decimalKey s.natAbs) chunks [] = .ok (w, none) ∧
      w.out.tail = [[ascii "1", ascii "1", ascii "1", ascii "-1"], [ascii "1", ascii "1", ascii "1", ascii "-1"], [ascii "700", ascii "1", ascii "700", ascii "-700"]] := by
  obtain ⟨M, h⟩ := C109_table_partial (fun _ _ h _ => h) (unzip := some) (fun _ => rfl) (fun s => decimalKey s.natAbs) exTable_good
    (by simp [exSample, Fields.Kept, BVal.Kept, Vals.Kept]) (by simp [exSample, Fields.csv, BVal.csv, Vals.csv]) (by simp [exSample, Fields.csv, BVal.csv, Vals.csv]) s hs
  refine ⟨M, fun m hm => ?_⟩
  obtain ⟨chunks, w, h1, h2, h3⟩ := h m hm
  refine ⟨chunks, w, h1, h2, ?_⟩
  rw [h3]
  simp only [exSample, Fields.csv, BVal.csv, Vals.csv, List.flatMap_cons, List.flatMap_nil, List.map_cons, List.map_nil, List.tail_cons, List.cons_append, List.nil_append, List.append_nil]
  decide +kernel

/-- a collector with room for the three samples -/
example : ∃ docs, ∃ N, ∀ n, N ≤ n → ∃ c, (Better.new 2).addAll (fun a _ => a) n docs = .ok (c, docs.map fun _ => none) ∧
    ∃ bytes, Returns (c.resolve (fun b => b) ⟨1, 500000000⟩) (.ok bytes) ∧ ∀ s : Stream.Source, s.left = bytes → ∃ M, ∀ m, M ≤ m → ∃ chunks w,
      readAll some m s = (chunks, .ok ()) ∧ writeCSV (fun _ => []) chunks [] = .ok (w, none) ∧
      w.out = metricNames (fun t => dotted (firstLast t)) (exSample 1 [120]).numbers ::
        [exSample 1 [120], exSample 1 [], exSample 700 [121, 122]].map (Fields.csv fun _ => []) := by
  obtain ⟨docs, h⟩ := exSamples
  exact ⟨docs, C109_collected_partial (fsub := fun a _ => a) (fun a _ h _ => h) (zip := fun b => b) (unzip := some) (fun _ => rfl) (fun _ => []) h exSamples_size exSamples_shape
    (by simp [exSample, Fields.Kept, BVal.Kept, Vals.Kept]) (by simp [exSample, Fields.csv, BVal.csv, Vals.csv]) (max := 2) (by simp) (by simp) (by decide +kernel)
    (now := ⟨1, 500000000⟩) (by decide)⟩

/-- 1.5 and 1.5, a timestamp, a late date -/
example : (⟨0, none, oneField (.double 0x3ff8000000000000), [oneField (.double 0x3ff8000000000000)]⟩ : LaidChunk).Good (fun _ _ => 0) (fun _ => []) ∧
    (⟨0, none, oneField (.timestamp 1 7), []⟩ : LaidChunk).Good (fun _ _ => 0) (fun _ => []) ∧
    (⟨0, none, oneField (.datetime 9223372036855), []⟩ : LaidChunk).Good (fun _ _ => 0) (fun _ => []) := by
  refine ⟨⟨by decide, by decide, nofun, ?_, by simp, by simp⟩, ⟨by decide, by decide, nofun, ?_, by simp, by simp⟩, ⟨by decide, by decide, nofun, ?_, by simp, by simp⟩⟩ <;>
    simp [oneField, Fields.WF, BVal.WF, NulFree, encDoc, Fields.enc, BVal.enc, Fields.metrics, BVal.metric, Fields.SameShape, BVal.SameShape, BVal.tag]

end Birch.Props
