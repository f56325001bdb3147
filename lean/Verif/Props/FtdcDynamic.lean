import Verif.Proofs.FtdcBatches
import Verif.Props.FtdcChunks

/- C37: dynamic collectors. -/

namespace Birch.Props
open Birch Model Model.Ftdc Spec Proofs Proofs.Ftdc

/-- What a dynamic collector compares: the checksum of the dotted paths of the numbers, one after the other, and the count of the numbers. -/
def fingerprint (fs : Fields) : Bytes × Nat := (hashText (fs.paths []).flatten, fs.kinds.length)

/-- `NewStreamingDynamicCollector`, with `SetMetadata` called or not -/
def streamingDynamicWith (max : Nat) (md : Option Doc) : StreamingDynamic := ⟨[], 0, streamingWith max ⟨[], []⟩ md⟩

theorem streamingDynamicWith_new (max : Nat) : streamingDynamicWith max none = StreamingDynamic.new max ⟨[], []⟩ := rfl

/-- A streaming dynamic collector takes every sequence of documents in which equal fingerprints mean equal shapes, and after a final
    flush everything is read back, in order.  The documents up to the first change of the fingerprint are in chunks of `max + 1`
    samples; no chunk has documents from both sides of that change.  After it every document has its own chunk.

    Missing from C37: documents of different shapes can have the same fingerprint (`C37_equal_fingerprints`), and after the first change
    there are more chunks than changes (`C37_splits_more`). -/
theorem C37_streaming_partial {fsub : Nat → Nat → Nat}
    (hsub : ∀ a b, a < 18446744073709551616 → b < 18446744073709551616 → fsub a b < 18446744073709551616)
    {zip : Bytes → Bytes} {unzip : Bytes → Option Bytes} (hz : ∀ b, unzip (zip b) = some b)
    {d : Doc} {docs : List Doc} {f : Fields} {fss : List Fields} (hd : RepDocs (d :: docs) (f :: fss))
    (hl : ∀ fs ∈ f :: fss, (encDoc fs).length < 2147483648)
    (hcol : ∀ g ∈ f :: fss, ∀ h ∈ f :: fss, fingerprint g = fingerprint h → g.metrics.SameShape h.metrics)
    {max : Nat} (h32 : max < 4294967295) (md : Option Doc) (hmd : ∀ m, md = some m → ∃ mfs, RepFields m mfs ∧ (encDoc mfs).length ≤ 2147483000)
    (hsm : ∀ md, SmallChunks fsub zip max md (d :: docs)) (now : Nat → Time) :
    ∃ N, ∀ n, N ≤ n → ∃ c c' pre rest segs,
      f :: fss = pre ++ rest ∧ (∀ g ∈ pre, fingerprint g = fingerprint f) ∧ (∀ g, rest.head? = some g → fingerprint g ≠ fingerprint f) ∧
      segs.flatten = pre ∧ Blocks (max + 1) segs ∧
      addEach (fun c d => c.add fsub zip now n d) (streamingDynamicWith max md) (d :: docs) = .ok (c, (d :: docs).map fun _ => none) ∧
      c.flush zip now n = .ok (c', none) ∧ c'.base.flushes = segs.length + rest.length ∧
      ∀ s : Stream.Source, s.left = c'.base.output.out → ∃ M, ∀ m, M ≤ m → ∃ ds, readStructuredMetrics unzip m s = .ok ds ∧
        RepDocs ds (backChunks fsub (segs ++ rest.map fun g => [g])) := by
  refine ⟨10000000000, fun n hn => ?_⟩
  have h0 : SInv fsub zip now n max (streamingWith max ⟨[], []⟩ md) [] (Part.empty max md) := by
    cases md <;> exact ⟨rfl, rfl, rfl, rfl, rfl, by simp, by simp, run_nil, filled_nil fsub n max _, Nat.zero_le _, hmd⟩
  have hp0 : (streamingWith max ⟨[], []⟩ md).output.plan = [] := by cases md <;> rfl
  have hszf := hl f (by simp)
  have hkey := metricKeyHash_rep n hd.1 hszf (by omega)
  obtain ⟨b, p, k1, k2, k3, k4, k5, k6⟩ := sd_first hsub hz hn h32
    (c := ⟨(fingerprint f).1, (fingerprint f).2, streamingWith max ⟨[], []⟩ md⟩) h0 empty_small hp0 (run_one hl hd.1 (by simp))
  have hadd : (streamingDynamicWith max md).add fsub zip now n d = .ok (⟨(fingerprint f).1, (fingerprint f).2, b⟩, none) := by
    unfold StreamingDynamic.add
    rw [hkey]
    have hc : (streamingDynamicWith max md).base.count = 0 := by cases md <;> rfl
    have hh : (streamingDynamicWith max md).hash = [] := rfl
    simp only [Res.bind_ok, hh, if_true, hc]
    rw [if_neg (by simp)]
    exact k1
  obtain ⟨c', parts', p', segs, pre, rest, r1, r2, r3, r4, r5, r6, r7, r8, r9, r10, r11⟩ := sd_same hsub hz hn h32 hl hsm
    (hashText_ne (f.paths []).flatten) (num := f.kinds.length)
    (fun g hg h hh h1 h2 => hcol g hg h hh (by simp [fingerprint, h1, h2])) docs fss
    (c := ⟨(fingerprint f).1, (fingerprint f).2, b⟩) k2 (by rw [k5]; simp) rfl rfl k6 (by rw [k4]; exact List.Sublist.refl _)
    (fun g hg => by simp [hg]) hd.2 (by simp) (by rw [k5]; intro g hg; simp only [List.mem_singleton] at hg; subst hg; simp)
  have hsp := hsm _ p'.docs n p'.chunk _ r5 (by omega) r2.filled
  obtain ⟨b', g1, g2, g3⟩ := sd_flush hsub hz hn h32 (c := c') r2 r3 hsp r4
  refine ⟨c', ⟨[], 0, b'⟩, f :: pre, rest, segs, by rw [r9]; simp, ?_, ?_, by rw [r7, k5]; simp, r8, ?_, g1, ?_, fun s hs => ?_⟩
  · intro g hg; rcases List.mem_cons.mp hg with rfl | hg
    · rfl
    · have := r10 g hg; simp [fingerprint, this]
  · intro g hg he; exact r11 g hg (by simpa [fingerprint] using he)
  · simp only [addEach, hadd, Res.bind_ok, r1, List.map_cons]
  · have := congrArg List.length r6
    simp at this
    rw [g2.flushes]; simp; omega
  · obtain ⟨bytes, b1, b2⟩ := parts_read hsub hz (by omega) h32 now (parts' ++ [p']) 0 g2.done g2.small
    have ho := g2.out
    rw [b1 n hn] at ho
    cases ho
    rw [← r6]
    exact b2 s hs

/-- the document `{k: i}` with a 32 bit number -/
def intField (k : UInt8) (i : Int) : Fields := .cons [k] (.int32 i) .nil

theorem intField_built (k : UInt8) (i : Int) (hk : k ≠ 0) (h : -2147483648 ≤ i ∧ i < 2147483648) : ∃ d, RepFields d (intField k i) := by
  obtain ⟨d, _, h⟩ := buildDoc_rep (intField k i) (by simpa [intField, Fields.WF, BVal.WF, NulFree, hk, Ne.symm hk] using h) (by simp [intField, Fields.enc, BVal.enc, le32])
  exact ⟨d, h⟩

theorem intField_size (k : UInt8) (i : Int) : (encDoc (intField k i)).length = 12 := by
  simp [intField, encDoc, wrapDoc_length, Fields.enc, BVal.enc, le32]

/-- hypotheses of `C37_streaming_partial` -/
example : ∃ d docs, RepDocs (d :: docs) [intField 0x78 1, intField 0x78 2, intField 0x79 3] ∧ (∀ md, SmallChunks (fun a _ => a) id 5 md (d :: docs)) ∧
    fingerprint (intField 0x78 2) ≠ fingerprint (intField 0x79 3) := by
  obtain ⟨d1, h1⟩ := intField_built 0x78 1 (by decide) (by decide)
  obtain ⟨d2, h2⟩ := intField_built 0x78 2 (by decide) (by decide)
  obtain ⟨d3, h3⟩ := intField_built 0x79 3 (by decide) (by decide)
  have hr : RepDocs [d1, d2, d3] [intField 0x78 1, intField 0x78 2, intField 0x79 3] := ⟨h1, h2, h3, trivial⟩
  refine ⟨d1, [d2, d3], hr, fun md => smallChunks_of hr (L := 100) (by decide +kernel) (by decide) (by decide) (fun b hb => ?_) _ _, by decide +kernel⟩
  simp only [id]; omega

/-- Without doubles and timestamps, and with dates of the years 1677 to 2262, no sample is lost and none is changed. -/
theorem C37_streaming_kept_partial {fsub : Nat → Nat → Nat}
    (hsub : ∀ a b, a < 18446744073709551616 → b < 18446744073709551616 → fsub a b < 18446744073709551616)
    {zip : Bytes → Bytes} {unzip : Bytes → Option Bytes} (hz : ∀ b, unzip (zip b) = some b)
    {d : Doc} {docs : List Doc} {f : Fields} {fss : List Fields} (hd : RepDocs (d :: docs) (f :: fss))
    (hl : ∀ fs ∈ f :: fss, (encDoc fs).length < 2147483648)
    (hcol : ∀ g ∈ f :: fss, ∀ h ∈ f :: fss, fingerprint g = fingerprint h → g.metrics.SameShape h.metrics) (hk : ∀ g ∈ f :: fss, g.metrics.Kept)
    {max : Nat} (h32 : max < 4294967295) (md : Option Doc) (hmd : ∀ m, md = some m → ∃ mfs, RepFields m mfs ∧ (encDoc mfs).length ≤ 2147483000)
    (hsm : ∀ md, SmallChunks fsub zip max md (d :: docs)) (now : Nat → Time) :
    ∃ N, ∀ n, N ≤ n → ∃ c c',
      addEach (fun c d => c.add fsub zip now n d) (streamingDynamicWith max md) (d :: docs) = .ok (c, (d :: docs).map fun _ => none) ∧
      c.flush zip now n = .ok (c', none) ∧
      ∀ s : Stream.Source, s.left = c'.base.output.out → ∃ M, ∀ m, M ≤ m → ∃ ds, readStructuredMetrics unzip m s = .ok ds ∧
        RepDocs ds ((f :: fss).map Fields.metrics) := by
  obtain ⟨N, h⟩ := C37_streaming_partial hsub hz hd hl hcol h32 md hmd hsm now
  refine ⟨N, fun n hn => ?_⟩
  obtain ⟨c, c', pre, rest, segs, a1, a2, a3, a4, a5, a6, a7, _, a8⟩ := h n hn
  refine ⟨c, c', a6, a7, ?_⟩
  have hfl : (segs ++ rest.map fun g => [g]).flatten = f :: fss := by
    rw [List.flatten_append, a4, a1]
    congr 1
    exact flatten_singles rest
  rw [backChunks_kept, hfl] at a8
  · exact a8
  · intro s hs g hg
    have hmem : g ∈ f :: fss := hfl ▸ List.mem_flatten.mpr ⟨s, hs, hg⟩
    refine ⟨hk g hmem, fun k hk' => ?_⟩
    have hmem' : k ∈ f :: fss := hfl ▸ List.mem_flatten.mpr ⟨s, hs, hk'⟩
    refine hcol g hmem k hmem' ?_
    rcases List.mem_append.mp hs with hs | hs
    · rw [a2 g (a4 ▸ List.mem_flatten.mpr ⟨s, hs, hg⟩), a2 k (a4 ▸ List.mem_flatten.mpr ⟨s, hs, hk'⟩)]
    · obtain ⟨x, _, rfl⟩ := List.mem_map.mp hs
      simp only [List.mem_singleton] at hg hk'
      rw [hg, hk']

example : ∀ g ∈ [intField 0x78 1, intField 0x78 2, intField 0x79 3], g.metrics.Kept := by
  simp [intField, Fields.metrics, BVal.metric, Fields.Kept, BVal.Kept]

/-- The same for the collector that keeps its chunks, if no document after the first change has the checksum of the first document.

    Missing from C37: a document that goes back to the first checksum (`C37_sample_renamed`, `C37_sample_rejected`), documents of different
    shapes with the same checksum (`C37_equal_fingerprints`), and the surplus chunks (`C37_splits_more`). -/
theorem C37_dynamic_partial {fsub : Nat → Nat → Nat}
    (hsub : ∀ a b, a < 18446744073709551616 → b < 18446744073709551616 → fsub a b < 18446744073709551616)
    {zip : Bytes → Bytes} {unzip : Bytes → Option Bytes} (hz : ∀ b, unzip (zip b) = some b)
    {d : Doc} {f : Fields} {docs rest : List Doc} {fss frest : List Fields} (hd : RepDocs (d :: docs) (f :: fss)) (hr : RepDocs rest frest)
    (hl : ∀ g ∈ f :: fss ++ frest, (encDoc g).length < 2147483648) (hs : ∀ g ∈ f :: fss, ∀ h ∈ f :: fss, g.metrics.SameShape h.metrics)
    (hsame : ∀ g ∈ fss, (fingerprint g).1 = (fingerprint f).1) (hdiff : ∀ g ∈ frest, (fingerprint g).1 ≠ (fingerprint f).1)
    {size : Nat} (h1 : 1 ≤ size) (h32 : size < 4294967295) :
    ∃ N, ∀ n, N ≤ n → ∃ c segs,
      addEach (fun c d => c.add fsub n d) (Ftdc.Dynamic.new size) ((d :: docs) ++ rest) = .ok (c, ((d :: docs) ++ rest).map fun _ => none) ∧
      segs.flatten = f :: fss ∧ Blocks size segs ∧
      (c.chunks.map Batch.chunks).flatten.map (fun ch => ch.info.1) = segs.map List.length ++ frest.map (fun _ => 1) ∧
      ((∀ b ∈ c.chunks, ∀ ch ∈ b.chunks, ∀ p, Returns ch.payload (.ok p) → (zip p).length ≤ 2147482000) → ∀ now, ∃ bytes, Returns (c.resolve zip now) (.ok bytes) ∧
        ∀ s : Stream.Source, s.left = bytes → ∃ M, ∀ m, M ≤ m → ∃ ds, readStructuredMetrics unzip m s = .ok ds ∧
          RepDocs ds (backChunks fsub (segs ++ frest.map fun g => [g]))) := by
  refine ⟨2147483648, fun n hn => ?_⟩
  obtain ⟨c, parts, segs, e1, e2, e3', e4, e5, e6⟩ := dynamic_two (fsub := fsub) hn h1 hd hr hl hs hsame hdiff
  have e3 := fun q hq => (e3' q hq).1
  refine ⟨c, segs, e1, e5, e6, ?_, fun hp now => ?_⟩
  · rw [e2, List.map_map]
    have : parts.map ((fun ch => ch.info.1) ∘ Part.chunk) = (parts.map Part.fss).map List.length := by
      rw [List.map_map]
      apply List.map_congr_left
      intro q hq
      exact filled_info (e3 q hq).run (e3 q hq).filled (e3 q hq).room hn
    rw [this, e4, List.map_append, List.map_map]
    rfl
  · obtain ⟨bytes, b1, b2⟩ := parts_read hsub hz hn h32 now parts 0 e3
      (fun q hq b hb => by
        have : q.chunk ∈ (c.chunks.map Batch.chunks).flatten := by rw [e2]; exact List.mem_map_of_mem hq
        obtain ⟨l, hl', hq'⟩ := List.mem_flatten.mp this
        obtain ⟨x, hx, rfl⟩ := List.mem_map.mp hl'
        exact hp x hx q.chunk hq' b hb)
    rw [e4] at b2
    exact ⟨bytes, ⟨_, fun m hm => by unfold Ftdc.Dynamic.resolve; rw [e2]; exact b1 m hm⟩, b2⟩

example : ∃ d docs rest, RepDocs (d :: docs) [intField 0x78 1, intField 0x78 2] ∧ RepDocs rest [intField 0x79 3, intField 0x7a 4] ∧
    (fingerprint (intField 0x78 2)).1 = (fingerprint (intField 0x78 1)).1 ∧
    ∀ g ∈ [intField 0x79 3, intField 0x7a 4], (fingerprint g).1 ≠ (fingerprint (intField 0x78 1)).1 := by
  obtain ⟨d1, h1⟩ := intField_built 0x78 1 (by decide) (by decide)
  obtain ⟨d2, h2⟩ := intField_built 0x78 2 (by decide) (by decide)
  obtain ⟨d3, h3⟩ := intField_built 0x79 3 (by decide) (by decide)
  obtain ⟨d4, h4⟩ := intField_built 0x7a 4 (by decide) (by decide)
  exact ⟨d1, [d2], [d3, d4], ⟨h1, h2, trivial⟩, ⟨h3, h4, trivial⟩, by decide +kernel, by decide +kernel⟩

/-- The checksum does not tell shapes apart, whatever the checksum function does: `{a: {b: 1}}` and `{"a.b": 1}` have the same
    fingerprint, and `{a: 1, b: 2}` has the same checksum.  So have `{x: 1}` and `{x: true}`. -/
theorem C37_equal_fingerprints :
    let f : Fields := .cons [0x61] (.doc (intField 0x62 1)) .nil
    let g : Fields := .cons [0x61, 0x2e, 0x62] (.int32 1) .nil
    let h : Fields := .cons [0x61] (.int32 1) (intField 0x62 2)
    fingerprint f = fingerprint g ∧ ¬ f.metrics.SameShape g.metrics ∧
    (fingerprint f).1 = (fingerprint h).1 ∧ ¬ f.metrics.SameShape h.metrics ∧
    fingerprint (intField 0x78 1) = fingerprint (oneField (.bool true)) ∧ ¬ (intField 0x78 1).metrics.SameShape (oneField (.bool true)).metrics := by
  refine ⟨rfl, ?_, rfl, ?_, rfl, ?_⟩ <;> simp [intField, oneField, Fields.metrics, BVal.metric, Fields.SameShape, BVal.SameShape, BVal.tag]

theorem intField_shape (k : UInt8) (i j : Int) : (intField k i).metrics.SameShape (intField k j).metrics := by
  simp [intField, Fields.metrics, BVal.metric, Fields.SameShape, BVal.SameShape, BVal.tag]

/-- With `{x: 1}`, `{y: 1}`, `{y: 2}` the keys change once, but each document gets its own chunk, in both collectors. -/
theorem C37_splits_more {fsub : Nat → Nat → Nat}
    (hsub : ∀ a b, a < 18446744073709551616 → b < 18446744073709551616 → fsub a b < 18446744073709551616) (now : Nat → Time)
    {d1 d2 d3 : Doc} (h1 : RepFields d1 (intField 0x78 1)) (h2 : RepFields d2 (intField 0x79 1)) (h3 : RepFields d3 (intField 0x79 2))
    {size : Nat} (hs : 2 ≤ size) (hs' : size < 1000) :
    ∃ N, ∀ n, N ≤ n →
      (∃ c c', addEach (fun c d => c.add fsub id now n d) (StreamingDynamic.new size ⟨[], []⟩) [d1, d2, d3] = .ok (c, [none, none, none]) ∧
        c.flush id now n = .ok (c', none) ∧ c'.base.flushes = 3) ∧
      ∃ c, addEach (fun c d => c.add fsub n d) (Ftdc.Dynamic.new size) [d1, d2, d3] = .ok (c, [none, none, none]) ∧
        (c.chunks.map Batch.chunks).flatten.map (fun ch => ch.info.1) = [1, 1, 1] := by
  have hne : (fingerprint (intField 0x79 1)).1 ≠ (fingerprint (intField 0x78 1)).1 := by decide +kernel
  have hr : RepDocs [d1, d2, d3] [intField 0x78 1, intField 0x79 1, intField 0x79 2] := ⟨h1, h2, h3, trivial⟩
  have hl : ∀ fs ∈ [intField 0x78 1, intField 0x79 1, intField 0x79 2], (encDoc fs).length < 2147483648 := by
    simp only [List.mem_cons, List.not_mem_nil, or_false]; rintro fs (rfl | rfl | rfl) <;> rw [intField_size] <;> decide
  obtain ⟨N1, g1⟩ := C37_streaming_partial hsub (zip := id) (unzip := some) (fun _ => rfl) hr hl
    (by
      simp only [List.mem_cons, List.not_mem_nil, or_false]
      rintro f (rfl | rfl | rfl) g (rfl | rfl | rfl) <;> intro he <;> first | exact intField_shape _ _ _ | exact absurd (congrArg Prod.fst he) hne | exact absurd (congrArg Prod.fst he).symm hne)
    (max := size) (by omega) none nofun
    (fun md => smallChunks_of hr (L := 12) (fun fs hfs => by
      simp only [List.mem_cons, List.not_mem_nil, or_false] at hfs; rcases hfs with rfl | rfl | rfl <;> rw [intField_size] <;> omega) (by decide) (by omega)
      (fun b hb => by simp only [id]; omega) _ _) now
  obtain ⟨N2, g2⟩ := C37_dynamic_partial hsub (zip := id) (unzip := some) (fun _ => rfl) (docs := []) (fss := []) (rest := [d2, d3])
    (frest := [intField 0x79 1, intField 0x79 2]) ⟨h1, trivial⟩ ⟨h2, h3, trivial⟩ (by simpa using hl)
    (by simp only [List.mem_cons, List.not_mem_nil, or_false]; rintro f rfl g rfl; exact intField_shape _ _ _) (by simp)
    (by simp only [List.mem_cons, List.not_mem_nil, or_false]; rintro g (rfl | rfl) <;> exact hne) (size := size) (by omega) (by omega)
  refine ⟨max N1 N2, fun n hn => ⟨?_, ?_⟩⟩
  · obtain ⟨c, c', pre, rest, segs, a1, a2, a3, a4, a5, a6, a7, a8, _⟩ := g1 n (by omega)
    refine ⟨c, c', a6, a7, ?_⟩
    rw [a8]
    match pre, a1, a2, a4 with
    | [], a1, _, _ => rw [List.nil_append] at a1; subst a1; exact absurd rfl (a3 _ rfl)
    | [f], a1, _, a4 =>
      simp only [List.cons_append, List.nil_append, List.cons.injEq] at a1
      obtain ⟨_, rfl⟩ := a1
      have := congrArg List.length a4
      match segs, a5 with
      | [], _ => simp at this
      | [s], _ => rfl
      | [s, t], h => simp [Blocks] at h this; omega
      | s :: t :: u :: rest, h => simp [Blocks] at h this; omega
    | f :: g :: rest', a1, a2, _ =>
      simp only [List.cons_append, List.cons.injEq] at a1
      exact absurd (congrArg Prod.fst (a1.2.1 ▸ a2 g (by simp))) hne
  · obtain ⟨c, segs, a1, a2, a3, a4, _⟩ := g2 n (by omega)
    refine ⟨c, a1, ?_⟩
    rw [a4]
    have := congrArg List.length a2
    match segs, a3 with
    | [], _ => simp at this
    | [s], h => simp at this; simp [this]
    | [s, t], h => simp [Blocks] at h this; omega
    | s :: t :: u :: rest, h => simp [Blocks] at h this; omega

/-- After the keys have changed and changed back, the dynamic collector puts the sample into the chunk of the other keys: the samples
    `{x: 1}`, `{y: 2}`, `{x: 3}` are read back as `{x: 1}`, `{y: 2}`, `{y: 3}`. -/
theorem C37_sample_renamed {fsub : Nat → Nat → Nat}
    (hsub : ∀ a b, a < 18446744073709551616 → b < 18446744073709551616 → fsub a b < 18446744073709551616)
    {zip : Bytes → Bytes} {unzip : Bytes → Option Bytes} (hz : ∀ b, unzip (zip b) = some b)
    {d1 d2 d3 : Doc} (h1 : RepFields d1 (intField 0x78 1)) (h2 : RepFields d2 (intField 0x79 2)) (h3 : RepFields d3 (intField 0x78 3))
    {size : Nat} (hs : 2 ≤ size) (h32 : size < 4294967295) :
    ∃ N, ∀ n, N ≤ n → ∃ c, addEach (fun c d => c.add fsub n d) (Ftdc.Dynamic.new size) [d1, d2, d3] = .ok (c, [none, none, none]) ∧
      ((∀ b ∈ c.chunks, ∀ ch ∈ b.chunks, ∀ p, Returns ch.payload (.ok p) → (zip p).length ≤ 2147482000) → ∀ now, ∃ bytes, Returns (c.resolve zip now) (.ok bytes) ∧
        ∀ s : Stream.Source, s.left = bytes → ∃ M, ∀ m, M ≤ m → ∃ ds, readStructuredMetrics unzip m s = .ok ds ∧
          RepDocs ds [intField 0x78 1, intField 0x79 2, intField 0x79 3]) := by
  refine ⟨2147483648, fun n hn => ?_⟩
  obtain ⟨d3', h3'⟩ := intField_built 0x79 3 (by decide) (by decide)
  have hsz : ∀ k i, (encDoc (intField k i)).length < 2147483648 := fun k i => by rw [intField_size]; decide
  have hr1 : Run [d1] [intField 0x78 1] := ⟨⟨h1, trivial⟩, by simpa using hsz _ _, by simpa using shapeF_refl _⟩
  have hr2 : Run ([d2] ++ [d3']) ([intField 0x79 2] ++ [intField 0x79 3]) := ⟨⟨h2, h3', trivial⟩, by simpa using ⟨hsz _ _, hsz _ _⟩, by
    simp only [List.cons_append, List.nil_append, List.mem_cons, List.not_mem_nil, or_false]; rintro f (rfl | rfl) g (rfl | rfl) <;> exact intField_shape _ _ _⟩
  obtain ⟨b1, b2, e1, e2, e3⟩ := dynamic_back (fsub := fsub) (size := size) hn hs h1 h2 h3 (hsz _ _) (hsz _ _) (hsz _ _) (by decide +kernel) rfl
  obtain ⟨b3, e4, e5⟩ := run_add hr2 e2 (by simp; omega) hn
  have href : b2.reference ≠ none := by
    have := (filled_state (run_mono (docs' := [d2]) (fss' := [intField 0x79 2]) hr2 ⟨h2, trivial⟩ (by simp)) e2 (by simp) hn).2.2
    simp only [List.head?_cons] at this
    rw [this.2.ref]; simp
  have hsame : b2.add fsub n d3 = b2.add fsub n d3' := by
    have hs3 := hsz 0x78 3
    have hs3' := hsz 0x79 3
    simp only [encDoc, wrapDoc_length] at hs3 hs3'
    have x3 := extract_rep n h3 (by omega) (by omega)
    have x3' := extract_rep n h3' (by omega) (by omega)
    unfold Better.add
    rw [x3, x3']
    have : numsF (intField 0x78 3) = numsF (intField 0x79 3) := rfl
    rw [this]
    cases hr : b2.reference with
    | none => exact absurd hr href
    | some _ => rfl
  refine ⟨_, e3 b3 none (hsame.trans e4), fun hp now => ?_⟩
  obtain ⟨bytes, k1, k2⟩ := parts_read hsub hz hn h32 now [⟨none, [d1], [intField 0x78 1], b1⟩, ⟨none, [d2, d3'], [intField 0x79 2, intField 0x79 3], b3⟩] 0
    (by
      simp only [List.mem_cons, List.not_mem_nil, or_false]
      rintro q (rfl | rfl)
      · exact ⟨hr1, by simp, e1, by simp, nofun⟩
      · exact ⟨hr2, by simp, e5, by simp; omega, nofun⟩)
    (by
      simp only [List.mem_cons, List.not_mem_nil, or_false]
      rintro q (rfl | rfl)
      · exact hp ⟨size, [b1]⟩ (by simp) b1 (by simp)
      · exact hp ⟨size, [b3]⟩ (by simp) b3 (by simp))
  refine ⟨bytes, ⟨_, fun m hm => by unfold Ftdc.Dynamic.resolve; exact k1 m hm⟩, ?_⟩
  rw [backChunks_kept] at k2
  · exact k2
  · simp only [List.map_cons, List.map_nil, List.mem_cons, List.not_mem_nil, or_false]
    rintro s (rfl | rfl) f hf <;> simp only [List.mem_cons, List.not_mem_nil, or_false] at hf
    · subst hf
      exact ⟨by simp [intField, Fields.metrics, BVal.metric, Fields.Kept, BVal.Kept], by rintro g hg; simp only [List.mem_cons, List.not_mem_nil, or_false] at hg; subst hg; exact intField_shape _ _ _⟩
    · rcases hf with rfl | rfl <;> exact ⟨by simp [intField, Fields.metrics, BVal.metric, Fields.Kept, BVal.Kept], by
        rintro g hg; simp only [List.mem_cons, List.not_mem_nil, or_false] at hg; rcases hg with rfl | rfl <;> exact intField_shape _ _ _⟩

example : ∃ d1 d2 d3, RepFields d1 (intField 0x78 1) ∧ RepFields d2 (intField 0x79 2) ∧ RepFields d3 (intField 0x78 3) := by
  obtain ⟨d1, h1⟩ := intField_built 0x78 1 (by decide) (by decide)
  obtain ⟨d2, h2⟩ := intField_built 0x79 2 (by decide) (by decide)
  obtain ⟨d3, h3⟩ := intField_built 0x78 3 (by decide) (by decide)
  exact ⟨d1, d2, d3, h1, h2, h3⟩

/-- Or it loses the sample: after `{x: 1}` and `{y: true}` the document `{x: 3}` is refused. -/
theorem C37_sample_rejected (fsub : Nat → Nat → Nat)
    {d1 d2 d3 : Doc} (h1 : RepFields d1 (intField 0x78 1)) (h2 : RepFields d2 (.cons [0x79] (.bool true) .nil)) (h3 : RepFields d3 (intField 0x78 3))
    {size : Nat} (hs : 2 ≤ size) :
    ∃ N, ∀ n, N ≤ n → ∃ c e, addEach (fun c d => c.add fsub n d) (Ftdc.Dynamic.new size) [d1, d2, d3] = .ok (c, [none, none, some e]) := by
  refine ⟨2147483648, fun n hn => ?_⟩
  have hsz : ∀ k i, (encDoc (intField k i)).length < 2147483648 := fun k i => by rw [intField_size]; decide
  have hsz2 : (encDoc (.cons [0x79] (.bool true) .nil)).length < 2147483648 := by decide
  obtain ⟨b1, b2, e1, e2, e3⟩ := dynamic_back (fsub := fsub) (size := size) hn hs h1 h2 h3 (hsz _ _) hsz2 (hsz _ _) (by decide +kernel) rfl
  have hr2 : Run [d2] [.cons [0x79] (.bool true) .nil] := ⟨⟨h2, trivial⟩, by simpa using hsz2, by simpa using shapeF_refl _⟩
  obtain ⟨b3, e, k1, k2, _⟩ := state_add (filled_state hr2 e2 (by simp) hn) h3 (hsz _ _) (fuel := n) (by have := hsz 0x78 3; omega)
  cases e with
  | none =>
    have := (k2.mp rfl _ _ rfl).2
    simp [intField, Fields.kinds, BVal.kinds] at this
  | some e => exact ⟨_, e, e3 b3 (some e) k1⟩

example : ∃ d, RepFields d (.cons [0x79] (.bool true) .nil) := by
  obtain ⟨d, _, h⟩ := buildDoc_rep (.cons [0x79] (.bool true) .nil) (by simp [Fields.WF, BVal.WF, NulFree]) (by decide)
  exact ⟨d, h⟩

/-- The metadata of a streaming dynamic collector is gone after the first chunk that is written because of changed keys. -/
theorem C37_metadata_lost {fsub : Nat → Nat → Nat}
    (hsub : ∀ a b, a < 18446744073709551616 → b < 18446744073709551616 → fsub a b < 18446744073709551616) (now : Nat → Time)
    {m d1 d2 : Doc} {mfs : Fields} (hm : RepFields m mfs) (hml : (encDoc mfs).length ≤ 2147483000)
    (h1 : RepFields d1 (intField 0x78 1)) (h2 : RepFields d2 (intField 0x79 2)) {size : Nat} (hs : size < 1000) :
    ∃ N, ∀ n, N ≤ n → ∃ c, addEach (fun c d => c.add fsub id now n d) (streamingDynamicWith size (some m)) [d1, d2] = .ok (c, [none, none]) ∧
      (streamingDynamicWith size (some m)).base.inner.metadata = some m ∧ c.base.inner.metadata = none := by
  refine ⟨10000000000, fun n hn => ?_⟩
  have hr : RepDocs [d1, d2] [intField 0x78 1, intField 0x79 2] := ⟨h1, h2, trivial⟩
  have hsz : ∀ k i, (encDoc (intField k i)).length < 2147483648 := fun k i => by rw [intField_size]; decide
  have hsm : SmallChunks fsub id size (some m) [d1, d2] := smallChunks_of hr (L := 12) (fun fs hfs => by
      simp only [List.mem_cons, List.not_mem_nil, or_false] at hfs; rcases hfs with rfl | rfl <;> rw [intField_size] <;> omega) (by decide) (by omega)
      (fun b hb => by simp only [id]; omega) _ _
  have h0 : SInv fsub id now n size (streamingWith size ⟨[], []⟩ (some m)) [] (Part.empty size (some m)) :=
    ⟨rfl, rfl, rfl, rfl, rfl, by simp, by simp, run_nil, filled_nil fsub n size _, Nat.zero_le _, fun m' hm' => by cases hm'; exact ⟨mfs, hm, hml⟩⟩
  have hall : ∀ fs ∈ [intField 0x78 1, intField 0x79 2], (encDoc fs).length < 2147483648 := by
    simp only [List.mem_cons, List.not_mem_nil, or_false]; rintro fs (rfl | rfl) <;> exact hsz _ _
  have k0 := fun (b : Bytes) => (rfl : some (id b) = some b)
  obtain ⟨b, p, k1, k2, k3, k4, k5, k6⟩ := sd_first hsub k0 hn (by omega)
    (c := ⟨(fingerprint (intField 0x78 1)).1, (fingerprint (intField 0x78 1)).2, streamingWith size ⟨[], []⟩ (some m)⟩) h0 empty_small rfl (run_one hall h1 (by simp))
  have hkey1 := metricKeyHash_rep n h1 (hsz _ _) (by have := hsz 0x78 1; omega)
  have hkey2 := metricKeyHash_rep n h2 (hsz _ _) (by have := hsz 0x79 2; omega)
  have hadd1 : (streamingDynamicWith size (some m)).add fsub id now n d1 =
      .ok (⟨(fingerprint (intField 0x78 1)).1, (fingerprint (intField 0x78 1)).2, b⟩, none) := by
    unfold StreamingDynamic.add
    rw [hkey1]
    have hc : (streamingDynamicWith size (some m)).base.count = 0 := rfl
    have hh : (streamingDynamicWith size (some m)).hash = [] := rfl
    simp only [Res.bind_ok, hh, if_true, hc]
    rw [if_neg (by simp)]
    exact k1
  have hsp := hsm p.docs n p.chunk _ (by rw [k4]; simp) (by omega) (k3 ▸ k2.filled)
  obtain ⟨b', g1, g2, g3⟩ := sd_flush hsub k0 hn (by omega) (c := ⟨(fingerprint (intField 0x78 1)).1, (fingerprint (intField 0x78 1)).2, b⟩) k2 (by rw [k5]; simp) hsp k6
  obtain ⟨b'', p', l1, l2, l3, l4, l5, l6⟩ := sd_first hsub k0 hn (by omega) (c := ⟨[], 0, b'⟩) g2 empty_small g3 (run_one hall h2 (by simp))
  have hadd2 : StreamingDynamic.add fsub id now n ⟨(fingerprint (intField 0x78 1)).1, (fingerprint (intField 0x78 1)).2, b⟩ d2 = .ok (⟨[], 0, b''⟩, none) := by
    unfold StreamingDynamic.add
    rw [hkey2]
    have hc : ¬ ((fingerprint (intField 0x78 1)).1 = []) := hashText_ne _
    have hne : (fingerprint (intField 0x78 1)).1 ≠ hashText ((intField 0x79 2).paths []).flatten := by decide +kernel
    simp only [Res.bind_ok, hc, if_false]
    rw [if_pos (.inr hne), g1]
    exact l1
  refine ⟨⟨[], 0, b''⟩, ?_, rfl, ?_⟩
  · simp only [addEach, hadd1, hadd2, Res.bind_ok]
  · have hi : b''.inner = p'.chunk := l2.inner
    have := (filled_state l2.run l2.filled l2.room (by omega)).2.1
    show b''.inner.metadata = none
    rw [hi, this, l3]

example : (encDoc (exSample 1 [120])).length ≤ 2147483000 := by decide +kernel

end Birch.Props
