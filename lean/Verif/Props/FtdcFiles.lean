import Verif.Proofs.FtdcFiles
import Verif.Props.CsvRows
import Verif.Props.FtdcChunks
import Verif.Props.FtdcDynamic

/- C76, C109: the files of batch, streaming and dynamic collectors.

`zip` and `unzip` are the compressor and the decompressor, `fsub` is the subtraction of doubles, on their bits, `date` the text of a second and `now` are the times of the chunks. -/

namespace Birch.Props
open Birch Model Model.Ftdc Spec Proofs Proofs.Ftdc

/-- What a batch collector resolves to after documents of one shape is, byte for byte, a file of chunks as `chunkLayout` describes them: with all documents, in order, `size` of them in
    every chunk but the last, with the time of each chunk in milliseconds, and with the metadata before the first
    chunk only. -/
theorem C76_batch {fsub : Nat → Nat → Nat} (hsub : ∀ a b, a < 18446744073709551616 → b < 18446744073709551616 → fsub a b < 18446744073709551616)
    {zip : Bytes → Bytes} {docs : List Doc} {fss : List Fields} (hd : RepDocs docs fss) (hne : fss ≠ [])
    (hl : ∀ fs ∈ fss, (encDoc fs).length < 2147483648) (hs : ∀ f ∈ fss, ∀ g ∈ fss, f.metrics.SameShape g.metrics)
    {size : Nat} (h1 : 1 ≤ size) (h32 : size < 4294967295)
    (md : Option Doc) (hmd : ∀ m, md = some m → ∃ mfs, RepFields m mfs ∧ (encDoc mfs).length ≤ 2147483000) {now : Nat → Time} (hnow : ∀ j, 0 ≤ (now j).nsec) :
    ∃ c0, batchWith size md = .ok c0 ∧ ∃ N, ∀ n, N ≤ n → ∃ c, addEach (fun c d => c.add fsub n d) c0 docs = .ok (c, docs.map fun _ => none) ∧
      ((∀ ch ∈ c.chunks, ∀ p, Returns ch.payload (.ok p) → (zip p).length ≤ 2147482000) → ∃ cs : List LaidChunk, (∀ x ∈ cs, x.Good fsub zip) ∧
        (cs.flatMap fun x => x.first :: x.rest) = fss ∧ Blocks size (cs.map fun x => x.first :: x.rest) ∧
        (∀ j x, cs[j]? = some x → x.ms = i64 ((now j).sec * 1000 + (now j).nsec / 1000000)) ∧ 
        (∀ (j : Nat) (x : LaidChunk), cs[j]? = some x → RepMeta (if j = 0 then md else none) x.metadata) ∧ Returns (c.resolve zip now) (.ok (cs.flatMap (LaidChunk.bytes fsub zip)))) := by
  refine ⟨⟨size, [newWith size md]⟩, by cases md <;> rfl, 2147483648, fun n hn => ?_⟩
  have h0 : BInv fsub n size ⟨size, [newWith size md]⟩ [] ⟨md, [], [], newWith size md⟩ :=
    ⟨rfl, rfl, by simp, run_nil, filled_nil fsub n size md, Nat.zero_le _, hmd⟩
  obtain ⟨c, parts, p, e1, e2, e3, ⟨_, k, ek⟩, e5⟩ := batch_addEach (fsub := fsub) hn h1 (⟨hd, hl, hs⟩ : Run docs fss) docs fss h0 (by simp) hd
  have hpne := e3 (.inr hne)
  have hok : ∀ q ∈ parts ++ [p], q.Ok fsub n size := by
    intro q hq
    rcases List.mem_append.mp hq with hq | hq
    · exact (e2.done q hq).1
    · simp only [List.mem_singleton] at hq; subst hq
      exact ⟨e2.run, hpne, e2.filled, by have := e2.room; omega, e2.md⟩
  have hch : c.chunks = (parts ++ [p]).map Part.chunk := by rw [e2.chunks]; simp
  refine ⟨c, e1, fun hp => ?_⟩
  obtain ⟨cs, c1, c2, c4, c5, c3⟩ := parts_layout (zip := zip) hsub hn h32 hnow (parts ++ [p]) 0 hok (fun q hq b hb => hp q.chunk (by rw [hch]; exact List.mem_map_of_mem hq) b hb)
  refine ⟨cs, c2, ?_, ?_, fun j x hj => by simpa using c4 j x hj, fun j x hj => ?_, 10000000000, fun m hm => ?_⟩
  · rw [List.flatMap_def, c1]; simpa using e5
  · rw [c1, List.map_append]
    apply blocks_snoc
    · intro t ht; obtain ⟨q, hq, rfl⟩ := List.mem_map.mp ht; exact (e2.done q hq).2
    · have := List.length_pos_iff.mpr hpne; omega
    · exact e2.room
  · obtain ⟨q, hq, hm⟩ := c5 j x hj
    have h2 : ((parts ++ [p]).map Part.md)[j]? = some q.md := by rw [List.getElem?_map, hq]; rfl
    rw [List.map_append, List.map_cons, List.map_nil, ek] at h2
    rcases j with _ | j
    · simp at h2; simpa [h2] using hm
    · simp only [List.map_nil, List.nil_append, List.getElem?_cons_succ, List.getElem?_replicate] at h2
      split at h2
      · simp only [Option.some.injEq] at h2; simpa [h2] using hm
      · cases h2
  · show c.resolve zip now m = _
    unfold Batch.resolve
    rw [hch, c3 m hm]

/-- What a streaming collector has written to a writer that does not fail, after documents of one shape and a flush: likewise, with `max + 1` documents in every chunk but the last, and with the metadata before
    every chunk. -/
theorem C76_streaming {fsub : Nat → Nat → Nat} (hsub : ∀ a b, a < 18446744073709551616 → b < 18446744073709551616 → fsub a b < 18446744073709551616)
    {zip : Bytes → Bytes} {unzip : Bytes → Option Bytes} (hz : ∀ b, unzip (zip b) = some b) {docs : List Doc} {fss : List Fields} (hd : RepDocs docs fss)
    (hl : ∀ fs ∈ fss, (encDoc fs).length < 2147483648) (hs : ∀ f ∈ fss, ∀ g ∈ fss, f.metrics.SameShape g.metrics)
    {max : Nat} (h32 : max < 4294967295) (md : Option Doc) (hmd : ∀ m, md = some m → ∃ mfs, RepFields m mfs ∧ (encDoc mfs).length ≤ 2147483000)
    (hsm : SmallChunks fsub zip max md docs) {now : Nat → Time} (hnow : ∀ j, 0 ≤ (now j).nsec) :
    ∃ N, ∀ n, N ≤ n → ∃ (c c' : Streaming) (cs : List LaidChunk), addEach (fun c d => c.add fsub zip now n d) (streamingWith max ⟨[], []⟩ md) docs = .ok (c, docs.map fun _ => none) ∧
      c.flush zip now n = .ok (c', none) ∧ (∀ x ∈ cs, x.Good fsub zip) ∧ (cs.flatMap fun x => x.first :: x.rest) = fss ∧ Blocks (max + 1) (cs.map fun x => x.first :: x.rest) ∧
      (∀ j x, cs[j]? = some x → x.ms = i64 ((now j).sec * 1000 + (now j).nsec / 1000000)) ∧ (∀ x ∈ cs, RepMeta md x.metadata) ∧ c'.output.out = cs.flatMap (LaidChunk.bytes fsub zip) := by
  refine ⟨10000000000, fun n hn => ?_⟩
  have h0 : SInv fsub zip now n max (streamingWith max ⟨[], []⟩ md) [] (Part.empty max md) := by
    cases md <;> exact ⟨rfl, rfl, rfl, rfl, rfl, by simp, by simp, run_nil, filled_nil fsub n max _, Nat.zero_le _, hmd⟩
  have hp0 : (streamingWith max ⟨[], []⟩ md).output.plan = [] := by cases md <;> rfl
  obtain ⟨c, es, parts, p, e1, e2, e3, e4, e5, e6, e7, e8, e9, e10⟩ := stream_addEach hsub hz hn h32 (⟨hd, hl, hs⟩ : Run docs fss) hsm docs fss h0 rfl
    (by simp) (by rw [hp0]; simp [AllOrNothing]) (by simp [Part.empty]) (by simp [Part.empty]) hd
  simp only [List.map_nil, List.flatten_nil, Part.empty, List.append_nil, List.nil_append] at e10
  obtain ⟨k1, k2⟩ := e8 hp0
  subst k1
  have htk : taken fss ((docs.map fun _ => (none : Option Err)).map Option.isNone) = fss := by
    have key : ∀ (ds : List Doc) (fs : List Fields), RepDocs ds fs → taken fs ((ds.map fun _ => (none : Option Err)).map Option.isNone) = fs := by
      intro ds
      induction ds with
      | nil => intro fs h; cases fs with | nil => rfl | cons f fs => exact h.elim
      | cons d ds ih => intro fs h; cases fs with | nil => exact h.elim | cons f fs => simpa [taken] using ih fs h.2
    exact key docs fss hd
  rw [htk] at e10
  by_cases hp : p.fss = []
  · obtain ⟨_, rfl⟩ := e9 hp
    have hi := filled_info e3.run e3.filled e3.room (by omega)
    refine ⟨c, c, [], e1, ?_, nofun, by rw [← e10, hp]; simp, trivial, by simp, nofun, ?_⟩
    · unfold Streaming.flush Streaming.flushWith
      rw [e3.inner, hi, hp]; simp
    · have ho := e3.out
      simp only [List.map_nil, resolveChunks, Res.ok.injEq] at ho
      rw [← ho]; rfl
  · have hsmall := hsm p.docs n p.chunk _ e7 (by omega) (e4 ▸ e3.filled)
    obtain ⟨c', e, f1, f2, _, _, f5⟩ := stream_flush hsub hz hn h32 e3 hp hsmall e6 Streaming.reset p.md (.inl rfl) streaming_reset_ok streaming_reset_inner
    obtain ⟨rfl, _⟩ := f5 k2
    have hok : ∀ q ∈ parts ++ [p], q.Ok fsub n max := (f2 rfl).done
    obtain ⟨cs, c1, c2, c4, c5, c3⟩ := parts_layout (zip := zip) hsub (by omega) h32 hnow (parts ++ [p]) 0 hok (f2 rfl).small
    refine ⟨c, c', cs, e1, f1, c2, ?_, ?_, fun j x hj => by simpa using c4 j x hj, fun x hx => ?_, ?_⟩
    · rw [List.flatMap_def, c1]; simpa using e10
    · rw [c1, List.map_append]
      apply blocks_snoc
      · intro t ht; obtain ⟨q, hq, rfl⟩ := List.mem_map.mp ht; exact (e5 q hq).1
      · have := List.length_pos_iff.mpr hp; omega
      · exact e3.room
    · obtain ⟨j, hj⟩ := List.mem_iff_getElem?.mp hx
      obtain ⟨q, hq, hm⟩ := c5 j x hj
      rcases List.mem_append.mp (List.mem_of_getElem? hq) with hq | hq
      · rw [← (e5 q hq).2]; exact hm
      · simp only [List.mem_singleton] at hq; subst hq; rw [← e4]; exact hm
    · have ho := (f2 rfl).out
      rw [c3 n hn] at ho
      exact (Res.ok.inj ho).symm

/-- What a dynamic collector without metadata resolves to, after documents of one shape and then documents with other keys: the first are in chunks of `size`, and every one of the others is
    in a chunk of its own.  Partial: keys that change back, see C37, and metadata are not covered. -/
theorem C76_dynamic_partial {fsub : Nat → Nat → Nat} (hsub : ∀ a b, a < 18446744073709551616 → b < 18446744073709551616 → fsub a b < 18446744073709551616)
    {zip : Bytes → Bytes} {d : Doc} {f : Fields} {docs rest : List Doc} {fss frest : List Fields} (hd : RepDocs (d :: docs) (f :: fss)) (hr : RepDocs rest frest)
    (hl : ∀ g ∈ f :: fss ++ frest, (encDoc g).length < 2147483648) (hs : ∀ g ∈ f :: fss, ∀ h ∈ f :: fss, g.metrics.SameShape h.metrics)
    (hsame : ∀ g ∈ fss, (fingerprint g).1 = (fingerprint f).1) (hdiff : ∀ g ∈ frest, (fingerprint g).1 ≠ (fingerprint f).1)
    {size : Nat} (h1 : 1 ≤ size) (h32 : size < 4294967295) {now : Nat → Time} (hnow : ∀ j, 0 ≤ (now j).nsec) :
    ∃ N, ∀ n, N ≤ n → ∃ c, addEach (fun c d => c.add fsub n d) (Ftdc.Dynamic.new size) ((d :: docs) ++ rest) = .ok (c, ((d :: docs) ++ rest).map fun _ => none) ∧
      ((∀ b ∈ c.chunks, ∀ ch ∈ b.chunks, ∀ p, Returns ch.payload (.ok p) → (zip p).length ≤ 2147482000) → ∃ (cs : List LaidChunk) (segs : List (List Fields)),
        (∀ x ∈ cs, x.Good fsub zip) ∧ segs.flatten = f :: fss ∧ Blocks size segs ∧ (cs.map fun x => x.first :: x.rest) = segs ++ frest.map (fun g => [g]) ∧
        (∀ j x, cs[j]? = some x → x.ms = i64 ((now j).sec * 1000 + (now j).nsec / 1000000)) ∧ (∀ x ∈ cs, x.metadata = none) ∧
        Returns (c.resolve zip now) (.ok (cs.flatMap (LaidChunk.bytes fsub zip)))) := by
  refine ⟨2147483648, fun n hn => ?_⟩
  obtain ⟨c, parts, segs, e1, e2, e3, e4, e5, e6⟩ := dynamic_two (fsub := fsub) hn h1 hd hr hl hs hsame hdiff
  refine ⟨c, e1, fun hp => ?_⟩
  obtain ⟨cs, c1, c2, c4, c5, c3⟩ := parts_layout (zip := zip) hsub hn h32 hnow parts 0 (fun q hq => (e3 q hq).1) (fun q hq b hb => by
    have : q.chunk ∈ (c.chunks.map Batch.chunks).flatten := by rw [e2]; exact List.mem_map_of_mem hq
    obtain ⟨l, hl', hq'⟩ := List.mem_flatten.mp this
    obtain ⟨x, hx, rfl⟩ := List.mem_map.mp hl'
    exact hp x hx q.chunk hq' b hb)
  refine ⟨cs, segs, c2, e5, e6, by rw [c1, e4], fun j x hj => by simpa using c4 j x hj, fun x hx => ?_, 10000000000, fun m hm => ?_⟩
  · obtain ⟨j, hj⟩ := List.mem_iff_getElem?.mp hx
    obtain ⟨q, hq, hm⟩ := c5 j x hj
    rw [(e3 q (List.mem_of_getElem? hq)).2] at hm
    cases hx : x.metadata with
    | none => rfl
    | some y => rw [hx] at hm; exact hm.elim
  · show c.resolve zip now m = _
    unfold Ftdc.Dynamic.resolve
    rw [e2, c3 m hm]

/-- two documents with one key, then two with others -/
example : ∃ d docs rest, ∃ N, ∀ n, N ≤ n → ∃ c, addEach (fun c d => c.add (fun a _ => a) n d) (Ftdc.Dynamic.new 2) ((d :: docs) ++ rest) = .ok (c, ((d :: docs) ++ rest).map fun _ => none) ∧
    ∃ cs : List LaidChunk, (cs.flatMap fun x => x.first :: x.rest) = [intField 0x78 1, intField 0x78 2, intField 0x79 3, intField 0x7a 4] ∧
      Returns (c.resolve (fun _ => []) fun _ => ⟨1, 0⟩) (.ok (cs.flatMap (LaidChunk.bytes (fun a _ => a) fun _ => []))) := by
  obtain ⟨d1, h1⟩ := intField_built 0x78 1 (by decide) (by decide)
  obtain ⟨d2, h2⟩ := intField_built 0x78 2 (by decide) (by decide)
  obtain ⟨d3, h3⟩ := intField_built 0x79 3 (by decide) (by decide)
  obtain ⟨d4, h4⟩ := intField_built 0x7a 4 (by decide) (by decide)
  obtain ⟨N, hN⟩ := C76_dynamic_partial (fsub := fun a _ => a) (fun _ _ h _ => h) (zip := fun _ => []) (d := d1) (docs := [d2]) (rest := [d3, d4]) (f := intField 0x78 1)
    (fss := [intField 0x78 2]) (frest := [intField 0x79 3, intField 0x7a 4]) ⟨h1, h2, trivial⟩ ⟨h3, h4, trivial⟩ (by decide +kernel)
    (by simp [intField_shape]) (by decide +kernel) (by decide +kernel) (size := 2) (by decide) (by decide)
    (now := fun _ => ⟨1, 0⟩) (by simp)
  refine ⟨d1, [d2], [d3, d4], N, fun n hn => ?_⟩
  obtain ⟨c, e1, e2⟩ := hN n hn
  obtain ⟨cs, segs, _, e3, _, e4, _, _, e5⟩ := e2 (by simp)
  exact ⟨c, e1, cs, by rw [List.flatMap_def, e4, List.flatten_append, e3]; rfl, e5⟩

/-- The table of what a streaming collector has written has a row with the numbers of every document that was added.  Partial: as in `C109_table_partial`. -/
theorem C109_streamed_partial {fsub : Nat → Nat → Nat} (hsub : ∀ a b, a < 18446744073709551616 → b < 18446744073709551616 → fsub a b < 18446744073709551616)
    {zip : Bytes → Bytes} {unzip : Bytes → Option Bytes} (hz : ∀ b, unzip (zip b) = some b) (date : Int → Bytes) {docs : List Doc} {f0 : Fields} {fss : List Fields}
    (hd : RepDocs docs (f0 :: fss)) (hl : ∀ fs ∈ f0 :: fss, (encDoc fs).length < 2147483648) (hs : ∀ f ∈ f0 :: fss, ∀ g ∈ f0 :: fss, f.metrics.SameShape g.metrics)
    (hk : ∀ f ∈ f0 :: fss, f.Kept) (hn : 0 < (f0.csv date).length)
    {max : Nat} (h32 : max < 4294967295) (md : Option Doc) (hmd : ∀ m, md = some m → ∃ mfs, RepFields m mfs ∧ (encDoc mfs).length ≤ 2147483000)
    (hsm : SmallChunks fsub zip max md docs) {now : Nat → Time} (hnow : ∀ j, 0 ≤ (now j).nsec) :
    ∃ N, ∀ n, N ≤ n → ∃ c c' : Streaming, addEach (fun c d => c.add fsub zip now n d) (streamingWith max ⟨[], []⟩ md) docs = .ok (c, docs.map fun _ => none) ∧
      c.flush zip now n = .ok (c', none) ∧ ∀ s : Stream.Source, s.left = c'.output.out → ∃ M, ∀ m, M ≤ m → ∃ chunks w,
        readAll unzip m s = (chunks, .ok ()) ∧ writeCSV date chunks [] = .ok (w, none) ∧
        w.out = metricNames (fun t => dotted (firstLast t)) f0.numbers :: (f0 :: fss).map (Fields.csv date) := by
  obtain ⟨N, hN⟩ := C76_streaming hsub hz hd hl hs h32 md hmd hsm hnow
  refine ⟨N, fun n hn' => ?_⟩
  obtain ⟨c, c', cs, a1, a2, a3, a4, _, _, _, a6⟩ := hN n hn'
  refine ⟨c, c', a1, a2, fun s hb => ?_⟩
  cases cs with
  | nil => cases a4
  | cons x cs =>
    have hmem : ∀ y ∈ x :: cs, ∀ f ∈ y.first :: y.rest, f ∈ f0 :: fss := fun y hy f hf => by rw [← a4]; exact List.mem_flatMap.mpr ⟨y, hy, hf⟩
    have hx : x.first = f0 := by simp only [List.flatMap_cons, List.cons_append, List.cons.injEq] at a4; exact a4.1
    have := C109_table_partial hsub hz date a3 (fun y hy f hf => hk f (hmem y hy f hf)) (by rw [hx]; exact hn) (fun y hy => by
      rw [csv_countF, csv_countF, hx]
      have := congrArg List.length (typesF_shape _ _ (hs y.first (hmem y (by simp [hy]) _ (by simp)) f0 (by simp)))
      simpa [numsF_metrics] using this) s (by rw [hb, a6])
    rwa [a4, hx] at this

/-- The same for what a batch collector resolves to. -/
theorem C109_batch_partial {fsub : Nat → Nat → Nat} (hsub : ∀ a b, a < 18446744073709551616 → b < 18446744073709551616 → fsub a b < 18446744073709551616)
    {zip : Bytes → Bytes} {unzip : Bytes → Option Bytes} (hz : ∀ b, unzip (zip b) = some b) (date : Int → Bytes) {docs : List Doc} {f0 : Fields} {fss : List Fields}
    (hd : RepDocs docs (f0 :: fss)) (hl : ∀ fs ∈ f0 :: fss, (encDoc fs).length < 2147483648) (hs : ∀ f ∈ f0 :: fss, ∀ g ∈ f0 :: fss, f.metrics.SameShape g.metrics)
    (hk : ∀ f ∈ f0 :: fss, f.Kept) (hn : 0 < (f0.csv date).length) {size : Nat} (h1 : 1 ≤ size) (h32 : size < 4294967295)
    (md : Option Doc) (hmd : ∀ m, md = some m → ∃ mfs, RepFields m mfs ∧ (encDoc mfs).length ≤ 2147483000) {now : Nat → Time} (hnow : ∀ j, 0 ≤ (now j).nsec) :
    ∃ c0, batchWith size md = .ok c0 ∧ ∃ N, ∀ n, N ≤ n → ∃ c, addEach (fun c d => c.add fsub n d) c0 docs = .ok (c, docs.map fun _ => none) ∧
      ((∀ ch ∈ c.chunks, ∀ p, Returns ch.payload (.ok p) → (zip p).length ≤ 2147482000) → ∃ b, Returns (c.resolve zip now) (.ok b) ∧
        ∀ s : Stream.Source, s.left = b → ∃ M, ∀ m, M ≤ m → ∃ chunks w, readAll unzip m s = (chunks, .ok ()) ∧ writeCSV date chunks [] = .ok (w, none) ∧
          w.out = metricNames (fun t => dotted (firstLast t)) f0.numbers :: (f0 :: fss).map (Fields.csv date)) := by
  obtain ⟨c0, b1, N, b2⟩ := C76_batch (zip := zip) hsub hd (by simp) hl hs h1 h32 md hmd hnow
  refine ⟨c0, b1, N, fun n hn' => ?_⟩
  obtain ⟨c, b3, b4⟩ := b2 n hn'
  refine ⟨c, b3, fun hp => ?_⟩
  obtain ⟨cs, a3, a4, _, _, _, a6⟩ := b4 hp
  refine ⟨_, a6, fun s hb => ?_⟩
  cases cs with
  | nil => cases a4
  | cons x cs =>
    have hmem : ∀ y ∈ x :: cs, ∀ f ∈ y.first :: y.rest, f ∈ f0 :: fss := fun y hy f hf => by rw [← a4]; exact List.mem_flatMap.mpr ⟨y, hy, hf⟩
    have hx : x.first = f0 := by simp only [List.flatMap_cons, List.cons_append, List.cons.injEq] at a4; exact a4.1
    have := C109_table_partial hsub hz date a3 (fun y hy f hf => hk f (hmem y hy f hf)) (by rw [hx]; exact hn) (fun y hy => by
      rw [csv_countF, csv_countF, hx]
      have := congrArg List.length (typesF_shape _ _ (hs y.first (hmem y (by simp [hy]) _ (by simp)) f0 (by simp)))
      simpa [numsF_metrics] using this) s hb
    rwa [a4, hx] at this

/-- three documents, two in the first chunk; hypotheses of the theorems -/
example : ∃ docs, RepDocs docs [exSample 1 [120], exSample 1 [], exSample 700 [121, 122]] ∧ SmallChunks (fun a _ => a) id 1 none docs ∧
    (∀ f ∈ [exSample 1 [120], exSample 1 [], exSample 700 [121, 122]], f.Kept) ∧ 0 < ((exSample 1 [120]).csv fun _ => []).length := by
  obtain ⟨docs, h⟩ := exSamples
  refine ⟨docs, h, smallChunks_of h (L := 100) (by decide +kernel) (by decide) (by decide) (fun b hb => ?_) _ _, ?_, ?_⟩
  · simp only [id]; omega
  · simp [exSample, Fields.Kept, BVal.Kept, Vals.Kept]
  · simp [exSample, Fields.csv, BVal.csv, Vals.csv]

/-- a batch collector with chunks of two -/
example : ∃ docs c0, batchWith 2 none = .ok c0 ∧ ∃ N, ∀ n, N ≤ n → ∃ c, addEach (fun c d => c.add (fun a _ => a) n d) c0 docs = .ok (c, docs.map fun _ => none) ∧
    ∃ cs : List LaidChunk, (cs.flatMap fun x => x.first :: x.rest) = [exSample 1 [120], exSample 1 [], exSample 700 [121, 122]] ∧
      Returns (c.resolve (fun _ => []) fun _ => ⟨1, 0⟩) (.ok (cs.flatMap (LaidChunk.bytes (fun a _ => a) fun _ => []))) := by
  obtain ⟨docs, h⟩ := exSamples
  obtain ⟨c0, h1, N, h2⟩ := C76_batch (fsub := fun a _ => a) (fun _ _ h _ => h) (zip := fun _ => []) h (by simp) exSamples_size exSamples_shape (size := 2) (by decide) (by decide)
    none nofun (now := fun _ => ⟨1, 0⟩) (by simp)
  refine ⟨docs, c0, h1, N, fun n hn => ?_⟩
  obtain ⟨c, h3, h4⟩ := h2 n hn
  obtain ⟨cs, _, h5, _, _, _, h6⟩ := h4 (by simp)
  exact ⟨c, h3, cs, h5, h6⟩

end Birch.Props
