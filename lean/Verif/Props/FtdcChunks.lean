import Verif.Proofs.FtdcRuns
import Verif.Props.FtdcCollect

/- C35, C36: batch and streaming collectors. -/

namespace Birch.Props
open Birch Model Model.Ftdc Spec Proofs Proofs.Ftdc

/-! ### C35 -/

/-- `NewBatchCollector`, with `SetMetadata` called or not -/
def batchWith (size : Nat) : Option Doc → Res Batch
  | none => .ok (Batch.new size)
  | some m => (Batch.new size).setMetadata m

/-- A batch collector takes every sequence of documents of one shape.  Its chunks hold consecutive samples, `size` of them in every
    chunk but the last; `Info` counts the samples, and the metrics once for every chunk; and what it resolves to is read back chunk by chunk, in order. -/
theorem C35_batch {fsub : Nat → Nat → Nat}
    (hsub : ∀ a b, a < 18446744073709551616 → b < 18446744073709551616 → fsub a b < 18446744073709551616)
    {zip : Bytes → Bytes} {unzip : Bytes → Option Bytes} (hz : ∀ b, unzip (zip b) = some b)
    {docs : List Doc} {fss : List Fields} (hd : RepDocs docs fss) (hne : fss ≠ [])
    (hl : ∀ fs ∈ fss, (encDoc fs).length < 2147483648) (hs : ∀ f ∈ fss, ∀ g ∈ fss, f.metrics.SameShape g.metrics)
    {size : Nat} (h1 : 1 ≤ size) (h32 : size < 4294967295)
    (md : Option Doc) (hmd : ∀ m, md = some m → ∃ mfs, RepFields m mfs ∧ (encDoc mfs).length ≤ 2147483000) :
    ∃ c0, batchWith size md = .ok c0 ∧ ∃ N, ∀ n, N ≤ n → ∃ c segs,
      addEach (fun c d => c.add fsub n d) c0 docs = .ok (c, docs.map fun _ => none) ∧
      segs.flatten = fss ∧ Blocks size segs ∧ c.chunks.map (fun ch => ch.info.1) = segs.map List.length ∧
      (∀ f ∈ fss, c.info = (fss.length, segs.length * f.kinds.length)) ∧
      ((∀ ch ∈ c.chunks, ∀ p, Returns ch.payload (.ok p) → (zip p).length ≤ 2147482000) → ∀ now, ∃ bytes, Returns (c.resolve zip now) (.ok bytes) ∧
        ∀ s : Stream.Source, s.left = bytes → ∃ M, ∀ m, M ≤ m → ∃ ds, readStructuredMetrics unzip m s = .ok ds ∧
          RepDocs ds (backChunks fsub segs)) := by
  refine ⟨⟨size, [newWith size md]⟩, by cases md <;> rfl, 2147483648, fun n hn => ?_⟩
  have h0 : BInv fsub n size ⟨size, [newWith size md]⟩ [] ⟨md, [], [], newWith size md⟩ :=
    ⟨rfl, rfl, by simp, run_nil, filled_nil fsub n size md, Nat.zero_le _, hmd⟩
  obtain ⟨c, parts, p, e1, e2, e3, _, e5⟩ := batch_addEach (fsub := fsub) hn h1 (⟨hd, hl, hs⟩ : Run docs fss) docs fss h0 (by simp) hd
  have hpne := e3 (.inr hne)
  have hok : ∀ q ∈ parts ++ [p], q.Ok fsub n size := by
    intro q hq
    rcases List.mem_append.mp hq with hq | hq
    · exact (e2.done q hq).1
    · simp only [List.mem_singleton] at hq; subst hq
      exact ⟨e2.run, hpne, e2.filled, by have := e2.room; omega, e2.md⟩
  have hch : c.chunks = (parts ++ [p]).map Part.chunk := by rw [e2.chunks]; simp
  refine ⟨c, (parts ++ [p]).map Part.fss, e1, by simpa using e5, ?_, ?_, fun f hf => ?_, fun hp now => ?_⟩
  · rw [List.map_append]
    apply blocks_snoc
    · intro t ht; obtain ⟨q, hq, rfl⟩ := List.mem_map.mp ht; exact (e2.done q hq).2
    · have := List.length_pos_iff.mpr hpne; omega
    · exact e2.room
  · rw [hch, List.map_map, List.map_map]
    apply List.map_congr_left
    intro q hq
    exact filled_info (hok q hq).run (hok q hq).filled (hok q hq).room hn
  · have hfl : ((parts ++ [p]).map Part.fss).flatten = fss := by simpa using e5
    rw [← hfl]
    unfold Batch.info
    rw [hch, List.length_map]
    apply sumInfo_parts (n := n) (fsub := fsub) hn hok
    intro q hq g hg
    exact kinds_shape (hs f hf g (by rw [← hfl]; exact List.mem_flatten.mpr ⟨_, List.mem_map_of_mem hq, hg⟩))
  · obtain ⟨bytes, b1, b2⟩ := parts_read hsub hz hn h32 now (parts ++ [p]) 0 hok
      (fun q hq => hp q.chunk (by rw [hch]; exact List.mem_map_of_mem hq))
    exact ⟨bytes, ⟨_, fun m hm => by unfold Batch.resolve; rw [hch]; exact b1 m hm⟩, b2⟩

example : ∃ docs, ∃ N, ∀ n, N ≤ n → ∃ c : Batch, addEach (fun c d => c.add (fun a _ => a) n d) (Batch.new 2) docs = .ok (c, [none, none, none]) ∧
    c.chunks.map (fun ch => ch.info.1) = [2, 1] := by
  obtain ⟨docs, h⟩ := exSamples
  obtain ⟨c0, h0, N, h1⟩ := C35_batch (fsub := fun a _ => a) (fun a _ h _ => h) (zip := id) (unzip := some) (fun _ => rfl) h (by simp) exSamples_size
    exSamples_shape (size := 2) (by simp) (by simp) none nofun
  cases h0
  refine ⟨docs, N, fun n hn => ?_⟩
  obtain ⟨c, segs, a1, a2, a3, a4, _, _⟩ := h1 n hn
  have hlen := repDocs_len _ _ h
  refine ⟨c, ?_, ?_⟩
  · rw [a1]; match docs, hlen with
    | [_, _, _], _ => rfl
  · rw [a4]
    have := congrArg List.length a2
    match segs, a3 with
    | [], _ => simp at this
    | [s], h => simp [Blocks] at h this; omega
    | [s, t], h => simp [Blocks] at h this; simp; omega
    | [s, t, u], h => simp [Blocks] at h this; omega
    | s :: t :: u :: v :: rest, h => simp [Blocks] at h this; omega

/-- Without doubles and timestamps, and with dates of the years 1677 to 2262, the samples themselves come back. -/
theorem C35_kept_partial {fsub : Nat → Nat → Nat}
    (hsub : ∀ a b, a < 18446744073709551616 → b < 18446744073709551616 → fsub a b < 18446744073709551616)
    {zip : Bytes → Bytes} {unzip : Bytes → Option Bytes} (hz : ∀ b, unzip (zip b) = some b)
    {docs : List Doc} {fss : List Fields} (hd : RepDocs docs fss) (hne : fss ≠ [])
    (hl : ∀ fs ∈ fss, (encDoc fs).length < 2147483648) (hs : ∀ f ∈ fss, ∀ g ∈ fss, f.metrics.SameShape g.metrics)
    (hk : ∀ f ∈ fss, f.metrics.Kept) {size : Nat} (h1 : 1 ≤ size) (h32 : size < 4294967295)
    (md : Option Doc) (hmd : ∀ m, md = some m → ∃ mfs, RepFields m mfs ∧ (encDoc mfs).length ≤ 2147483000) :
    ∃ c0, batchWith size md = .ok c0 ∧ ∃ N, ∀ n, N ≤ n → ∃ c,
      addEach (fun c d => c.add fsub n d) c0 docs = .ok (c, docs.map fun _ => none) ∧
      ((∀ ch ∈ c.chunks, ∀ p, Returns ch.payload (.ok p) → (zip p).length ≤ 2147482000) → ∀ now, ∃ bytes, Returns (c.resolve zip now) (.ok bytes) ∧
        ∀ s : Stream.Source, s.left = bytes → ∃ M, ∀ m, M ≤ m → ∃ ds, readStructuredMetrics unzip m s = .ok ds ∧
          RepDocs ds (fss.map Fields.metrics)) := by
  obtain ⟨c0, h0, N, h⟩ := C35_batch hsub hz hd hne hl hs h1 h32 md hmd
  refine ⟨c0, h0, N, fun n hn => ?_⟩
  obtain ⟨c, segs, a1, a2, _, _, _, a5⟩ := h n hn
  have hm : ∀ s ∈ segs, ∀ f ∈ s, f ∈ fss := fun s hs f hf => a2 ▸ List.mem_flatten.mpr ⟨s, hs, hf⟩
  rw [backChunks_kept fsub segs (fun s hs' f hf => ⟨hk f (hm s hs' f hf), fun g hg => hs f (hm s hs' f hf) g (hm s hs' g hg)⟩), a2] at a5
  exact ⟨c, a1, a5⟩

/-- A batch collector without samples cannot be resolved. -/
theorem C35_empty_error (size : Nat) (zip : Bytes → Bytes) (now : Nat → Time) (n : Nat) :
    (Batch.new size).resolve zip now n = .err .other := rfl

/-- The limit must be at least one: with the limit 0 every document is taken, but the collector can never be resolved. -/
theorem C35_zero_limit (fsub : Nat → Nat → Nat) (zip : Bytes → Bytes) {d : Doc} {fs : Fields} (h : RepFields d fs)
    (hl : (encDoc fs).length < 2147483648) :
    ∃ N, ∀ n, N ≤ n → ∃ c, (Batch.new 0).add fsub n d = .ok (c, none) ∧ ∀ now m, c.resolve zip now m = .err .other := by
  refine ⟨2147483648, fun n hn => ?_⟩
  have hr : Run ([] ++ [d]) ([] ++ [fs]) := ⟨⟨h, trivial⟩, by simpa using hl, by simpa using shapeF_refl _⟩
  obtain ⟨c, h1, _⟩ := run_add (fsub := fsub) (md := none) (max := 0) hr (filled_nil fsub n 0 none) (Nat.le_refl 0) hn
  refine ⟨⟨0, [Better.new 0, c]⟩, ?_, fun _ _ => rfl⟩
  simp only [newWith] at h1
  simp [Batch.add, Batch.new, h1]

example : (encDoc (exSample 1 [120])).length < 2147483648 := by decide +kernel

/-! ### C36 -/

/-- `NewStreamingCollector`, with `SetMetadata` called or not -/
def streamingWith (max : Nat) (w : Sink) : Option Doc → Streaming
  | none => Streaming.new max w
  | some m => (Streaming.new max w).setMetadata m

/-- Documents of one shape are added to a streaming collector whose writer may fail at any time (writing nothing then), and after a
    final flush that succeeds the output is read.  It has exactly the samples whose `Add` returned no error, in order, in chunks of
    `max + 1` samples; with a writer that never fails these are all samples. -/
theorem C36_written_once {fsub : Nat → Nat → Nat}
    (hsub : ∀ a b, a < 18446744073709551616 → b < 18446744073709551616 → fsub a b < 18446744073709551616)
    {zip : Bytes → Bytes} {unzip : Bytes → Option Bytes} (hz : ∀ b, unzip (zip b) = some b)
    {docs : List Doc} {fss : List Fields} (hd : RepDocs docs fss)
    (hl : ∀ fs ∈ fss, (encDoc fs).length < 2147483648) (hs : ∀ f ∈ fss, ∀ g ∈ fss, f.metrics.SameShape g.metrics)
    {max : Nat} (h32 : max < 4294967295) (md : Option Doc) (hmd : ∀ m, md = some m → ∃ mfs, RepFields m mfs ∧ (encDoc mfs).length ≤ 2147483000)
    (hsm : SmallChunks fsub zip max md docs) {plan : List (Option (Nat × Option Err))} (hplan : AllOrNothing plan) (now : Nat → Time) :
    ∃ N, ∀ n, N ≤ n → ∃ c es segs c' e,
      addEach (fun c d => c.add fsub zip now n d) (streamingWith max ⟨[], plan⟩ md) docs = .ok (c, es) ∧ es.length = docs.length ∧
      segs.flatten = taken fss (es.map Option.isNone) ∧ Blocks (max + 1) segs ∧ c.flush zip now n = .ok (c', e) ∧
      (plan = [] → es = (docs.map fun _ => none) ∧ e = none) ∧
      (e = none → ∀ s : Stream.Source, s.left = c'.output.out → ∃ M, ∀ m, M ≤ m → ∃ ds, readStructuredMetrics unzip m s = .ok ds ∧
        RepDocs ds (backChunks fsub segs)) := by
  refine ⟨10000000000, fun n hn => ?_⟩
  have h0 : SInv fsub zip now n max (streamingWith max ⟨[], plan⟩ md) [] (Part.empty max md) := by
    cases md <;> exact ⟨rfl, rfl, rfl, rfl, rfl, by simp, by simp, run_nil, filled_nil fsub n max _, Nat.zero_le _, hmd⟩
  have hp0 : (streamingWith max ⟨[], plan⟩ md).output.plan = plan := by cases md <;> rfl
  obtain ⟨c, es, parts, p, e1, e2, e3, e4, e5, e6, e7, e8, e9, e10⟩ := stream_addEach hsub hz hn h32 (⟨hd, hl, hs⟩ : Run docs fss) hsm docs fss h0 rfl
    (by simp) (by rw [hp0]; exact hplan) (by simp [Part.empty]) (by simp [Part.empty]) hd
  simp only [List.map_nil, List.flatten_nil, Part.empty, List.append_nil, List.nil_append] at e10
  rw [hp0] at e8
  by_cases hp : p.fss = []
  · obtain ⟨_, rfl⟩ := e9 hp
    have hi := filled_info e3.run e3.filled e3.room (by omega)
    refine ⟨c, es, [], c, none, e1, e2, by rw [← e10, hp]; simp, trivial, ?_, fun h0 => ⟨(e8 h0).1, rfl⟩, fun _ s hs => ?_⟩
    · unfold Streaming.flush Streaming.flushWith
      rw [e3.inner, hi, hp]; simp
    · have ho := e3.out
      simp only [List.map_nil, resolveChunks, Res.ok.injEq] at ho
      exact readStructured_ok [] (by simp) 0 (by simp) s (by rw [hs, ← ho]; rfl)
  · have hsmall := hsm p.docs n p.chunk _ e7 (by omega) (e4 ▸ e3.filled)
    obtain ⟨c', e, f1, f2, _, _, f5⟩ := stream_flush hsub hz hn h32 e3 hp hsmall e6 Streaming.reset p.md (.inl rfl) streaming_reset_ok streaming_reset_inner
    refine ⟨c, es, (parts ++ [p]).map Part.fss, c', e, e1, e2, by simpa using e10, ?_, f1, fun h0 => ⟨(e8 h0).1, (f5 (e8 h0).2).1⟩, fun he s hs => ?_⟩
    · rw [List.map_append]
      apply blocks_snoc
      · intro t ht; obtain ⟨q, hq, rfl⟩ := List.mem_map.mp ht; exact (e5 q hq).1
      · have := List.length_pos_iff.mpr hp; omega
      · exact e3.room
    · have hok : ∀ q ∈ parts ++ [p], q.Ok fsub n max := (f2 he).done
      obtain ⟨bytes, b1, b2⟩ := parts_read hsub hz (by omega) h32 now (parts ++ [p]) 0 hok (f2 he).small
      have ho := (f2 he).out
      rw [b1 n hn] at ho
      cases ho
      exact b2 s hs

/-- the hypotheses hold for small samples without compression, with a writer whose second call fails -/
example : ∃ docs, RepDocs docs [exSample 1 [120], exSample 1 [], exSample 700 [121, 122]] ∧ SmallChunks (fun a _ => a) id 0 none docs ∧
    AllOrNothing [none, some (0, some .other)] := by
  obtain ⟨docs, h⟩ := exSamples
  refine ⟨docs, h, smallChunks_of h (L := 100) (by decide +kernel) (by decide) (by decide) (fun b hb => ?_) _ _, by simp [AllOrNothing]⟩
  simp only [id]; omega

/-- Without doubles and timestamps, and with dates of the years 1677 to 2262, and a writer that does not fail, the output has the
    samples themselves. -/
theorem C36_kept_partial {fsub : Nat → Nat → Nat}
    (hsub : ∀ a b, a < 18446744073709551616 → b < 18446744073709551616 → fsub a b < 18446744073709551616)
    {zip : Bytes → Bytes} {unzip : Bytes → Option Bytes} (hz : ∀ b, unzip (zip b) = some b)
    {docs : List Doc} {fss : List Fields} (hd : RepDocs docs fss)
    (hl : ∀ fs ∈ fss, (encDoc fs).length < 2147483648) (hs : ∀ f ∈ fss, ∀ g ∈ fss, f.metrics.SameShape g.metrics)
    (hk : ∀ f ∈ fss, f.metrics.Kept)
    {max : Nat} (h32 : max < 4294967295) (md : Option Doc) (hmd : ∀ m, md = some m → ∃ mfs, RepFields m mfs ∧ (encDoc mfs).length ≤ 2147483000)
    (hsm : SmallChunks fsub zip max md docs) (now : Nat → Time) :
    ∃ N, ∀ n, N ≤ n → ∃ c c',
      addEach (fun c d => c.add fsub zip now n d) (streamingWith max ⟨[], []⟩ md) docs = .ok (c, docs.map fun _ => none) ∧
      c.flush zip now n = .ok (c', none) ∧
      ∀ s : Stream.Source, s.left = c'.output.out → ∃ M, ∀ m, M ≤ m → ∃ ds, readStructuredMetrics unzip m s = .ok ds ∧
        RepDocs ds (fss.map Fields.metrics) := by
  obtain ⟨N, h⟩ := C36_written_once hsub hz hd hl hs h32 md hmd hsm (plan := []) (by simp [AllOrNothing]) now
  refine ⟨N, fun n hn => ?_⟩
  obtain ⟨c, es, segs, c', e, a1, a2, a3, a4, a5, a6, a7⟩ := h n hn
  obtain ⟨rfl, rfl⟩ := a6 rfl
  have ht : ∀ (docs : List Doc) (fss : List Fields), RepDocs docs fss →
      taken fss ((docs.map fun _ => (none : Option Err)).map Option.isNone) = fss := by
    intro docs fss hr
    induction docs generalizing fss with
    | nil => cases fss with
      | nil => rfl
      | cons f fss => exact hr.elim
    | cons d docs ih => cases fss with
      | nil => exact hr.elim
      | cons f fss =>
        simp only [List.map_cons, Option.isNone_none, taken, if_true]
        rw [ih fss hr.2]
  rw [ht docs fss hd] at a3
  have hm : ∀ s ∈ segs, ∀ f ∈ s, f ∈ fss := fun s hs f hf => a3 ▸ List.mem_flatten.mpr ⟨s, hs, hf⟩
  have := a7 rfl
  rw [backChunks_kept fsub segs (fun s hs' f hf => ⟨hk f (hm s hs' f hf), fun g hg => hs f (hm s hs' f hf) g (hm s hs' g hg)⟩), a3] at this
  exact ⟨c, c', a1, a5, this⟩

end Birch.Props
