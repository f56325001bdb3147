import Verif.Proofs.FtdcMetadata
import Verif.Props.FtdcChunks

/- C93: the metadata of chunks. -/

namespace Birch.Props
open Birch Model Model.Ftdc Spec Proofs Proofs.Ftdc

/-! ### C93 -/

/-- The metadata of a chunk that is read is the last document before it in the file that says it is metadata, whatever else is in the file.  Reading may fail before the end. -/
theorem C93_read (unzip : Bytes → Option Bytes) (fuel : Nat) {docs : List Doc} {file : List Fields} (hd : RepDocs docs file) :
    ∃ ms, InForce none file ms ∧
      (readChunks unzip fuel none docs).1.length ≤ ms.length ∧
      ((readChunks unzip fuel none docs).2 = .ok () → (readChunks unzip fuel none docs).1.length = ms.length) ∧
      ∀ (i : Nat) c m, (readChunks unzip fuel none docs).1[i]? = some c → ms[i]? = some m → RepMeta c.metadata m := by
  obtain ⟨ms, hi⟩ := inForce_total file none
  obtain ⟨h1, h2, h3⟩ := readChunks_md unzip fuel hi none docs hd trivial
  refine ⟨ms, hi, by simpa using h1, fun he => by simpa [he, Fine] using h2, fun i c m hc hm => h3 i _ _ (by simp [hc]) hm⟩

private theorem type_not_x : ([120] : Bytes) ≠ ascii "type" := by decide +kernel

/-- a document of another kind -/
def exForeignMeta : Fields := .cons [120] .null .nil

/-- two chunks; the second has metadata of its own -/
example : InForce none [chunkDocument 1 [], metaDocument 2 .nil, exForeignMeta, chunkDocument 3 []] [none, some (metaDocument 2 .nil)] :=
  .chunk (chunkDocument_is _ _) (.metadata (metaDocument_is _ _) (.other (by rintro ⟨t, h, _⟩; simp [exForeignMeta, Fields.firstNamed, type_not_x] at h)
    (by rintro ⟨t, h, _⟩; simp [exForeignMeta, Fields.firstNamed, type_not_x] at h) (.chunk (chunkDocument_is _ _) .done)))

/-- In a file of chunks as collectors write them, each chunk has the metadata that were written with it, or else those of the last chunk before it that has any: the document
    `{_id, type, doc}` around what was given to `SetMetadata`. -/
theorem C93_file {fsub : Nat → Nat → Nat}
    (hsub : ∀ a b, a < 18446744073709551616 → b < 18446744073709551616 → fsub a b < 18446744073709551616)
    {zip : Bytes → Bytes} {unzip : Bytes → Option Bytes} (hz : ∀ b, unzip (zip b) = some b) (cs : List LaidChunk)
    (h : ∀ c ∈ cs, c.Good fsub zip) (s : Stream.Source) (hs : s.left = cs.flatMap (LaidChunk.bytes fsub zip)) :
    ∃ M, ∀ m, M ≤ m → ∃ chunks, readAll unzip m s = (chunks, .ok ()) ∧ chunks.length = cs.length ∧
      ∀ (i : Nat) c md, chunks[i]? = some c → (carried none cs)[i]? = some md → RepMeta c.metadata md := by
  obtain ⟨gss, g1, g2, g3, g4⟩ := laid_all hsub hz cs h
  obtain ⟨M, hM⟩ := readStructured_ok gss g1 10000000000 g4 s (by rw [hs, g3])
  refine ⟨M + (cs.flatMap (laidDocs fsub zip)).length + 2147483648, fun m hm => ?_⟩
  have hwf : ∀ f ∈ cs.flatMap (laidDocs fsub zip), f.WF ∧ (encDoc f).length < 2147483648 := by
    intro f hf
    obtain ⟨c, hc, hf⟩ := List.mem_flatMap.mp hf
    exact laid_docs_good (h c hc) f hf
  obtain ⟨docs, h1, h2⟩ := readDiagnostic_ok _ m s hwf (fun f hf => by have := (hwf f hf).2; omega) (by omega) (by rw [hs, laid_bytes])
  obtain ⟨p1, p2, p3⟩ := readChunks_md unzip m (laid_inForce fsub zip cs none) none docs h2 trivial
  obtain ⟨ds, hds, _⟩ := hM m (by omega)
  unfold readStructuredMetrics at hds
  have hr : readAll unzip m s = ((readChunks unzip m none docs).1, match (readChunks unzip m none docs).2 with | .ok () => .ok () | e => e) := by
    unfold readAll; rw [h1]; cases he : (readChunks unzip m none docs).2 <;> simp only [he]
  have hok : (readChunks unzip m none docs).2 = .ok () := by
    rw [hr] at hds
    cases he : (readChunks unzip m none docs).2 with
    | ok _ => rfl
    | err e => rw [he] at hds; cases hds
    | panic => rw [he] at hds; cases hds
    | oof => rw [he] at hds; cases hds
  rw [hok] at hr p2
  have hlen := p2 rfl
  rw [List.length_map, laid_count fsub zip] at hlen
  exact ⟨_, hr, hlen, fun i c md hc hmd => p3 i _ _ (by simp [hc]) hmd⟩

/-- the second of three chunks has new metadata -/
example (a b : Fields) : carried none [⟨1, some a, .nil, []⟩, ⟨2, some b, .nil, []⟩, ⟨3, none, .nil, []⟩] =
    [some (metaDocument 1 a), some (metaDocument 2 b), some (metaDocument 2 b)] := rfl

/-- A base collector keeps its metadata until they are set again, also when it is reset or flushed. -/
theorem C93_base (fsub : Nat → Nat → Nat) (zip : Bytes → Bytes) (now : Nat → Time) (fuel max : Nat) (xs : List Call) (c : Better)
    (h : (Better.methods fsub zip now fuel).calls (Better.new max) xs = .ok c) : c.metadata = metadataAfter (fun _ => false) none xs := by
  refine (calls_inv _ (fun _ => false) (fun md c => c.metadata = md) (fun _ => True) ?_ xs none _ c (by simp) rfl h)
  rintro md c c' (d | d | _ | _) _ hp h
  · obtain ⟨⟨c1, e⟩, h1, h⟩ := Res.bind_eq_ok.mp h; cases h
    exact (better_add_md h1).trans hp
  · cases h; rfl
  · cases h; exact hp
  · obtain ⟨⟨c1, e⟩, h1, h⟩ := Res.bind_eq_ok.mp h; cases h
    show c1.metadata = md
    dsimp only [Better.methods, flushOf] at h1
    split at h1
    · cases h1; exact hp
    · split at h1 <;> cases h1 <;> exact hp

example (m m' : Doc) (d : Doc) : metadataAfter (fun _ => false) none [.setMetadata m, .add d, .flush, .reset, .setMetadata m', .add d] = some m' := rfl

/-- metadata, a reset, and nothing else: they are still there -/
example (m : Doc) : ∃ c, (Better.methods (fun a _ => a) id (fun _ => ⟨0, 0⟩) 0).calls (Better.new 1) [.setMetadata m, .reset] = .ok c ∧ c.metadata = some m := ⟨_, rfl, rfl⟩

/-- So does a streaming collector, which writes them with every chunk. -/
theorem C93_streaming (fsub : Nat → Nat → Nat) (zip : Bytes → Bytes) (now : Nat → Time) (fuel max : Nat) (w : Sink) (xs : List Call) (c : Streaming)
    (h : (Streaming.methods fsub zip now fuel).calls (Streaming.new max w) xs = .ok c) : c.inner.metadata = metadataAfter (fun _ => false) none xs := by
  refine (calls_inv _ (fun _ => false) (fun md c => c.inner.metadata = md) (fun _ => True) ?_ xs none _ c (by simp) rfl h)
  rintro md c c' (d | d | _ | _) _ hp h
  · obtain ⟨⟨c1, e⟩, h1, h⟩ := Res.bind_eq_ok.mp h; cases h
    exact (streaming_add_md h1).trans hp
  · cases h; rfl
  · cases h; exact hp
  · obtain ⟨⟨c1, e⟩, h1, h⟩ := Res.bind_eq_ok.mp h; cases h
    exact (flushWith_md (reset := Streaming.reset) (fun _ => rfl) h1).trans hp

example (m : Doc) : ∃ c, (Streaming.methods (fun a _ => a) id (fun _ => ⟨0, 0⟩) 0).calls (Streaming.new 1 ⟨[], []⟩) [.setMetadata m, .reset, .flush] = .ok c ∧
    c.inner.metadata = some m := ⟨_, rfl, rfl⟩

/-- is it a call of `Reset`? -/
def isReset : Call → Bool
  | .reset => true
  | _ => false

/-- The metadata of a batch collector are with its first chunk, and no other chunk has any; `Reset` removes them.

    Missing from C93: `Reset` should keep them, as that of the base collector does. -/
theorem C93_batch_partial (fsub : Nat → Nat → Nat) (zip : Bytes → Bytes) (now : Nat → Time) (fuel size : Nat) (xs : List Call) (hx : ∀ x ∈ xs, x ≠ .flush) (c : Batch)
    (h : (Batch.methods fsub zip now fuel).calls (Batch.new size) xs = .ok c) :
    ∃ k, c.chunks.map Better.metadata = metadataAfter isReset none xs :: List.replicate k none := by
  refine (calls_inv _ isReset (fun md c => Headed md c.chunks) (· ≠ .flush) ?_ xs none _ c hx (headed_new size) h)
  rintro md c c' (d | d | _ | _) ho hp h
  · obtain ⟨⟨c1, e⟩, h1, h⟩ := Res.bind_eq_ok.mp h; cases h
    exact batch_add_headed h1 hp
  · exact batch_set_headed h hp
  · cases h; exact headed_new _
  · exact absurd rfl ho

/-- Setting them, and then resetting. -/
example (m : Doc) : ∃ c, (Batch.methods (fun a _ => a) id (fun _ => ⟨0, 0⟩) 0).calls (Batch.new 1) [.setMetadata m, .reset] = .ok c ∧ c.chunks.map Better.metadata = [none] :=
  ⟨_, rfl, rfl⟩

/-- So it is with a dynamic collector. -/
theorem C93_dynamic_partial (fsub : Nat → Nat → Nat) (zip : Bytes → Bytes) (now : Nat → Time) (fuel max : Nat) (xs : List Call) (hx : ∀ x ∈ xs, x ≠ .flush) (c : Ftdc.Dynamic)
    (h : (Dynamic.methods fsub zip now fuel).calls (Dynamic.new max) xs = .ok c) :
    ∃ k, (c.chunks.map Batch.chunks).flatten.map Better.metadata = metadataAfter isReset none xs :: List.replicate k none := by
  refine headedD_flat (calls_inv _ isReset (fun md c => HeadedD md c.chunks) (· ≠ .flush) ?_ xs none _ c hx ⟨_, [], rfl, headed_new max, by simp⟩ h)
  rintro md c c' (d | d | _ | _) ho hp h
  · obtain ⟨⟨c1, e⟩, h1, h⟩ := Res.bind_eq_ok.mp h; cases h
    exact dynamic_add_headed h1 hp
  · exact dynamic_set_headed h hp
  · cases h; exact ⟨_, [], rfl, headed_new _, by simp⟩
  · exact absurd rfl ho

example (m : Doc) (d : Doc) : metadataAfter isReset none [.setMetadata m, .add d, .reset, .add d] = none := rfl

example (m : Doc) : ∃ c, (Dynamic.methods (fun a _ => a) id (fun _ => ⟨0, 0⟩) 0).calls (Dynamic.new 1) [.reset, .setMetadata m] = .ok c ∧
    (c.chunks.map Batch.chunks).flatten.map Better.metadata = [some m] := ⟨_, rfl, rfl⟩

/-- Writing out a batch collector that has samples with `FlushCollector` therefore removes the metadata: what it writes next is without. -/
theorem C93_flush_removes (fsub : Nat → Nat → Nat) (zip : Bytes → Bytes) (now : Nat → Time) (fuel : Nat) (c c' : Batch) (bytes : Bytes) (hi : c.info.1 ≠ 0)
    (hr : c.resolve zip now fuel = .ok bytes) (h : (Batch.methods fsub zip now fuel).flush c = .ok (c', none)) : c'.chunks.map Better.metadata = [none] := by
  dsimp only [Batch.methods, flushOf] at h
  rw [if_neg hi, hr] at h
  cases h; rfl

/-- a batch collector with metadata and one sample, the empty document -/
def exFull : Batch := ⟨1, [⟨some [], some [], [], [], 0, 1⟩]⟩

example : exFull.info.1 ≠ 0 ∧ ∃ bytes, exFull.resolve id (fun _ => ⟨0, 0⟩) 99 = .ok bytes ∧
    (Batch.methods (fun a _ => a) id (fun _ => ⟨0, 0⟩) 99).flush exFull = .ok (exFull.reset, none) := by
  have h : (match exFull.resolve id (fun _ => ⟨0, 0⟩) 99 with | .ok _ => true | _ => false) = true := by decide +kernel
  split at h
  · rename_i b hb
    refine ⟨by decide, b, hb, ?_⟩
    dsimp only [Batch.methods, flushOf]
    rw [if_neg (by decide), hb]
  · cases h

/-- Writing out a streaming dynamic collector removes them as well. -/
theorem C93_streaming_dynamic_removes (zip : Bytes → Bytes) (now : Nat → Time) (fuel : Nat) (c c' : StreamingDynamic) (hi : c.base.inner.info.1 ≠ 0)
    (h : c.flush zip now fuel = .ok (c', none)) : c'.base.inner.metadata = none := by
  unfold StreamingDynamic.flush at h
  obtain ⟨⟨b, e⟩, h1, h⟩ := Res.bind_eq_ok.mp h
  dsimp only at h
  unfold Streaming.flushWith at h1
  rw [if_neg hi] at h1
  split at h1
  · split at h1
    · cases h1; simp at h
    · split at h1
      · cases h1; simp at h
      · cases h1
        rw [if_pos ⟨rfl, hi⟩] at h
        cases h; rfl
  · cases h1; simp at h
  · cases h1
  · cases h1

example : ∃ c : StreamingDynamic, c.base.inner.metadata ≠ none ∧ c.base.inner.info.1 ≠ 0 ∧ ∃ c', c.flush id (fun _ => ⟨0, 0⟩) 99 = .ok (c', none) := by
  have h : (match (⟨[], 0, ⟨⟨[], []⟩, 1, 1, ⟨some [], some [], [], [], 0, 1⟩, 0⟩⟩ : StreamingDynamic).flush id (fun _ => ⟨0, 0⟩) 99 with | .ok (_, none) => true | _ => false) = true := by
    decide +kernel
  split at h
  · rename_i c' hc
    refine ⟨_, ?_, ?_, c', hc⟩
    · intro h; cases h
    · decide
  · cases h

/-- What each call does to the metadata of a streaming dynamic collector: `SetMetadata` replaces them, `Reset` and a successful flush with samples remove them, a flush that
    fails or has nothing to write keeps them, and so does `Add`, unless there are samples, whose chunk it may write out. -/
theorem C93_streaming_dynamic (fsub : Nat → Nat → Nat) (zip : Bytes → Bytes) (now : Nat → Time) (fuel : Nat) (c : StreamingDynamic) :
    (∀ d c', (StreamingDynamic.methods fsub zip now fuel).setMetadata c d = .ok c' → c'.base.inner.metadata = some d) ∧
    ((StreamingDynamic.methods fsub zip now fuel).reset c).base.inner.metadata = none ∧
    (∀ c' e, (StreamingDynamic.methods fsub zip now fuel).flush c = .ok (c', e) →
      c'.base.inner.metadata = if e = none ∧ c.base.inner.info.1 ≠ 0 then none else c.base.inner.metadata) ∧
    (∀ d c' e, (StreamingDynamic.methods fsub zip now fuel).add c d = .ok (c', e) →
      c'.base.inner.metadata = c.base.inner.metadata ∨ (c'.base.inner.metadata = none ∧ c.base.inner.info.1 ≠ 0)) := by
  have hflush : ∀ (c c' : StreamingDynamic) e, c.flush zip now fuel = .ok (c', e) →
      c'.base.inner.metadata = if e = none ∧ c.base.inner.info.1 ≠ 0 then none else c.base.inner.metadata := by
    intro c c' e h
    by_cases hi : c.base.inner.info.1 = 0
    · rw [if_neg (by simp [hi])]
      unfold StreamingDynamic.flush Streaming.flushWith at h
      simp only [hi, not_true, and_false, if_false] at h
      cases h; rfl
    · cases e with
      | none => rw [if_pos ⟨rfl, hi⟩]; exact C93_streaming_dynamic_removes zip now fuel c c' hi h
      | some e =>
        rw [if_neg (by simp)]
        unfold StreamingDynamic.flush at h
        obtain ⟨⟨b, e'⟩, h1, h⟩ := Res.bind_eq_ok.mp h
        dsimp only at h
        unfold Streaming.flushWith at h1
        rw [if_neg hi] at h1
        split at h1
        · split at h1
          · cases h1; rw [if_neg (by simp)] at h; cases h; rfl
          · split at h1
            · cases h1; rw [if_neg (by simp)] at h; cases h; rfl
            · cases h1; rw [if_pos ⟨rfl, hi⟩] at h; cases h
        · cases h1; rw [if_neg (by simp)] at h; cases h; rfl
        · cases h1
        · cases h1
  have hbase : ∀ (c c' : StreamingDynamic) d e, c.addBase fsub zip now fuel d = .ok (c', e) → c'.base.inner.metadata = c.base.inner.metadata := by
    intro c c' d e h
    unfold StreamingDynamic.addBase at h
    obtain ⟨⟨b, e'⟩, h1, h⟩ := Res.bind_eq_ok.mp h
    cases h
    exact streaming_add_md h1
  refine ⟨fun d c' h => ?_, rfl, fun c' e h => hflush c c' e h, fun d c' e h => ?_⟩
  · cases h; rfl
  · change c.add fsub zip now fuel d = _ at h
    unfold StreamingDynamic.add at h
    obtain ⟨⟨hash, num⟩, _, h⟩ := Res.bind_eq_ok.mp h
    dsimp only at h
    have hb : (if c.hash = [] then { c with hash := hash, metricCount := num } else c).base = c.base := by split <;> rfl
    revert h
    generalize (if c.hash = [] then ({ c with hash := hash, metricCount := num } : StreamingDynamic) else c) = c0 at hb
    intro h
    split at h
    · split at h
      · obtain ⟨⟨c1, e1⟩, h1, h⟩ := Res.bind_eq_ok.mp h
        have hf := hflush _ _ _ h1
        rw [hb] at hf
        cases e1 with
        | some e1 => cases h; rw [if_neg (by simp)] at hf; exact .inl hf
        | none =>
          have := hbase _ _ _ _ h
          by_cases hi : c.base.inner.info.1 = 0
          · rw [if_neg (by simp [hi])] at hf; exact .inl (this.trans hf)
          · rw [if_pos ⟨rfl, hi⟩] at hf; exact .inr ⟨this.trans hf, hi⟩
      · exact .inl ((hbase _ _ _ _ h).trans (by rw [hb]))
    · split at h
      · obtain ⟨⟨c1, e1⟩, h1, h⟩ := Res.bind_eq_ok.mp h
        have hf := hflush _ _ _ h1
        rw [hb] at hf
        cases e1 with
        | some e1 => cases h; rw [if_neg (by simp)] at hf; exact .inl hf
        | none =>
          have := hbase _ _ _ _ h
          by_cases hi : c.base.inner.info.1 = 0
          · rw [if_neg (by simp [hi])] at hf; exact .inl (this.trans hf)
          · rw [if_pos ⟨rfl, hi⟩] at hf; exact .inr ⟨this.trans hf, hi⟩
      · exact .inl ((hbase _ _ _ _ h).trans (by rw [hb]))

example (m : Doc) : ((StreamingDynamic.new 1 ⟨[], []⟩).setMetadata m).base.inner.metadata = some m :=
  (C93_streaming_dynamic (fun a _ => a) id (fun _ => ⟨0, 0⟩) 0 (StreamingDynamic.new 1 ⟨[], []⟩)).1 m _ rfl

/-- A batch or dynamic collector without samples is not changed by a flush, nor one whose flush fails. -/
theorem C93_flush_keeps (fsub : Nat → Nat → Nat) (zip : Bytes → Bytes) (now : Nat → Time) (fuel : Nat) :
    (∀ (c c' : Batch) e, (Batch.methods fsub zip now fuel).flush c = .ok (c', e) → (c.info.1 = 0 ∨ e ≠ none) → c' = c) ∧
    (∀ (c c' : Ftdc.Dynamic) e, (Dynamic.methods fsub zip now fuel).flush c = .ok (c', e) → (c.info.1 = 0 ∨ e ≠ none) → c' = c) := by
  constructor <;>
  · intro c c' e h hc
    dsimp only [Batch.methods, Dynamic.methods, flushOf] at h
    split at h
    · cases h; rfl
    · rename_i hi
      split at h
      · cases h; rcases hc with hc | hc
        · exact absurd hc hi
        · exact absurd rfl hc
      · cases h; rfl
      · cases h
      · cases h

/-- metadata and no samples -/
example (m : Doc) : ((Batch.methods (fun a _ => a) id (fun _ => ⟨0, 0⟩) 0).flush ⟨1, [newWith 1 (some m)]⟩) = .ok (⟨1, [newWith 1 (some m)]⟩, none) := rfl

/-- After `Reset` a batch or dynamic collector is as new, and so is a streaming dynamic collector but for what it has written; a base or streaming collector is as new but
    for the metadata (and what it has written). -/
theorem C93_reset (fsub : Nat → Nat → Nat) (zip : Bytes → Bytes) (now : Nat → Time) (fuel : Nat) :
    (∀ c : Batch, (Batch.methods fsub zip now fuel).reset c = Batch.new c.maxSamples) ∧
    (∀ c : Ftdc.Dynamic, (Dynamic.methods fsub zip now fuel).reset c = Dynamic.new c.maxSamples) ∧
    (∀ c : StreamingDynamic, ∃ n, (StreamingDynamic.methods fsub zip now fuel).reset c = { StreamingDynamic.new c.base.maxSamples c.base.output with
      base := { (StreamingDynamic.new c.base.maxSamples c.base.output).base with flushes := n } }) ∧
    (∀ c : Better, (Better.methods fsub zip now fuel).reset c = { Better.new c.maxDeltas with metadata := c.metadata }) ∧
    (∀ c : Streaming, ∃ n, (Streaming.methods fsub zip now fuel).reset c =
      ⟨c.output, c.maxSamples, 0, { Better.new c.inner.maxDeltas with metadata := c.inner.metadata }, n⟩) :=
  ⟨fun _ => rfl, fun _ => rfl, fun _ => ⟨_, rfl⟩, fun _ => rfl, fun _ => ⟨_, rfl⟩⟩

example : (Batch.methods (fun a _ => a) id (fun _ => ⟨0, 0⟩) 0).reset exFull = Batch.new 1 := (C93_reset _ _ _ _).1 exFull

/-- A flush that has something to write and does not fail leaves the collector as `Reset` does: with no sample, and nothing of the old ones. -/
theorem C93_flush_resets (fsub : Nat → Nat → Nat) (zip : Bytes → Bytes) (now : Nat → Time) (fuel : Nat) :
    (∀ c c' : Better, c.info.1 ≠ 0 → (Better.methods fsub zip now fuel).flush c = .ok (c', none) → c' = { Better.new c.maxDeltas with metadata := c.metadata }) ∧
    (∀ c c' : Batch, c.info.1 ≠ 0 → (Batch.methods fsub zip now fuel).flush c = .ok (c', none) → c' = Batch.new c.maxSamples) ∧
    (∀ c c' : Ftdc.Dynamic, c.info.1 ≠ 0 → (Dynamic.methods fsub zip now fuel).flush c = .ok (c', none) → c' = Dynamic.new c.maxSamples) ∧
    (∀ c c' : Streaming, c.inner.info.1 ≠ 0 → (Streaming.methods fsub zip now fuel).flush c = .ok (c', none) →
      ∃ w n, c' = ⟨w, c.maxSamples, 0, { Better.new c.inner.maxDeltas with metadata := c.inner.metadata }, n⟩) := by
  refine ⟨?_, ?_, ?_, ?_⟩
  · intro c c' hi h
    dsimp only [Better.methods, flushOf] at h
    rw [if_neg hi] at h
    split at h <;> cases h
    rfl
  · intro c c' hi h
    dsimp only [Batch.methods, flushOf] at h
    rw [if_neg hi] at h
    split at h <;> cases h
    rfl
  · intro c c' hi h
    dsimp only [Dynamic.methods, flushOf] at h
    rw [if_neg hi] at h
    split at h <;> cases h
    rfl
  · intro c c' hi h
    dsimp only [Streaming.methods, Streaming.flush, Streaming.flushWith] at h
    rw [if_neg hi] at h
    split at h
    · split at h
      · cases h
      · split at h
        · cases h
        · cases h
          exact ⟨_, _, rfl⟩
    · cases h
    · cases h
    · cases h

/-- `SetMetadata` changes nothing but the metadata: no sample is lost or counted anew, and nothing is written. -/
theorem C93_set_only (fsub : Nat → Nat → Nat) (zip : Bytes → Bytes) (now : Nat → Time) (fuel : Nat) (d : Doc) :
    (∀ c c' : Better, (Better.methods fsub zip now fuel).setMetadata c d = .ok c' → c' = { c with metadata := some d }) ∧
    (∀ c c' : Batch, (Batch.methods fsub zip now fuel).setMetadata c d = .ok c' →
      ∃ ch rest, c.chunks = ch :: rest ∧ c' = { c with chunks := { ch with metadata := some d } :: rest }) ∧
    (∀ c c' : Ftdc.Dynamic, (Dynamic.methods fsub zip now fuel).setMetadata c d = .ok c' →
      ∃ b ch rest more, c.chunks = b :: more ∧ b.chunks = ch :: rest ∧ c' = { c with chunks := { b with chunks := { ch with metadata := some d } :: rest } :: more }) ∧
    (∀ c c' : Streaming, (Streaming.methods fsub zip now fuel).setMetadata c d = .ok c' → c' = { c with inner := { c.inner with metadata := some d } }) ∧
    (∀ c c' : StreamingDynamic, (StreamingDynamic.methods fsub zip now fuel).setMetadata c d = .ok c' →
      c' = { c with base := { c.base with inner := { c.base.inner with metadata := some d } } }) := by
  have hb : ∀ (c c' : Batch), c.setMetadata d = .ok c' → ∃ ch rest, c.chunks = ch :: rest ∧ c' = { c with chunks := { ch with metadata := some d } :: rest } := by
    intro c c' h
    unfold Batch.setMetadata at h
    split at h
    · cases h
    · rename_i ch rest he
      cases h
      exact ⟨ch, rest, he, rfl⟩
  refine ⟨?_, hb, ?_, ?_, ?_⟩
  · intro c c' h; cases h; rfl
  · intro c c' h
    dsimp only [Dynamic.methods, Dynamic.setMetadata] at h
    split at h
    · cases h
    · rename_i b more he
      obtain ⟨b', h1, h⟩ := Res.bind_eq_ok.mp h
      cases h
      obtain ⟨ch, rest, h2, rfl⟩ := hb _ _ h1
      exact ⟨b, ch, rest, more, he, h2, rfl⟩
  · intro c c' h; cases h; rfl
  · intro c c' h; cases h; rfl

/-- a streaming collector with a sample that has been counted -/
example (m : Doc) (c : Streaming) : ((Streaming.methods (fun a _ => a) id (fun _ => ⟨0, 0⟩) 0).setMetadata { c with count := 7 } m) =
    .ok { c with count := 7, inner := { c.inner with metadata := some m } } := by
  obtain ⟨c', h⟩ : ∃ c', (Streaming.methods (fun a _ => a) id (fun _ => ⟨0, 0⟩) 0).setMetadata { c with count := 7 } m = .ok c' := ⟨_, rfl⟩
  rw [h, (C93_set_only (fun a _ => a) id (fun _ => ⟨0, 0⟩) 0 m).2.2.2.1 _ _ h]

/-- From the call to the reader: every chunk that is read of what a batch collector resolves to has the metadata, wherever it was split. -/
theorem C93_batch_read {fsub : Nat → Nat → Nat}
    (hsub : ∀ a b, a < 18446744073709551616 → b < 18446744073709551616 → fsub a b < 18446744073709551616)
    {zip : Bytes → Bytes} {unzip : Bytes → Option Bytes} (hz : ∀ b, unzip (zip b) = some b)
    {docs : List Doc} {fss : List Fields} (hd : RepDocs docs fss) (hne : fss ≠ [])
    (hl : ∀ fs ∈ fss, (encDoc fs).length < 2147483648) (hs : ∀ f ∈ fss, ∀ g ∈ fss, f.metrics.SameShape g.metrics)
    {size : Nat} (h1 : 1 ≤ size) (h32 : size < 4294967295) {md : Doc} {mfs : Fields} (hmd : RepFields md mfs) (hml : (encDoc mfs).length ≤ 2147483000) :
    ∃ N, ∀ n, N ≤ n → ∃ c, addEach (fun (c : Batch) d => c.add fsub n d) ⟨size, [newWith size (some md)]⟩ docs = .ok (c, docs.map fun _ => none) ∧
      ((∀ ch ∈ c.chunks, ∀ p, Returns ch.payload (.ok p) → (zip p).length ≤ 2147482000) → ∀ now : Nat → Time, (∀ i, 0 ≤ (now i).nsec) →
        ∃ bytes, Returns (c.resolve zip now) (.ok bytes) ∧ ∀ s : Stream.Source, s.left = bytes → ∃ M, ∀ m, M ≤ m → ∃ chunks, readAll unzip m s = (chunks, .ok ()) ∧
          chunks ≠ [] ∧ ∀ ch ∈ chunks, RepMeta ch.metadata (some (metaDocument (i64 ((now 0).sec * 1000 + (now 0).nsec / 1000000)) mfs))) := by
  refine ⟨2147483648, fun n hn => ?_⟩
  have h0 : BInv fsub n size ⟨size, [newWith size (some md)]⟩ [] ⟨some md, [], [], newWith size (some md)⟩ :=
    ⟨rfl, rfl, by simp, run_nil, filled_nil fsub n size (some md), Nat.zero_le _, by rintro m h; cases h; exact ⟨mfs, hmd, hml⟩⟩
  obtain ⟨c, parts, p, e1, e2, e3, _, e5⟩ := batch_addEach (fsub := fsub) hn h1 (⟨hd, hl, hs⟩ : Run docs fss) docs fss h0 (by simp) hd
  have hpne := e3 (.inr hne)
  have hok : ∀ q ∈ parts ++ [p], q.Ok fsub n size := by
    intro q hq
    rcases List.mem_append.mp hq with hq | hq
    · exact (e2.done q hq).1
    · simp only [List.mem_singleton] at hq; subst hq
      exact ⟨e2.run, hpne, e2.filled, by have := e2.room; omega, e2.md⟩
  have hch : c.chunks = (parts ++ [p]).map Part.chunk := by rw [e2.chunks]; simp
  refine ⟨c, e1, fun hp now hnow => ?_⟩
  obtain ⟨cs, d1, d2, d3, d4, d5⟩ := parts_laid hsub hn h32 hnow (parts ++ [p]) 0 hok (fun q hq => hp q.chunk (by rw [hch]; exact List.mem_map_of_mem hq))
  have hhead : Headed (some md) c.chunks := by
    have : ∀ (docs : List Doc) (c0 c' : Batch) es, Headed (some md) c0.chunks → addEach (fun c d => c.add fsub n d) c0 docs = .ok (c', es) → Headed (some md) c'.chunks := by
      intro docs
      induction docs with
      | nil => intro c0 c' es h e; cases e; exact h
      | cons d ds ih =>
        intro c0 c' es h e
        rw [addEach] at e
        obtain ⟨⟨c1, x⟩, a1, e⟩ := Res.bind_eq_ok.mp e
        obtain ⟨⟨c2, xs⟩, a2, e⟩ := Res.bind_eq_ok.mp e
        cases e
        exact ih c1 _ _ (batch_add_headed a1 h) a2
    exact this docs _ c _ ⟨0, rfl⟩ e1
  obtain ⟨k, hk⟩ := hhead
  have hk' : (parts ++ [p]).map Part.md = some md :: List.replicate k none := by
    rw [← hk, hch, List.map_map]
    exact List.map_congr_left fun q hq => (part_md (hok q hq)).symm
  generalize parts ++ [p] = ps at *
  match ps, hk', cs, d4 with
  | q :: qs, hk', c0 :: cs, d4 =>
    simp only [List.map_cons, List.cons.injEq] at hk'
    have hm0 := d3 0 q c0 rfl rfl
    rw [hk'.1] at hm0
    have hms : c0.ms = i64 ((now 0).sec * 1000 + (now 0).nsec / 1000000) := by simp [List.range'_succ] at d2; exact d2.1
    have hrest : ∀ x ∈ cs, x.metadata = none := by
      intro x hx
      obtain ⟨j, hj⟩ := List.mem_iff_getElem?.mp hx
      have hjl := (List.getElem?_eq_some_iff.mp hj).1
      have hql : j < qs.length := by simp at d4; omega
      have := d3 (j + 1) qs[j] x (by simp [hql]) (by simpa using hj)
      have hqm : qs[j].md = none := by
        have h' : (qs.map Part.md)[j]? = some qs[j].md := by simp [hql]
        rw [hk'.2] at h'
        simp [List.getElem?_replicate] at h'
        exact h'.2.symm
      rw [hqm] at this
      cases hx' : x.metadata with
      | none => rfl
      | some _ => rw [hx'] at this; exact this.elim
    refine ⟨_, ⟨10000000000, fun m hm => by unfold Batch.resolve; rw [hch]; exact d5 m hm⟩, fun s hs => ?_⟩
    obtain ⟨M, hM⟩ := C93_file hsub hz (c0 :: cs) d1 s hs
    refine ⟨M, fun m hm => ?_⟩
    obtain ⟨chunks, r1, r2, r3⟩ := hM m hm
    refine ⟨chunks, r1, by rintro rfl; simp at r2, fun ch hc => ?_⟩
    obtain ⟨j, hj⟩ := List.mem_iff_getElem?.mp hc
    have hjl := (List.getElem?_eq_some_iff.mp hj).1
    cases hc0 : c0.metadata with
    | none => rw [hc0] at hm0; exact hm0.elim
    | some m0 =>
      have hcar : carried none (c0 :: cs) = List.replicate (cs.length + 1) (some (metaDocument c0.ms m0)) := by
        rw [carried, hc0]
        simp [carried_head cs hrest, List.replicate_succ]
      have := r3 j ch (some (metaDocument c0.ms m0)) hj (by rw [hcar]; simp [List.getElem?_replicate]; simpa [r2] using hjl)
      rw [hms] at this
      rw [hc0] at hm0
      rw [show m0 = mfs from repFields_unique hm0 hmd (by have := ((d1 c0 (by simp)).2.2.1 m0 hc0).2; omega) (by omega)] at this
      exact this

/-- three samples in two chunks: both have the metadata -/
example (md : Doc) (hmd : RepFields md exForeignMeta) : ∃ docs, ∃ N, ∀ n, N ≤ n → ∃ c : Batch,
    addEach (fun (c : Batch) d => c.add (fun a _ => a) n d) ⟨2, [newWith 2 (some md)]⟩ docs = .ok (c, docs.map fun _ => none) := by
  obtain ⟨docs, h⟩ := exSamples
  obtain ⟨N, hN⟩ := C93_batch_read (fsub := fun a _ => a) (fun a _ h _ => h) (zip := id) (unzip := some) (fun _ => rfl) h (by simp) exSamples_size
    exSamples_shape (size := 2) (by simp) (by simp) hmd (by decide +kernel)
  exact ⟨docs, N, fun n hn => by obtain ⟨c, hc, _⟩ := hN n hn; exact ⟨c, hc⟩⟩

end Birch.Props
