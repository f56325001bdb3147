import Verif.Proofs.FtdcLayout
import Verif.Proofs.FtdcKinds
import Verif.Props.FtdcCollect

/- C76: the bytes of a chunk. -/

namespace Birch.Props
open Birch Model Model.Ftdc Spec Proofs Proofs.Ftdc

/-! ### C76

`zip` and `unzip` are the compressor and the decompressor, `fsub` is the subtraction of doubles, on their bits. -/

/-- What a base collector resolves to after documents of one shape is, byte for byte, the chunk that `chunkLayout` describes. -/
theorem C76_written {fsub : Nat → Nat → Nat}
    (hsub : ∀ a b, a < 18446744073709551616 → b < 18446744073709551616 → fsub a b < 18446744073709551616) (zip : Bytes → Bytes)
    {docs : List Doc} {f0 : Fields} {fss : List Fields} (hd : RepDocs docs (f0 :: fss))
    (hl : ∀ fs ∈ f0 :: fss, (encDoc fs).length < 2147483648) (hs : ∀ f ∈ f0 :: fss, ∀ g ∈ f0 :: fss, f.metrics.SameShape g.metrics)
    {max : Nat} (hmax : fss.length ≤ max) (h32 : fss.length < 4294967295)
    {md : Option Doc} {mfs : Option Fields} (hmd : RepMeta md mfs) (hml : ∀ f, mfs = some f → (encDoc f).length ≤ 2147483000)
    (hp : (zip (chunkPayload fsub f0 fss)).length ≤ 2147482000) {now : Time} (hnow : 0 ≤ now.nsec) :
    ∃ N, ∀ n, N ≤ n → ∃ c, (newWith max md).addAll fsub n docs = .ok (c, docs.map fun _ => none) ∧
      Returns (c.resolve zip now) (.ok (chunkLayout fsub zip (i64 (now.sec * 1000 + now.nsec / 1000000)) mfs f0 fss)) := by
  refine ⟨2147483648, fun n hn => ?_⟩
  have hrun : Run docs (f0 :: fss) := ⟨hd, hl, hs⟩
  obtain ⟨c, hf⟩ := run_filled (fsub := fsub) (md := md) (max := max) hrun (by simp; omega) hn
  exact ⟨c, hf, 10000000000, fun m hm => filled_layout hsub hrun hf hmax hn h32 hmd hml hp hnow m hm⟩

example : leb128 300 = [172, 2] ∧ runs [0, 0, 5, 0] = [0, 1, 5, 0, 0] := by
  constructor
  · simp [leb128]
  · simp [runs]

/-- the numbers of the three samples: the second is like the first, in the third `n`, `d` and the last one differ -/
example : byMetric (exSample 1 [120]).cells.length (diffRows (fun a _ => a) (exSample 1 [120]).cells ([exSample 1 [], exSample 700 [121, 122]].map Fields.cells)) =
    [0, 699, 0, 0, 0, 699000, 0, 18446744073709550917] := by
  simp [exSample, Fields.cells, BVal.cells, Vals.cells, diffRows, byMetric, Cell.diff, List.range, List.range.loop, i64]

example : ∃ docs, ∃ N, ∀ n, N ≤ n → ∃ c, (Better.new 2).addAll (fun a _ => a) n docs = .ok (c, docs.map fun _ => none) ∧
    Returns (c.resolve (fun _ => []) ⟨1, 500000000⟩) (.ok (chunkLayout (fun a _ => a) (fun _ => []) 1500 none (exSample 1 [120]) [exSample 1 [], exSample 700 [121, 122]])) := by
  obtain ⟨docs, h⟩ := exSamples
  exact ⟨docs, C76_written (fsub := fun a _ => a) (fun a _ h _ => h) (fun _ => []) h exSamples_size exSamples_shape (max := 2) (by simp) (by simp)
    (md := none) (mfs := none) trivial nofun (by simp) (now := ⟨1, 500000000⟩) (by decide)⟩

/-- Every file of such chunks is read, whoever wrote it: the samples of all chunks come back in order (as `backChunks` describes their values). -/
theorem C76_read {fsub : Nat → Nat → Nat}
    (hsub : ∀ a b, a < 18446744073709551616 → b < 18446744073709551616 → fsub a b < 18446744073709551616)
    {zip : Bytes → Bytes} {unzip : Bytes → Option Bytes} (hz : ∀ b, unzip (zip b) = some b) (cs : List LaidChunk)
    (h : ∀ c ∈ cs, c.Good fsub zip) (s : Stream.Source) (hs : s.left = cs.flatMap (LaidChunk.bytes fsub zip)) :
    ∃ M, ∀ m, M ≤ m → ∃ ds, readStructuredMetrics unzip m s = .ok ds ∧ RepDocs ds (backChunks fsub (cs.map fun c => c.first :: c.rest)) := by
  obtain ⟨gss, g1, g2, g3, g4⟩ := laid_all hsub hz cs h
  rw [← g2]
  exact readStructured_ok gss g1 10000000000 g4 s (by rw [hs, g3])

example : (⟨1500, some (exSample 7 []), exSample 1 [120], [exSample 1 []]⟩ : LaidChunk).Good (fun a _ => a) (fun _ => []) := by
  have w : ∀ i s, i = 7 ∨ i = 1 → s = [] ∨ s = [120] → (exSample i s).WF ∧ (encDoc (exSample i s)).length < 1000 := by
    rintro i s (rfl | rfl) (rfl | rfl) <;> exact ⟨by simp [exSample, Fields.WF, BVal.WF, Vals.WF, NulFree], by decide +kernel⟩
  refine ⟨by decide, by decide, ?_, ?_, by decide, by simp⟩
  · rintro m h; cases h; exact ⟨(w 7 [] (by simp) (by simp)).1, by have := (w 7 [] (by simp) (by simp)).2; omega⟩
  · intro f hf
    have hsh := exSamples_shape f (by simp at hf ⊢; rcases hf with rfl | rfl <;> simp)
    refine ⟨?_, ?_, fun g hg => hsh g (by simp at hg ⊢; rcases hg with rfl | rfl <;> simp)⟩
    · simp at hf; rcases hf with rfl | rfl
      · exact (w 1 [120] (by simp) (by simp)).1
      · exact (w 1 [] (by simp) (by simp)).1
    · simp at hf; rcases hf with rfl | rfl
      · have := (w 1 [120] (by simp) (by simp)).2; omega
      · have := (w 1 [] (by simp) (by simp)).2; omega

/-- What a document of a file is goes by its "type", a number of any kind: with 0 it is the metadata from there on, with 1 a chunk, and any other document is passed over. -/
theorem C76_documents {doc : Doc} {fs : Fields} (h : RepFields doc fs) (unzip : Bytes → Option Bytes) (fuel : Nat) (md : Option Doc) :
    (MetaDoc fs → readChunkDoc unzip fuel md doc = .ok (some doc, none)) ∧
    (¬ MetaDoc fs → ¬ ChunkDoc fs → readChunkDoc unzip fuel md doc = .ok (md, none)) ∧
    (ChunkDoc fs → ∀ z, Compressed fs z → readChunkDoc unzip fuel md doc =
      match unzip z with
      | none => .err .other
      | some buf => (readPayload fuel md buf).bind fun c => .ok (md, some c)) ∧
    (ChunkDoc fs → fs.firstNamed (ascii "data") = none → readChunkDoc unzip fuel md doc = .err .other) := by
  refine ⟨fun hm => doc_meta h hm unzip fuel md, fun hm hc => doc_other h hm hc unzip fuel md, fun hc z hz => ?_, fun hc hd => ?_⟩
  · obtain ⟨st, b, h1, h2, rfl⟩ := hz
    obtain ⟨h', _⟩ | ⟨t, h', hn, _⟩ | ⟨z, ⟨st', b', h', _, rfl⟩, hr⟩ := doc_chunk h hc unzip fuel md
    · rw [h1] at h'; cases h'
    · exact absurd ⟨st, b, h1, h2, rfl⟩ (hn (b.drop 4))
    · rw [h1] at h'; cases h'; exact hr
  · obtain ⟨_, hr⟩ | ⟨t, h', _⟩ | ⟨z, ⟨st', b', h', _⟩, _⟩ := doc_chunk h hc unzip fuel md
    · exact hr
    · rw [hd] at h'; cases h'
    · rw [hd] at h'; cases h'

/-- a chunk by another program: the type is a double, and the data come before it -/
def exForeign (data type : BVal) : Fields := .cons (ascii "data") data (.cons (ascii "type") type .nil)

example : ChunkDoc (exForeign (.binary 0 [9, 0, 0, 0, 120]) (.double 0x3FF0000000000000)) ∧ Compressed (exForeign (.binary 0 [9, 0, 0, 0, 120]) (.double 0x3FF0000000000000)) [120] := by
  have h : ascii "data" ≠ ascii "type" := by decide +kernel
  exact ⟨⟨.double 0x3FF0000000000000, by simp [exForeign, Fields.firstNamed, h], rfl⟩, 0, [9, 0, 0, 0, 120], by simp [exForeign, Fields.firstNamed], by decide, rfl⟩

/-- the samples of newer servers' documents of type 2 are passed over -/
example : ¬ MetaDoc (exForeign (.binary 0 []) (.int32 2)) ∧ ¬ ChunkDoc (exForeign (.binary 0 []) (.int32 2)) := by
  have h : ascii "data" ≠ ascii "type" := by decide +kernel
  have h' : (exForeign (.binary 0 []) (.int32 2)).firstNamed (ascii "type") = some (.int32 2) := by simp [exForeign, Fields.firstNamed, h]
  constructor <;> (rintro ⟨t, ht, hn⟩; rw [h'] at ht; cases ht; simp [IsZero, IsOne] at hn)

/-- Reading a chunk panics if its "data" are not binary, or have less than four bytes. -/
theorem C76_damaged {doc : Doc} {fs : Fields} (h : RepFields doc fs) (unzip : Bytes → Option Bytes) (fuel : Nat) (md : Option Doc) (hc : ChunkDoc fs)
    (hd : fs.firstNamed (ascii "data") ≠ none) (hz : ∀ z, ¬ Compressed fs z) (docs : List Doc) :
    readChunks unzip fuel md (doc :: docs) = ([], .panic) := by
  obtain ⟨h', _⟩ | ⟨t, h', _, hr⟩ | ⟨z, h', _⟩ := doc_chunk h hc unzip fuel md
  · exact absurd h' hd
  · rw [readChunks, hr]
  · exact absurd h' (hz z)

example : (exForeign (.binary 0 [9, 0, 0]) (.double 0x3FF0000000000000)).firstNamed (ascii "data") ≠ none ∧
    ∀ z, ¬ Compressed (exForeign (.binary 0 [9, 0, 0]) (.double 0x3FF0000000000000)) z := by
  constructor
  · simp [exForeign, Fields.firstNamed]
  · rintro z ⟨st, b, hb, hl, _⟩
    simp only [exForeign, Fields.firstNamed, if_true, Option.some.injEq, BVal.binary.injEq] at hb
    obtain ⟨_, rfl⟩ := hb
    simp at hl

/-- Documents that are neither metadata nor chunks can be anywhere in a file: its chunks are read as if they were not there. -/
theorem C76_others {doc : Doc} {fs : Fields} (h : RepFields doc fs) (hm : ¬ MetaDoc fs) (hc : ¬ ChunkDoc fs) (unzip : Bytes → Option Bytes) (fuel : Nat) (md : Option Doc)
    (before after : List Doc) : readChunks unzip fuel md (before ++ doc :: after) = readChunks unzip fuel md (before ++ after) :=
  chunks_other unzip fuel (fun md => doc_other h hm hc unzip fuel md) after before md

end Birch.Props
