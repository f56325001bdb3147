import Verif.Proofs.FtdcUncompressed
import Verif.Props.FtdcDynamic
import Verif.Props.Streams

/- C68: collectors that write documents instead of chunks. -/

namespace Birch.Props
open Birch Model Model.Ftdc Spec Proofs Proofs.Ftdc

/-- documents offered one after the other, whatever the errors -/
def offer (c : Uncompressed) : List Doc → Uncompressed
  | [] => c
  | d :: ds => offer (c.add d).1 ds

/-- `NewUncompressedCollectorBSON` or `…JSON`, with `SetMetadata` called or not -/
def uncompressedWith (f : Format) (max : Nat) : Option Doc → Uncompressed
  | none => .new f max
  | some md => (Uncompressed.new f max).setMetadata md

theorem offered_snoc (c : Uncompressed) (d : Doc) : ∀ docs, offer c (docs ++ [d]) = ((offer c docs).add d).1 := by
  intro docs
  induction docs generalizing c with
  | nil => rfl
  | cons a docs ih => exact ih _

theorem offered_all (f : Format) (max : Nat) (md : Option Doc) (docs : List Doc) : ∃ taken, Offered f max md docs taken (offer (uncompressedWith f max md) docs) := by
  have h : ∀ r : List Doc, ∃ taken, Offered f max md r.reverse taken (offer (uncompressedWith f max md) r.reverse) := by
    intro r
    induction r with
    | nil =>
      refine ⟨[], ?_⟩
      cases md <;> exact .start
    | cons d r ih =>
      obtain ⟨t, h⟩ := ih
      rw [List.reverse_cons, offered_snoc]
      exact ⟨_, .add h⟩
  have := h docs.reverse
  rwa [List.reverse_reverse] at this

/-- After any documents were offered, the next one is taken exactly if it has as many fields as the first document that was offered and has fields, and
    fewer than `max` were taken.  A document that is taken is put behind the others, one that is not taken changes nothing there.  `Info` counts the
    samples and these fields. -/
theorem C68_add (f : Format) (max : Nat) (md : Option Doc) (docs : List Doc) (d : Doc) :
    let c := offer (uncompressedWith f max md) docs
    ((c.add d).2 = none ↔ d.length = width ((docs ++ [d]).map List.length) ∧ c.samples.length < max) ∧
    (c.add d).1.samples = (if (c.add d).2 = none then c.samples ++ [d] else c.samples) ∧
    c.info = (c.samples.length, width (docs.map List.length)) ∧ c.samples.length ≤ max ∧ c.metadata = md ∧ c.format = f := by
  intro c
  obtain ⟨t, ht⟩ := offered_all f max md docs
  obtain ⟨h1, h2⟩ := offered_state ht
  obtain ⟨h3, h4⟩ := offered_state (Offered.add (d := d) ht)
  have hc : c = ⟨f, max, width (docs.map List.length), md, t⟩ := h1
  have h3 : (c.add d).1 = _ := h3
  refine ⟨?_, ?_, by rw [hc]; rfl, by rw [hc]; exact h2, by rw [hc], by rw [hc]⟩
  · rw [hc]
    simp only [Uncompressed.add, List.map_append, List.map_cons, List.map_nil, width_append]
    by_cases h0 : width (docs.map List.length) = 0
    · by_cases hm : max ≤ t.length
      · simp [h0, hm]
      · simp [h0, hm]; omega
    · by_cases hd : d.length = width (docs.map List.length)
      · by_cases hm : max ≤ t.length
        · simp [h0, hd, hm]
        · simp [h0, hd, hm]; omega
      · simp [h0, hd]
  · rw [h3]
    have : c.samples = t := by rw [hc]
    simp only [this]
    rfl

/-- two documents with a field, then one with two, then more than there is room for -/
example (e : Value) : ((offer (uncompressedWith .bson 2 none) [[e], [e, e], [e]]).samples = [[e], [e]]) ∧
    ((offer (uncompressedWith .bson 2 none) [[e], [e, e], [e]]).add [e]).2 ≠ none := by
  simp [offer, uncompressedWith, Uncompressed.new, Uncompressed.add]

/-- The BSON collector gives the metadata and the samples, in order, as documents: reading them one after the other gives all of them back, and then the
    end of the stream. -/
theorem C68_bson (C : ExtJson.Clock) (c : Uncompressed) (fss : List Fields) (h : c.samples ≠ []) (hf : c.format = .bson)
    (hr : RepDocs (c.metadata.toList ++ c.samples) fss) (hl : ∀ fs ∈ fss, fs.WF ∧ (encDoc fs).length < 2147483648) :
    ∃ out, Returns (fun n => c.resolve C n) (.ok out) ∧ ∀ s : Stream.Source, s.left = out → ReadsAll Stream.readFrom fss s := by
  obtain ⟨t, h1, h2⟩ := resolve_file C c h hr (fun fs hfs => (hl fs hfs).2) (fun hj => by rw [hf] at hj; cases hj)
  rw [hf] at h2
  exact ⟨t, h1, fun s hs => C11_sequence fss hl s (hs.trans h2)⟩

example (C : ExtJson.Clock) : ∃ c : Uncompressed, ∃ out, Returns (fun n => c.resolve C n) (.ok out) ∧ ∀ s : Stream.Source, s.left = out →
    ReadsAll Stream.readFrom [intField 0x6d 9, intField 0x78 1, intField 0x79 2] s := by
  obtain ⟨m, h0⟩ := intField_built 0x6d 9 (by decide) (by decide)
  obtain ⟨d1, h1⟩ := intField_built 0x78 1 (by decide) (by decide)
  obtain ⟨d2, h2⟩ := intField_built 0x79 2 (by decide) (by decide)
  refine ⟨⟨.bson, 5, 1, some m, [d1, d2]⟩, C68_bson C _ _ (by simp) rfl ⟨h0, h1, h2, trivial⟩ ?_⟩
  simp only [List.mem_cons, List.not_mem_nil, or_false, forall_eq_or_imp, forall_eq, intField_size]
  simp [intField, Fields.WF, BVal.WF, NulFree]

/-- The JSON collector gives a line for the metadata and for each sample, in order.

    Missing from C68: documents whose extended JSON is not what C59 says. -/
theorem C68_json_partial (C : ExtJson.Clock) (c : Uncompressed) (fss : List Fields) (h : c.samples ≠ []) (hf : c.format = .json)
    (hr : RepDocs (c.metadata.toList ++ c.samples) fss) (hl : ∀ fs ∈ fss, (encDoc fs).length < 2147483648 ∧ ExtJson.ShownFields C fs) :
    ∃ out, Returns (fun n => c.resolve C n) (.ok out) ∧ IsLines C fss out := by
  obtain ⟨t, h1, h2⟩ := resolve_file C c h hr (fun fs hfs => (hl fs hfs).1) (fun _ fs hfs => (hl fs hfs).2)
  rw [hf] at h2
  exact ⟨t, h1, h2⟩

/-- a string with a newline -/
example (C : ExtJson.Clock) : ∃ c : Uncompressed, ∃ out, Returns (fun n => c.resolve C n) (.ok out) ∧
    IsLines C [intField 0x6d 9, .cons [0x78] (.string [97, 10, 98]) .nil] out := by
  obtain ⟨m, h0⟩ := intField_built 0x6d 9 (by decide) (by decide)
  obtain ⟨d1, _, h1⟩ := buildDoc_rep (.cons [0x78] (.string [97, 10, 98]) .nil) (by simp [Fields.WF, BVal.WF, NulFree]) (by decide +kernel)
  refine ⟨⟨.json, 5, 1, some m, [d1]⟩, C68_json_partial C _ _ (by simp) rfl ⟨h0, h1, trivial⟩ ?_⟩
  simp only [List.mem_cons, List.not_mem_nil, or_false, forall_eq_or_imp, forall_eq, intField_size]
  refine ⟨⟨by decide, ?_⟩, by decide +kernel, ?_⟩
  · simp [intField, ExtJson.ShownFields, ExtJson.Shown, Json.PlainKey]
  · simp [ExtJson.ShownFields, ExtJson.Shown, Json.PlainKey]

/-- Without samples there is an error, and nothing is written. -/
theorem C68_empty (C : ExtJson.Clock) (n : Nat) (f : Format) (max : Nat) (md : Option Doc) : ∃ e, (uncompressedWith f max md).resolve C n = .err e := by
  cases md <;> exact ⟨_, rfl⟩

/-! ### streaming -/

/-- `NewStreamingUncompressedCollectorBSON` or `…JSON`, with `SetMetadata` called or not -/
def streamingUWith (f : Format) (max : Nat) (w : Sink) : Option Doc → StreamingU
  | none => .new f max w
  | some md => { StreamingU.new f max w with inner := (StreamingU.new f max w).inner.setMetadata md }

/-- The streaming collectors never flush by themselves: whatever documents are added, nothing is written, and no more than `max` of them are taken.
    The comments say that the data is written when `max` documents were added. -/
theorem C68_streaming_stuck (C : ExtJson.Clock) (n : Nat) (f : Format) (max : Nat) (w : Sink) (md : Option Doc) (docs : List Doc) :
    ∃ c es, addEach (fun c d => c.add C n d) (streamingUWith f max w md) docs = .ok (c, es) ∧ c.output = w ∧ (es.filter Option.isNone).length ≤ max := by
  obtain ⟨c, es, h1, h2, h3⟩ := streamingU_limit C n docs (streamingUWith f max w md) (by cases md <;> rfl) (by cases md <;> rfl) (by cases md <;> exact Nat.zero_le _)
  cases md <;> exact ⟨c, es, h1, h2, by simpa [streamingUWith, StreamingU.new] using h3⟩

/-- three documents for a collector with room for two -/
example (C : ExtJson.Clock) (n : Nat) (e : Value) : ∃ c, addEach (fun c d => c.add C n d) (streamingUWith .bson 2 ⟨[], []⟩ none) [[e], [e], [e]] =
    .ok (c, [none, none, some .other]) ∧ c.output.out = [] := by
  refine ⟨_, rfl, rfl⟩

/-- As long as the keys do not change, the dynamic streaming collectors do what the streaming ones do, with the same errors: so they do not flush by themselves either. -/
theorem C68_dynamic_stuck (fsub : Nat → Nat → Nat) (zip : Bytes → Bytes) (now : Nat → Time) (C : ExtJson.Clock) {n : Nat} (hn : 2147483648 ≤ n) (f : Format) (max : Nat) (w : Sink)
    {docs : List Doc} {fss : List Fields} (hd : RepDocs docs fss) (hl : ∀ fs ∈ fss, (encDoc fs).length < 2147483648)
    (hk : ∀ g ∈ fss, ∀ h ∈ fss, fingerprint g = fingerprint h) :
    ∃ c es, addEach (fun c d => c.add C n d) (StreamingU.new f max w) docs = .ok (c, es) ∧ c.output = w ∧ (es.filter Option.isNone).length ≤ max ∧
      ∃ hash num, addEach (fun c d => c.add fsub C zip now n d) (DynamicU.new f max w) docs = .ok (.raw hash num c, es) := by
  obtain ⟨c, es, h1, h2, h3⟩ := streamingU_limit C n docs (StreamingU.new f max w) rfl rfl (Nat.zero_le _)
  refine ⟨c, es, h1, h2, by simpa [StreamingU.new] using h3, ?_⟩
  cases docs with
  | nil => cases h1; exact ⟨[], 0, rfl⟩
  | cons d docs =>
    cases fss with
    | nil => cases hd
    | cons f1 fss =>
      have k1 := metricKeyHash_rep n hd.1 (hl f1 (by simp)) (by have := hl f1 (by simp); omega)
      obtain ⟨⟨c1, e1⟩, a1, a2⟩ := Res.bind_eq_ok.mp h1
      obtain ⟨⟨c2, es2⟩, a3, a4⟩ := Res.bind_eq_ok.mp a2
      cases a4
      have hs : (DynamicU.new f max w).add fsub C zip now n d = .ok (.raw (hashText (f1.paths []).flatten) f1.kinds.length c1, e1) := by
        simp only [DynamicU.new, DynamicU.add, k1, Res.bind_ok, if_true]
        rw [if_neg (by simp [StreamingU.new])]
        simp only [DynamicU.addBase, a1, Res.bind_ok]
      refine ⟨hashText (f1.paths []).flatten, f1.kinds.length, ?_⟩
      simp only [addEach, hs, Res.bind_ok, raw_same fsub zip now C hn (hashText_ne _) docs fss hd.2 (fun g hg => hl g (by simp [hg])) (fun g hg => by have := hk f1 (by simp) g (by simp [hg]); simp only [fingerprint, Prod.mk.injEq] at this; exact ⟨this.2, this.1⟩)
        c1 _ es2 a3]

/-- three documents with the same keys for a collector with room for two -/
example (C : ExtJson.Clock) : ∃ c hash num, addEach (fun c d => c.add (fun a _ => a) C id (fun _ => ⟨0, 0⟩) 2147483648 d) (DynamicU.new .bson 2 ⟨[], []⟩) [[], [], []] =
    .ok (.raw hash num c, [none, none, some .other]) := by
  obtain ⟨c, es, h1, _, _, hash, num, h2⟩ := C68_dynamic_stuck (fun a _ => a) id (fun _ => ⟨0, 0⟩) C (Nat.le_refl 2147483648) .bson 2 ⟨[], []⟩ (docs := [[], [], []])
    (fss := [.nil, .nil, .nil]) ⟨trivial, trivial, trivial, trivial⟩ (by simp [encDoc, Fields.enc]) (by simp)
  have h3 : ∃ c, addEach (fun c d => c.add C 2147483648 d) (StreamingU.new .bson 2 ⟨[], []⟩) [[], [], []] = .ok (c, [none, none, some .other]) := ⟨_, rfl⟩
  obtain ⟨c', h3⟩ := h3
  rw [h3] at h1
  cases h1
  exact ⟨_, _, _, h2⟩

/-- A flush with a writer that may fail.  Without an error everything was written and the collector is empty; with an error the collector still has all its
    samples.  The errors of the writer are returned, and a write that is too short is an error. -/
theorem C68_flush (C : ExtJson.Clock) (n : Nat) (c : StreamingU) (t : Bytes) (h : c.inner.samples ≠ []) (hr : c.inner.resolve C n = .ok t) :
    ∃ c' e, c.flush C n = .ok (c', e) ∧ (e = none → c'.output.out = c.output.out ++ t ∧ c'.inner.samples = [] ∧ c'.count = 0) ∧
      (e ≠ none → c'.inner = c.inner ∧ c'.count = c.count) ∧ c'.output.plan = c.output.plan.tail ∧
      (c.output.plan.head?.join = none → e = none) ∧ (∀ k x, c.output.plan.head? = some (some (k, some x)) → e = some x) ∧
      (∀ k, c.output.plan.head? = some (some (k, none)) → (e = none ↔ t.length ≤ k)) := by
  obtain ⟨⟨out, plan⟩, max, k, i⟩ := c
  simp only at h hr
  unfold StreamingU.flush StreamingU.emit
  simp only [Uncompressed.info, List.length_eq_zero_iff, h, if_false, hr]
  match plan with
  | [] =>
    refine ⟨StreamingU.reset ⟨⟨out ++ t, []⟩, max, k, i⟩, none, by simp [Sink.write], ?_⟩
    simp [StreamingU.reset, Uncompressed.reset]
  | none :: plan =>
    refine ⟨StreamingU.reset ⟨⟨out ++ t, plan⟩, max, k, i⟩, none, by simp [Sink.write], ?_⟩
    simp [StreamingU.reset, Uncompressed.reset]
  | some (j, some x) :: plan =>
    refine ⟨⟨⟨out ++ t.take j, plan⟩, max, k, i⟩, some x, by simp [Sink.write], ?_⟩
    simp
  | some (j, none) :: plan =>
    by_cases hj : t.length ≤ j
    · have : t.take j = t := List.take_of_length_le hj
      refine ⟨StreamingU.reset ⟨⟨out ++ t, plan⟩, max, k, i⟩, none, by simp [Sink.write, this], ?_⟩
      simp [StreamingU.reset, Uncompressed.reset, hj]
    · refine ⟨⟨⟨out ++ t.take j, plan⟩, max, k, i⟩, some .other, ?_, ?_⟩
      · have : ¬ min j t.length = t.length := by omega
        simp [Sink.write, this]
      · simp only [List.tail_cons, List.head?_cons]; simp; omega

/-- a writer that takes three bytes and fails -/
example (C : ExtJson.Clock) : ∃ c : StreamingU, c.inner.samples ≠ [] ∧ (∃ t, Returns (fun n => c.inner.resolve C n) (.ok t)) ∧ c.output.plan.head? = some (some (3, some .other)) := by
  obtain ⟨d1, h1⟩ := intField_built 0x78 1 (by decide) (by decide)
  obtain ⟨t, h2, _⟩ := C68_bson C ⟨.bson, 5, 1, none, [d1]⟩ [intField 0x78 1] (by simp) rfl ⟨h1, trivial⟩ (by
    simp [intField_size]; simp [intField, Fields.WF, BVal.WF, NulFree])
  exact ⟨⟨⟨[], [some (3, some .other)]⟩, 5, 1, ⟨.bson, 5, 1, none, [d1]⟩⟩, by simp, ⟨t, h2⟩, rfl⟩

/-- A flush of an empty collector does nothing; one of documents that cannot be marshalled writes nothing, keeps them and returns the error. -/
theorem C68_flush_nothing (C : ExtJson.Clock) (n : Nat) (c : StreamingU) : (c.inner.samples = [] → c.flush C n = .ok (c, none)) ∧
    ∀ e, c.inner.samples ≠ [] → c.inner.resolve C n = .err e → c.flush C n = .ok (c, some e) := by
  refine ⟨fun h => ?_, fun e h hr => ?_⟩
  · simp [StreamingU.flush, StreamingU.emit, Uncompressed.info, h]
  · simp [StreamingU.flush, StreamingU.emit, Uncompressed.info, h, hr]

/-- a document with a value that is not initialised cannot be marshalled -/
example (C : ExtJson.Clock) : ∃ c : StreamingU, c.inner.samples ≠ [] ∧ ∃ e, c.inner.resolve C 5 = .err e :=
  ⟨⟨⟨[], []⟩, 5, 1, ⟨.bson, 5, 1, none, [[.raw 0 0 []]]⟩⟩, by simp, _, by rfl⟩

/-- a caller that flushes after each batch -/
def batches (C : ExtJson.Clock) (n : Nat) : StreamingU → List (List Doc) → Res (StreamingU × List (Option Err))
  | c, [] => .ok (c, [])
  | c, b :: bs => do
    let (c, es) ← addEach (fun c d => c.add C n d) c b
    let (c, e) ← c.flush C n
    let (c, r) ← batches C n c bs
    .ok (c, es ++ e :: r)

/-- If the collector is flushed after at most `max` documents, everything is written, in order, with the metadata before each batch.

    Missing from C68: the collector flushes by itself (`C68_streaming_stuck`); the metadata is only the first document. -/
theorem C68_streaming_flush_partial (C : ExtJson.Clock) (f : Format) (max : Nat) (md : Option Doc) (mfs : Option Fields) (hm : RepDocs md.toList mfs.toList)
    (bs : List (List Doc × List Fields)) (hne : ∀ b ∈ bs, b.1 ≠ []) (hmax : ∀ b ∈ bs, b.1.length ≤ max) (hw : ∀ b ∈ bs, ∃ w, ∀ d ∈ b.1, d.length = w)
    (hr : ∀ b ∈ bs, RepDocs b.1 b.2) (hl : ∀ fs ∈ (bs.map fun b => mfs.toList ++ b.2).flatten, (encDoc fs).length < 2147483648)
    (hs : f = .json → ∀ fs ∈ (bs.map fun b => mfs.toList ++ b.2).flatten, ExtJson.ShownFields C fs) :
    ∃ N, ∀ n, N ≤ n → ∃ c es, batches C n (streamingUWith f max ⟨[], []⟩ md) (bs.map Prod.fst) = .ok (c, es) ∧ (∀ e ∈ es, e = none) ∧
      IsFile C f (bs.map fun b => mfs.toList ++ b.2).flatten c.output.out := by
  have key : ∀ (bs : List (List Doc × List Fields)) (out : Bytes), (∀ b ∈ bs, b.1 ≠ []) → (∀ b ∈ bs, b.1.length ≤ max) → (∀ b ∈ bs, ∃ w, ∀ d ∈ b.1, d.length = w) →
      (∀ b ∈ bs, RepDocs b.1 b.2) → (∀ fs ∈ (bs.map fun b => mfs.toList ++ b.2).flatten, (encDoc fs).length < 2147483648) →
      (f = .json → ∀ fs ∈ (bs.map fun b => mfs.toList ++ b.2).flatten, ExtJson.ShownFields C fs) →
      ∃ N t, IsFile C f (bs.map fun b => mfs.toList ++ b.2).flatten t ∧ ∀ n, N ≤ n → ∃ c es, batches C n ⟨⟨out, []⟩, max, 0, ⟨f, max, 0, md, []⟩⟩ (bs.map Prod.fst) = .ok (c, es) ∧
        (∀ e ∈ es, e = none) ∧ c.output.out = out ++ t := by
    intro bs
    induction bs with
    | nil => intro out _ _ _ _ _ _; exact ⟨0, [], isFile_nil C f, fun n _ => ⟨_, _, rfl, by simp, by simp⟩⟩
    | cons b bs ih =>
      intro out hne hmax hw hr hl hs
      have hrep : RepDocs (md.toList ++ b.1) (mfs.toList ++ b.2) := by
        have := hr b (by simp)
        cases md <;> cases mfs
        · exact this
        · exact hm.elim
        · exact hm.elim
        · exact ⟨hm.1, this⟩
      simp only [List.map_cons, List.flatten_cons] at hl hs
      obtain ⟨t, ⟨N1, h1⟩, h2⟩ := resolve_file C ⟨f, max, (b.1.head?.map List.length).getD 0, md, b.1⟩ (hne b (by simp)) hrep
        (fun fs hfs => hl fs (List.mem_append_left _ hfs)) (fun hj fs hfs => hs hj fs (List.mem_append_left _ hfs))
      obtain ⟨N2, u, h3, h4⟩ := ih (out ++ t) (fun x hx => hne x (List.mem_cons_of_mem _ hx)) (fun x hx => hmax x (List.mem_cons_of_mem _ hx))
        (fun x hx => hw x (List.mem_cons_of_mem _ hx)) (fun x hx => hr x (List.mem_cons_of_mem _ hx)) (fun fs hfs => hl fs (List.mem_append_right _ hfs))
        (fun hj fs hfs => hs hj fs (List.mem_append_right _ hfs))
      refine ⟨Nat.max N1 N2, t ++ u, isFile_append C f h2 h3, fun n hn => ?_⟩
      obtain ⟨c, es, k1, k2, k3⟩ := h4 n (Nat.le_trans (Nat.le_max_right _ _) hn)
      obtain ⟨w, hw⟩ := hw b (by simp)
      obtain ⟨m', j1⟩ := streamingU_batch C n (out := ⟨out, []⟩) (f := f) (max := max) (md := md) b.1 [] 0 (.inl rfl) hw
        (by have := hmax b (by simp); simpa using this)
      simp only [List.nil_append, List.length_nil] at j1
      have j2 : (⟨f, max, m', md, b.1⟩ : Uncompressed).resolve C n = .ok t := by
        have := h1 n (Nat.le_trans (Nat.le_max_left _ _) hn)
        simp only [resolve_eq C n ⟨f, max, (b.1.head?.map List.length).getD 0, md, b.1⟩ (hne b (by simp))] at this
        rw [resolve_eq C n ⟨f, max, m', md, b.1⟩ (hne b (by simp))]
        exact this
      have j3 := streamingU_flush (C := C) (out := out) (k := b.1.length) (hne b (by simp)) j2
      refine ⟨c, b.1.map (fun _ => none) ++ none :: es, ?_, ?_, by rw [k3]; simp⟩
      · simp only [List.map_cons, batches, j1, Res.bind_ok, StreamingU.flush, j3, StreamingU.reset, Uncompressed.reset, k1]
      · intro e he
        rcases List.mem_append.mp he with he | he
        · obtain ⟨_, _, rfl⟩ := List.mem_map.mp he; rfl
        · rcases List.mem_cons.mp he with rfl | he
          · rfl
          · exact k2 e he
  obtain ⟨N, t, h1, h2⟩ := key bs [] hne hmax hw hr hl hs
  refine ⟨N, fun n hn => ?_⟩
  obtain ⟨c, es, a1, a2, a3⟩ := h2 n hn
  refine ⟨c, es, ?_, a2, by rw [a3]; exact h1⟩
  cases md <;> exact a1

/-- two batches with metadata: the metadata is written twice -/
example (C : ExtJson.Clock) : ∃ m d1 d2, ∃ N, ∀ n, N ≤ n → ∃ c es, batches C n (streamingUWith .bson 1 ⟨[], []⟩ (some m)) [[d1], [d2]] = .ok (c, es) ∧ (∀ e ∈ es, e = none) ∧
    c.output.out = encDoc (intField 0x6d 9) ++ encDoc (intField 0x78 1) ++ encDoc (intField 0x6d 9) ++ encDoc (intField 0x79 2) := by
  obtain ⟨m, h0⟩ := intField_built 0x6d 9 (by decide) (by decide)
  obtain ⟨d1, h1⟩ := intField_built 0x78 1 (by decide) (by decide)
  obtain ⟨d2, h2⟩ := intField_built 0x79 2 (by decide) (by decide)
  obtain ⟨N, h⟩ := C68_streaming_flush_partial C .bson 1 (some m) (some (intField 0x6d 9)) ⟨h0, trivial⟩ [([d1], [intField 0x78 1]), ([d2], [intField 0x79 2])]
    (by simp) (by simp) (by simp) (by simp [RepDocs, h1, h2]) (by simp [intField_size]) (by simp)
  refine ⟨m, d1, d2, N, fun n hn => ?_⟩
  obtain ⟨c, es, a1, a2, a3⟩ := h n hn
  exact ⟨c, es, a1, a2, by simpa [IsFile] using a3⟩

/-- The dynamic streaming collectors write documents only up to the first change of the keys.  Then there is a collector of chunks: what follows the first
    document in the file is an FTDC chunk, compressed, whatever the format. -/
theorem C68_dynamic_compressed {fsub : Nat → Nat → Nat}
    (hsub : ∀ a b, a < 18446744073709551616 → b < 18446744073709551616 → fsub a b < 18446744073709551616)
    {zip : Bytes → Bytes} {unzip : Bytes → Option Bytes} (hz : ∀ b, unzip (zip b) = some b) (C : ExtJson.Clock) (now : Nat → Time)
    (f : Format) {max : Nat} (h1 : 1 ≤ max) (h32 : max < 4294967295) {d1 d2 : Doc} {f1 f2 : Fields} (hr1 : RepFields d1 f1) (hr2 : RepFields d2 f2)
    (hl1 : (encDoc f1).length < 2147483648) (hl2 : (encDoc f2).length < 2147483648) (hs : f = .json → ExtJson.ShownFields C f1)
    (hk : fingerprint f1 ≠ fingerprint f2) (hsm : SmallChunks fsub zip max none [d2]) :
    ∃ N, ∀ n, N ≤ n → ∃ c c' text chunk, addEach (fun c d => c.add fsub C zip now n d) (DynamicU.new f max ⟨[], []⟩) [d1, d2] = .ok (c, [none, none]) ∧
      c.flush C zip now n = .ok (.compressed c', none) ∧ c'.base.output.out = text ++ chunk ∧ IsFile C f [f1] text ∧
      ∀ s : Stream.Source, s.left = chunk → ∃ M, ∀ m, M ≤ m → ∃ ds, readStructuredMetrics unzip m s = .ok ds ∧ RepDocs ds (backChunks fsub [[f2]]) := by
  obtain ⟨t, ⟨N1, a1⟩, a2⟩ := resolve_file C ⟨f, max, d1.length, none, [d1]⟩ (fss := [f1]) (by simp) ⟨hr1, trivial⟩ (by simpa using hl1)
    (fun hj => by simpa using hs hj)
  refine ⟨Nat.max N1 10000000000, fun n hn => ?_⟩
  have hn1 : N1 ≤ n := Nat.le_trans (Nat.le_max_left _ _) hn
  have hn2 : 10000000000 ≤ n := Nat.le_trans (Nat.le_max_right _ _) hn
  have b1 : (⟨f, max, d1.length, none, [d1]⟩ : Uncompressed).resolve C n = .ok t := a1 n hn1
  have k1 := metricKeyHash_rep n hr1 hl1 (by omega)
  have k2 := metricKeyHash_rep n hr2 hl2 (by omega)
  have hadd1 : (DynamicU.new f max ⟨[], []⟩).add fsub C zip now n d1 =
      .ok (.raw (hashText (f1.paths []).flatten) f1.kinds.length ⟨⟨[], []⟩, max, 1, ⟨f, max, d1.length, none, [d1]⟩⟩, none) := by
    have e := streamingU_push C n (StreamingU.new f max ⟨[], []⟩) d1 (Nat.zero_le _)
    have e2 : (StreamingU.new f max ⟨[], []⟩).push d1 = (⟨⟨[], []⟩, max, 1, ⟨f, max, d1.length, none, [d1]⟩⟩, none) := by
      simp [StreamingU.push, StreamingU.new, Uncompressed.new, Uncompressed.add, show ¬ max = 0 by omega]
    simp only [DynamicU.new, DynamicU.add, k1, Res.bind_ok, if_true]
    rw [if_neg (by simp [StreamingU.new])]
    simp only [DynamicU.addBase, e, e2, Res.bind_ok]
  have h0 : SInv fsub zip now n max (StreamingDynamic.new max ⟨[], []⟩).base [] (Part.empty max none) :=
    ⟨rfl, rfl, rfl, rfl, rfl, by simp, by simp, run_nil, filled_nil fsub n max _, Nat.zero_le _, by simp [Part.empty]⟩
  obtain ⟨b, p, e1, e2, e3, e4, e5, e6⟩ := sd_first hsub hz hn2 h32 (c := StreamingDynamic.new max ⟨[], []⟩) h0 empty_small rfl
    (run_one (fss := [f2]) (by simpa using hl2) hr2 (by simp))
  obtain ⟨b', g1, g2, g3⟩ := sd_flush hsub hz hn2 h32 (c := ⟨[], 0, b⟩) e2 (by rw [e5]; simp)
    (hsm [d2] n p.chunk _ (List.Sublist.refl _) (by omega) (by have := e2.filled; rwa [e3, e4] at this)) e6
  have hpush : (Streaming.new max ⟨[], []⟩).push fsub n d2 = .ok (b, none) := by
    simp only [StreamingDynamic.addBase, StreamingDynamic.new, add_fresh] at e1
    obtain ⟨⟨x, y⟩, h1, h2⟩ := Res.bind_eq_ok.mp e1
    cases h2
    exact h1
  have hpush' : (Streaming.new max ⟨t, []⟩).push fsub n d2 = .ok (after t b, none) := by
    have := after_push fsub t n (Streaming.new max ⟨[], []⟩) d2
    rw [hpush] at this
    simp only [after, Streaming.new, List.append_nil] at this
    exact this
  have hflush : b.flushWith renew zip now n = .ok (b', none) ∧ b.inner.info.1 ≠ 0 := by
    have hi : b.inner.info.1 ≠ 0 := by
      rw [e2.inner, filled_info e2.run e2.filled e2.room (by omega), e5]; simp
    refine ⟨?_, hi⟩
    unfold StreamingDynamic.flush at g1
    obtain ⟨r, h1, h2⟩ := Res.bind_eq_ok.mp g1
    simp only at h1 h2
    split at h2
    · obtain ⟨x, y⟩ := r; cases h2; exact h1
    · next hno =>
      obtain ⟨x, y⟩ := r
      cases h2
      exact absurd ⟨rfl, hi⟩ hno
  have hadd2 : (DynamicU.raw (hashText (f1.paths []).flatten) f1.kinds.length ⟨⟨[], []⟩, max, 1, ⟨f, max, d1.length, none, [d1]⟩⟩).add fsub C zip now n d2 =
      .ok (.compressed ⟨[], 0, after t b⟩, none) := by
    have e := streamingU_flush (C := C) (out := []) (k := 1) (by simp) b1
    have hne := hashText_ne (f1.paths []).flatten
    simp only [DynamicU.add, k2, Res.bind_ok, if_neg hne]
    rw [if_pos (by
      by_cases hx : f1.kinds.length = f2.kinds.length
      · exact .inr fun hy => hk (by simp [fingerprint, hx, hy])
      · exact .inl hx)]
    simp only [DynamicU.flush, e, Res.bind_ok, DynamicU.addBase, StreamingDynamic.addBase, StreamingDynamic.new, add_fresh, List.nil_append, hpush']
  refine ⟨.compressed ⟨[], 0, after t b⟩, ⟨[], 0, after t b'⟩, t, b'.output.out, ?_, ?_, rfl, a2, ?_⟩
  · simp only [addEach, hadd1, Res.bind_ok, hadd2]
  · have e := after_flush zip now t n b
    rw [hflush.1] at e
    simp only [DynamicU.flush, StreamingDynamic.flush, e, Res.bind, Res.bind_ok]
    have : (after t b).inner.info.1 ≠ 0 := hflush.2
    simp [this]
  · intro s hs
    obtain ⟨bytes, r1, r2⟩ := parts_read hsub hz (by omega) h32 now [p] 0 g2.done g2.small
    have ho := g2.out
    simp only [List.nil_append] at ho
    rw [r1 n hn2] at ho
    cases ho
    have := r2 s hs
    simpa [e5] using this

/-- hypotheses of `C68_dynamic_compressed` -/
example : ∃ d1 d2, RepFields d1 (intField 0x78 1) ∧ RepFields d2 (intField 0x79 2) ∧ SmallChunks (fun a _ => a) id 5 none [d2] ∧
    fingerprint (intField 0x78 1) ≠ fingerprint (intField 0x79 2) := by
  obtain ⟨d1, h1⟩ := intField_built 0x78 1 (by decide) (by decide)
  obtain ⟨d2, h2⟩ := intField_built 0x79 2 (by decide) (by decide)
  have hr : RepDocs [d2] [intField 0x79 2] := ⟨h2, trivial⟩
  refine ⟨d1, d2, h1, h2, smallChunks_of hr (L := 100) (by decide +kernel) (by decide) (by decide) (fun b hb => ?_) _ _, by decide +kernel⟩
  simp only [id]; omega

end Birch.Props
