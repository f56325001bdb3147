import Verif.Proofs.FtdcChunk

/- Streams of chunks. -/

namespace Birch.Proofs.Ftdc
open Birch Model Model.Ftdc Spec

def nowMs (t : Time) : Int := i64 (i64 (t.sec * 1000) + t.nsec.tdiv 1000000)

def chunkFields (ts : Int) (data : Bytes) : Fields :=
  .cons kId (.datetime ts) (.cons kType (.int32 1) (.cons kData (.binary 0 data) .nil))

def metaFields (ts : Int) (mfs : Fields) : Fields :=
  .cons kId (.datetime ts) (.cons kType (.int32 0) (.cons kDoc (.doc mfs) .nil))

theorem chunkFields_length (ts : Int) (data : Bytes) : (encDoc (chunkFields ts data)).length = data.length + 39 := by
  simp only [encDoc, wrapDoc_length, chunkFields, fieldsEnc_length, BVal.enc, kId, kType, kData]
  simp [le32_length, le64_length, Fields.enc]
  try omega

theorem metaFields_length (ts : Int) (mfs : Fields) : (encDoc (metaFields ts mfs)).length = (encDoc mfs).length + 33 := by
  simp only [encDoc, wrapDoc_length, metaFields, fieldsEnc_length, BVal.enc, kId, kType, kDoc]
  simp [le32_length, le64_length, Fields.enc]
  try omega

theorem nulFree_keys : NulFree kId ∧ NulFree kType ∧ NulFree kData ∧ NulFree kDoc := by
  simp [NulFree, kId, kType, kData, kDoc]

theorem chunkFields_wf {t : Time} {data : Bytes} : (chunkFields (nowMs t) data).WF := by
  have := i64_range (i64 (t.sec * 1000) + t.nsec.tdiv 1000000)
  obtain ⟨h1, h2, h3, h4⟩ := nulFree_keys
  exact ⟨h1, this, h2, by simp [BVal.WF], h3, by simp [BVal.WF], trivial⟩

theorem metaFields_wf {t : Time} {mfs : Fields} (h : mfs.WF) : (metaFields (nowMs t) mfs).WF := by
  have := i64_range (i64 (t.sec * 1000) + t.nsec.tdiv 1000000)
  obtain ⟨h1, h2, h3, h4⟩ := nulFree_keys
  exact ⟨h1, this, h2, by simp [BVal.WF], h4, h, trivial⟩

theorem id_rep (now : Time) : ∃ v, EC.time kId now = .ok v ∧ Rep v kId (.datetime (nowMs now)) :=
  buildVal_rep kId (.datetime (nowMs now)) nulFree_keys.1 (i64_range _) (by simp [kId, BVal.enc])

theorem type_elem (i : Int) (h0 : -2147483648 ≤ i) (h1 : i < 2147483648) : ∃ v, EC.int32 kType i = .ok v ∧ Rep v kType (.int32 i) :=
  buildVal_rep kType (.int32 i) nulFree_keys.2.1 (by simp only [BVal.WF]; omega) (by simp [kType, BVal.enc])

theorem data_elem (data : Bytes) (h : data.length ≤ 2147483000) : ∃ v, EC.binary kData data = .ok v ∧ Rep v kData (.binary 0 data) :=
  buildVal_rep kData (.binary 0 data) nulFree_keys.2.2.1 (by simp [BVal.WF]) (by simp [kData, BVal.enc]; omega)

/-- the chunk document -/
theorem chunkDoc_ok (now : Time) (data : Bytes) (h : data.length ≤ 2147483000) (fuel : Nat) (hf : data.length + 39 < fuel) :
    (do docMarshal fuel [← EC.time kId now, ← EC.int32 kType 1, ← EC.binary kData data]) = .ok (encDoc (chunkFields (nowMs now) data)) := by
  obtain ⟨a, ha, ra⟩ := id_rep now
  obtain ⟨b, hb, rb⟩ := type_elem 1 (by decide) (by decide)
  obtain ⟨c, hc, rc⟩ := data_elem data h
  rw [ha, Res.bind_ok, hb, Res.bind_ok, hc, Res.bind_ok]
  have hl := chunkFields_length (nowMs now) data
  exact docMarshal_rep fuel (d := [a, b, c]) (fs := chunkFields (nowMs now) data) ⟨ra, rb, rc, trivial⟩ (by omega) (by omega)

theorem metaDoc_ok (now : Time) {md : Doc} {mfs : Fields} (hm : RepFields md mfs) (h : (encDoc mfs).length ≤ 2147483000) (fuel : Nat)
    (hf : (encDoc mfs).length + 33 < fuel) :
    (do docMarshal fuel [← EC.time kId now, ← EC.int32 kType 0, ← EC.subDocument kDoc md]) = .ok (encDoc (metaFields (nowMs now) mfs)) := by
  obtain ⟨a, ha, ra⟩ := id_rep now
  obtain ⟨b, hb, rb⟩ := type_elem 0 (by decide) (by decide)
  obtain ⟨c, hc, rc⟩ := subDocument_rep (k := kDoc) nulFree_keys.2.2.2 (by decide) hm
  rw [ha, Res.bind_ok, hb, Res.bind_ok, hc, Res.bind_ok]
  have hl := metaFields_length (nowMs now) mfs
  exact docMarshal_rep fuel (d := [a, b, c]) (fs := metaFields (nowMs now) mfs) ⟨ra, rb, rc, trivial⟩ (by omega) (by omega)

/-- what the documents with fields `fs` contribute -/
def Yields (unzip : Bytes → Option Bytes) (fuel : Nat) (fs : Fields) (outs : List Fields) : Prop :=
  ∀ md doc, RepFields doc fs → ∃ md' ch, readChunkDoc unzip fuel md doc = .ok (md', ch) ∧
    match ch with
    | none => outs = []
    | some ch => ∃ ds, ch.structured fuel = .ok ds ∧ RepDocs ds outs

theorem isNum_int {v : Value} {k : Bytes} {i : Int} (h : Rep v k (.int32 i)) (n : Nat) : isNum n (some v) = .ok (decide (i = n)) := by
  unfold isNum
  simp only [type_rep h, Res.bind_ok, BVal.tag]
  rw [if_pos trivial, int32_rep h, Res.bind_ok]

theorem meta_yields (unzip : Bytes → Option Bytes) (fuel : Nat) (ts : Int) (mfs : Fields) : Yields unzip fuel (metaFields ts mfs) [] := by
  intro md doc h
  have h1 := findElem_rep kType h
  rw [show (metaFields ts mfs).firstNamed kType = some (.int32 0) from by simp [metaFields, Fields.firstNamed, kId, kType]] at h1
  obtain ⟨v, e1, e2, _⟩ := h1
  refine ⟨some doc, none, ?_, rfl⟩
  unfold readChunkDoc
  rw [e1, Res.bind_ok, isNum_int e2, Res.bind_ok]; rfl

theorem chunk_yields {fsub : Nat → Nat → Nat}
    (hsub : ∀ a b, a < 18446744073709551616 → b < 18446744073709551616 → fsub a b < 18446744073709551616)
    {zip : Bytes → Bytes} {unzip : Bytes → Option Bytes} (hz : ∀ b, unzip (zip b) = some b)
    {c : Better} {d0 : Doc} {f0 : Fields} {fss : List Fields} {hs : List Row} (h : Holds fsub c d0 (numsF f0) hs) (hss : Samples f0 fss hs)
    (hl : (encDoc f0).length < 2147483648) (hn : hs.length < 4294967296) (fuel : Nat) (hf : (encDoc f0).length < fuel) (ts : Int) :
    Yields unzip fuel (chunkFields ts (compressBuffer zip (payloadOf c f0))) (backAll fsub ((f0 :: fss).map Fields.metrics)) := by
  intro md doc hd
  have h1 := findElem_rep kType hd
  rw [show (chunkFields ts (compressBuffer zip (payloadOf c f0))).firstNamed kType = some (.int32 1) from by
    simp [chunkFields, Fields.firstNamed, kId, kType]] at h1
  obtain ⟨v, e1, e2, _⟩ := h1
  have h2 := findElem_rep kData hd
  rw [show (chunkFields ts (compressBuffer zip (payloadOf c f0))).firstNamed kData = some (.binary 0 (compressBuffer zip (payloadOf c f0))) from by
    simp [chunkFields, Fields.firstNamed, kId, kType, kData]] at h2
  obtain ⟨w, e3, e4, _⟩ := h2
  obtain ⟨ref, h3, h4⟩ := readPayload_ok h hss.wf0 hl hn fuel hf md
  have hl' := hl; have hf' := hf
  simp only [encDoc, wrapDoc_length] at hl' hf'
  obtain ⟨ds, h5, h6⟩ := structured_ok hsub h hss h3 (by omega) fuel (by omega) md
  refine ⟨md, some _, ?_, ds, h5, h6⟩
  unfold readChunkDoc
  rw [e1, Res.bind_ok, isNum_int e2, Res.bind_ok]
  rw [show decide ((1 : Int) = ((0 : Nat) : Int)) = false from rfl, if_neg (by decide)]
  rw [isNum_int e2, Res.bind_ok]
  rw [show decide ((1 : Int) = ((1 : Nat) : Int)) = true from rfl, if_neg (by decide), e3]
  simp only [Res.bind_ok]
  rw [binary_rep e4]
  simp only [Res.bind_ok]
  have : slice (compressBuffer zip (payloadOf c f0)) 4 (compressBuffer zip (payloadOf c f0)).length = .ok (zip (payloadOf c f0)) := by
    unfold compressBuffer
    exact slice_tail (le32 _) _ (by simp) (by simp)
  rw [this, Res.bind_ok, hz]
  simp only [h4, Res.bind_ok]

/-- what `Resolve` writes: documents that give back the samples -/
theorem resolve_yields {fsub : Nat → Nat → Nat}
    (hsub : ∀ a b, a < 18446744073709551616 → b < 18446744073709551616 → fsub a b < 18446744073709551616)
    {zip : Bytes → Bytes} {unzip : Bytes → Option Bytes} (hz : ∀ b, unzip (zip b) = some b)
    {c : Better} {d0 : Doc} {f0 : Fields} {fss : List Fields} {hs : List Row} (h : Holds fsub c d0 (numsF f0) hs) (hss : Samples f0 fss hs)
    (hd : RepFields d0 f0) (hl : (encDoc f0).length < 2147483648) (hn : hs.length < 4294967296)
    (hm : ∀ md, c.metadata = some md → ∃ mfs, RepFields md mfs ∧ (encDoc mfs).length ≤ 2147483000)
    (hp : (zip (payloadOf c f0)).length ≤ 2147482000) (now : Time) :
    ∃ gss : List (Fields × List Fields), (∀ g ∈ gss, g.1.WF ∧ (encDoc g.1).length < 2147483648) ∧
      (gss.map Prod.snd).flatten = backAll fsub ((f0 :: fss).map Fields.metrics) ∧
      ∀ fuel, 10000000000 ≤ fuel → c.resolve zip now fuel = .ok (gss.map (fun g => encDoc g.1)).flatten ∧ ∀ g ∈ gss, Yields unzip fuel g.1 g.2 := by
  have hdl : (compressBuffer zip (payloadOf c f0)).length = (zip (payloadOf c f0)).length + 4 := by simp [compressBuffer]; omega
  have hcl := chunkFields_length (nowMs now) (compressBuffer zip (payloadOf c f0))
  have hcw := chunkFields_wf (t := now) (data := compressBuffer zip (payloadOf c f0))
  cases hmd : c.metadata with
  | none =>
    refine ⟨[(chunkFields (nowMs now) (compressBuffer zip (payloadOf c f0)), backAll fsub ((f0 :: fss).map Fields.metrics))], ?_, by simp, ?_⟩
    · intro g hg; simp only [List.mem_singleton] at hg; subst hg; exact ⟨hcw, by simp only; omega⟩
    · intro fuel hf
      refine ⟨?_, ?_⟩
      · unfold Better.resolve
        rw [h.ref]
        simp only
        rw [payload_ok h hd hl hn fuel (by omega), Res.bind_ok, hmd]
        simp only [Res.bind_ok]
        have := chunkDoc_ok now (compressBuffer zip (payloadOf c f0)) (by omega) fuel (by omega)
        obtain ⟨a, ha, ra⟩ := id_rep now
        obtain ⟨b, hb, rb⟩ := type_elem 1 (by decide) (by decide)
        obtain ⟨e, he, re⟩ := data_elem (compressBuffer zip (payloadOf c f0)) (by omega)
        simp only [ha, hb, he, Res.bind_ok] at this ⊢
        rw [this]
        simp
      · intro g hg; simp only [List.mem_singleton] at hg; subst hg
        exact chunk_yields hsub hz h hss hl hn fuel (by omega) _
  | some md =>
    obtain ⟨mfs, hmr, hml⟩ := hm md hmd
    have hmfl := metaFields_length (nowMs now) mfs
    refine ⟨[(metaFields (nowMs now) mfs, []), (chunkFields (nowMs now) (compressBuffer zip (payloadOf c f0)), backAll fsub ((f0 :: fss).map Fields.metrics))],
      ?_, by simp, ?_⟩
    · intro g hg; simp only [List.mem_cons, List.not_mem_nil, or_false] at hg
      rcases hg with rfl | rfl
      · exact ⟨metaFields_wf (repFields_wf hmr), by simp only; omega⟩
      · exact ⟨hcw, by simp only; omega⟩
    · intro fuel hf
      refine ⟨?_, ?_⟩
      · unfold Better.resolve
        rw [h.ref]
        simp only
        rw [payload_ok h hd hl hn fuel (by omega), Res.bind_ok, hmd]
        simp only
        have h1 := chunkDoc_ok now (compressBuffer zip (payloadOf c f0)) (by omega) fuel (by omega)
        have h2 := metaDoc_ok now hmr (by omega) fuel (by omega)
        obtain ⟨a, ha, ra⟩ := id_rep now
        obtain ⟨b, hb, rb⟩ := type_elem 1 (by decide) (by decide)
        obtain ⟨b', hb', rb'⟩ := type_elem 0 (by decide) (by decide)
        obtain ⟨e, he, re⟩ := data_elem (compressBuffer zip (payloadOf c f0)) (by omega)
        obtain ⟨e', he', re'⟩ := subDocument_rep (k := kDoc) nulFree_keys.2.2.2 (by decide) hmr
        simp only [ha, hb, he, hb', he', Res.bind_ok] at h1 h2 ⊢
        rw [h1, h2]
        simp
      · intro g hg; simp only [List.mem_cons, List.not_mem_nil, or_false] at hg
        rcases hg with rfl | rfl
        · exact meta_yields unzip fuel _ _
        · exact chunk_yields hsub hz h hss hl hn fuel (by omega) _

/-! ### reading a stream -/

theorem readDiagnostic_ok : ∀ (fss : List Fields) (fuel : Nat) (s : Stream.Source), (∀ fs ∈ fss, fs.WF ∧ (encDoc fs).length < 2147483648) →
    (∀ fs ∈ fss, (encDoc fs).length + fss.length < fuel) → fss.length < fuel → s.left = (fss.map encDoc).flatten →
    ∃ ds, readDiagnostic fuel s = (ds, .ok ()) ∧ RepDocs ds fss
  | _, 0, _, _, _, h, _ => by omega
  | [], fuel + 1, s, _, _, _, h => by
    obtain ⟨s', h1, _⟩ := readFull_short (n := 4) (s := s) (by rw [h]; simp)
    refine ⟨[], ?_, trivial⟩
    simp only [List.map_nil, List.flatten_nil] at h
    rw [h] at h1
    unfold readDiagnostic Stream.readFrom
    simp only [h1]
    rfl
  | fs :: fss, fuel + 1, s, wf, hf, _, h => by
    obtain ⟨w, hl⟩ := wf fs (by simp)
    obtain ⟨s', h1, h2⟩ := Props.readFrom_enc fs hl s ((fss.map encDoc).flatten) (by rw [h]; simp)
    have hfs := hf fs (by simp)
    have h3 := readDocument_enc (fuel + 1) fs w [] (by omega) (by simpa using hl)
    rw [List.append_nil] at h3
    obtain ⟨d, h4, h5⟩ := h3
    obtain ⟨ds, h6, h7⟩ := readDiagnostic_ok fss fuel s' (fun f hm => wf f (List.mem_cons_of_mem _ hm))
      (fun f hm => by have := hf f (List.mem_cons_of_mem _ hm); simp only [List.length_cons] at this; omega)
      (by simp only [List.length_cons] at *; omega) h1
    refine ⟨d :: ds, ?_, h5, h7⟩
    unfold readDiagnostic
    simp only [h2, h4, h6]

theorem readChunks_ok {unzip : Bytes → Option Bytes} {fuel : Nat} : ∀ (gss : List (Fields × List Fields)) (docs : List Doc) (md : Option Doc),
    RepDocs docs (gss.map Prod.fst) → (∀ g ∈ gss, Yields unzip fuel g.1 g.2) →
    ∃ cs ds, readChunks unzip fuel md docs = (cs, .ok ()) ∧ overChunks (Chunk.structured fuel) cs = .ok ds ∧
      RepDocs ds (gss.map Prod.snd).flatten
  | [], [], md, _, _ => ⟨[], [], rfl, rfl, trivial⟩
  | [], _ :: _, _, h, _ => h.elim
  | _ :: _, [], _, h, _ => h.elim
  | g :: gss, doc :: docs, md, h, hy => by
    obtain ⟨md', ch, h1, h2⟩ := hy g (by simp) md doc h.1
    obtain ⟨cs, ds, h3, h4, h5⟩ := readChunks_ok gss docs md' h.2 (fun g hg => hy g (List.mem_cons_of_mem _ hg))
    cases ch with
    | none =>
      refine ⟨cs, ds, ?_, h4, ?_⟩
      · unfold readChunks; simp only [h1, h3]; rfl
      · simp only at h2; simp only [List.map_cons, List.flatten_cons, h2, List.nil_append]; exact h5
    | some ch =>
      obtain ⟨es, h6, h7⟩ := h2
      refine ⟨ch :: cs, es ++ ds, ?_, ?_, ?_⟩
      · unfold readChunks; simp only [h1, h3]; rfl
      · simp only [overChunks, h6, h4, Res.bind_ok]
      · simp only [List.map_cons, List.flatten_cons]
        exact repDocs_append h7 h5
where
  repDocs_append : ∀ {a b : List Doc} {x y : List Fields}, RepDocs a x → RepDocs b y → RepDocs (a ++ b) (x ++ y)
  | [], _, [], _, _, h => h
  | [], _, _ :: _, _, h, _ => h.elim
  | _ :: _, _, [], _, h, _ => h.elim
  | _ :: _, _, _ :: _, _, h, h' => ⟨h.1, repDocs_append h.2 h'⟩

theorem readStructured_ok {unzip : Bytes → Option Bytes} (gss : List (Fields × List Fields)) (wf : ∀ g ∈ gss, g.1.WF ∧ (encDoc g.1).length < 2147483648)
    (N : Nat) (hy : ∀ fuel, N ≤ fuel → ∀ g ∈ gss, Yields unzip fuel g.1 g.2) (s : Stream.Source)
    (h : s.left = (gss.map (fun g => encDoc g.1)).flatten) :
    ∃ M, ∀ fuel, M ≤ fuel → ∃ ds, readStructuredMetrics unzip fuel s = .ok ds ∧ RepDocs ds (gss.map Prod.snd).flatten := by
  refine ⟨N + gss.length + 2147483648, fun fuel hf => ?_⟩
  have hm : (gss.map (fun g => encDoc g.1)) = (gss.map Prod.fst).map encDoc := by simp
  obtain ⟨docs, h1, h2⟩ := readDiagnostic_ok (gss.map Prod.fst) fuel s
    (fun fs hfs => by obtain ⟨g, hg, rfl⟩ := List.mem_map.mp hfs; exact wf g hg)
    (fun fs hfs => by obtain ⟨g, hg, rfl⟩ := List.mem_map.mp hfs; have := (wf g hg).2; simp only [List.length_map]; omega)
    (by simp only [List.length_map]; omega) (by rw [h, hm])
  obtain ⟨cs, ds, h3, h4, h5⟩ := readChunks_ok gss docs none h2 (hy fuel (by omega))
  refine ⟨ds, ?_, h5⟩
  unfold readStructuredMetrics readAll
  simp only [h1, h3, h4]

/-! ### histories -/

mutual
theorem kinds_nums : ∀ t : BVal, (nums t).map Prod.fst = t.kinds
  | .doc fs => by simp only [nums, BVal.kinds, kindsF_nums fs]
  | .array vs => by simp only [nums, BVal.kinds, kindsV_nums vs]
  | .double _ | .bool _ | .datetime _ | .int32 _ | .int64 _ | .timestamp _ _ => rfl
  | .string _ | .binary _ _ | .undefined | .oid _ | .null | .regex _ _ | .dbpointer _ _ | .js _ | .symbol _ | .codeScope _ _
  | .decimal _ _ | .minKey | .maxKey => rfl
theorem kindsF_nums : ∀ fs : Fields, (numsF fs).map Prod.fst = fs.kinds
  | .nil => rfl
  | .cons _ v rest => by simp only [numsF, Fields.kinds, List.map_append, kinds_nums v, kindsF_nums rest]
theorem kindsV_nums : ∀ vs : Vals, (numsV vs).map Prod.fst = vs.kinds
  | .nil => rfl
  | .cons v rest => by simp only [numsV, Vals.kinds, List.map_append, kinds_nums v, kindsV_nums rest]
end

/-- the collector holds the documents of `kept`, the first of which is `d0` -/
def State (fsub : Nat → Nat → Nat) (max : Nat) (md : Option Doc) (c : Better) (d0 : Option Doc) (kept : List Fields) : Prop :=
  c.maxDeltas = max ∧ c.metadata = md ∧
  match d0, kept with
  | none, [] => c.reference = none ∧ c.numSamples = 0 ∧ c.last = []
  | some d0, f0 :: fss => RepFields d0 f0 ∧ Holds fsub c d0 (numsF f0) (fss.map numsF)
  | _, _ => False

theorem state_new (fsub : Nat → Nat → Nat) (max : Nat) : State fsub max none (Better.new max) none [] := ⟨rfl, rfl, rfl, rfl, rfl⟩

theorem state_add {fsub : Nat → Nat → Nat} {max : Nat} {md : Option Doc} {c : Better} {d0 : Option Doc} {kept : List Fields}
    (h : State fsub max md c d0 kept) {d : Doc} {fs : Fields} (hd : RepFields d fs) (hl : (encDoc fs).length < 2147483648) {fuel : Nat}
    (hf : (encDoc fs).length < fuel) :
    ∃ c' e, c.add fsub fuel d = .ok (c', e) ∧
      (e = none ↔ ∀ f0 rest, kept = f0 :: rest → kept.length ≤ max ∧ fs.kinds = f0.kinds) ∧
      (e = none → State fsub max md c' (some (d0.getD d)) (kept ++ [fs])) ∧ (e ≠ none → State fsub max md c' d0 kept) := by
  obtain ⟨h1, h2, h3⟩ := h
  simp only [encDoc, wrapDoc_length] at hl hf
  have he := extract_rep fuel hd (by omega) (by omega)
  match d0, kept, h3 with
  | none, [], ⟨h3, h4, h5⟩ =>
    obtain ⟨c', e1, e2, e3, e4⟩ := add_first fsub h3 h4 he
    exact ⟨c', none, e1, by simp, fun _ => ⟨e3.trans h1, e4.trans h2, hd, e2⟩, fun hh => absurd rfl hh⟩
  | some d0, f0 :: fss, ⟨h3, h4⟩ =>
    obtain ⟨c', e, e1, e2, e3, e4, e5, e6⟩ := add_next h4 he
    refine ⟨c', e, e1, ?_, fun hh => ⟨e2.trans h1, e3.trans h2, h3, ?_⟩, fun hh => ⟨e2.trans h1, e3.trans h2, h3, (e6 hh).1⟩⟩
    · rw [e4, kindsF_nums, kindsF_nums, h1, List.length_map]
      constructor
      · rintro ⟨a, b⟩ f0' rest' heq; cases heq; exact ⟨by simp; omega, b⟩
      · intro a; have := a f0 fss rfl; simp at this; exact ⟨by omega, this.2⟩
    · have := e5 hh; simpa using this

theorem fits_iff {max : Nat} {kept : List Fields} {fs : Fields} {e : Option Err}
    (h2 : e = none ↔ ∀ f0 rest, kept = f0 :: rest → kept.length ≤ max ∧ fs.kinds = f0.kinds) : fits max kept fs = e.isNone := by
  cases kept with
  | nil => have := h2.mpr (by simp); rw [this]; rfl
  | cons f0 rest =>
    rw [Bool.eq_iff_iff]
    simp only [fits, decide_eq_true_eq, Option.isNone_iff_eq_none, h2]
    constructor
    · rintro ⟨a, b⟩ f0' rest' heq; cases heq; exact ⟨a, b⟩
    · intro a; exact a f0 rest rfl

theorem collect_ok {fsub : Nat → Nat → Nat} {max : Nat} {md : Option Doc} {fuel : Nat} : ∀ (docs : List Doc) (fss : List Fields) {c : Better} {d0 : Option Doc}
    {kept : List Fields}, State fsub max md c d0 kept → RepDocs docs fss → (∀ fs ∈ fss, (encDoc fs).length < 2147483648 ∧ (encDoc fs).length < fuel) →
    ∃ c' es d0', c.addAll fsub fuel docs = .ok (c', es) ∧ es.map Option.isNone = (collect max kept fss).1 ∧
      State fsub max md c' d0' (collect max kept fss).2 ∧ (∀ d, d0 = some d → d0' = some d) ∧
      (d0 = none → d0' = docs.head?)
  | [], [], c, d0, kept, h, _, _ => ⟨c, [], d0, by simp [Better.addAll], by simp [collect], by simpa [collect] using h, fun _ h => h, fun h => by simp [h]⟩
  | [], _ :: _, _, _, _, _, h, _ => h.elim
  | _ :: _, [], _, _, _, _, h, _ => h.elim
  | d :: docs, fs :: fss, c, d0, kept, h, hr, hl => by
    obtain ⟨c1, e, h1, h2, h3, h4⟩ := state_add h hr.1 (hl fs (by simp)).1 (hl fs (by simp)).2
    have hok : fits max kept fs = e.isNone := fits_iff h2
    have hs : State fsub max md c1 (if e.isNone then some (d0.getD d) else d0) (if e.isNone then kept ++ [fs] else kept) := by
      cases e with
      | none => exact h3 rfl
      | some e => exact h4 (by simp)
    obtain ⟨c2, es, d1, g1, g2, g3, g4, g5⟩ := collect_ok docs fss hs hr.2 (fun f hf => hl f (List.mem_cons_of_mem _ hf))
    refine ⟨c2, e :: es, d1, ?_, ?_, ?_, ?_, ?_⟩
    · simp only [Better.addAll, h1, Res.bind_ok, g1]
    · simp only [collect, List.map_cons, g2, hok]
    · simp only [collect, hok]; exact g3
    · intro d' hd'; subst hd'
      apply g4; cases e <;> rfl
    · intro hd'; subst hd'
      have he : e = none := by
        rw [h2]; intro f0 rest heq; subst heq; exact h.2.2.elim
      subst he
      simp only [Option.isNone_none, if_true] at g4
      simpa using g4 d rfl

theorem row_congr {a b : List Int} {max i : Nat} : ∀ n j, (∀ k, j ≤ k → k < j + n → a.getD (i * max + k) 0 = b.getD (i * max + k) 0) →
    row a max i n j = row b max i n j
  | 0, _, _ => rfl
  | n + 1, j, h => by
    simp only [row]
    rw [h j (by omega) (by omega), row_congr n (j + 1) (fun k h1 h2 => h k (by omega) (by omega))]

theorem rows_congr {a b : List Int} {max s : Nat} : ∀ n i, (∀ m k, i ≤ m → m < i + n → k < s → a.getD (m * max + k) 0 = b.getD (m * max + k) 0) →
    rows a max s n i = rows b max s n i
  | 0, _, _ => rfl
  | n + 1, i, h => by
    simp only [rows]
    rw [row_congr s 0 (fun k _ h2 => h i k (by omega) (by omega) (by omega)), rows_congr n (i + 1) (fun m k h1 h2 h3 => h m k (by omega) (by omega) h3)]

/-- collectors that hold the same samples write the same -/
theorem same_payload {fsub : Nat → Nat → Nat} {c c' : Better} {d0 : Doc} {h0 : Row} {hs : List Row} (h : Holds fsub c d0 h0 hs)
    (h' : Holds fsub c' d0 h0 hs) (hm : c.maxDeltas = c'.maxDeltas) (fuel : Nat) :
    c.payload fuel = c'.payload fuel ∧ c.info = c'.info := by
  have hl : c.last = c'.last := by have := h.last; rw [h'.last] at this; exact (Option.some.inj this).symm
  have hn : c.numSamples = c'.numSamples := by rw [h.num, h'.num]
  have e1 := encodeDeltas_ok (metrics := c.last.length) h.cap (by rw [h.len, last_length h]; exact Nat.le_refl _)
  have e2 := encodeDeltas_ok (metrics := c'.last.length) h'.cap (by rw [h'.len, last_length h']; exact Nat.le_refl _)
  have hrows : rows c.deltas c.maxDeltas c.numSamples c.last.length 0 = rows c'.deltas c'.maxDeltas c'.numSamples c'.last.length 0 := by
    rw [← hl, ← hn, ← hm]
    apply rows_congr
    intro i j _ hi hj
    rw [h.num] at hj
    obtain ⟨r, hr⟩ := get_of_lt (l := h0 :: hs) (i := j) (by simp; omega)
    obtain ⟨r', hr'⟩ := get_of_lt (l := hs) (i := j) hj
    rw [last_length h] at hi
    obtain ⟨y, hy⟩ := get_of_lt (l := r) (i := i) (by rw [row_length_eq h (List.mem_of_getElem? hr)]; omega)
    obtain ⟨x, hx⟩ := get_of_lt (l := r') (i := i) (by rw [row_length_eq h (List.mem_cons_of_mem _ (List.mem_of_getElem? hr'))]; omega)
    have a := h.cell j i r r' x y hr hr' hy hx
    have b := h'.cell j i r r' x y hr hr' hy hx
    rw [← hm] at b
    rw [List.getD_eq_getElem?_getD, List.getD_eq_getElem?_getD, a, b]
  constructor
  · unfold Better.payload
    rw [h.ref, h'.ref]
    simp only
    rw [e1, e2, hrows, hl, hn]
  · unfold Better.info
    rw [h.ref, h'.ref, hl, hn]

theorem same_resolve {fsub : Nat → Nat → Nat} {max : Nat} {md : Option Doc} {c c' : Better} {d0 : Option Doc} {kept : List Fields}
    (h : State fsub max md c d0 kept) (h' : State fsub max md c' d0 kept) (zip : Bytes → Bytes) (now : Time) (fuel : Nat) :
    c.resolve zip now fuel = c'.resolve zip now fuel ∧ c.info = c'.info := by
  obtain ⟨a1, a2, a3⟩ := h
  obtain ⟨b1, b2, b3⟩ := h'
  match d0, kept, a3, b3 with
  | none, [], ⟨a3, a4, a5⟩, ⟨b3, b4, b5⟩ =>
    unfold Better.resolve Better.info
    rw [a3, b3, a4, b4, a5, b5]; exact ⟨rfl, rfl⟩
  | some d0, f0 :: fss, ⟨_, a⟩, ⟨_, b⟩ =>
    obtain ⟨e1, e2⟩ := same_payload a b (a1.trans b1.symm) fuel
    refine ⟨?_, e2⟩
    unfold Better.resolve
    rw [a.ref, b.ref, a2, b2, e1]

/-- the samples of a chunk are of the same types -/
theorem info_state {fsub : Nat → Nat → Nat} {max : Nat} {md : Option Doc} {c : Better} {d0 : Option Doc} {kept : List Fields}
    (h : State fsub max md c d0 kept) : c.info = (kept.length, (match kept with | [] => [] | f0 :: _ => f0.kinds).length) := by
  obtain ⟨a1, a2, a3⟩ := h
  match d0, kept, a3 with
  | none, [], ⟨a3, a4, a5⟩ => unfold Better.info; rw [a3, a4, a5]; rfl
  | some d0, f0 :: fss, ⟨_, a⟩ =>
    unfold Better.info
    rw [a.ref, a.num, last_length a]
    simp only [← kindsF_nums]
    simp; omega

end Birch.Proofs.Ftdc
