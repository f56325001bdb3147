import Verif.Proofs.FtdcBack
import Verif.Props.Streams

/- Writing a chunk and reading it back. -/

namespace Birch.Proofs.Ftdc
open Birch Model Model.Ftdc Spec

mutual
theorem count_le : ∀ t, count t ≤ t.enc.length
  | .doc fs => by have := countF_le fs; simp only [count, BVal.enc, wrapDoc_length]; omega
  | .array vs => by have := countV_le vs 0; simp only [count, BVal.enc, wrapDoc_length]; omega
  | .double _ | .bool _ | .datetime _ | .int32 _ | .int64 _ | .timestamp _ _ => by simp [count, BVal.enc]
  | .string _ | .binary _ _ | .undefined | .oid _ | .null | .regex _ _ | .dbpointer _ _ | .js _ | .symbol _ | .codeScope _ _
  | .decimal _ _ | .minKey | .maxKey => by simp only [count]; omega
theorem countF_le : ∀ fs, countF fs ≤ fs.enc.length
  | .nil => by simp [countF]
  | .cons k v rest => by
    have := count_le v; have := countF_le rest
    rw [fieldsEnc_length]; simp only [countF]; omega
theorem countV_le : ∀ vs i, countV vs ≤ (vs.encFrom i).length
  | .nil, _ => by simp [countV]
  | .cons v rest, i => by
    have := count_le v; have := countV_le rest (i + 1)
    rw [encFrom_length]; simp only [countV]; omega
end

def fst' : Nat → Nat → Nat := fun x _ => x

mutual
/-- the starting values are the values read back for the first sample -/
theorem heads_first : ∀ t : BVal, t.WF → ∀ p ∈ (heads t).zip (nums t), p.1 = bkv fst' p.1 p.2.2 p.2.2 p.2.2
  | .doc fs, h, p, hp => headsF_first fs h p hp
  | .array vs, h, p, hp => headsV_first vs h p hp
  | .double _, h, p, hp => by
    simp only [heads, nums, List.zip_cons_cons, List.zip_nil_right, List.mem_singleton] at hp
    subst hp; simp only [bkv, fst']
  | .bool b, h, p, hp => by
    simp only [heads, nums, List.zip_cons_cons, List.zip_nil_right, List.mem_singleton] at hp
    subst hp; simp only [bkv]; cases b <;> decide
  | .datetime ms, h, p, hp => by
    simp only [heads, nums, List.zip_cons_cons, List.zip_nil_right, List.mem_singleton] at hp
    subst hp; simp only [bkv]; have := wrapMs_range ms; generalize wrapMs ms = x at *; unfold i64; omega
  | .int32 _, h, p, hp => by
    simp only [heads, nums, List.zip_cons_cons, List.zip_nil_right, List.mem_singleton] at hp
    subst hp; simp only [bkv]; simp only [BVal.WF] at h; unfold i64; omega
  | .int64 _, h, p, hp => by
    simp only [heads, nums, List.zip_cons_cons, List.zip_nil_right, List.mem_singleton] at hp
    subst hp; simp only [bkv]; simp only [BVal.WF] at h; unfold i64; omega
  | .timestamp _ _, h, p, hp => by
    simp only [heads, nums, List.zip_cons_cons, List.zip_nil_right, List.mem_cons, List.not_mem_nil, or_false] at hp
    simp only [BVal.WF] at h
    rcases hp with rfl | rfl <;> simp only [bkv] <;> unfold i64 <;> omega
  | .string _, _, _, hp | .binary _ _, _, _, hp | .undefined, _, _, hp | .oid _, _, _, hp | .null, _, _, hp | .regex _ _, _, _, hp
  | .dbpointer _ _, _, _, hp | .js _, _, _, hp | .symbol _, _, _, hp | .codeScope _ _, _, _, hp
  | .decimal _ _, _, _, hp | .minKey, _, _, hp | .maxKey, _, _, hp => by simp [heads] at hp
theorem headsF_first : ∀ fs : Fields, fs.WF → ∀ p ∈ (headsF fs).zip (numsF fs), p.1 = bkv fst' p.1 p.2.2 p.2.2 p.2.2
  | .nil, _, p, hp => by simp [headsF] at hp
  | .cons k v rest, h, p, hp => by
    simp only [headsF, numsF] at hp
    rw [List.zip_append (by rw [length_heads, length_nums])] at hp
    rcases List.mem_append.mp hp with hp | hp
    · exact heads_first v h.2.1 p hp
    · exact headsF_first rest h.2.2 p hp
theorem headsV_first : ∀ vs : Vals, vs.WF → ∀ p ∈ (headsV vs).zip (numsV vs), p.1 = bkv fst' p.1 p.2.2 p.2.2 p.2.2
  | .nil, _, p, hp => by simp [headsV] at hp
  | .cons v rest, h, p, hp => by
    simp only [headsV, numsV] at hp
    rw [List.zip_append (by rw [length_heads, length_nums])] at hp
    rcases List.mem_append.mp hp with hp | hp
    · exact heads_first v h.1 p hp
    · exact headsV_first rest h.2 p hp
end

/-! ### the payload -/

/-- the bytes of the deltas of a collector -/
def deltaBytes (c : Better) : Bytes := code 0 (rows c.deltas c.maxDeltas c.numSamples c.last.length 0).flatten

/-- the payload of a collector whose reference is `f0` -/
def payloadOf (c : Better) (f0 : Fields) : Bytes :=
  encDoc f0 ++ (le32 c.last.length ++ (le32 c.numSamples ++ deltaBytes c))

theorem payload_ok {fsub : Nat → Nat → Nat} {c : Better} {d0 : Doc} {f0 : Fields} {hs : List Row} (h : Holds fsub c d0 (numsF f0) hs)
    (hd : RepFields d0 f0) (hl : (encDoc f0).length < 2147483648) (hn : hs.length < 4294967296) (fuel : Nat) (hf : (encDoc f0).length < fuel) :
    c.payload fuel = .ok (payloadOf c f0) := by
  have h1 : c.last.length < 4294967296 := by
    rw [last_length h, length_numsF]; have := countF_le f0; simp only [encDoc, wrapDoc_length] at hl; omega
  unfold Better.payload
  rw [h.ref]
  simp only
  rw [docMarshal_rep fuel hd hl hf, Res.bind_ok, encodeDeltas_ok h.cap (by rw [h.len, last_length h]; exact Nat.le_refl _), Res.bind_ok, u32_small h1,
    u32_small (by rw [h.num]; exact hn)]
  simp [payloadOf, deltaBytes]

/-- the metrics of the chunk -/
def chunkMetrics (c : Better) (f0 : Fields) : List Metric :=
  List.zipWith series (metsF [] f0) (rows c.deltas c.maxDeltas c.numSamples c.last.length 0)

theorem chunkMetrics_length {fsub : Nat → Nat → Nat} {c : Better} {d0 : Doc} {f0 : Fields} {hs : List Row} (h : Holds fsub c d0 (numsF f0) hs) :
    (chunkMetrics c f0).length = countF f0 := by
  unfold chunkMetrics
  rw [List.length_zipWith, rows_length, length_metsF, last_length h, length_numsF]; omega

theorem readPayload_ok {fsub : Nat → Nat → Nat} {c : Better} {d0 : Doc} {f0 : Fields} {hs : List Row} (h : Holds fsub c d0 (numsF f0) hs)
    (wf : f0.WF) (hl : (encDoc f0).length < 2147483648) (hn : hs.length < 4294967296) (fuel : Nat) (hf : (encDoc f0).length < fuel) (md : Option Doc) :
    ∃ ref, RepFields ref f0 ∧ readPayload fuel md (payloadOf c f0) = .ok ⟨chunkMetrics c f0, hs.length + 1, md, ref⟩ := by
  obtain ⟨s', h1, h2⟩ := Props.readFrom_enc f0 hl ⟨[payloadOf c f0], false⟩ (le32 c.last.length ++ (le32 c.numSamples ++ deltaBytes c))
    (by simp [Stream.Source.left, payloadOf])
  have h3 := readDocument_enc fuel f0 wf [] hf (by simpa using hl)
  rw [List.append_nil] at h3
  obtain ⟨ref, h4, h5⟩ := h3
  refine ⟨ref, h5, ?_⟩
  have hc : c.last.length = countF f0 := by rw [last_length h, length_numsF]
  have hcl : countF f0 < 2147483648 := by have := countF_le f0; simp only [encDoc, wrapDoc_length] at hl; omega
  have hms : (metsF [] f0).length = c.last.length := by rw [length_metsF, hc]
  unfold readPayload
  simp only [h2, h4, Res.bind_ok, h1]
  simp only [encDoc, wrapDoc_length] at hl hf
  rw [metricsOf_rep fuel h5 (by omega) (by omega)]
  simp only [Res.bind_ok]
  have ht : (le32 c.last.length ++ (le32 c.numSamples ++ deltaBytes c)).take 8 = le32 c.last.length ++ le32 c.numSamples := by
    rw [← List.append_assoc, List.take_append_of_le_length (by simp), List.take_of_length_le (by simp)]
  have hdr : (le32 c.last.length ++ (le32 c.numSamples ++ deltaBytes c)).drop 8 = deltaBytes c := by
    rw [← List.append_assoc, List.drop_append_of_le_length (by simp), List.drop_of_length_le (by simp), List.nil_append]
  rw [ht, hdr, if_neg (by simp)]
  have hd4 : (le32 c.last.length ++ le32 c.numSamples).drop 4 = le32 c.numSamples := by
    rw [List.drop_append_of_le_length (by simp), List.drop_of_length_le (by simp), List.nil_append]
  have hns : c.numSamples < 4294967296 := by rw [h.num]; exact hn
  have hr2 := rdU32_le32 hns []
  rw [List.append_nil] at hr2
  rw [rdU32_le32 (by omega), Res.bind_ok, hd4, hr2, Res.bind_ok, if_neg (by rw [hms]; simp)]
  have hb : (metsF [] f0).length * c.numSamples < 2 ^ 64 := by
    have : (metsF [] f0).length * c.numSamples ≤ 4294967295 * 4294967295 := Nat.mul_le_mul (by omega) (by omega)
    omega
  obtain ⟨b, e1, e2⟩ := readSeries_encode (deltas := c.deltas) (max := c.maxDeltas) (samples := c.numSamples) (ms := metsF [] f0) [] h.cap
    (by rw [h.len, hms, last_length h]; exact Nat.le_refl _) h.range hb
  rw [encodeDeltas_ok h.cap (by rw [h.len, hms, last_length h]; exact Nat.le_refl _)] at e1
  cases e1
  rw [List.append_nil, hms] at e2
  unfold deltaBytes
  rw [e2]
  simp only [Res.bind_ok, h.num]
  unfold chunkMetrics
  rw [h.num]

/-! ### restoring the samples -/

theorem get_of_lt {α : Type} {l : List α} {i : Nat} (h : i < l.length) : ∃ x, l[i]? = some x := ⟨l[i], List.getElem?_eq_getElem h⟩

theorem lt_of_get {α : Type} {l : List α} {i : Nat} {x : α} (h : l[i]? = some x) : i < l.length := by
  rcases Nat.lt_or_ge i l.length with h' | h'
  · exact h'
  · rw [List.getElem?_eq_none h'] at h; cases h

/-- value `j` of metric `i` -/
theorem chunk_value {fsub : Nat → Nat → Nat} {c : Better} {d0 : Doc} {f0 : Fields} {hs : List Row} (h : Holds fsub c d0 (numsF f0) hs)
    {i : Nat} {hd : Int} {x0 : UInt8 × Num} (h1 : (headsF f0)[i]? = some hd) (h2 : (numsF f0)[i]? = some x0) :
    valueAt (chunkMetrics c f0) i 0 = .ok hd ∧
    ∀ j rp rc xp xc, (numsF f0 :: hs)[j]? = some rp → hs[j]? = some rc → rp[i]? = some xp → rc[i]? = some xc →
      valueAt (chunkMetrics c f0) i (j + 1) = .ok (bkv fsub hd x0.2 xp.2 xc.2) := by
  have hi := lt_of_get h2
  rw [length_numsF] at hi
  obtain ⟨m, hm⟩ := get_of_lt (l := metsF [] f0) (i := i) (by rw [length_metsF]; exact hi)
  have hmh : (m.originalType, m.startingValue) = (x0.1, hd) := by
    have := congrArg (·[i]?) (metsF_head [] f0)
    simp only [List.getElem?_map, hm, Option.map_some] at this
    have h3 : (((numsF f0).map Prod.fst).zip (headsF f0))[i]? = some (x0.1, hd) := by
      rw [List.getElem?_zip_eq_some]; simp [h1, h2]
    rw [h3, Option.some.injEq] at this
    exact this
  simp only [Prod.mk.injEq] at hmh
  have hcl : c.last.length = countF f0 := by rw [last_length h, length_numsF]
  have hcm : (chunkMetrics c f0)[i]? = some (series m (row c.deltas c.maxDeltas i c.numSamples 0)) := by
    unfold chunkMetrics
    rw [List.getElem?_zipWith, hm, rows_get _ _ _ _ _ _ (by rw [hcl]; exact hi), Nat.zero_add]
  let a : Nat → Num := fun j => (((numsF f0 :: hs).getD j []).getD i (0, .int 0)).2
  have hrow : ∀ j, j ≤ hs.length → ∃ r, (numsF f0 :: hs)[j]? = some r ∧ r ∈ numsF f0 :: hs ∧ ∃ x, r[i]? = some x ∧ a j = x.2 ∧ x.1 = x0.1 := by
    intro j hj
    obtain ⟨r, hr⟩ := get_of_lt (l := numsF f0 :: hs) (i := j) (by simp; omega)
    have hmem := List.mem_of_getElem? hr
    obtain ⟨x, hx⟩ := get_of_lt (l := r) (i := i) (by rw [row_length_eq h hmem, length_numsF]; exact hi)
    refine ⟨r, hr, hmem, x, hx, ?_, ?_⟩
    · simp [a, List.getD_eq_getElem?_getD, hr, hx]
    · rcases List.mem_cons.mp hmem with e | e
      · subst e; rw [h2] at hx; cases hx; rfl
      · have := congrArg (·[i]?) (h.types _ e)
        simp only [List.getElem?_map, hx, h2, Option.map_some, Option.some.injEq] at this
        exact this
  have hlen : (row c.deltas c.maxDeltas i c.numSamples 0).length = hs.length := by rw [row_length, h.num]
  have key := series_value (fsub := fsub) (m := m) (ds := row c.deltas c.maxDeltas i c.numSamples 0) (a := a)
    (by
      intro j hj
      rw [hlen] at hj
      obtain ⟨r, _, hmem, x, hx, ha, hx0⟩ := hrow j hj
      have := h.typed r hmem x (List.mem_of_getElem? hx)
      rw [ha, hmh.1, ← hx0]; exact this)
    (by
      intro j hj
      rw [hlen] at hj
      obtain ⟨r, hr, _, x, hx, ha, _⟩ := hrow j (by omega)
      obtain ⟨r', hr', _, x', hx', ha', _⟩ := hrow (j + 1) (by omega)
      rw [List.getElem?_cons_succ] at hr'
      rw [row_get _ _ _ _ _ _ (by rw [h.num]; exact hj), Nat.zero_add, ha, ha', List.getD_eq_getElem?_getD,
        h.cell j i r r' x' x hr hr' hx hx']
      rfl)
  rw [hmh.2] at key
  constructor
  · unfold valueAt; rw [hcm]; simp only [key.1]
  · intro j rp rc xp xc h3 h4 h5 h6
    have hj := lt_of_get h4
    have e0 : a 0 = x0.2 := by simp [a, List.getD_eq_getElem?_getD, h2]
    have e1 : a j = xp.2 := by simp [a, List.getD_eq_getElem?_getD, h3, h5]
    have e2 : a (j + 1) = xc.2 := by simp [a, List.getD_eq_getElem?_getD, h4, h6]
    have := key.2 j (by rw [hlen]; exact hj)
    rw [e0, e1, e2] at this
    unfold valueAt; rw [hcm]; simp only [this]

/-- the samples of a sequence of trees -/
structure Samples (f0 : Fields) (fss : List Fields) (hs : List Row) : Prop where
  wf0 : f0.WF
  wf : ∀ fs ∈ fss, fs.WF
  rows : hs = fss.map numsF
  shape : ∀ fs ∈ fss, f0.metrics.SameShape fs.metrics

mutual
theorem shape_refl : ∀ t : BVal, t.SameShape t
  | .doc fs => shapeF_refl fs
  | .array vs => shapeV_refl vs
  | .double _ | .bool _ | .datetime _ | .int32 _ | .int64 _ | .timestamp _ _
  | .string _ | .binary _ _ | .undefined | .oid _ | .null | .regex _ _ | .dbpointer _ _ | .js _ | .symbol _ | .codeScope _ _
  | .decimal _ _ | .minKey | .maxKey => by simp only [BVal.SameShape]
theorem shapeF_refl : ∀ fs : Fields, fs.SameShape fs
  | .nil => trivial
  | .cons _ v rest => ⟨rfl, shape_refl v, shapeF_refl rest⟩
theorem shapeV_refl : ∀ vs : Vals, vs.SameShape vs
  | .nil => trivial
  | .cons v rest => ⟨shape_refl v, shapeV_refl rest⟩
end

theorem restore_ok {ms : List Metric} {sample fuel nPoints : Nat} {md : Option Doc} {ref : Doc} {f0 p c : Fields} {sub : Nat → Nat → Nat}
    (hsub : ∀ a b, a < 18446744073709551616 → b < 18446744073709551616 → sub a b < 18446744073709551616)
    (hr : RepFields ref f0) (hl : f0.enc.length < 2147483648) (hf : f0.enc.length < fuel) (hm : ms.length = countF f0)
    (wp : p.WF) (wc : c.WF) (hp : f0.metrics.SameShape p.metrics) (hc : f0.metrics.SameShape c.metrics)
    (hv : ∀ i hd x0 xp xc, (headsF f0)[i]? = some hd → (numsF f0)[i]? = some x0 → (numsF p)[i]? = some xp → (numsF c)[i]? = some xc →
      valueAt ms i sample = .ok (bkv sub hd x0.2 xp.2 xc.2)) :
    ∃ d, Chunk.restore fuel ⟨ms, nPoints, md, ref⟩ sample = .ok d ∧ RepFields d (f0.metrics.back sub p.metrics c.metrics) := by
  let g : Nat → Int := fun i => match valueAt ms i sample with | .ok x => x | _ => 0
  have hall : ∀ i, i < ms.length → ∃ hd x0 xp xc, (headsF f0)[i]? = some hd ∧ (numsF f0)[i]? = some x0 ∧ (numsF p)[i]? = some xp ∧
      (numsF c)[i]? = some xc := by
    intro i hi
    rw [hm] at hi
    have e1 := congrArg List.length (typesF_shape _ _ hp)
    have e2 := congrArg List.length (typesF_shape _ _ hc)
    simp only [numsF_metrics, List.length_map, length_numsF] at e1 e2
    obtain ⟨hd, h1⟩ := get_of_lt (l := headsF f0) (i := i) (by rw [length_headsF]; exact hi)
    obtain ⟨x0, h2⟩ := get_of_lt (l := numsF f0) (i := i) (by rw [length_numsF]; exact hi)
    obtain ⟨xp, h3⟩ := get_of_lt (l := numsF p) (i := i) (by rw [length_numsF]; omega)
    obtain ⟨xc, h4⟩ := get_of_lt (l := numsF c) (i := i) (by rw [length_numsF]; omega)
    exact ⟨hd, x0, xp, xc, h1, h2, h3, h4⟩
  have hg : ∀ i, i < ms.length → valueAt ms i sample = .ok (g i) := by
    intro i hi
    obtain ⟨hd, x0, xp, xc, h1, h2, h3, h4⟩ := hall i hi
    have := hv i hd x0 xp xc h1 h2 h3 h4
    simp only [g, this]
  have hrange : ∀ i, -9223372036854775808 ≤ g i ∧ g i < 9223372036854775808 := by
    intro i
    rcases Nat.lt_or_ge i ms.length with hi | hi
    · obtain ⟨hd, x0, xp, xc, h1, h2, h3, h4⟩ := hall i hi
      have := hv i hd x0 xp xc h1 h2 h3 h4
      simp only [g, this]; exact bkv_range ..
    · have : valueAt ms i sample = .panic := by unfold valueAt; rw [List.getElem?_eq_none hi]
      simp only [g, this]; decide
  obtain ⟨d, h1, h2⟩ := restoreDocument_rep (g := g) (N := min 2147483648 fuel) (M := ms.length)
    (fun v k t idx a b e => restoreElement_rep hg hrange fuel v k t idx a (by omega) (by omega) e) ref f0 0 hr (by omega) (by omega)
  refine ⟨d, ?_, ?_⟩
  · unfold Chunk.restore; rw [h1]; rfl
  · have wf0 := repFields_wf hr
    rw [← fillF_metrics, fillF_back hsub f0.metrics p.metrics c.metrics 0 (only_metrics f0) (wf_metrics f0 wf0) (wf_metrics p wp) (wf_metrics c wc) hp hc] at h2
    · exact h2
    · intro i hd x0 xp xc e1 e2 e3 e4
      rw [headsF_metrics] at e1
      rw [numsF_metrics] at e2 e3 e4
      have := hv i hd x0 xp xc e1 e2 e3 e4
      simp only [Nat.zero_add, g, this]

theorem samples_from {g : Nat → Res Doc} {sub : Nat → Nat → Nat} {f : Fields} : ∀ (cs : List Fields) (p : Fields) (i : Nat),
    (∀ j p' c, (p :: cs)[j]? = some p' → cs[j]? = some c → ∃ d, g (i + j) = .ok d ∧ RepFields d (f.back sub p' c)) →
    ∃ ds, samples g cs.length i = .ok ds ∧ RepDocs ds (backFrom sub f p cs)
  | [], p, i, _ => ⟨[], by simp [samples], trivial⟩
  | c :: cs, p, i, h => by
    obtain ⟨d, h1, h2⟩ := h 0 p c rfl rfl
    obtain ⟨ds, h3, h4⟩ := samples_from cs c (i + 1) (fun j p' c' hp hc => by
      have := h (j + 1) p' c' (by simpa using hp) (by simpa using hc)
      rwa [show i + 1 + j = i + (j + 1) by omega])
    refine ⟨d :: ds, ?_, h2, h4⟩
    simp only [List.length_cons, samples]
    rw [Nat.add_zero] at h1
    rw [h1, Res.bind_ok, h3]; rfl

/-- all samples of the chunk -/
theorem structured_ok {fsub : Nat → Nat → Nat}
    (hsub : ∀ a b, a < 18446744073709551616 → b < 18446744073709551616 → fsub a b < 18446744073709551616)
    {c : Better} {d0 ref : Doc} {f0 : Fields} {fss : List Fields} {hs : List Row} (h : Holds fsub c d0 (numsF f0) hs) (hss : Samples f0 fss hs)
    (hr : RepFields ref f0) (hl : f0.enc.length < 2147483648) (fuel : Nat) (hf : f0.enc.length < fuel) (md : Option Doc) :
    ∃ ds, Chunk.structured fuel ⟨chunkMetrics c f0, hs.length + 1, md, ref⟩ = .ok ds ∧
      RepDocs ds (backAll fsub ((f0 :: fss).map Fields.metrics)) := by
  have hm := chunkMetrics_length h
  have hrows := hss.rows
  obtain ⟨d, h1, h2⟩ := restore_ok (ms := chunkMetrics c f0) (sample := 0) (nPoints := hs.length + 1) (md := md) (f0 := f0) (p := f0) (c := f0) (sub := fst')
    (fun a _ ha _ => ha) hr hl hf hm hss.wf0 hss.wf0 (shapeF_refl _) (shapeF_refl _) (by
      intro i hd x0 xp xc e1 e2 e3 e4
      rw [e2] at e3 e4; cases e3; cases e4
      rw [(chunk_value h e1 e2).1]
      have := headsF_first f0 hss.wf0 (hd, x0) (List.mem_of_getElem? (i := i) (by rw [List.getElem?_zip_eq_some]; exact ⟨e1, e2⟩))
      exact congrArg Res.ok this)
  have hlen : (fss.map Fields.metrics).length = hs.length := by rw [hrows]; simp
  obtain ⟨ds, h3, h4⟩ := samples_from (g := Chunk.restore fuel ⟨chunkMetrics c f0, hs.length + 1, md, ref⟩) (sub := fsub) (f := f0.metrics)
    (fss.map Fields.metrics) f0.metrics 1 (by
      intro j p' c' hp hc
      rw [← List.map_cons, List.getElem?_map] at hp
      rw [List.getElem?_map] at hc
      cases hp1 : (f0 :: fss)[j]? with
      | none => rw [hp1] at hp; cases hp
      | some fp =>
        cases hc1 : fss[j]? with
        | none => rw [hc1] at hc; cases hc
        | some fc =>
          rw [hp1] at hp; rw [hc1] at hc
          cases hp; cases hc
          have mp := List.mem_of_getElem? hp1
          have mc := List.mem_of_getElem? hc1
          have wp : fp.WF := by
            rcases List.mem_cons.mp mp with e | e
            · rw [e]; exact hss.wf0
            · exact hss.wf _ e
          have sp : f0.metrics.SameShape fp.metrics := by
            rcases List.mem_cons.mp mp with e | e
            · rw [e]; exact shapeF_refl _
            · exact hss.shape _ e
          refine restore_ok hsub hr hl hf hm wp (hss.wf _ mc) sp (hss.shape _ mc) ?_
          intro i hd x0 xp xc e1 e2 e3 e4
          rw [Nat.add_comm 1 j]
          refine (chunk_value h e1 e2).2 j (numsF fp) (numsF fc) xp xc ?_ ?_ e3 e4
          · have : numsF f0 :: hs = (f0 :: fss).map numsF := by rw [hrows]; rfl
            rw [this, List.getElem?_map, hp1]; rfl
          · rw [hrows, List.getElem?_map, hc1]; rfl)
  rw [hlen] at h3
  refine ⟨d :: ds, ?_, h2, h4⟩
  unfold Chunk.structured
  simp only [samples]
  rw [h1, Res.bind_ok, h3]; rfl

end Birch.Proofs.Ftdc
