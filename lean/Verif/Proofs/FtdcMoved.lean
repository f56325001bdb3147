import Verif.Proofs.FtdcShared
import Verif.Proofs.FtdcLayout

/- What is read back if the reference of a chunk is not the first sample. -/

namespace Birch.Proofs.Shared
open Birch Model Model.Ftdc Model.Graph Model.Shared Spec Spec.Graph Spec.Shared Proofs Proofs.Graph Proofs.Ftdc

theorem tag_int64 {t : BVal} (h : t.tag = 0x12) : ∃ i, t = .int64 i := by cases t <;> simp_all [BVal.tag]

mutual
theorem counters_shape : ∀ s t : BVal, s.SameShape t → s.Counters → t.Counters
  | .doc fs, t, h, hc => by
    cases t with
    | doc gs => exact counters_shapeF fs gs h hc
    | _ => simp [BVal.SameShape] at h
  | .array fs, t, h, hc => by
    cases t with
    | array gs => exact counters_shapeV fs gs h hc
    | _ => simp [BVal.SameShape] at h
  | .int64 _, t, h, _ => by
    obtain ⟨i, rfl⟩ := tag_int64 (t := t) (by simp only [BVal.SameShape] at h; rw [← h]; rfl)
    trivial
  | .double _, _, _, h | .bool _, _, _, h | .datetime _, _, _, h | .int32 _, _, _, h | .timestamp _ _, _, _, h | .string _, _, _, h | .binary _ _, _, _, h | .undefined, _, _, h
  | .oid _, _, _, h | .null, _, _, h | .regex _ _, _, _, h | .dbpointer _ _, _, _, h | .js _, _, _, h | .symbol _, _, _, h | .codeScope _ _, _, _, h | .decimal _ _, _, _, h
  | .minKey, _, _, h | .maxKey, _, _, h => h.elim
theorem counters_shapeF : ∀ s t : Fields, s.SameShape t → s.Counters → t.Counters
  | .nil, t, h, _ => by cases t with | nil => trivial | cons => simp [Fields.SameShape] at h
  | .cons k v rest, t, h, hc => by
    cases t with
    | nil => simp [Fields.SameShape] at h
    | cons l x t => obtain ⟨_, h2, h3⟩ := h; exact ⟨counters_shape v x h2 hc.1, counters_shapeF rest t h3 hc.2⟩
theorem counters_shapeV : ∀ s t : Vals, s.SameShape t → s.Counters → t.Counters
  | .nil, t, h, _ => by cases t with | nil => trivial | cons => simp [Vals.SameShape] at h
  | .cons v rest, t, h, hc => by
    cases t with
    | nil => simp [Vals.SameShape] at h
    | cons x t => obtain ⟨h2, h3⟩ := h; exact ⟨counters_shape v x h2 hc.1, counters_shapeV rest t h3 hc.2⟩
end

/-- the numbers of a moved sample -/
def mnum (x : UInt8 × Num) (y : (UInt8 × Num) × (UInt8 × Num)) : UInt8 × Num :=
  (x.1, match x.2, y.1.2, y.2.2 with | .int a, .int b, .int c => .int (i64 (a + c - b)) | z, _, _ => z)

def mrow (g f c : Row) : Row := List.zipWith mnum g (f.zip c)

theorem mrow_append {g1 f1 c1 g2 f2 c2 : Row} (h1 : g1.length = f1.length) (h2 : g1.length = c1.length) :
    mrow (g1 ++ g2) (f1 ++ f2) (c1 ++ c2) = mrow g1 f1 c1 ++ mrow g2 f2 c2 := by
  unfold mrow
  rw [List.zip_append (by omega), List.zipWith_append (by simp; omega)]

theorem nums_length_shape {s t : BVal} (h : s.SameShape t) : (nums s).length = (nums t).length := by
  have := congrArg List.length (types_shape s t h); simpa using this

mutual
theorem moved_nums : ∀ g f c : BVal, g.SameShape f → g.SameShape c → g.Counters → nums (g.moved f c) = mrow (nums g) (nums f) (nums c)
  | .doc g, f, c, hf, hc, h => by
    cases f with
    | doc f =>
      cases c with
      | doc c => simp only [BVal.moved, nums]; exact moved_numsF g f c hf hc h
      | _ => simp [BVal.SameShape] at hc
    | _ => simp [BVal.SameShape] at hf
  | .array g, f, c, hf, hc, h => by
    cases f with
    | array f =>
      cases c with
      | array c => simp only [BVal.moved, nums]; exact moved_numsV g f c hf hc h
      | _ => simp [BVal.SameShape] at hc
    | _ => simp [BVal.SameShape] at hf
  | .int64 _, f, c, hf, hc, _ => by
    obtain ⟨i, rfl⟩ := tag_int64 (t := f) (by simp only [BVal.SameShape] at hf; rw [← hf]; rfl)
    obtain ⟨j, rfl⟩ := tag_int64 (t := c) (by simp only [BVal.SameShape] at hc; rw [← hc]; rfl)
    simp [BVal.moved, nums, mrow, mnum]
  | .double _, _, _, _, _, h | .bool _, _, _, _, _, h | .datetime _, _, _, _, _, h | .int32 _, _, _, _, _, h | .timestamp _ _, _, _, _, _, h | .string _, _, _, _, _, h
  | .binary _ _, _, _, _, _, h | .undefined, _, _, _, _, h | .oid _, _, _, _, _, h | .null, _, _, _, _, h | .regex _ _, _, _, _, _, h | .dbpointer _ _, _, _, _, _, h
  | .js _, _, _, _, _, h | .symbol _, _, _, _, _, h | .codeScope _ _, _, _, _, _, h | .decimal _ _, _, _, _, _, h | .minKey, _, _, _, _, h | .maxKey, _, _, _, _, h => h.elim
theorem moved_numsF : ∀ g f c : Fields, g.SameShape f → g.SameShape c → g.Counters → numsF (g.moved f c) = mrow (numsF g) (numsF f) (numsF c)
  | .nil, f, c, hf, hc, _ => by simp [Fields.moved, numsF, mrow]
  | .cons k v g, f, c, hf, hc, h => by
    cases f with
    | nil => simp [Fields.SameShape] at hf
    | cons _ vf f =>
      cases c with
      | nil => simp [Fields.SameShape] at hc
      | cons _ vc c =>
        obtain ⟨_, hf1, hf2⟩ := hf
        obtain ⟨_, hc1, hc2⟩ := hc
        simp only [Fields.moved, numsF]
        rw [moved_nums v vf vc hf1 hc1 h.1, moved_numsF g f c hf2 hc2 h.2, mrow_append (nums_length_shape hf1) (nums_length_shape hc1)]
theorem moved_numsV : ∀ g f c : Vals, g.SameShape f → g.SameShape c → g.Counters → numsV (g.moved f c) = mrow (numsV g) (numsV f) (numsV c)
  | .nil, f, c, hf, hc, _ => by simp [Vals.moved, numsV, mrow]
  | .cons v g, f, c, hf, hc, h => by
    cases f with
    | nil => simp [Vals.SameShape] at hf
    | cons vf f =>
      cases c with
      | nil => simp [Vals.SameShape] at hc
      | cons vc c =>
        obtain ⟨hf1, hf2⟩ := hf
        obtain ⟨hc1, hc2⟩ := hc
        simp only [Vals.moved, numsV]
        rw [moved_nums v vf vc hf1 hc1 h.1, moved_numsV g f c hf2 hc2 h.2, mrow_append (nums_length_shape hf1) (nums_length_shape hc1)]
end

mutual
theorem moved_shape : ∀ g f c : BVal, g.SameShape (g.moved f c)
  | .doc g, f, c => by
    cases f <;> cases c <;> simp only [BVal.moved, BVal.SameShape] <;> first | exact shapeF_refl _ | exact moved_shapeF g _ _
  | .array g, f, c => by
    cases f <;> cases c <;> simp only [BVal.moved, BVal.SameShape] <;> first | exact shapeV_refl _ | exact moved_shapeV g _ _
  | .int64 _, f, c => by
    cases f <;> cases c <;> simp [BVal.moved, BVal.SameShape, BVal.tag]
  | .double _, _, _ | .bool _, _, _ | .datetime _, _, _ | .int32 _, _, _ | .timestamp _ _, _, _ | .string _, _, _
  | .binary _ _, _, _ | .undefined, _, _ | .oid _, _, _ | .null, _, _ | .regex _ _, _, _ | .dbpointer _ _, _, _
  | .js _, _, _ | .symbol _, _, _ | .codeScope _ _, _, _ | .decimal _ _, _, _ | .minKey, _, _ | .maxKey, _, _ => by simp only [BVal.moved]; exact shape_refl _
theorem moved_shapeF : ∀ g f c : Fields, g.SameShape (g.moved f c)
  | .nil, f, c => by simp [Fields.moved, Fields.SameShape]
  | .cons k v g, f, c => by
    cases f <;> cases c <;> simp only [Fields.moved, Fields.SameShape, true_and] <;> first | exact ⟨shape_refl _, shapeF_refl _⟩ | exact ⟨moved_shape v _ _, moved_shapeF g _ _⟩
theorem moved_shapeV : ∀ g f c : Vals, g.SameShape (g.moved f c)
  | .nil, f, c => by simp [Vals.moved, Vals.SameShape]
  | .cons v g, f, c => by
    cases f <;> cases c <;> simp only [Vals.moved, Vals.SameShape] <;> first | exact ⟨shape_refl _, shapeV_refl _⟩ | exact ⟨moved_shape v _ _, moved_shapeV g _ _⟩
end

mutual
theorem moved_wf : ∀ g f c : BVal, g.WF → (g.moved f c).WF
  | .doc g, f, c, h => by
    cases f <;> cases c <;> simp only [BVal.moved, BVal.WF] <;> first | exact h | exact moved_wfF g _ _ h
  | .array g, f, c, h => by
    cases f <;> cases c <;> simp only [BVal.moved, BVal.WF] <;> first | exact h | exact moved_wfV g _ _ h
  | .int64 _, f, c, h => by
    cases f <;> cases c <;> simp only [BVal.moved, BVal.WF] <;> first | exact h | exact i64_range _
  | .double _, _, _, h | .bool _, _, _, h | .datetime _, _, _, h | .int32 _, _, _, h | .timestamp _ _, _, _, h | .string _, _, _, h
  | .binary _ _, _, _, h | .undefined, _, _, h | .oid _, _, _, h | .null, _, _, h | .regex _ _, _, _, h | .dbpointer _ _, _, _, h
  | .js _, _, _, h | .symbol _, _, _, h | .codeScope _ _, _, _, h | .decimal _ _, _, _, h | .minKey, _, _, h | .maxKey, _, _, h => by simp only [BVal.moved]; exact h
theorem moved_wfF : ∀ g f c : Fields, g.WF → (g.moved f c).WF
  | .nil, f, c, h => by simp [Fields.moved, Fields.WF]
  | .cons k v g, f, c, h => by
    cases f <;> cases c <;> simp only [Fields.moved, Fields.WF] <;> first | exact h | exact ⟨h.1, moved_wf v _ _ h.2.1, moved_wfF g _ _ h.2.2⟩
theorem moved_wfV : ∀ g f c : Vals, g.WF → (g.moved f c).WF
  | .nil, f, c, h => by simp [Vals.moved, Vals.WF]
  | .cons v g, f, c, h => by
    cases f <;> cases c <;> simp only [Vals.moved, Vals.WF] <;> first | exact h | exact ⟨moved_wf v _ _ h.1, moved_wfV g _ _ h.2⟩
end

mutual
/-- the first sample becomes the reference -/
theorem moved_first : ∀ g f : BVal, g.WF → g.moved f f = g
  | .doc g, f, h => by
    cases f <;> simp only [BVal.moved]
    rw [moved_firstF g _ h]
  | .array g, f, h => by
    cases f <;> simp only [BVal.moved]
    rw [moved_firstV g _ h]
  | .int64 x, f, h => by
    cases f <;> simp only [BVal.moved]
    rename_i i
    simp only [BVal.WF] at h
    rw [show i64 (x + i - i) = x by unfold i64; omega]
  | .double _, _, _ | .bool _, _, _ | .datetime _, _, _ | .int32 _, _, _ | .timestamp _ _, _, _ | .string _, _, _
  | .binary _ _, _, _ | .undefined, _, _ | .oid _, _, _ | .null, _, _ | .regex _ _, _, _ | .dbpointer _ _, _, _
  | .js _, _, _ | .symbol _, _, _ | .codeScope _ _, _, _ | .decimal _ _, _, _ | .minKey, _, _ | .maxKey, _, _ => by simp only [BVal.moved]
theorem moved_firstF : ∀ g f : Fields, g.WF → g.moved f f = g
  | .nil, f, h => by simp [Fields.moved]
  | .cons k v g, f, h => by
    cases f <;> simp only [Fields.moved]
    rw [moved_first v _ h.2.1, moved_firstF g _ h.2.2]
theorem moved_firstV : ∀ g f : Vals, g.WF → g.moved f f = g
  | .nil, f, h => by simp [Vals.moved]
  | .cons v g, f, h => by
    cases f <;> simp only [Vals.moved]
    rw [moved_first v _ h.1, moved_firstV g _ h.2]
end

mutual
theorem counters_ints : ∀ t : BVal, t.Counters → ∀ x ∈ nums t, ∃ i, x = (0x12, .int i)
  | .doc fs, h => counters_intsF fs h
  | .array vs, h => counters_intsV vs h
  | .int64 i, _ => by simp [nums]
  | .double _, h | .bool _, h | .datetime _, h | .int32 _, h | .timestamp _ _, h | .string _, h | .binary _ _, h | .undefined, h | .oid _, h | .null, h | .regex _ _, h
  | .dbpointer _ _, h | .js _, h | .symbol _, h | .codeScope _ _, h | .decimal _ _, h | .minKey, h | .maxKey, h => h.elim
theorem counters_intsF : ∀ fs : Fields, fs.Counters → ∀ x ∈ numsF fs, ∃ i, x = (0x12, .int i)
  | .nil, _ => by simp [numsF]
  | .cons _ v rest, h => by
    intro x hx
    rcases List.mem_append.mp hx with hx | hx
    · exact counters_ints v h.1 x hx
    · exact counters_intsF rest h.2 x hx
theorem counters_intsV : ∀ vs : Vals, vs.Counters → ∀ x ∈ numsV vs, ∃ i, x = (0x12, .int i)
  | .nil, _ => by simp [numsV]
  | .cons v rest, h => by
    intro x hx
    rcases List.mem_append.mp hx with hx | hx
    · exact counters_ints v h.1 x hx
    · exact counters_intsV rest h.2 x hx
end

/-! ### the collector with another reference -/

/-- the differences are the same -/
theorem diff_moved (sub : Nat → Nat → Nat) : ∀ (g f a b : Row), f.length = g.length → a.length = g.length → b.length = g.length →
    (∀ x ∈ g ++ f ++ a ++ b, ∃ i, x = (0x12, .int i)) →
    List.zipWith (Cell.diff sub) ((mrow g f a).map fun p => cellOf p.2) ((mrow g f b).map fun p => cellOf p.2) =
      List.zipWith (Cell.diff sub) (a.map fun p => cellOf p.2) (b.map fun p => cellOf p.2)
  | [], [], [], [], _, _, _, _ => rfl
  | x :: g, y :: f, z :: a, u :: b, h1, h2, h3, h => by
    obtain ⟨x, rfl⟩ := h x (by simp)
    obtain ⟨y, rfl⟩ := h y (by simp)
    obtain ⟨z, rfl⟩ := h z (by simp)
    obtain ⟨u, rfl⟩ := h u (by simp)
    have := diff_moved sub g f a b (by simpa using h1) (by simpa using h2) (by simpa using h3) (fun v hv => h v (by simp at hv ⊢; rcases hv with hv | hv | hv | hv <;> simp [hv]))
    simp only [mrow, List.zip_cons_cons, List.zipWith_cons_cons, List.map_cons, mnum, cellOf, Cell.diff] at this ⊢
    rw [this]
    congr 2
    unfold i64; omega

theorem diffRows_moved (sub : Nat → Nat → Nat) {g f : Row} (hf : f.length = g.length) (hi : ∀ x ∈ g ++ f, ∃ i, x = (0x12, .int i)) : ∀ (rows : List Row) (p : Row),
    (∀ r ∈ p :: rows, r.length = g.length ∧ ∀ x ∈ r, ∃ i, x = (0x12, .int i)) →
    diffRows sub ((mrow g f p).map fun x => cellOf x.2) (rows.map fun r => (mrow g f r).map fun x => cellOf x.2) =
      diffRows sub (p.map fun x => cellOf x.2) (rows.map fun r => r.map fun x => cellOf x.2)
  | [], _, _ => rfl
  | r :: rows, p, h => by
    have hr := h r (by simp)
    have hp := h p (by simp)
    simp only [List.map_cons, diffRows]
    rw [diffRows_moved sub hf hi rows r (fun q hq => h q (List.mem_cons_of_mem _ hq)), diff_moved sub g f r p hf hr.1 hp.1]
    intro x hx
    simp only [List.mem_append] at hx hi
    rcases hx with ((hx | hx) | hx) | hx
    · exact hi x (.inl hx)
    · exact hi x (.inr hx)
    · exact hr.2 x hx
    · exact hp.2 x hx

theorem payload_moved (sub : Nat → Nat → Nat) {g f0 : Fields} {fss : List Fields} (wf : g.WF) (hc : g.metrics.Counters) (hg : ∀ f ∈ f0 :: fss, g.metrics.SameShape f.metrics) :
    payloadOn sub g f0 fss = chunkPayload sub g (fss.map fun f => g.metrics.moved f0.metrics f.metrics) := by
  have hrow : ∀ f ∈ f0 :: fss, (g.metrics.moved f0.metrics f.metrics).cells = (mrow (numsF g) (numsF f0) (numsF f)).map fun x => cellOf x.2 := by
    intro f hf
    rw [cellsF_nums, moved_numsF _ _ _ (hg f0 (by simp)) (hg f hf) hc, numsF_metrics, numsF_metrics, numsF_metrics]
  have hlen : ∀ f ∈ f0 :: fss, (numsF f).length = (numsF g).length := by
    intro f hf
    have := congrArg List.length (typesF_shape _ _ (hg f hf))
    simpa [numsF_metrics] using this.symm
  have hint : ∀ f ∈ f0 :: fss, ∀ x ∈ numsF f, ∃ i, x = (0x12, .int i) := by
    intro f hf x hx
    exact counters_intsF _ (counters_shapeF _ _ (hg f hf) hc) x (by rwa [numsF_metrics])
  have hgi : ∀ x ∈ numsF g, ∃ i, x = (0x12, .int i) := by
    intro x hx
    exact counters_intsF _ hc x (by rwa [numsF_metrics])
  have hc0 : f0.cells.length = g.cells.length := by rw [cellsF_nums, cellsF_nums, List.length_map, List.length_map, hlen f0 (by simp)]
  have hgc : g.cells = (mrow (numsF g) (numsF f0) (numsF f0)).map fun x => cellOf x.2 := by
    rw [← hrow f0 (by simp), moved_firstF _ _ (wf_metrics g wf), cellsF_nums, cellsF_nums, numsF_metrics]
  have hd : diffRows sub g.cells ((fss.map fun f => g.metrics.moved f0.metrics f.metrics).map Fields.cells) = diffRows sub f0.cells (fss.map Fields.cells) := by
    have h1 : (fss.map fun f => g.metrics.moved f0.metrics f.metrics).map Fields.cells =
        (fss.map numsF).map fun r => (mrow (numsF g) (numsF f0) r).map fun x => cellOf x.2 := by
      rw [List.map_map, List.map_map]
      exact List.map_congr_left fun f hf => hrow f (by simp [hf])
    have h2 : fss.map Fields.cells = (fss.map numsF).map fun r => r.map fun x => cellOf x.2 := by
      rw [List.map_map]
      exact List.map_congr_left fun f _ => cellsF_nums f
    rw [h1, h2, hgc, cellsF_nums f0]
    refine diffRows_moved sub (hlen f0 (by simp)) (fun x hx => ?_) _ _ fun r hr => ?_
    · rcases List.mem_append.mp hx with hx | hx
      · exact hgi x hx
      · exact hint f0 (by simp) x hx
    · rw [← List.map_cons] at hr
      obtain ⟨f, hf, rfl⟩ := List.mem_map.mp hr
      exact ⟨hlen f hf, hint f hf⟩
  unfold payloadOn chunkPayload
  rw [hd, hc0, List.length_map]

theorem viewDoc_mono {w : World} {k n d : Nat} {t : Doc} (h : k ≤ n) (hv : viewDoc w k d = .ok t) : viewDoc w n d = .ok t :=
  mapRes_mono (fun _ _ _ hy => view_mono h hy) hv

/-- what `Resolve` writes around the payload -/
theorem resolve_payload {zip : Bytes → Bytes} {c : Better} {r : Doc} (hr : c.reference = some r) {p : Bytes} {mfs : Option Fields}
    (hm : RepMeta c.metadata mfs) (hml : ∀ f, mfs = some f → (encDoc f).length ≤ 2147483000) (hp : (zip p).length ≤ 2147482000) {now : Time} (hnow : 0 ≤ now.nsec)
    (fuel : Nat) (hf : 10000000000 ≤ fuel) (hpl : c.payload fuel = .ok p) :
    c.resolve zip now fuel = .ok (documentsOf zip (i64 (now.sec * 1000 + now.nsec / 1000000)) mfs p) := by
  rw [← nowMs_eq hnow]
  unfold Better.resolve
  rw [hr]
  simp only
  rw [hpl, Res.bind_ok]
  have hdl : (compressBuffer zip p).length = (zip p).length + 4 := by simp [compressBuffer]; omega
  have h1 := chunkDoc_ok now (compressBuffer zip p) (by omega) fuel (by omega)
  have hu : compressBuffer zip p = le32 (p.length % 4294967296) ++ zip p := rfl
  obtain ⟨a, ha, ra⟩ := id_rep now
  obtain ⟨b, hb, rb⟩ := type_elem 1 (by decide) (by decide)
  obtain ⟨e, he, re⟩ := data_elem (compressBuffer zip p) (by omega)
  cases hmd : c.metadata with
  | none =>
    rw [hmd] at hm
    cases mfs with
    | some m => exact hm.elim
    | none =>
      simp only [Res.bind_ok]
      simp only [ha, hb, he, Res.bind_ok] at h1 ⊢
      rw [h1, hu]
      rfl
  | some md =>
    rw [hmd] at hm
    cases mfs with
    | none => exact hm.elim
    | some mf =>
      have hml := hml mf rfl
      have h2 := metaDoc_ok now hm (by omega) fuel (by omega)
      obtain ⟨b', hb', rb'⟩ := type_elem 0 (by decide) (by decide)
      obtain ⟨e', he', re'⟩ := subDocument_rep (k := kDoc) nulFree_keys.2.2.2 (by decide) hm
      simp only [ha, hb, he, hb', he', Res.bind_ok] at h1 h2 ⊢
      rw [h1, h2, hu]
      rfl

/-- the payload with another reference -/
theorem payload_on {fsub : Nat → Nat → Nat} (hsub : ∀ a b, a < 18446744073709551616 → b < 18446744073709551616 → fsub a b < 18446744073709551616)
    {c : Better} {d0 : Doc} {f0 : Fields} {fss : List Fields} (h : Holds fsub c d0 (numsF f0) (fss.map numsF)) (wf : ∀ f ∈ f0 :: fss, f.WF)
    (hl : (encDoc f0).length < 2147483648) (hn : fss.length < 4294967296) {ref : Doc} {g : Fields} (hg : RepFields ref g) (hgl : (encDoc g).length < 2147483648)
    (md : Option Doc) {l : Row} (hll : l.length = c.last.length) (fuel : Nat) (hf : 2147483648 ≤ fuel) :
    (⟨md, some ref, l, c.deltas, c.numSamples, c.maxDeltas⟩ : Better).payload fuel = .ok (payloadOn fsub g f0 fss) := by
  have hp := payload_layout hsub h wf hl hn
  have h1 : c.last.length < 4294967296 := by
    rw [last_length h, length_numsF]; have := countF_le f0; simp only [encDoc, wrapDoc_length] at hl; omega
  unfold Better.payload
  simp only
  rw [docMarshal_rep fuel hg hgl (by omega), Res.bind_ok, hll, encodeDeltas_ok h.cap (by rw [h.len, last_length h]; exact Nat.le_refl _), Res.bind_ok, u32_small h1,
    u32_small (by rw [h.num, List.length_map]; exact hn)]
  unfold payloadOf chunkPayload at hp
  simp only [List.append_assoc] at hp
  have hp := List.append_cancel_left hp
  unfold payloadOn
  simp only [List.append_assoc, Res.ok.injEq]
  rw [← hp]
  rfl

/-- what `Resolve` writes: the reference as it is then, and the differences as they were taken -/
theorem resolve_shared {fsub : Nat → Nat → Nat}
    (hsub : ∀ a b, a < 18446744073709551616 → b < 18446744073709551616 → fsub a b < 18446744073709551616)
    {zip : Bytes → Bytes} {w : World} {s : Collector} {c : Better} {d0 : Option Doc} {max r : Nat} {g f0 : Fields} {fss : List Fields} {mfs : Option Fields}
    (sim : Sim w s c) (st : State fsub max none c d0 (f0 :: fss)) (wf : ∀ f ∈ f0 :: fss, f.WF)
    (hr : s.reference = some r) (hg : Says w r g) (hm : SaysMeta w s.metadata mfs) (hml : ∀ f, mfs = some f → (encDoc f).length ≤ 2147483000)
    (hl : (encDoc f0).length < 2147483648) (hgl : (encDoc g).length < 2147483648) (h32 : fss.length < 4294967296)
    (hp : (zip (payloadOn fsub g f0 fss)).length ≤ 2147482000) {now : Time} (hnow : 0 ≤ now.nsec) :
    Returns (fun n => s.resolve zip now w n) (.ok (layoutOn fsub zip (i64 (now.sec * 1000 + now.nsec / 1000000)) mfs g f0 fss)) := by
  obtain ⟨_, k, ref, v1, v2⟩ := hg
  obtain ⟨md, k', hv, hmd⟩ : ∃ md k', (∀ n, k' ≤ n → viewOpt w n s.metadata = .ok md) ∧ RepMeta md mfs := by
    cases e : s.metadata with
    | none =>
      rw [e] at hm
      cases mfs with
      | none => exact ⟨none, 0, fun n _ => rfl, trivial⟩
      | some m => exact hm.elim
    | some m =>
      rw [e] at hm
      cases mfs with
      | none => exact hm.elim
      | some mfs =>
        obtain ⟨_, k', d, a1, a2⟩ := hm
        exact ⟨some d, k', fun n hn => by simp only [viewOpt, viewDoc_mono hn a1, Res.bind_ok], a2⟩
  cases d0 with
  | none => exact st.2.2.elim
  | some d0 =>
    have hold := st.2.2.2
    have hlen : (s.last.map fun x => (x.1, Num.int 0)).length = c.last.length := by
      have := mapRes_length sim.last; simp [this]
    refine ⟨10000000000 + k + k', fun n hn => ?_⟩
    have hview : s.view w n = .ok ⟨md, some ref, s.last.map fun x => (x.1, .int 0), c.deltas, c.numSamples, c.maxDeltas⟩ := by
      unfold Collector.view
      rw [hv n (by omega), hr]
      simp only [viewOpt, viewDoc_mono (show k ≤ n by omega) v1, Res.bind_ok, sim.deltas, sim.num, sim.max]
    show s.resolve zip now w n = _
    unfold Collector.resolve
    rw [hview, Res.bind_ok]
    exact resolve_payload rfl hmd hml hp hnow n (by omega) (payload_on hsub hold wf hl h32 v2 hgl md hlen n (by omega))

theorem saysMeta_opt {w : World} {m : Option Nat} {mfs : Option Fields} (h : SaysMeta w m mfs) : ∀ x, m = some x → Says w x (mfs.getD .nil) := by
  intro x hx
  subst hx
  cases mfs with
  | none => exact h.elim
  | some f => exact h

theorem saysMeta_of {w w' : World} {m : Option Nat} {mfs : Option Fields} (h : SaysMeta w m mfs) (h' : ∀ x, m = some x → Says w' x (mfs.getD .nil)) : SaysMeta w' m mfs := by
  cases m with
  | none => cases mfs with | none => trivial | some _ => exact h.elim
  | some x => cases mfs with | none => exact h.elim | some f => exact h' x rfl

/-! ### a document of one int64 -/

theorem one_value {w : World} {d e : Nat} {key : Bytes} {x : Int} (hd : w.docs d = [e]) (hs : Says w d (.cons key (.int64 x) .nil)) :
    ∃ k v, viewVal w k (w.elems e) = .ok v ∧ Rep v key (.int64 x) := by
  obtain ⟨_, k, tree, h1, h2⟩ := hs
  unfold viewDoc at h1
  rw [hd] at h1
  obtain ⟨v, r, rfl, h3, h4⟩ := mapRes_cons h1
  exact ⟨k, v, h3, h2.1⟩

theorem extract_one {w : World} {d e n : Nat} {key : Bytes} {x : Int} (hd : w.docs d = [e]) (hs : Says w d (.cons key (.int64 x) .nil)) (hn : 0 < n) :
    Shared.extract n d w = (w, .ok [(0x12, .at (w.elems e))]) := by
  obtain ⟨k, v, h1, h2⟩ := one_value hd hs
  have ht := view_type h1 h2
  obtain ⟨n, rfl⟩ : ∃ m, n = m + 1 := ⟨n - 1, by omega⟩
  have hv : Shared.extractValue (n + 1) (n + 1) (w.elems e) w = (w, .ok [(0x12, .at (w.elems e))]) := by
    unfold Shared.extractValue
    rw [bind_ok_run (a := w.vals (w.elems e)) (w' := w) rfl, bind_ok_run (a := w.bytes (w.vals (w.elems e)).data) (w' := w) rfl,
      bind_ok_run (a := 0x12) (w' := w) (by rw [lift_run, ht]; rfl)]
    rfl
  unfold Shared.extract
  rw [bind_ok_run (a := [e]) (w' := w) (by rw [look_run, hd])]
  unfold Shared.extractElems
  rw [bind_ok_run (a := w.elems e) (w' := w) rfl, bind_ok_run hv, bind_ok_run (a := []) (w' := w) rfl]
  rfl

/-- what the collector is after a document of one int64 -/
def oneAdded (max : Nat) (md : Option Nat) (d p : Nat) : Collector := ⟨md, some d, [(0x12, .at p)], List.replicate (max * 1) 0, 0, max⟩

theorem add_one (fsub : Nat → Nat → Nat) {w : World} {d e n max : Nat} {md : Option Nat} {key : Bytes} {x : Int} (hd : w.docs d = [e]) (hs : Says w d (.cons key (.int64 x) .nil))
    (hn : 0 < n) : (Collector.new max md).add fsub n d w = (w, .ok (oneAdded max md d (w.elems e), none)) := by
  unfold Collector.add Collector.new
  simp only
  rw [bind_ok_run (extract_one hd hs hn)]
  rfl

theorem add_world (fsub : Nat → Nat → Nat) {w : World} {d n : Nat} {l : List (UInt8 × Held)} (c : Collector) (h : Shared.extract n d w = (w, .ok l)) : (c.add fsub n d w).1 = w := by
  unfold Collector.add
  cases c.reference with
  | none =>
    simp only
    rw [bind_ok_run h]; rfl
  | some r =>
    simp only
    split
    · rfl
    · rw [bind_ok_run h]
      split
      · rfl
      · rw [bind_run, look_run]
        cases Shared.addLoop fsub w c.maxDeltas c.numSamples 0 l c.last c.deltas with
        | ok x => obtain ⟨ds, e⟩ := x; cases e <;> rfl
        | _ => rfl

theorem run_world {fsub : Nat → Nat → Nat} {w w' : World} {d n : Nat} {c c' : Collector} {es : List (Option Err)} (h : Shared.run fsub n c [.add d] w = (w', .ok (c', es))) :
    w' = (c.add fsub n d w).1 := by
  unfold Shared.run at h
  rw [bind_run] at h
  cases hx : c.add fsub n d w with
  | mk w1 r =>
    rw [hx] at h
    cases r with
    | ok x => obtain ⟨c1, e⟩ := x; exact (Prod.mk.inj h).1.symm
    | err e => exact (Prod.mk.inj h).1.symm
    | panic => exact (Prod.mk.inj h).1.symm
    | oof => exact (Prod.mk.inj h).1.symm

/-- an int64 is not opened -/
theorem view_int64 {w : World} {k p : Nat} {v : Value} {key : Bytes} {x : Int} (h : viewVal w k p = .ok v) (hr : Rep v key (.int64 x)) :
    (w.vals p).d = none ∧ v = .raw (w.vals p).start (w.vals p).offset (w.bytes (w.vals p).data) := by
  cases k with
  | zero => simp [viewVal] at h
  | succ k =>
    unfold viewVal at h
    simp only at h
    cases hd : (w.vals p).d with
    | none => rw [hd] at h; simp only [Res.ok.injEq] at h; exact ⟨rfl, h.symm⟩
    | some d =>
      rw [hd] at h
      obtain ⟨es, h1, h2⟩ := Res.bind_eq_ok.mp h
      simp only [Res.ok.injEq] at h2
      subst h2
      simp [Rep] at hr

theorem view_double {w : World} {k p : Nat} {v : Value} {key : Bytes} {x : Nat} (h : viewVal w k p = .ok v) (hr : Rep v key (.double x)) :
    v = .raw (w.vals p).start (w.vals p).offset (w.bytes (w.vals p).data) := by
  cases k with
  | zero => simp [viewVal] at h
  | succ k =>
    unfold viewVal at h
    simp only at h
    cases hd : (w.vals p).d with
    | none => rw [hd] at h; simp only [Res.ok.injEq] at h; exact h.symm
    | some d =>
      rw [hd] at h
      obtain ⟨es, h1, h2⟩ := Res.bind_eq_ok.mp h
      simp only [Res.ok.injEq] at h2
      subst h2
      simp [Rep] at hr

theorem says_one {w : World} {d e : Nat} {key : Bytes} {x : Int} (hm : Made w (.doc d)) (hd : w.docs d = [e]) {v : VObj} {u : World} {k q : Nat} {t : Value}
    (hq : viewVal u k q = .ok t) (hr : Rep t key (.int64 x)) (hv : v = u.vals q) (hw : w.vals (w.elems e) = v) (hb : w.bufs = u.bufs) :
    Says w d (.cons key (.int64 x) .nil) := by
  obtain ⟨h1, rfl⟩ := view_int64 hq hr
  subst hv
  refine ⟨hm, 1, [.raw (u.vals q).start (u.vals q).offset (u.bytes (u.vals q).data)], ?_, hr, trivial⟩
  have : w.bytes (u.vals q).data = u.bytes (u.vals q).data := by unfold World.bytes; rw [hb]
  simp only [viewDoc, hd, mapRes, viewVal, hw, h1, Res.bind_ok, this]

/-- after `Document.Copy` the collector does not refer to the original -/
theorem copy_apart {fsub : Nat → Nat → Nat} {w w1 w2 : World} {c : Collector} {d d' n max : Nat} {e : Option Err} {md : Option Nat} {fs : Fields} (g : Spec.Graph.Good w)
    (hs : Says w d fs) (hl : (encDoc fs).length < 2147483648) (hn : 2147483648 ≤ n) (hc : copyDocument d w = (w1, .ok d'))
    (ha : (Collector.new max md).add fsub n d' w1 = (w2, .ok (c, e))) : ¬ Reach w2 (.doc d') (.doc d) ∧ c.reference = some d' ∧ c.metadata = md := by
  have x := copyDocument_ext w d g hs.1
  have e1 : (copyDocument d w).1.docs w.nd = w.docs d := upd_self _ _ _
  have e3 : (copyDocument d w).2 = .ok w.nd := rfl
  have e2 : (copyDocument d w).1.nd = w.nd + 1 := rfl
  rw [hc] at x e1 e2 e3
  simp only [Res.ok.injEq] at x e1 e2 e3
  subst e3
  have g1 := x.good g
  have hd1 : w.docs d = w1.docs d := x.same (.doc d) hs.1
  have s1 : Says w1 d fs := says_frame (fun _ => x.made) (fun o r => x.same o (reach_made g hs.1 r)) hs
  have s2 : Says w1 w.nd fs := by
    obtain ⟨_, k, tree, h1, h2⟩ := s1
    refine ⟨by show w.nd < w1.nd; omega, k, tree, ?_, h2⟩
    unfold viewDoc at h1 ⊢
    rw [e1, hd1]; exact h1
  obtain ⟨w', l, y1, y2, _, _⟩ := extract_ok g1 s2 hl hn
  unfold Collector.add Collector.new at ha
  simp only at ha
  rw [bind_ok_run y1] at ha
  have ha' := Prod.mk.inj ha
  obtain ⟨rfl, hc⟩ := ha'
  have hc := Prod.mk.inj (Res.ok.inj hc)
  refine ⟨fun r => ?_, by rw [← hc.1], by rw [← hc.1]⟩
  have s3 := says_opened g1 y2 s1 hl hn
  have hdd : w'.docs w.nd = w'.docs d := by rw [y2.docs _ (show w.nd < w1.nd by omega), y2.docs d s1.1, e1, hd1]
  cases r with
  | refl => exact absurd hs.1 (Nat.lt_irrefl _)
  | step ed r =>
    cases ed with
    | elem he =>
      obtain ⟨_, k, tree, h1, _⟩ := s3
      rw [hdd] at he
      exact view_cycle he r k ⟨tree, h1⟩

end Birch.Proofs.Shared
