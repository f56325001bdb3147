import Verif.Spec.Custom
import Verif.Base
import Verif.Spec.Decimals
import Verif.Proofs.GoValue
import Verif.Proofs.Sorting
import Verif.Proofs.DocHeap

namespace Birch.Proofs.Custom
open Birch Model Model.Custom Spec Proofs

theorem byName_weak : WeakOrder byName (fun _ => True) where
  asymm := by
    intro a b _ _ h
    simp only [byName, ← strLt_eq] at h ⊢
    exact strLt_asymm _ _ h
  cotrans := by
    intro a b c _ _ _ h
    simp only [byName, ← strLt_eq] at h ⊢
    exact strLt_cotrans _ _ _ h

theorem sort_eq (ps : Custom) : sort ps = .ok (Docs.sort byName ps) :=
  DocHeap.sortStable_spec (fun a b => by simp [pointLess, byName, strLt_eq]) ps

theorem sort_spec (ps : Custom) : StableSort byName ps (Docs.sort byName ps) := sort_stable byName_weak ps (fun _ _ => trivial)

/-- a sorted list stays as it is -/
theorem sort_sorted {ps : Custom} (h : ps.Pairwise (fun a b => byName b a = false)) : Docs.sort byName ps = ps :=
  stableSort_unique byName_weak _ _ ps (fun _ _ => trivial) (sort_spec ps) ⟨.refl _, h, fun _ _ => rfl⟩

variable {W : Nat → Nat} {fuel : Nat}

/-- what does not depend on the order of fields -/
structure Alike (fs gs : Fields) : Prop where
  wf : fs.WF ↔ gs.WF
  size : fs.enc.length = gs.enc.length

theorem pointsAre_perm {ps rs : List Point} (h : ps.Perm rs) : ∀ {fs}, PointsAre W ps fs → ∃ gs, PointsAre W rs gs ∧ Alike fs gs := by
  induction h with
  | nil => intro fs h; exact ⟨fs, h, Iff.rfl, rfl⟩
  | cons p _ ih =>
    intro fs h
    cases h with
    | cons h1 h2 h3 =>
      obtain ⟨gs, h4, h5⟩ := ih h3
      exact ⟨_, .cons h1 h2 h4, by simp only [Fields.WF, h5.wf], by simp only [fieldsEnc_length, h5.size]⟩
  | swap p q l =>
    intro fs h
    cases h with
    | cons h1 h2 h3 =>
      cases h3 with
      | cons h4 h5 h6 =>
        refine ⟨_, .cons h4 h5 (.cons h1 h2 h6), ⟨fun h => ?_, fun h => ?_⟩, by simp only [fieldsEnc_length]; omega⟩
        · exact ⟨h.2.2.1, h.2.2.2.1, h.1, h.2.1, h.2.2.2.2⟩
        · exact ⟨h.2.2.1, h.2.2.2.1, h.1, h.2.1, h.2.2.2.2⟩
  | trans _ _ ih1 ih2 =>
    intro fs h
    obtain ⟨gs, h1, h2⟩ := ih1 h
    obtain ⟨hs, h3, h4⟩ := ih2 h1
    exact ⟨hs, h3, h2.wf.trans h4.wf, h2.size.trans h4.size⟩

theorem build_acc (ps : Custom) : ∀ (acc : Doc), docOf W fuel ps acc = (do .ok (acc ++ (← docOf W fuel ps []))) := by
  induction ps with
  | nil => intro acc; simp [docOf, Res.bind_ok]
  | cons p ps ih =>
    intro acc
    simp only [docOf, List.nil_append]
    cases ECE.interface W fuel p.name p.value.any with
    | ok v =>
      simp only [Res.bind_ok]
      rw [ih (acc ++ [v]), ih [v]]
      cases docOf W fuel ps [] with
      | ok d => simp [Res.bind_ok]
      | err e => rfl
      | panic => rfl
      | oof => rfl
    | err e => rfl
    | panic => rfl
    | oof => rfl

theorem build_cons (p : Point) (ps : Custom) : docOf W fuel (p :: ps) [] = (do
    let v ← ECE.interface W fuel p.name p.value.any
    .ok (v :: (← docOf W fuel ps []))) := by
  simp only [docOf, List.nil_append]
  cases ECE.interface W fuel p.name p.value.any with
  | ok v => simp only [Res.bind_ok]; rw [build_acc]; rfl
  | err e => rfl
  | panic => rfl
  | oof => rfl

theorem build_rep : ∀ {ps fs}, PointsAre W ps fs → fs.WF → fs.enc.length < 1073741824 → fs.enc.length < fuel →
    ∃ d, docOf W fuel ps [] = .ok d ∧ RepFields d fs
  | _, _, .nil, _, _, _ => ⟨[], rfl, by simp [RepFields]⟩
  | _, _, .cons h h0 hm, wf, hl, hf => by
    rw [fieldsEnc_length] at hl hf
    obtain ⟨v, h1, h2⟩ := interfaceErr_rep (fuel := fuel) h h0 wf.1 wf.2.1 (by omega) (by omega)
    obtain ⟨d, h3, h4⟩ := build_rep hm wf.2.2 (by omega) (by omega)
    exact ⟨v :: d, by rw [build_cons, h1, Res.bind_ok, h3]; rfl, h2, h4⟩

theorem marshal_rep {ps : Custom} {gs : Fields} (h : PointsAre W (Docs.sort byName ps) gs) (wf : gs.WF) (hl : (encDoc gs).length < 1073741824)
    (hf : 1073741824 ≤ fuel) : ∃ d, marshalDocument W fuel ps = .ok (Docs.sort byName ps, .ok d) ∧ RepFields d gs ∧
      marshalBSON W fuel ps = .ok (Docs.sort byName ps, .ok (encDoc gs)) := by
  have hl' := hl
  simp only [encDoc, wrapDoc_length] at hl'
  obtain ⟨d, h1, h2⟩ := build_rep (fuel := fuel) h wf (by omega) (by omega)
  have hm : marshalDocument W fuel ps = .ok (Docs.sort byName ps, .ok d) := by
    unfold marshalDocument
    rw [sort_eq, Res.bind_ok, h1]
  refine ⟨d, hm, h2, ?_⟩
  unfold marshalBSON
  rw [hm]
  simp only [Res.bind_ok]
  rw [docMarshal_rep fuel h2 (by omega) (by omega)]

theorem appendAll_rep : ∀ {d : Doc} {fs : Fields} (ps : Custom), RepFields d fs → fs.NoDecimal → fs.enc.length < 2147483648 → fs.enc.length < fuel →
    appendAll fuel d ps = .ok (ps ++ pointsOf fs)
  | [], .nil, ps, _, _, _, _ => by simp [appendAll, pointsOf]
  | [], .cons _ _ _, _, h, _, _, _ => by simp [RepFields] at h
  | _ :: _, .nil, _, h, _, _, _ => by simp [RepFields] at h
  | v :: d, .cons k t fs, ps, h, hd, hl, hf => by
    rw [fieldsEnc_length] at hl hf
    rw [appendAll, key_rep h.1, Res.bind_ok, valueInterface_rep fuel v k t h.1 hd.1 (by omega) (by omega), Res.bind_ok,
      appendAll_rep _ h.2 hd.2 (by omega) (by omega)]
    simp [pointsOf]

theorem unmarshal_rep (fs : Fields) (ps : Custom) (wf : fs.WF) (hd : fs.NoDecimal) (hl : (encDoc fs).length < 2147483648) :
    Returns (fun fuel => unmarshalBSON fuel ps (encDoc fs)) (.ok (ps ++ pointsOf fs)) := by
  refine ⟨(encDoc fs).length + 1, fun m hm => ?_⟩
  obtain ⟨d, h1, h2⟩ := readDocument_enc m fs wf [] (by omega) (by simpa using hl)
  rw [List.append_nil] at h1
  simp only [unmarshalBSON, h1, Res.bind_ok]
  simp only [encDoc, wrapDoc_length] at hl hm
  exact appendAll_rep ps h2 hd (by omega) (by omega)

/-! ### the values of points -/

theorem number_portable {v : Val} (hv : NumberType v) {t : BVal} (h : Denotes W v.any t) : Portable t := by
  have pv : ∀ {α : Type} (f : α → BVal) (l : List α), (∀ a, Portable (f a)) → Portable (.array (valsOf f l)) := by
    intro α f l hf
    simp only [Portable]
    induction l with
    | nil => simp [valsOf, PortableVals]
    | cons a l ih => exact ⟨hf a, ih⟩
  have pi : ∀ g, Portable (intBson g) := by
    intro g
    unfold intBson
    split <;> simp [Portable]
  cases v with
  | go g =>
    simp only [Val.any] at h
    cases h <;> simp only [NumberType] at hv <;> first | exact pi _ | (exact pv _ _ fun _ => pi _) | (refine pv _ _ fun _ => ?_; simp [Portable]) | simp [Portable]
  | bools l => cases h
  | uint32s l => cases h
  | uint64s l => cases h

/-- the values of all fields can be imported again (names may repeat) -/
def AllPortable : Fields → Prop
  | .nil => True
  | .cons _ t fs => Portable t ∧ AllPortable fs

theorem points_portable : ∀ {ps fs}, PointsAre W ps fs → (∀ p ∈ ps, NumberType p.value) → AllPortable fs
  | _, _, .nil, _ => trivial
  | _, _, .cons h _ hm, hn => ⟨number_portable (hn _ (by simp)) h, points_portable hm (fun p hp => hn p (by simp [hp]))⟩

theorem portable_fields : ∀ {fs}, AllPortable fs → fs.NoDecimal
  | .nil, _ => trivial
  | .cons _ _ _, h => ⟨portable_noDecimal h.1, portable_fields h.2⟩

theorem pointsOf_are : ∀ {fs}, AllPortable fs → fs.WF → PointsAre W (pointsOf fs) fs
  | .nil, _, _ => .nil
  | .cons k t fs, h, wf => by
    have := PointsAre.cons (W := W) (p := ⟨k, .go (goOf t)⟩) (t := t) (goOf_denotes h.1 wf.2.1) (by rintro rfl; rfl) (pointsOf_are h.2 wf.2.2)
    exact this

theorem pointsOf_names : ∀ {ps fs}, PointsAre W ps fs → (pointsOf fs).map Point.name = ps.map Point.name
  | _, _, .nil => rfl
  | _, _, .cons _ _ hm => by simp [pointsOf, pointsOf_names hm]

theorem sorted_names {ps rs : Custom} (h : ps.map Point.name = rs.map Point.name) (hs : ps.Pairwise (fun a b => byName b a = false)) :
    rs.Pairwise (fun a b => byName b a = false) := by
  have e : ∀ l : Custom, l.Pairwise (fun a b => byName b a = false) ↔ (l.map Point.name).Pairwise (fun a b => decide (b < a) = false) := by
    intro l
    rw [List.pairwise_map]
    rfl
  rw [e] at hs ⊢
  rwa [← h]

theorem goOf_intBson (g : GoInt) : goOf (intBson g) = sized g := by
  unfold intBson sized
  cases wide g <;> rfl

theorem goOf_millis {t : Time} (h : TimeFits t) : goOf (.datetime (millis t)) = .time (truncated t) := by
  obtain ⟨hn, -, -⟩ := h
  unfold Normal at hn
  have hms : millis t = t.sec * 1000 + t.nsec / 1000000 := by unfold millis nanoseconds; omega
  have e1 : millis t / 1000 = t.sec := by omega
  have e2 : millis t % 1000 = t.nsec / 1000000 := by omega
  simp only [goOf, e1, e2, truncated]

theorem goOfVals_valsOf {α : Type} {f : α → BVal} {g : α → Go} : ∀ {l : List α}, (∀ a ∈ l, goOf (f a) = g a) → goOfVals (valsOf f l) = anys g l
  | [], _ => rfl
  | a :: l, h => by
    simp only [valsOf, goOfVals, anys]
    rw [h a (by simp), goOfVals_valsOf (fun b hb => h b (by simp [hb]))]

theorem number_back {v : Val} (hv : NumberType v) {t : BVal} (h : Denotes W v.any t) : Val.go (goOf t) = comesBack W v := by
  cases v with
  | go g =>
    simp only [Val.any] at h
    cases h <;> simp only [NumberType] at hv
    case bool b => rfl
    case int g hg => simp only [comesBack, goOf_intBson]
    case f32 b => rfl
    case f64 b => rfl
    case time t ht => simp only [comesBack, goOf_millis ht]
    case int64s l => simp only [comesBack, goOf, goOfVals_valsOf (f := .int64) (g := fun i => .int (.int64 i)) (fun a _ => by rfl)]
    case int32s l => simp only [comesBack, goOf, goOfVals_valsOf (f := .int32) (g := fun i => .int (.int32 i)) (fun a _ => by rfl)]
    case f64s l => simp only [comesBack, goOf, goOfVals_valsOf (f := .double) (g := .f64) (fun a _ => by rfl)]
    case f32s l => simp only [comesBack, goOf, goOfVals_valsOf (f := (fun b => .double (W b))) (g := fun b => .f64 (W b)) (fun a _ => by rfl)]
    case ints l hi => simp only [comesBack, goOf, goOfVals_valsOf (g := fun i => sized (.int i)) (fun a _ => goOf_intBson _)]
    case times l ht => simp only [comesBack, goOf, goOfVals_valsOf (g := fun t => .time (truncated t)) (fun a ha => goOf_millis (ht a ha))]
  | bools l => cases h
  | uint32s l => cases h
  | uint64s l => cases h

theorem points_back : ∀ {ps fs}, PointsAre W ps fs → (∀ p ∈ ps, NumberType p.value) → pointsOf fs = ps.map (fun p => ⟨p.name, comesBack W p.value⟩)
  | _, _, .nil, _ => rfl
  | _, _, .cons (p := p) h _ hm, hx => by
    rw [pointsOf, number_back (hx _ (by simp)) h, points_back hm (fun p hp => hx p (by simp [hp]))]
    rfl

/-! ### refusals -/

theorem unwritable_err {p : Point} (h : Unwritable p.value) (hk : NulFree p.name) (hl : p.name.length + 2 < 1073741824) :
    ECE.interface W fuel p.name p.value.any = .err .other := by
  obtain ⟨k, v⟩ := p
  simp only at h hk hl ⊢
  cases h with
  | type h => exact (unsupported_rep h hk hl).2
  | @large n h =>
    simp only [Val.any, ECE.interface, ECE.ofUint64]
    rw [if_neg (by omega), if_pos (by omega)]

theorem build_refuses (hf : 1073741824 ≤ fuel) : ∀ {ps : Custom}, (∀ p ∈ ps, NulFree p.name ∧ p.name.length + 2 < 1073741824 ∧ (Writable W p ∨ Unwritable p.value)) →
    (∃ p ∈ ps, Unwritable p.value) → docOf W fuel ps [] = .err .other
  | [], _, h => by obtain ⟨p, hp, _⟩ := h; cases hp
  | p :: ps, ha, h => by
    rw [build_cons]
    obtain ⟨hk, hl, hp⟩ := ha p (by simp)
    rcases Classical.em (Unwritable p.value) with hu | hu
    · rw [unwritable_err hu hk hl]; rfl
    · rcases hp with ⟨t, h1, h2, h3, h4⟩ | hp
      · obtain ⟨v, h5, _⟩ := interfaceErr_rep (fuel := fuel) h1 h2 hk h3 h4 (by omega)
        rw [h5, Res.bind_ok, build_refuses hf (fun q hq => ha q (by simp [hq])) ?_]
        · rfl
        · obtain ⟨q, hq, hqu⟩ := h
          rcases List.mem_cons.mp hq with rfl | hq
          · exact absurd hqu hu
          · exact ⟨q, hq, hqu⟩
      · exact absurd hp hu

end Birch.Proofs.Custom
