import Verif.Spec.Jsonx
import Verif.Proofs.ExtJson

/- Helper lemmas for C90. -/

namespace Birch.Proofs.Jsonx
open Birch Model Model.ExtJson Birch.Spec Birch.Spec.ExtJson Birch.Spec.Jsonx Proofs.ExtJson
open Birch.Model.Jsonx (GVal GVals GElems World Held Change upd)

/-! ### conversion -/

theorem shape_free {es : GElems} {fs : Fields} (h : MeansFields es fs) (hu : Unreserved fs) : Free es.shape := by
  cases h with
  | nil => trivial
  | cons _ _ => exact hu

mutual
theorem means_convert {C : Clock} : ∀ {j : GVal} {t : BVal}, Means j t → ∀ k, Model.Jsonx.convert C k j = buildVal k t
  | _, _, .null, k => by rw [Model.Jsonx.convert, buildVal]
  | _, _, .bool, k => by rw [Model.Jsonx.convert, buildVal]
  | _, _, .int, k => by rw [Model.Jsonx.convert]; exact ofInt_build k _
  | _, _, .double, k => by rw [Model.Jsonx.convert, buildVal]
  | _, _, .str, k => by rw [Model.Jsonx.convert, buildVal]
  | _, _, .arr h, k => by rw [Model.Jsonx.convert, meansVals_convert h, buildVal]
  | _, _, .obj hu h, k => by rw [Model.Jsonx.convert, object_default (shape_free h hu), meansFields_convert h, buildVal]
theorem meansVals_convert {C : Clock} : ∀ {js : GVals} {vs : Vals}, MeansVals js vs → collect (Model.Jsonx.convertVals C js) = buildArr vs
  | _, _, .nil => by rw [Model.Jsonx.convertVals, collect, buildArr]
  | _, _, .cons h1 h2 => by rw [Model.Jsonx.convertVals, collect, means_convert h1, meansVals_convert h2, buildArr]
theorem meansFields_convert {C : Clock} : ∀ {es : GElems} {fs : Fields}, MeansFields es fs → collect (Model.Jsonx.convertElems C es) = buildDoc fs
  | _, _, .nil => by rw [Model.Jsonx.convertElems, collect, buildDoc]
  | _, _, .cons h1 h2 => by rw [Model.Jsonx.convertElems, collect, means_convert h1, meansFields_convert h2, buildDoc]
end

theorem collect_ok {c : Res Value} {cs : List (Res Value)} {d : Doc} (h : collect (c :: cs) = .ok d) : ∃ v e, c = .ok v ∧ collect cs = .ok e := by
  rw [collect] at h
  obtain ⟨v, h1, h2⟩ := Res.bind_eq_ok.mp h
  obtain ⟨e, h3, _⟩ := Res.bind_eq_ok.mp h2
  exact ⟨v, e, h1, h3⟩

mutual
theorem other_convert {C : Clock} : ∀ {j : GVal}, Other j → ∀ k v, Model.Jsonx.convert C k j ≠ .ok v
  | _, .int32, k, v => by rw [Model.Jsonx.convert]; nofun
  | _, .int64, k, v => by rw [Model.Jsonx.convert]; nofun
  | _, .f32, k, v => by rw [Model.Jsonx.convert]; nofun
  | _, .arr h, k, v => by
    rw [Model.Jsonx.convert]
    intro h'
    obtain ⟨d, h1, _⟩ := Res.bind_eq_ok.mp h'
    exact otherVals_convert h d h1
  | _, .obj (k := k0) (v := v0) (r := r0) hk h, k, v => by
    have hf : Free (GElems.cons k0 v0 r0).shape := hk
    rw [Model.Jsonx.convert, object_default hf]
    intro h'
    obtain ⟨d, h1, _⟩ := Res.bind_eq_ok.mp h'
    exact otherElems_convert h d h1
theorem otherVals_convert {C : Clock} : ∀ {js : GVals}, OtherVals js → ∀ d, collect (Model.Jsonx.convertVals C js) ≠ .ok d
  | _, .here h, d => by
    rw [Model.Jsonx.convertVals]
    intro h'
    obtain ⟨v, _, h1, _⟩ := collect_ok h'
    exact other_convert h _ v h1
  | _, .there h, d => by
    rw [Model.Jsonx.convertVals]
    intro h'
    obtain ⟨_, e, _, h1⟩ := collect_ok h'
    exact otherVals_convert h e h1
theorem otherElems_convert {C : Clock} : ∀ {es : GElems}, OtherElems es → ∀ d, collect (Model.Jsonx.convertElems C es) ≠ .ok d
  | _, .here h, d => by
    rw [Model.Jsonx.convertElems]
    intro h'
    obtain ⟨v, _, h1, _⟩ := collect_ok h'
    exact other_convert h _ v h1
  | _, .there h, d => by
    rw [Model.Jsonx.convertElems]
    intro h'
    obtain ⟨_, e, _, h1⟩ := collect_ok h'
    exact otherElems_convert h e h1
end

theorem collect_err {C : Clock} {k : Bytes} {v : GVal} {r : GElems} (hv : Model.Jsonx.convert C k v = .err .other) :
    ∀ (pre : GElems) (d : Doc), collect (Model.Jsonx.convertElems C pre) = .ok d →
      collect (Model.Jsonx.convertElems C (Spec.Jsonx.append pre (.cons k v r))) = .err .other
  | .nil, _, _ => by rw [Spec.Jsonx.append, Model.Jsonx.convertElems, collect, hv]; rfl
  | .cons k' v' r', d, h => by
    rw [Model.Jsonx.convertElems] at h
    obtain ⟨x, e, h1, h2⟩ := collect_ok h
    rw [Spec.Jsonx.append, Model.Jsonx.convertElems, collect, h1, Res.bind_ok, collect_err hv r' e h2]
    rfl

theorem collect_panic {C : Clock} {k : Bytes} {v : GVal} {r : GElems} (hv : Model.Jsonx.convert C k v = .panic) :
    ∀ (pre : GElems) (d : Doc), collect (Model.Jsonx.convertElems C pre) = .ok d →
      collect (Model.Jsonx.convertElems C (Spec.Jsonx.append pre (.cons k v r))) = .panic
  | .nil, _, _ => by rw [Spec.Jsonx.append, Model.Jsonx.convertElems, collect, hv]; rfl
  | .cons k' v' r', d, h => by
    rw [Model.Jsonx.convertElems] at h
    obtain ⟨x, e, h1, h2⟩ := collect_ok h
    rw [Spec.Jsonx.append, Model.Jsonx.convertElems, collect, h1, Res.bind_ok, collect_panic hv r' e h2]
    rfl

/-! ### copies -/

variable {α : Type}

/-- the objects of `w` are as they were -/
structure Ext (w w' : World α) : Prop where
  nv : w.nv ≤ w'.nv
  ne : w.ne ≤ w'.ne
  nd : w.nd ≤ w'.nd
  na : w.na ≤ w'.na
  vals : ∀ v < w.nv, w'.vals v = w.vals v
  elems : ∀ e < w.ne, w'.elems e = w.elems e
  docs : ∀ d < w.nd, w'.docs d = w.docs d
  arrs : ∀ a < w.na, w'.arrs a = w.arrs a

theorem Ext.refl (w : World α) : Ext w w := ⟨by omega, by omega, by omega, by omega, fun _ _ => rfl, fun _ _ => rfl, fun _ _ => rfl, fun _ _ => rfl⟩

theorem Ext.trans {w w1 w2 : World α} (h : Ext w w1) (h' : Ext w1 w2) : Ext w w2 where
  nv := Nat.le_trans h.nv h'.nv
  ne := Nat.le_trans h.ne h'.ne
  nd := Nat.le_trans h.nd h'.nd
  na := Nat.le_trans h.na h'.na
  vals v hv := (h'.vals v (by have := h.nv; omega)).trans (h.vals v hv)
  elems v hv := (h'.elems v (by have := h.ne; omega)).trans (h.elems v hv)
  docs v hv := (h'.docs v (by have := h.nd; omega)).trans (h.docs v hv)
  arrs v hv := (h'.arrs v (by have := h.na; omega)).trans (h.arrs v hv)

mutual
/-- also a value that holds the same -/
theorem shows_ext {w w' : World α} (hc : Closed w) (hx : Ext w w') : ∀ {v t}, v < w.nv → Shows w v t → ∀ v', w'.vals v' = w.vals v → Shows w' v' t
  | v, _, hv, .leaf h, v', he => .leaf (he.trans h)
  | v, _, hv, .doc (d := d) h hs, v', he => by
    have hd := hc.valDocs v hv d h
    exact .doc (he.trans h) (by rw [hx.docs d hd]; exact showsElems_ext hc hx (hc.docs d hd) hs)
  | v, _, hv, .arr (a := a) h hs, v', he => by
    have ha := hc.valArrs v hv a h
    exact .arr (he.trans h) (by rw [hx.arrs a ha]; exact showsVals_ext hc hx (fun v hm => hc.arrs a ha v hm) hs)
theorem showsElems_ext {w w' : World α} (hc : Closed w) (hx : Ext w w') : ∀ {es : List Nat} {l : List (Bytes × Tree α)}, (∀ e ∈ es, e < w.ne) → ShowsElems w es l → ShowsElems w' es l
  | [], _, _, .nil => .nil
  | e :: _, _, he, .cons (v := v) h1 h2 h3 => by
    have hv : v < w.nv := hc.elems e (he e (by simp)) v (by rw [h1])
    exact .cons ((hx.elems e (he e (by simp))).trans h1) (shows_ext hc hx hv h2 v (hx.vals v hv)) (showsElems_ext hc hx (fun e hm => he e (by simp [hm])) h3)
theorem showsVals_ext {w w' : World α} (hc : Closed w) (hx : Ext w w') : ∀ {vs : List (Option Nat)} {l : List (Tree α)}, (∀ v, some v ∈ vs → v < w.nv) → ShowsVals w vs l → ShowsVals w' vs l
  | [], _, _, .nil => .nil
  | some v :: _, _, he, .cons h2 h3 => by
    have hv : v < w.nv := he v (by simp)
    exact .cons (shows_ext hc hx hv h2 v (hx.vals v hv)) (showsVals_ext hc hx (fun e hm => he e (by simp [hm])) h3)
end

theorem copyValue_spec {w : World α} (hc : Closed w) {v : Nat} (hv : v < w.nv) :
    ∃ w', Model.Jsonx.copyValue w (some v) = .ok (w', w.nv) ∧ Ext w w' ∧ Closed w' ∧ w'.vals w.nv = w.vals v ∧ w'.nv = w.nv + 1 ∧ w'.ne = w.ne ∧ w'.nd = w.nd ∧ w'.na = w.na ∧
      w'.elems = w.elems ∧ w'.docs = w.docs ∧ w'.arrs = w.arrs := by
  refine ⟨_, rfl, ⟨by simp, by simp, by simp, by simp, fun x hx => ?_, fun _ _ => rfl, fun _ _ => rfl, fun _ _ => rfl⟩, ⟨hc.docs, fun e he x hx => ?_, fun a ha x hx => ?_, ?_, ?_⟩, ?_,
    rfl, rfl, rfl, rfl, rfl, rfl, rfl⟩
  · simp only [upd]
    rw [if_neg (by omega)]
  · have := hc.elems e he x hx
    simp only
    omega
  · have := hc.arrs a ha x hx
    simp only
    omega
  · intro x hx d h
    simp only [upd] at h
    split at h
    · exact hc.valDocs v hv d h
    · exact hc.valDocs x (by simp only at hx; omega) d h
  · intro x hx d h
    simp only [upd] at h
    split at h
    · exact hc.valArrs v hv d h
    · exact hc.valArrs x (by simp only at hx; omega) d h
  · simp [upd]

/-- the new element is a new object, with the key of the old one and a new value that holds what the value of the old one holds -/
def Twin (w w' : World α) (e e' : Nat) : Prop := w.ne ≤ e' ∧ ∃ k v v', w.elems e = (k, some v) ∧ w'.elems e' = (k, some v') ∧ w.nv ≤ v' ∧ w'.vals v' = w.vals v

theorem copyElement_spec {w : World α} (hc : Closed w) {e v : Nat} {k : Bytes} (he : e < w.ne) (hk : w.elems e = (k, some v)) :
    ∃ w' e', Model.Jsonx.copyElement w e = .ok (w', e') ∧ Ext w w' ∧ Closed w' ∧ Twin w w' e e' ∧ e' < w'.ne ∧ w'.elems e' = (k, some w.nv) ∧ w.nv < w'.nv ∧ w'.docs = w.docs ∧ w'.nd = w.nd ∧ w'.na = w.na := by
  have hv : v < w.nv := hc.elems e he v (by rw [hk])
  obtain ⟨w1, h1, h2, h3, h4, h5, h6, h7, h8, h9, h10, h11⟩ := copyValue_spec hc hv
  refine ⟨{ w1 with elems := upd w1.elems w1.ne ((w1.elems e).1, some w.nv), ne := w1.ne + 1 }, w1.ne, by rw [Model.Jsonx.copyElement, hk]; simp only [h1, Res.bind_ok], h2.trans ?_, ?_, ?_, ?_, ?_, ?_, h10, h7, h8⟩
  · exact ⟨Nat.le_refl _, by simp, Nat.le_refl _, Nat.le_refl _, fun _ _ => rfl, fun x hx => by simp only [upd]; rw [if_neg (by omega)], fun _ _ => rfl, fun _ _ => rfl⟩
  · refine ⟨fun d hd x hx => ?_, fun x hx y hy => ?_, h3.arrs, h3.valDocs, h3.valArrs⟩
    · have := h3.docs d hd x hx
      simp only
      omega
    · simp only [upd] at hy
      split at hy
      · simp only [Option.some.injEq] at hy
        subst hy
        simp only
        omega
      · exact h3.elems x (by simp only at hx; omega) y hy
  · refine ⟨by omega, k, v, w.nv, hk, ?_, Nat.le_refl _, h4⟩
    simp [upd, h9, hk]
  · simp
  · simp [upd, h9, hk]
  · simp only
    omega

theorem copyElements_spec : ∀ (es : List Nat) (l : List (Bytes × Tree α)) {w : World α}, Closed w → (∀ e ∈ es, e < w.ne) → ShowsElems w es l →
    ∃ w' es', Model.Jsonx.copyElements w es = .ok (w', es') ∧ Ext w w' ∧ Closed w' ∧ (∀ e ∈ es', e < w'.ne) ∧ es'.length = es.length ∧
      (∀ (i e e' : Nat), es[i]? = some e → es'[i]? = some e' → Twin w w' e e') ∧ w'.docs = w.docs ∧ w'.nd = w.nd ∧ w'.na = w.na
  | [], _, w, hc, _, _ => ⟨w, [], rfl, Ext.refl w, hc, by simp, rfl, by simp, rfl, rfl, rfl⟩
  | e :: es, _, w, hc, hn, .cons (k := k) (v := v) hk hs hl => by
    obtain ⟨w1, e1, a1, a2, a3, a4, a5, _, _, a6, a7, a8⟩ := copyElement_spec hc (hn e (by simp)) hk
    have hn' : ∀ e ∈ es, e < w.ne := fun x hx => hn x (by simp [hx])
    obtain ⟨w2, es2, b1, b2, b3, b4, b5, b6, b7, b8, b9⟩ := copyElements_spec es _ a3 (fun x hx => by have := hn' x hx; have := a2.ne; omega) (showsElems_ext hc a2 hn' hl)
    refine ⟨w2, e1 :: es2, by simp only [Model.Jsonx.copyElements, a1, Res.bind_ok, b1], a2.trans b2, b3, ?_, by simp [b5], ?_, b7.trans a6, b8.trans a7, b9.trans a8⟩
    · intro x hx
      rcases List.mem_cons.mp hx with rfl | hx
      · have := b2.ne; omega
      · exact b4 x hx
    · intro i x x' hx hx'
      cases i with
      | zero =>
        simp only [List.getElem?_cons_zero, Option.some.injEq] at hx hx'
        subst hx; subst hx'
        obtain ⟨c1, k', v1, v2, c2, c3, c4, c5⟩ := a4
        have hv2 : v2 < w1.nv := a3.elems e1 a5 v2 (by rw [c3])
        exact ⟨c1, k', v1, v2, c2, (b2.elems e1 a5).trans c3, c4, (b2.vals v2 hv2).trans c5⟩
      | succ i =>
        simp only [List.getElem?_cons_succ] at hx hx'
        obtain ⟨c1, k', v1, v2, c2, c3, c4, c5⟩ := b6 i x x' hx hx'
        have hxn := hn' x (List.mem_of_getElem? hx)
        rw [a2.elems x hxn] at c2
        have hv1 : v1 < w.nv := hc.elems x hxn v1 (by rw [c2])
        exact ⟨Nat.le_trans a2.ne c1, k', v1, v2, c2, c3, Nat.le_trans a2.nv c4, c5.trans (a2.vals v1 hv1)⟩

theorem twins_show {w w' : World α} (hc : Closed w) (hx : Ext w w') : ∀ {es : List Nat} {l : List (Bytes × Tree α)} {es' : List Nat}, (∀ e ∈ es, e < w.ne) → ShowsElems w es l → es'.length = es.length →
    (∀ (i e e' : Nat), es[i]? = some e → es'[i]? = some e' → Twin w w' e e') → ShowsElems w' es' l
  | [], _, [], _, .nil, _, _ => .nil
  | _ :: _, _, [], _, _, h, _ => by simp at h
  | [], _, e' :: es', _, _, h, _ => by simp at h
  | e :: es, _, e' :: es', hn, .cons (v := v) hk hs hl, h, ht => by
    obtain ⟨_, k', v1, v2, c2, c3, _, c5⟩ := ht 0 e e' (by simp) (by simp)
    rw [hk] at c2
    cases c2
    exact .cons c3 (shows_ext hc hx (hc.elems e (hn e (by simp)) v (by rw [hk])) hs v2 c5)
      (twins_show hc hx (fun x hm => hn x (by simp [hm])) hl (by simpa using h) (fun i x x' h1 h2 => ht (i + 1) x x' (by simpa using h1) (by simpa using h2)))

theorem copyDocument_spec {w : World α} (hc : Closed w) {d : Nat} (hd : d < w.nd) {l} (hs : ShowsElems w (w.docs d) l) :
    ∃ w', Model.Jsonx.copyDocument w d = .ok (w', w.nd) ∧ Ext w w' ∧ Closed w' ∧ ShowsElems w' (w'.docs w.nd) l ∧ (w'.docs w.nd).length = (w.docs d).length ∧ w.nd < w'.nd ∧
      (∀ (i e e' : Nat), (w.docs d)[i]? = some e → (w'.docs w.nd)[i]? = some e' → Twin w w' e e') := by
  obtain ⟨w1, es, a1, a2, a3, a4, a5, a6, a7, a8, a9⟩ := copyElements_spec (w.docs d) l hc (hc.docs d hd) hs
  have hx : Ext w { w1 with docs := upd w1.docs w1.nd es, nd := w1.nd + 1 } :=
    a2.trans ⟨Nat.le_refl _, Nat.le_refl _, by simp, Nat.le_refl _, fun _ _ => rfl, fun _ _ => rfl, fun x hx => by simp only [upd]; rw [if_neg (by omega)], fun _ _ => rfl⟩
  have e1 : upd w1.docs w1.nd es w.nd = es := by simp [upd, a8]
  refine ⟨_, by simp only [Model.Jsonx.copyDocument, a1, Res.bind_ok]; rw [a8], by rw [a8] at hx; exact hx, ?_, ?_, ?_, ?_, ?_⟩
  · refine ⟨fun x hx e he => ?_, a3.elems, a3.arrs, fun v hv x h => ?_, a3.valArrs⟩
    · simp only [upd] at he
      split at he
      · exact a4 e he
      · exact a3.docs x (by simp only at hx; omega) e he
    · have := a3.valDocs v hv x h
      simp only
      omega
  · rw [← a8] at e1 ⊢
    show ShowsElems _ (upd w1.docs w1.nd es w1.nd) l
    rw [e1]
    exact twins_show hc hx (hc.docs d hd) hs a5 a6
  · show (upd w1.docs w.nd es w.nd).length = _
    simp [upd, a5]
  · simp
  · intro i e e' h1 h2
    simp only [upd, if_true] at h2
    exact a6 i e e' h1 h2

theorem copyDocument_nil {w : World α} : ∀ {es : List Nat} {e : Nat}, (∀ e ∈ es, e < w.ne) → e ∈ es → (w.elems e).2 = none →
    ∀ {w1 : World α}, (∀ e < w.ne, w1.elems e = w.elems e) → w.ne ≤ w1.ne → Model.Jsonx.copyElements w1 es = .panic
  | x :: es, e, hn, hm, hk, w1, he, hne => by
    have hx := he x (hn x (by simp))
    cases hv : (w1.elems x).2 with
    | none => simp only [Model.Jsonx.copyElements, Model.Jsonx.copyElement, hv, Model.Jsonx.copyValue, Res.bind_panic]
    | some v =>
      have hme : e ∈ es := by
        rcases List.mem_cons.mp hm with rfl | h
        · rw [hx, hk] at hv; cases hv
        · exact h
      simp only [Model.Jsonx.copyElements, Model.Jsonx.copyElement, hv, Model.Jsonx.copyValue, Res.bind_ok]
      rw [copyDocument_nil (fun y hy => hn y (by simp [hy])) hme hk (fun y hy => by simp only [upd]; rw [if_neg (by omega)]; exact he y hy) (by simp only; omega)]
      rfl

/-! ### arrays -/

theorem copyValues_spec : ∀ (vs : List (Option Nat)) (l : List (Tree α)) {w : World α}, Closed w → (∀ v, some v ∈ vs → v < w.nv) → ShowsVals w vs l →
    ∃ w' vs', Model.Jsonx.copyValues w vs = .ok (w', vs') ∧ Ext w w' ∧ Closed w' ∧ (∀ v, some v ∈ vs' → w.nv ≤ v ∧ v < w'.nv) ∧ ShowsVals w' vs' l ∧ w'.arrs = w.arrs ∧ w'.na = w.na
  | [], _, w, hc, _, .nil => ⟨w, [], rfl, Ext.refl w, hc, by simp, .nil, rfl, rfl⟩
  | some v :: vs, _, w, hc, hn, .cons hs hl => by
    have hv := hn v (by simp)
    obtain ⟨w1, h1, h2, h3, h4, h5, h6, h7, h8, h9, h10, h11⟩ := copyValue_spec hc hv
    have hn' : ∀ x, some x ∈ vs → x < w.nv := fun x hx => hn x (by simp [hx])
    obtain ⟨w2, vs2, b1, b2, b3, b4, b5, b6, b7⟩ := copyValues_spec vs _ h3 (fun x hx => by have := hn' x hx; omega) (showsVals_ext hc h2 hn' hl)
    refine ⟨w2, some w.nv :: vs2, by simp only [Model.Jsonx.copyValues, h1, Res.bind_ok, b1], h2.trans b2, b3, ?_, ?_, b6.trans h11, b7.trans h8⟩
    · intro x hx
      rcases List.mem_cons.mp hx with hx | hx
      · simp only [Option.some.injEq] at hx
        subst hx
        have := b2.nv
        omega
      · have := b4 x hx
        omega
    · exact .cons (shows_ext hc (h2.trans b2) hv hs _ ((b2.vals _ (by omega)).trans h4)) b5

theorem copyArray_spec {w : World α} (hc : Closed w) {a : Nat} (ha : a < w.na) {l} (hs : ShowsVals w (w.arrs a) l) :
    ∃ w', Model.Jsonx.copyArray w a = .ok (w', w.na) ∧ Ext w w' ∧ Closed w' ∧ ShowsVals w' (w'.arrs w.na) l ∧ w.na < w'.na ∧ (∀ v, some v ∈ w'.arrs w.na → w.nv ≤ v) := by
  obtain ⟨w1, vs, a1, a2, a3, a4, a5, a6, a7⟩ := copyValues_spec (w.arrs a) l hc (fun v hv => hc.arrs a ha v hv) hs
  have hx1 : Ext w1 { w1 with arrs := upd w1.arrs w1.na vs, na := w1.na + 1 } :=
    ⟨Nat.le_refl _, Nat.le_refl _, Nat.le_refl _, by simp, fun _ _ => rfl, fun _ _ => rfl, fun _ _ => rfl, fun x hx => by simp only [upd]; rw [if_neg (by omega)]⟩
  refine ⟨_, by simp only [Model.Jsonx.copyArray, a1, Res.bind_ok]; rw [a7], by have := a2.trans hx1; rw [a7] at this; exact this, ?_, ?_, ?_, ?_⟩
  · refine ⟨a3.docs, a3.elems, fun x hx v hv => ?_, a3.valDocs, fun v hv x h => ?_⟩
    · simp only [upd] at hv
      split at hv
      · exact (a4 v hv).2
      · exact a3.arrs x (by simp only at hx; omega) v hv
    · have := a3.valArrs v hv x h
      simp only
      omega
  · rw [a7] at hx1
    show ShowsVals _ (upd w1.arrs w.na vs w.na) l
    have : upd w1.arrs w.na vs w.na = vs := by simp [upd]
    rw [this]
    exact showsVals_ext a3 hx1 (fun v hv => (a4 v hv).2) a5
  · simp
  · intro v hv
    simp only [upd, if_true] at hv
    exact (a4 v hv).1

/-! ### changes -/

theorem own_ext {w : World α} : ∀ (cs : List (Change α)) {w' : World α}, Ext w w' → (∀ c ∈ cs, Own w c) → Ext w (cs.foldl Change.apply w')
  | [], _, h, _ => h
  | c :: cs, w', h, ho => by
    refine own_ext cs ?_ (fun x hx => ho x (by simp [hx]))
    have := ho c (by simp)
    cases c with
    | appendDoc d es => exact ⟨h.nv, h.ne, h.nd, h.na, h.vals, h.elems, fun x hx => by simp only [Change.apply, upd]; rw [if_neg (by simp only [Own] at this; omega)]; exact h.docs x hx, h.arrs⟩
    | appendArr d es => exact ⟨h.nv, h.ne, h.nd, h.na, h.vals, h.elems, h.docs, fun x hx => by simp only [Change.apply, upd]; rw [if_neg (by simp only [Own] at this; omega)]; exact h.arrs x hx⟩
    | setVal d es => exact ⟨h.nv, h.ne, h.nd, h.na, fun x hx => by simp only [Change.apply, upd]; rw [if_neg (by simp only [Own] at this; omega)]; exact h.vals x hx, h.elems, h.docs, h.arrs⟩

theorem showsElems_append {w : World α} : ∀ {es es' : List Nat} {l l' : List (Bytes × Tree α)}, ShowsElems w es l → ShowsElems w es' l' → ShowsElems w (es ++ es') (l ++ l')
  | _, _, _, _, .nil, h => h
  | _, _, _, _, .cons hk hs hl, h => .cons hk hs (showsElems_append hl h)

theorem showsVals_append {w : World α} : ∀ {vs vs' : List (Option Nat)} {l l' : List (Tree α)}, ShowsVals w vs l → ShowsVals w vs' l' → ShowsVals w (vs ++ vs') (l ++ l')
  | _, _, _, _, .nil, h => h
  | _, _, _, _, .cons hs hl, h => .cons hs (showsVals_append hl h)

end Birch.Proofs.Jsonx
