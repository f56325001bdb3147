import Verif.Spec.Samples
import Verif.Proofs.DocHeap
import Verif.Proofs.DocView
import Verif.Proofs.Sorting
import Verif.Proofs.GoValue

namespace Birch.Proofs
open Birch Model Model.Samples Spec

theorem insertRev_map {E F : Type} {less : F → F → Res Bool} {lt : E → E → Bool} {f : E → F} (hl : ∀ a b, less (f a) (f b) = .ok (lt a b)) (x : E) :
    ∀ l : List E, DocHeap.insertRev less (f x) (l.map f) = .ok ((Docs.insertDesc lt x l).map f) := by
  intro l
  induction l with
  | nil => rfl
  | cons y ys ih =>
    rw [List.map_cons, DocHeap.insertRev, hl, Res.bind_ok, Docs.insertDesc]
    cases lt x y
    · rfl
    · rw [if_pos rfl, ih]; rfl

/-- sorting the images of a list -/
theorem sortStable_map {E F : Type} {less : F → F → Res Bool} {lt : E → E → Bool} {f : E → F} (hl : ∀ a b, less (f a) (f b) = .ok (lt a b)) (l : List E) :
    DocHeap.sortStable less (l.map f) = .ok ((Docs.sort lt l).map f) := by
  have : ∀ (l acc : List E), DocHeap.sortLoop less (acc.map f) (l.map f) =
      .ok ((l.foldl (fun acc x => Docs.insertDesc lt x acc) acc).reverse.map f) := by
    intro l
    induction l with
    | nil => intro acc; simp [DocHeap.sortLoop]
    | cons x xs ih => intro acc; rw [List.map_cons, DocHeap.sortLoop, insertRev_map hl, Res.bind_ok, ih]; rfl
  exact this l []

/-- an element together with what it stands for -/
structure Named where
  v : Value
  f : Bytes × BVal
  rep : Rep v f.1 f.2

/-- a document as a list of elements that stand for its fields -/
theorem named_of_rep : ∀ {d : Doc} {fs : Fields}, RepFields d fs → ∃ l : List Named, l.map Named.v = d ∧ l.map Named.f = fs.toList
  | [], .nil, _ => ⟨[], rfl, rfl⟩
  | v :: d, .cons k t fs, h => by
    obtain ⟨l, h1, h2⟩ := named_of_rep h.2
    exact ⟨⟨v, (k, t), h.1⟩ :: l, by simp [h1], by simp [h2, Fields.toList]⟩
  | [], .cons _ _ _, h => by simp [RepFields] at h
  | _ :: _, .nil, h => by simp [RepFields] at h

theorem rep_of_named : ∀ l : List Named, RepFields (l.map Named.v) (Fields.ofList (l.map Named.f))
  | [] => by simp [RepFields, Fields.ofList]
  | n :: l => ⟨n.rep, rep_of_named l⟩

theorem toList_ofList : ∀ l : List (Bytes × BVal), (Fields.ofList l).toList = l
  | [] => rfl
  | (k, v) :: l => by simp [Fields.ofList, Fields.toList, toList_ofList l]

theorem ofList_toList : ∀ fs : Fields, Fields.ofList fs.toList = fs
  | .nil => rfl
  | .cons k v fs => by simp [Fields.toList, Fields.ofList, ofList_toList fs]

/-- by key alone, which is how elements with different keys compare -/
theorem elemLess_ne {a b : Bytes × BVal} (h : a.1 ≠ b.1) : elemLess a b = strLt a.1 b.1 := by
  simp [elemLess, h, strLt_eq]

theorem valLess_irrefl (t : BVal) : valLess t t = false := by
  cases h : valLess t t with
  | false => rfl
  | true => rw [valLess_asymm t t h] at h; cases h

theorem elemLess_irrefl (a : Bytes × BVal) : elemLess a a = false := by simp [elemLess, valLess_irrefl]

/-- elements with different keys are ordered, NaN or not -/
theorem elemLess_distinct {l : List (Bytes × BVal)} (hn : (l.map Prod.fst).Nodup) : WeakOrder elemLess (· ∈ l) := by
  have inj : ∀ a ∈ l, ∀ b ∈ l, a.1 = b.1 → a = b := by
    induction l with
    | nil => simp
    | cons x xs ih =>
      simp only [List.map_cons, List.nodup_cons, List.mem_map, not_exists, not_and] at hn
      intro a ha b hb hab
      simp only [List.mem_cons] at ha hb
      rcases ha with rfl | ha <;> rcases hb with rfl | hb
      · rfl
      · exact absurd hab.symm (hn.1 b hb)
      · exact absurd hab (hn.1 a ha)
      · exact ih hn.2 a ha b hb hab
  constructor
  · intro a b ha hb h
    by_cases hk : a.1 = b.1
    · obtain rfl := inj a ha b hb hk
      rw [elemLess_irrefl] at h; cases h
    · rw [elemLess_ne hk] at h
      rw [elemLess_ne (fun e => hk e.symm)]
      exact strLt_asymm _ _ h
  · intro a b c ha hb hc h
    by_cases hab : a.1 = b.1
    · obtain rfl := inj a ha b hb hab; exact .inr h
    by_cases hbc : b.1 = c.1
    · obtain rfl := inj b hb c hc hbc; exact .inl h
    by_cases hac : a.1 = c.1
    · obtain rfl := inj a ha c hc hac
      rw [elemLess_irrefl] at h; cases h
    rw [elemLess_ne hab, elemLess_ne hbc]
    rw [elemLess_ne hac] at h
    exact strLt_cotrans _ _ _ h

theorem keys_toList : ∀ fs : Fields, fs.toList.map Prod.fst = fs.keys
  | .nil => rfl
  | .cons k v fs => by simp [Fields.toList, Fields.keys, keys_toList fs]

/-- the elements of a document with different keys are sorted by key -/
theorem sort_keys {d : Doc} {fs : Fields} (h : RepFields d fs) (hn : fs.keys.Nodup) :
    ∃ d' gs, DocHeap.sortStable less d = .ok d' ∧ RepFields d' gs ∧ KeyOrder fs gs := by
  obtain ⟨l, rfl, hf⟩ := named_of_rep h
  rw [← keys_toList, ← hf] at hn
  have e := sortStable_map (less := less) (lt := fun a b : Named => elemLess a.f b.f) (f := Named.v) (fun a b => less_rep a.rep b.rep) l
  have W := elemLess_distinct hn
  have W' : WeakOrder (fun a b : Named => elemLess a.f b.f) (fun n => n.f ∈ l.map Named.f) :=
    ⟨fun a b ha hb => W.asymm _ _ ha hb, fun a b c ha hb hc => W.cotrans _ _ _ ha hb hc⟩
  have S := sort_stable W' l (fun a ha => List.mem_map_of_mem ha)
  refine ⟨_, _, e, rep_of_named _, ?_, ?_⟩
  · rw [toList_ofList, ← hf]
    exact S.perm.map _
  · rw [toList_ofList]
    have hn' : (((Docs.sort (fun a b : Named => elemLess a.f b.f) l).map Named.f).map Prod.fst).Nodup :=
      ((S.perm.map Named.f).map Prod.fst).nodup_iff.mpr hn
    rw [List.pairwise_map]
    rw [List.map_map, List.Nodup, List.pairwise_map] at hn'
    refine (S.sorted.and hn').imp ?_
    rintro a b ⟨h1, h2⟩
    have h2 : a.f.1 ≠ b.f.1 := h2
    rw [elemLess_ne (fun e => h2 e.symm)] at h1
    rcases strLt_total _ _ h2 with h | h
    · rw [strLt_eq] at h; simpa using h
    · rw [h] at h1; cases h1

/-- there is only one order by key -/
theorem keyOrder_unique {fs fs' gs gs' : Fields} (h : KeyOrder fs gs) (h' : KeyOrder fs' gs') (hp : fs'.toList.Perm fs.toList) : gs = gs' := by
  have : gs.toList = gs'.toList := by
    refine List.Perm.eq_of_pairwise (le := fun a b : Bytes × BVal => a.1 < b.1) ?_ h.ascending h'.ascending (h.same.trans (hp.symm.trans h'.same.symm))
    intro a b _ _ h1 h2
    exfalso
    have h3 : strLt a.1 b.1 = true := by rw [strLt_eq]; simpa using h1
    have h4 : strLt b.1 a.1 = true := by rw [strLt_eq]; simpa using h2
    rw [strLt_asymm _ _ h3] at h4; cases h4
  rw [← ofList_toList gs, this, ofList_toList]

theorem keyOrder_nodup {fs gs : Fields} (h : KeyOrder fs gs) : fs.keys.Nodup := by
  rw [← keys_toList]
  refine (h.same.map Prod.fst).nodup_iff.mp ?_
  rw [List.Nodup, List.pairwise_map]
  refine h.ascending.imp ?_
  intro a b h e
  rw [e] at h
  have h3 : strLt b.1 b.1 = true := by rw [strLt_eq]; simpa using h
  have := strLt_asymm _ _ h3
  rw [h3] at this; cases this

/-- the size and soundness of a document do not depend on the order of its fields -/
theorem enc_perm : ∀ {l r : List (Bytes × BVal)}, l.Perm r → ((Fields.ofList l).WF → (Fields.ofList r).WF) ∧ (Fields.ofList l).enc.length = (Fields.ofList r).enc.length := by
  intro l r h
  induction h with
  | nil => exact ⟨id, rfl⟩
  | cons x _ ih => exact ⟨fun h => ⟨h.1, h.2.1, ih.1 h.2.2⟩, by simp only [Fields.ofList, fieldsEnc_length, ih.2]⟩
  | swap x y l => exact ⟨fun h => ⟨h.2.2.1, h.2.2.2.1, h.1, h.2.1, h.2.2.2.2⟩, by simp only [Fields.ofList, fieldsEnc_length]; omega⟩
  | trans _ _ ih1 ih2 => exact ⟨fun h => ih2.1 (ih1.1 h), ih1.2.trans ih2.2⟩

theorem keyOrder_size {fs gs : Fields} (h : KeyOrder fs gs) : (gs.WF → fs.WF) ∧ fs.enc.length = gs.enc.length := by
  have := enc_perm h.same
  simp only [ofList_toList] at this
  exact ⟨this.1, this.2.symm⟩

theorem readsMap_denotes {W : Nat → Nat} : ∀ {m : GoMap} {fs : Fields}, DenotesMap W m fs → ReadsMap W m fs
  | _, _, .nil => .nil
  | _, _, .cons k h hm => .known k h (readsMap_denotes hm)

theorem mapInterface_reads {W : Nat → Nat} {fuel : Nat} : ∀ {m : GoMap} {fs : Fields}, ReadsMap W m fs → fs.WF → fs.enc.length < 1073741824 → fs.enc.length < fuel →
    ∃ d, DC.mapInterface W fuel m = .ok d ∧ RepFields d fs
  | _, _, .nil, _, _, _ => ⟨[], rfl, by simp [RepFields]⟩
  | _, _, .known k h hm, wf, hl, hf => by
    rw [fieldsEnc_length] at hl hf
    obtain ⟨v, h1, h2⟩ := interface_rep (fuel := fuel) h wf.1 wf.2.1 (by omega) (by omega)
    obtain ⟨d, h3, h4⟩ := mapInterface_reads (fuel := fuel) hm wf.2.2 (by omega) (by omega)
    exact ⟨v :: d, by simp [DC.mapInterface, h1, h3], h2, h4⟩
  | _, _, .unknown k h hm, wf, hl, hf => by
    rw [fieldsEnc_length] at hl hf
    obtain ⟨⟨v, h1, h2⟩, _⟩ := unsupported_rep (W := W) (fuel := fuel) h wf.1 (by omega)
    obtain ⟨d, h3, h4⟩ := mapInterface_reads (fuel := fuel) hm wf.2.2 (by omega) (by omega)
    exact ⟨v :: d, by simp [DC.mapInterface, h1, h3], h2, h4⟩

theorem metrics_keys : ∀ fs : Fields, fs.metrics.keys = ((fs.toList.filter (fun p => p.2.metric.isSome)).map Prod.fst)
  | .nil => rfl
  | .cons k v fs => by
    rw [Fields.metrics, Fields.toList]
    cases h : v.metric with
    | none => simp [h, metrics_keys fs]
    | some m => simp [h, Fields.keys, metrics_keys fs]

/-- an entry of an unknown type becomes null -/
theorem readsMap_null {W : Nat → Nat} {k : Bytes} {g : Go} (hg : Unsupported g) : ∀ {m : GoMap} {fs : Fields}, ReadsMap W m fs → GoMap.Holds k g m → (k, BVal.null) ∈ fs.toList
  | _, _, .nil, h => by simp [GoMap.Holds] at h
  | _, _, .known k' hd hm, h => by
    rcases h with ⟨rfl, rfl⟩ | h
    · cases hd <;> simp [Unsupported] at hg
    · simp [Fields.toList, readsMap_null hg hm h]
  | _, _, .unknown k' hd hm, h => by
    rcases h with ⟨rfl, rfl⟩ | h
    · simp [Fields.toList]
    · simp [Fields.toList, readsMap_null hg hm h]

/-- an entry whose value is null is no metric -/
theorem null_no_metric {fs : Fields} {k : Bytes} (hn : fs.keys.Nodup) (h : (k, BVal.null) ∈ fs.toList) : k ∉ fs.metrics.keys := by
  rw [metrics_keys]
  intro hk
  simp only [List.mem_map, List.mem_filter] at hk
  obtain ⟨⟨k', v⟩, ⟨h1, h2⟩, rfl⟩ := hk
  rw [← keys_toList] at hn
  have inj : ∀ l : List (Bytes × BVal), (l.map Prod.fst).Nodup → (k', v) ∈ l → (k', BVal.null) ∈ l → v = .null := by
    intro l
    induction l with
    | nil => simp
    | cons x xs ih =>
      intro hn h1 h2
      simp only [List.map_cons, List.nodup_cons, List.mem_map, not_exists, not_and] at hn
      simp only [List.mem_cons] at h1 h2
      rcases h1 with rfl | h1 <;> rcases h2 with h2 | h2
      · exact (Prod.mk.inj h2).2.symm
      · exact (hn.1 (k', BVal.null) h2 rfl).elim
      · subst h2; exact (hn.1 (k', v) h1 rfl).elim
      · exact ih hn.2 h1 h2
  rw [inj _ hn h1 h] at h2
  simp [BVal.metric] at h2

/-- a map with different keys, read as a sample -/
theorem readMap_rep (W : Nat → Nat) {fuel : Nat} {m : GoMap} {fs : Fields} (h : ReadsMap W m fs) (wf : fs.WF) (hn : fs.keys.Nodup)
    (hl : fs.enc.length < 1073741824) (hf : fs.enc.length < fuel) :
    ∃ d gs, readMap W fuel (.go (.map m)) = .ok d ∧ RepFields d gs ∧ KeyOrder fs gs := by
  obtain ⟨d, h1, h2⟩ := mapInterface_reads h wf hl hf
  obtain ⟨d', gs, h3, h4, h5⟩ := sort_keys h2 hn
  exact ⟨d', gs, by simp [readMap, dcInterface, DC.interface, h1, h3], h4, h5⟩

theorem readSample_rep (W : Nat → Nat) {fuel : Nat} (global : Option Marshaler) {s : Sample} {fs : Fields} (h : Stands W s fs) (wf : fs.WF)
    (hl : (encDoc fs).length < 1073741824) (hf : 1073741824 ≤ fuel) :
    ∃ d, readSample W fuel global s = .ok d ∧ RepFields d fs := by
  have hr : ∀ gs : Fields, gs.WF → (encDoc gs).length < 1073741824 → ∃ d, readDocument fuel (encDoc gs) = .ok d ∧ RepFields d gs := by
    intro gs wf hl
    simp only [encDoc, wrapDoc_length] at hl
    obtain ⟨d, h1, h2⟩ := readDocument_enc fuel gs wf [] (by simp only [encDoc, wrapDoc_length]; omega) (by simp only [encDoc, wrapDoc_length, List.append_nil]; omega)
    exact ⟨d, by simpa using h1, h2⟩
  cases h with
  | doc h => exact ⟨_, rfl, h⟩
  | docMarshaler h => exact ⟨_, rfl, h⟩
  | bytes => exact hr fs wf hl
  | reader =>
    have h1 := readerValidate_encDoc fuel fs wf [] (by omega) (by simp only [List.append_nil]; omega)
    rw [List.append_nil] at h1
    obtain ⟨d, h2, h3⟩ := hr fs wf hl
    exact ⟨d, by simp [readSample, readerMarshal, h1, h2], h3⟩
  | marshaler =>
    obtain ⟨d, h2, h3⟩ := hr fs wf hl
    exact ⟨d, by simp [readSample, outcome, h2], h3⟩
  | @array a vs h =>
    have e : wrapDoc (vs.encFrom 0) = encDoc (numbered 0 vs) := by rw [numbered_toFields, encDoc, toFields_enc]
    have h1 := arrMarshal_rep fuel h (by rw [e]; omega) (by rw [e]; omega)
    obtain ⟨d, h2, h3⟩ := hr _ wf hl
    exact ⟨d, by simp [readSample, h1, e, h2], h3⟩
  | map hm hk =>
    obtain ⟨w1, w2⟩ := keyOrder_size hk
    simp only [encDoc, wrapDoc_length] at hl
    obtain ⟨d, gs, h1, h2, h3⟩ := readMap_rep W (fuel := fuel) (readsMap_denotes hm) (w1 wf) (keyOrder_nodup hk) (by omega) (by omega)
    obtain rfl := keyOrder_unique hk h3 (.refl _)
    exact ⟨d, h1, h2⟩
  | unit => exact ⟨[], rfl, by simp [RepFields]⟩

/-- samples that can all be read -/
theorem addSamples_ok {σ : Type} {W : Nat → Nat} {fuel : Nat} {global : Option Marshaler} {add : σ → Doc → Res (σ × Option Err)} :
    ∀ {ss : List Sample} {docs : List Doc}, ss.map (readSample W fuel global) = docs.map Res.ok → ∀ c,
      addSamples W fuel global add c ss = addSamples W fuel global add c (docs.map fun d => .go (.doc d))
  | [], [], _, _ => rfl
  | [], _ :: _, h, _ => by simp at h
  | _ :: _, [], h, _ => by simp at h
  | s :: ss, d :: docs, h, c => by
    simp only [List.map_cons, List.cons.injEq] at h
    simp only [List.map_cons, addSamples]
    have : ∀ c, addSample W fuel global add c s = addSample W fuel global add c (.go (.doc d)) := by
      intro c; simp only [addSample, h.1]; rfl
    rw [this]
    cases addSample W fuel global add c (.go (.doc d)) with
    | ok p => simp only [Res.bind_ok]; rw [addSamples_ok h.2]
    | err _ => rfl
    | panic => rfl
    | oof => rfl

/-- adding documents as samples is adding documents -/
theorem addSamples_docs (fsub : Nat → Nat → Nat) (n : Nat) (W : Nat → Nat) (fuel : Nat) (global : Option Marshaler) : ∀ (docs : List Doc) (c : Ftdc.Better),
    addSamples W fuel global (fun c d => c.add fsub n d) c (docs.map fun d => .go (.doc d)) = c.addAll fsub n docs
  | [], _ => rfl
  | d :: docs, c => by
    simp only [List.map_cons, addSamples, Ftdc.Better.addAll, addSample, readSample]
    cases c.add fsub n d with
    | ok p => simp only [Res.bind_ok]; rw [addSamples_docs]
    | err _ => rfl
    | panic => rfl
    | oof => rfl

theorem readSamples_rep (W : Nat → Nat) {fuel : Nat} (global : Option Marshaler) (hf : 1073741824 ≤ fuel) : ∀ {ss : List Sample} {fss : List Fields},
    ss.length = fss.length → (∀ (i : Nat) s fs, ss[i]? = some s → fss[i]? = some fs → Stands W s fs) → (∀ fs ∈ fss, fs.WF ∧ (encDoc fs).length < 1073741824) →
    ∃ docs, ss.map (readSample W fuel global) = docs.map Res.ok ∧ RepDocs docs fss
  | [], [], _, _, _ => ⟨[], rfl, by simp [RepDocs]⟩
  | [], _ :: _, h, _, _ => by simp at h
  | _ :: _, [], h, _, _ => by simp at h
  | s :: ss, fs :: fss, h, hs, hw => by
    obtain ⟨d, h1, h2⟩ := readSample_rep W global (hs 0 s fs rfl rfl) (hw fs (by simp)).1 (hw fs (by simp)).2 hf
    obtain ⟨docs, h3, h4⟩ := readSamples_rep W global hf (by simpa using h) (fun i s fs h1 h2 => hs (i + 1) s fs (by simpa using h1) (by simpa using h2))
      (fun fs hfs => hw fs (by simp [hfs]))
    exact ⟨d :: docs, by simp [h1, h3], h2, h4⟩

end Birch.Proofs
