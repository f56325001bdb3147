import Verif.Spec.Docs

/-
Document calls on the slice heap refine the list specification.
-/

namespace Birch.Proofs.DocHeap
open Birch Model.DocHeap Spec.Docs

variable {E : Type}

/-- array `a` starts with the pointers `es` -/
def Has (h : Heap E) (a : Nat) (es : List E) : Prop := ∃ rest, h[a]? = some (es.map some ++ rest)

/-- the slice shows exactly `es` -/
def Owns (h : Heap E) (s : Slice) (es : List E) : Prop := Has h s.arr es ∧ s.len = es.length

theorem Has.lt {h : Heap E} {a : Nat} {es : List E} (H : Has h a es) : a < h.length := by
  obtain ⟨_, H⟩ := H
  exact (List.getElem?_eq_some_iff.mp H).1

theorem Has.mono {h : Heap E} {a : Nat} {es es' : List E} (H : Has h a es') (hp : es <+: es') : Has h a es := by
  obtain ⟨rest, H⟩ := H
  obtain ⟨t, rfl⟩ := hp
  exact ⟨t.map some ++ rest, by rw [H]; simp⟩

theorem array_eq {h : Heap E} {s : Slice} {x : List (Option E)} (H : h[s.arr]? = some x) : array h s = x := by
  simp [array, List.getD, H]

theorem get_has {h : Heap E} {s : Slice} {es : List E} (H : Has h s.arr es) {i : Nat} (hi : i < es.length) (hs : i < s.len) :
    get h s i = .ok (some es[i]) := by
  obtain ⟨rest, H⟩ := H
  rw [Model.DocHeap.get, if_pos hs, array_eq H, List.getElem?_append_left (by simpa using hi)]
  simp [List.getElem?_map, List.getElem?_eq_getElem hi]

theorem visible_owns {h : Heap E} {s : Slice} {es : List E} (H : Owns h s es) : visible h s = es.map some := by
  obtain ⟨⟨rest, H⟩, hl⟩ := H
  rw [visible, array_eq H, hl]
  simp

/-- result of changing slice `s`: the new slice shows `es'`, other arrays are untouched -/
structure Upd (h : Heap E) (s : Slice) (h' : Heap E) (s' : Slice) (es' : List E) : Prop where
  owns : Owns h' s' es'
  frame : ∀ b, b ≠ s.arr → ∀ x, h[b]? = some x → h'[b]? = some x
  arr : s'.arr = s.arr ∨ h.length ≤ s'.arr
  len : h.length ≤ h'.length

theorem Upd.trans {h h1 h2 : Heap E} {s s1 s2 : Slice} {es1 es2 : List E} (H1 : Upd h s h1 s1 es1) (H2 : Upd h1 s1 h2 s2 es2) :
    Upd h s h2 s2 es2 := by
  refine ⟨H2.owns, fun b hb x hx => ?_, ?_, Nat.le_trans H1.len H2.len⟩
  · refine H2.frame b ?_ x (H1.frame b hb x hx)
    have := (List.getElem?_eq_some_iff.mp hx).1
    rcases H1.arr with h | h <;> omega
  · have := H1.len
    rcases H2.arr with h | h
    · rw [h]; exact H1.arr
    · right; omega

theorem Upd.refl {h : Heap E} {s : Slice} {es : List E} (H : Owns h s es) : Upd h s h s es :=
  ⟨H, fun _ _ _ h => h, .inl rfl, Nat.le_refl _⟩

theorem append1_upd {grow : Nat → Nat} {h : Heap E} {s : Slice} {es : List E} (H : Owns h s es) (e : E) :
    Upd h s (append1 grow h s (some e)).1 (append1 grow h s (some e)).2 (es ++ [e]) ∧
    ∀ a ss, Has h a ss → (a = s.arr → ss <+: es) →
      Has (append1 grow h s (some e)).1 a ss ∧ (a = (append1 grow h s (some e)).2.arr → ss <+: es ++ [e]) := by
  obtain ⟨Ha, hl⟩ := H
  have hlt := Ha.lt
  obtain ⟨rest, H⟩ := Ha
  unfold append1
  rw [array_eq H]
  by_cases hc : s.len < (es.map some ++ rest).length
  · simp only [if_pos hc]
    have hr : rest ≠ [] := by rintro rfl; simp [hl] at hc
    obtain ⟨r0, rest, rfl⟩ := List.exists_cons_of_ne_nil hr
    have e1 : (es.map some ++ r0 :: rest).set s.len (some e) = (es ++ [e]).map some ++ rest := by
      rw [hl, List.set_append_right _ _ (by simp)]
      simp
    rw [e1]
    have hnew : (h.set s.arr ((es ++ [e]).map some ++ rest))[s.arr]? = some ((es ++ [e]).map some ++ rest) := by
      simp [hlt]
    refine ⟨⟨⟨⟨rest, hnew⟩, by simp [hl]⟩, fun b hb x hx => ?_, .inl rfl, by simp⟩, fun a ss ha hp => ?_⟩
    · rw [List.getElem?_set_ne (Ne.symm hb)]; exact hx
    · by_cases hab : a = s.arr
      · have hp' : ss <+: es ++ [e] := (hp hab).trans (List.prefix_append _ _)
        exact ⟨by subst hab; exact (Has.mono ⟨rest, hnew⟩ hp'), fun _ => hp'⟩
      · obtain ⟨r, ha⟩ := ha
        exact ⟨⟨r, by rw [List.getElem?_set_ne (Ne.symm hab)]; exact ha⟩, fun h => absurd h hab⟩
  · simp only [if_neg hc]
    have e1 : (es.map some ++ rest).take s.len = es.map some := by
      rw [hl]; simp
    rw [e1]
    have hnew : (h ++ [es.map some ++ some e :: List.replicate (grow s.len) none])[h.length]? =
        some ((es ++ [e]).map some ++ List.replicate (grow s.len) none) := by
      rw [List.getElem?_append_right (Nat.le_refl _)]; simp
    refine ⟨⟨⟨⟨_, hnew⟩, by simp [hl]⟩, fun b hb x hx => ?_, .inr (Nat.le_refl _), by simp⟩, fun a ss ha hp => ?_⟩
    · rw [List.getElem?_append_left (List.getElem?_eq_some_iff.mp hx).1]; exact hx
    · have := ha.lt
      obtain ⟨r, ha⟩ := ha
      refine ⟨⟨r, ?_⟩, fun hh => ?_⟩
      · rw [List.getElem?_append_left this]; exact ha
      · omega

theorem appendLoop_upd {grow : Nat → Nat} (src : Slice) (ss : List E) : ∀ (n i : Nat) (h : Heap E) (d : Slice) (ds : List E),
    Owns h d ds → Owns h src ss → (src.arr = d.arr → ss <+: ds) → i + n = ss.length →
    ∃ h' d', appendLoop grow h d src i n = .ok (h', d') ∧ Upd h d h' d' (ds ++ ss.drop i) := by
  intro n
  induction n with
  | zero =>
    intro i h d ds hd hs hp hi
    refine ⟨h, d, rfl, ?_⟩
    rw [show ss.drop i = [] by simp; omega, List.append_nil]
    exact .refl hd
  | succ n ih =>
    intro i h d ds hd hs hp hi
    have hil : i < ss.length := by omega
    have hg : get h src i = .ok (some ss[i]) := get_has hs.1 hil (by rw [hs.2]; exact hil)
    obtain ⟨u, f⟩ := append1_upd (grow := grow) hd ss[i]
    obtain ⟨f1, f2⟩ := f _ _ hs.1 hp
    obtain ⟨h', d', e', u'⟩ := ih (i + 1) _ _ _ u.owns ⟨f1, hs.2⟩ f2 (by omega)
    refine ⟨h', d', ?_, ?_⟩
    · rw [appendLoop, hg, Res.bind_ok]; exact e'
    · have := u.trans u'
      rwa [List.append_assoc, List.singleton_append, ← List.drop_eq_getElem_cons hil] at this

theorem omitLoop_upd {grow : Nat → Nat} {isEmpty : E → Res Bool} {em : E → Bool} (he : ∀ e, isEmpty e = .ok (em e))
    (src : Slice) (ss : List (Option E)) (hlen : src.len = ss.length) : ∀ (n i : Nat) (h : Heap E) (d : Slice) (ds : List E),
    Owns h d ds → h[src.arr]? = some ss → src.arr ≠ d.arr → i + n = ss.length →
    ∃ h' d', omitLoop grow isEmpty h d src i n = .ok (h', d') ∧
      Upd h d h' d' (ds ++ (ss.drop i).filterMap (fun a => a.filter (fun e => !em e))) := by
  intro n
  induction n with
  | zero =>
    intro i h d ds hd hs hp hi
    refine ⟨h, d, rfl, ?_⟩
    rw [show ss.drop i = [] by simp; omega, List.filterMap_nil, List.append_nil]
    exact .refl hd
  | succ n ih =>
    intro i h d ds hd hs hp hi
    have hil : i < ss.length := by omega
    have hg : get h src i = .ok ss[i] := by
      rw [Model.DocHeap.get, if_pos (by omega), array_eq hs, List.getElem?_eq_getElem hil]
    rw [List.drop_eq_getElem_cons hil]
    cases hsi : ss[i] with
    | none =>
      obtain ⟨h', d', e', u'⟩ := ih (i + 1) _ _ _ hd hs hp (by omega)
      refine ⟨h', d', ?_, ?_⟩
      · rw [omitLoop, hg, Res.bind_ok]; simp only [hsi]; exact e'
      · rw [List.filterMap_cons_none (by simp)]; exact u'
    | some x =>
    cases hem : em x with
    | true =>
      obtain ⟨h', d', e', u'⟩ := ih (i + 1) _ _ _ hd hs hp (by omega)
      refine ⟨h', d', ?_, ?_⟩
      · rw [omitLoop, hg, Res.bind_ok]; simp only [hsi, he, Res.bind_ok, hem]; exact e'
      · rw [List.filterMap_cons_none (by simp [hem])]; exact u'
    | false =>
      obtain ⟨u, f⟩ := append1_upd (grow := grow) hd x
      have hsl := (List.getElem?_eq_some_iff.mp hs).1
      obtain ⟨h', d', e', u'⟩ := ih (i + 1) _ _ _ u.owns (u.frame _ hp _ hs)
        (by rcases u.arr with h | h
            · rw [h]; exact hp
            · omega) (by omega)
      refine ⟨h', d', ?_, ?_⟩
      · rw [omitLoop, hg, Res.bind_ok]; simp only [hsi, he, Res.bind_ok, hem]; exact e'
      · rw [List.filterMap_cons_some (b := x) (by simp [hem])]
        have := u.trans u'
        rwa [List.append_assoc, List.singleton_append] at this

/-- the loop finds the first index with the key -/
theorem findLoop_spec {keyOf : E → Res Bytes} {k : E → Bytes} (hk : ∀ e, keyOf e = .ok (k e)) (key : Bytes)
    {h : Heap E} {s : Slice} {es : List E} (H : Owns h s es) : ∀ (n i : Nat), i + n = es.length →
    findLoop keyOf key h s i n = .ok (((es.drop i).findIdx? (fun e => k e = key)).map (· + i)) := by
  intro n
  induction n with
  | zero =>
    intro i hi
    rw [show es.drop i = [] by simp; omega]; rfl
  | succ n ih =>
    intro i hi
    have hil : i < es.length := by omega
    rw [findLoop, get_has H.1 hil (by rw [H.2]; exact hil), Res.bind_ok, keyPtr, hk, Res.bind_ok, ih (i + 1) (by omega),
      List.drop_eq_getElem_cons hil, List.findIdx?_cons]
    by_cases h : k es[i] = key
    · simp [h]
    · simp only [h, if_false, decide_false, Bool.false_eq_true, Option.map_map]
      congr 2
      funext x; simp; omega

theorem first_eq (k : E → Bytes) (key : Bytes) (es : List E) : first k key es = es.find? (fun e => k e = key) := by
  induction es with
  | nil => rfl
  | cons x xs ih =>
    rw [first, List.find?_cons]
    by_cases h : k x = key <;> simp [h, ih]

theorem first_of_idx {k : E → Bytes} {key : Bytes} : ∀ {es : List E} {i : Nat}, es.findIdx? (fun e => k e = key) = some i →
    ∃ hi : i < es.length, first k key es = some es[i] ∧ deleteFirst k key es = es.take i ++ es.drop (i + 1) ∧
      ∀ e, k e = key → setFirst k e es = es.set i e
  | [], _, h => by simp at h
  | x :: xs, i, h => by
    rw [List.findIdx?_cons] at h
    by_cases hx : k x = key
    · simp [hx] at h
      subst h
      exact ⟨by simp, by simp [first, hx], by simp [deleteFirst, hx], fun e he => by simp [setFirst, hx, he]⟩
    · simp only [hx, decide_false, Bool.false_eq_true, if_false, Option.map_eq_some_iff] at h
      obtain ⟨j, hj, rfl⟩ := h
      obtain ⟨h1, h2, h3, h4⟩ := first_of_idx hj
      exact ⟨by simp; exact h1, by simp [first, hx, h2], by simp [deleteFirst, hx, h3], fun e he => by simp [setFirst, he, hx, h4]⟩

theorem first_of_none {k : E → Bytes} {key : Bytes} : ∀ {es : List E}, es.findIdx? (fun e => k e = key) = none →
    first k key es = none ∧ deleteFirst k key es = es ∧ ∀ e, k e = key → setFirst k e es = es ++ [e]
  | [], _ => ⟨rfl, rfl, fun _ _ => rfl⟩
  | x :: xs, h => by
    rw [List.findIdx?_cons] at h
    by_cases hx : k x = key
    · simp [hx] at h
    · simp only [hx, decide_false, Bool.false_eq_true, if_false, Option.map_eq_none_iff] at h
      obtain ⟨h1, h2, h3⟩ := first_of_none h
      exact ⟨by simp [first, hx, h1], by simp [deleteFirst, hx, h2], fun e he => by simp [setFirst, he, hx, h3]⟩

/-- overwriting the array of a slice -/
theorem upd_set {h : Heap E} {s : Slice} {es es' : List E} (H : Owns h s es) (x : List (Option E)) (n : Nat) (rest : List (Option E))
    (hx : x = es'.map some ++ rest) (hn : n = es'.length) : Upd h s (h.set s.arr x) ⟨s.arr, n⟩ es' := by
  have := H.1.lt
  refine ⟨⟨⟨rest, by subst hx; simp [this]⟩, hn⟩, fun b hb y hy => ?_, .inl rfl, by simp⟩
  rw [List.getElem?_set_ne (Ne.symm hb)]; exact hy

theorem removeAt_upd {h : Heap E} {s : Slice} {es : List E} (H : Owns h s es) {i : Nat} (hi : i < es.length) :
    Upd h s (removeAt h s i).1 (removeAt h s i).2 (es.take i ++ es.drop (i + 1)) := by
  obtain ⟨⟨rest, Ha⟩, hl⟩ := H
  unfold removeAt
  rw [array_eq Ha]
  refine upd_set ⟨⟨rest, Ha⟩, hl⟩ _ _ ((es.map some ++ rest).drop (s.len - 1)) ?_ ?_
  · have e2 : (es.map some ++ rest).take s.len = es.map some := by rw [hl]; simp
    rw [List.map_append, e2, List.take_append_of_le_length (by simp; omega)]
    simp [List.map_take, List.map_drop]
  · simp; omega

/-- the cache, seen as a function of the key -/
theorem cacheLoop_spec {keyOf : E → Res Bytes} {k : E → Bytes} (hk : ∀ e, keyOf e = .ok (k e))
    {h : Heap E} {s : Slice} {es : List E} (H : Owns h s es) : ∀ (n i : Nat) (m : List (Bytes × E)), i + n = es.length →
    ∃ m', cacheLoop keyOf h s m i n = .ok m' ∧ ∀ key, m'.lookup key = (m.lookup key).or (first k key (es.drop i)) := by
  intro n
  induction n with
  | zero =>
    intro i m hi
    refine ⟨m, rfl, fun key => ?_⟩
    rw [show es.drop i = [] by simp; omega]
    simp [first]
  | succ n ih =>
    intro i m hi
    have hil : i < es.length := by omega
    obtain ⟨m', e', h'⟩ := ih (i + 1) (mapAdd m (k es[i]) es[i]) (by omega)
    refine ⟨m', ?_, fun key => ?_⟩
    · rw [cacheLoop, get_has H.1 hil (by rw [H.2]; exact hil), Res.bind_ok]
      simp only [hk, Res.bind_ok]; exact e'
    · rw [h' key, List.drop_eq_getElem_cons hil, first]
      unfold mapAdd
      by_cases hm : (m.lookup (k es[i])).isSome
      · rw [if_pos hm]
        by_cases hkey : k es[i] = key
        · subst hkey
          obtain ⟨v, hv⟩ := Option.isSome_iff_exists.mp hm
          simp [hv]
        · simp [hkey]
      · rw [if_neg hm]
        by_cases hkey : k es[i] = key
        · subst hkey
          rw [Option.not_isSome_iff_eq_none] at hm
          simp [hm]
        · have : (key == k es[i]) = false := by simp; exact fun h => hkey h.symm
          simp [List.lookup_cons, this, hkey]

/-! ### sorting -/

theorem insertRev_spec {less : E → E → Res Bool} {lt : E → E → Bool} (hl : ∀ a b, less a b = .ok (lt a b)) (x : E) :
    ∀ l, insertRev less x l = .ok (insertDesc lt x l) := by
  intro l
  induction l with
  | nil => rfl
  | cons y ys ih =>
    rw [insertRev, hl, Res.bind_ok, insertDesc]
    cases lt x y
    · rfl
    · rw [if_pos rfl, ih]; rfl

theorem sortStable_spec {less : E → E → Res Bool} {lt : E → E → Bool} (hl : ∀ a b, less a b = .ok (lt a b)) (l : List E) :
    sortStable less l = .ok (sort lt l) := by
  have : ∀ l acc, sortLoop less acc l = .ok (l.foldl (fun acc x => insertDesc lt x acc) acc).reverse := by
    intro l
    induction l with
    | nil => intro acc; rfl
    | cons x xs ih => intro acc; rw [sortLoop, insertRev_spec hl, Res.bind_ok, ih]; rfl
  exact this l []

theorem nonNil_map (l : List E) : nonNil (l.map some) = .ok l := by
  induction l with
  | nil => rfl
  | cons x xs ih => rw [List.map_cons, nonNil, ih]; rfl

/-! ### worlds -/

/-- the cached map, when marked valid and not stale, agrees with the contents -/
def CacheOk (k : E → Bytes) (d : Document E) (x : List E × Bool) : Prop :=
  d.cacheValid = true → x.2 = false → ∀ key, d.cache.lookup key = first k key x.1

/-- a world represents a specification state: every document owns its backing array -/
structure RepW (k : E → Bytes) (w : World E) (s : State E) : Prop where
  len : w.docs.length = s.length
  owns : ∀ (i : Nat) (d : Document E) (x : List E × Bool), w.docs[i]? = some d → s[i]? = some x → Owns w.heap d.elems x.1
  cache : ∀ (i : Nat) (d : Document E) (x : List E × Bool), w.docs[i]? = some d → s[i]? = some x → CacheOk k d x
  disjoint : ∀ (i j : Nat) (d d' : Document E), i ≠ j → w.docs[i]? = some d → w.docs[j]? = some d' → d.elems.arr ≠ d'.elems.arr

theorem repW_empty (k : E → Bytes) : RepW k (World.empty : World E) [] :=
  ⟨rfl, by simp [World.empty], by simp [World.empty], by simp [World.empty]⟩

/-- storing an updated document -/
theorem RepW.store {k : E → Bytes} {w : World E} {s : State E} (R : RepW k w s) {i : Nat} {d d' : Document E} {x x' : List E × Bool}
    (hd : w.docs[i]? = some d) (_hx : s[i]? = some x) {h' : Heap E} (U : Upd w.heap d.elems h' d'.elems x'.1) (C : CacheOk k d' x') :
    RepW k (store w i (h', d')) (s.set i x') := by
  have hil := (List.getElem?_eq_some_iff.mp hd).1
  have hne : ∀ j, i ≠ j → (w.docs.set i d')[j]? = w.docs[j]? := fun j hj => List.getElem?_set_ne hj
  have hse : ∀ j, i ≠ j → (s.set i x')[j]? = s[j]? := fun j hj => List.getElem?_set_ne hj
  have hde : (w.docs.set i d')[i]? = some d' := by simp [hil]
  have hxe : (s.set i x')[i]? = some x' := by simp [← R.len, hil]
  have other : ∀ (j : Nat) (e : Document E), i ≠ j → w.docs[j]? = some e → e.elems.arr < w.heap.length := by
    intro j e hj he
    have hjl := (List.getElem?_eq_some_iff.mp he).1
    exact (R.owns j e _ he (List.getElem?_eq_getElem (by rw [← R.len]; exact hjl))).1.lt
  have apart : ∀ (j : Nat) (e : Document E), i ≠ j → w.docs[j]? = some e → d'.elems.arr ≠ e.elems.arr := by
    intro j e hj he
    rcases U.arr with h | h
    · rw [h]; exact R.disjoint i j d e hj hd he
    · have := other j e hj he; omega
  refine ⟨by simp [Model.DocHeap.store, R.len], ?_, ?_, ?_⟩
  · intro j e y he hy
    simp only [Model.DocHeap.store] at he ⊢
    by_cases hj : i = j
    · subst hj; rw [hde] at he; rw [hxe] at hy; cases he; cases hy; exact U.owns
    · rw [hne j hj] at he; rw [hse j hj] at hy
      obtain ⟨⟨r, hr⟩, hl⟩ := R.owns j e y he hy
      exact ⟨⟨r, U.frame _ (R.disjoint j i e d (Ne.symm hj) he hd) _ hr⟩, hl⟩
  · intro j e y he hy
    simp only [Model.DocHeap.store] at he
    by_cases hj : i = j
    · subst hj; rw [hde] at he; rw [hxe] at hy; cases he; cases hy; exact C
    · rw [hne j hj] at he; rw [hse j hj] at hy; exact R.cache j e y he hy
  · intro j j' e e' hjj he he'
    simp only [Model.DocHeap.store] at he he'
    by_cases hj : i = j
    · subst hj; rw [hde] at he; cases he
      rw [hne j' hjj] at he'; exact apart j' e' hjj he'
    · rw [hne j hj] at he
      by_cases hj' : i = j'
      · subst hj'; rw [hde] at he'; cases he'; exact (apart j e hj he).symm
      · rw [hne j' hj'] at he'; exact R.disjoint j j' e e' hjj he he'

/-- a heap in which the represented documents' arrays are untouched -/
theorem RepW.heap {k : E → Bytes} {w : World E} {s : State E} (R : RepW k w s) {h' : Heap E}
    (hf : ∀ (b : Nat) x, w.heap[b]? = some x → h'[b]? = some x) : RepW k ⟨h', w.docs⟩ s :=
  ⟨R.len, fun i d x hd hx => by
    obtain ⟨⟨r, hr⟩, hl⟩ := R.owns i d x hd hx
    exact ⟨⟨r, hf _ _ hr⟩, hl⟩, R.cache, R.disjoint⟩

/-- adding a document with a fresh array -/
theorem RepW.push {k : E → Bytes} {w : World E} {s : State E} (R : RepW k w s) {h' : Heap E} {d : Document E} {es : List E}
    (hf : ∀ (b : Nat) x, w.heap[b]? = some x → h'[b]? = some x) (ho : Owns h' d.elems es) (hnew : w.heap.length ≤ d.elems.arr)
    (hc : d.cacheValid = false) : RepW k (push w (h', d)) (s ++ [(es, false)]) := by
  have fresh : ∀ (j : Nat) (e : Document E), w.docs[j]? = some e → e.elems.arr ≠ d.elems.arr := by
    intro j e he
    have hjl := (List.getElem?_eq_some_iff.mp he).1
    have := (R.owns j e _ he (List.getElem?_eq_getElem (by rw [← R.len]; exact hjl))).1.lt
    omega
  have split : ∀ j e, (w.docs ++ [d])[j]? = some e → (w.docs[j]? = some e ∧ j < w.docs.length) ∨ (j = w.docs.length ∧ e = d) := by
    intro j e he
    by_cases hj : j < w.docs.length
    · rw [List.getElem?_append_left hj] at he; exact .inl ⟨he, hj⟩
    · rw [List.getElem?_append_right (by omega)] at he
      have := (List.getElem?_eq_some_iff.mp he).1
      simp at this
      have hj : j = w.docs.length := by omega
      subst hj
      simp at he
      exact .inr ⟨rfl, he.symm⟩
  have at_ : ∀ x, (s ++ [(es, false)])[w.docs.length]? = some x → x = (es, false) := by
    intro x hx
    rw [R.len, List.getElem?_append_right (Nat.le_refl _)] at hx
    simpa using hx.symm
  have R' := R.heap hf
  refine ⟨by simp [Model.DocHeap.push, R.len], ?_, ?_, ?_⟩
  · intro j e y he hy
    rcases split j e he with ⟨he, hj⟩ | ⟨rfl, rfl⟩
    · rw [List.getElem?_append_left (by rw [← R.len]; exact hj)] at hy; exact R'.owns j e y he hy
    · rw [at_ y hy]; exact ho
  · intro j e y he hy
    rcases split j e he with ⟨he, hj⟩ | ⟨rfl, rfl⟩
    · rw [List.getElem?_append_left (by rw [← R.len]; exact hj)] at hy; exact R.cache j e y he hy
    · intro h; rw [hc] at h; simp at h
  · intro j j' e e' hjj he he'
    rcases split j e he with ⟨hj, _⟩ | ⟨hj, hj0⟩
    · rcases split j' e' he' with ⟨hj', _⟩ | ⟨hj', hj0'⟩
      · exact R.disjoint j j' e e' hjj hj hj'
      · rw [hj0']; exact fresh j e hj
    · rcases split j' e' he' with ⟨hj', _⟩ | ⟨hj', hj0'⟩
      · rw [hj0]; exact (fresh j' e' hj').symm
      · exact absurd (hj.trans hj'.symm) hjj

theorem alloc_frame (h : Heap E) (xs : List (Option E)) (b : Nat) (x : List (Option E)) (hx : h[b]? = some x) :
    (alloc h xs).1[b]? = some x := by
  rw [alloc, List.getElem?_append_left (List.getElem?_eq_some_iff.mp hx).1]; exact hx

theorem alloc_owns (h : Heap E) (args : List E) : Owns (alloc h (args.map some)).1 (alloc h (args.map some)).2 args := by
  refine ⟨⟨[], ?_⟩, by simp [alloc]⟩
  show (h ++ [args.map some])[h.length]? = _
  rw [List.getElem?_append_right (Nat.le_refl _)]; simp

theorem elements_spec (grow : Nat → Nat) {h : Heap E} {src : Slice} {ss : List E} (hs : Owns h src ss) :
    ∃ h' d, elements grow h src = .ok (h', d) ∧ (∀ (b : Nat) x, h[b]? = some x → h'[b]? = some x) ∧ Owns h' d.elems ss ∧
      h.length ≤ d.elems.arr ∧ d.cacheValid = false := by
  unfold elements make
  have f : ∀ (b : Nat) x, h[b]? = some x → (h ++ [List.replicate src.len none])[b]? = some x := fun b x hx => by
    rw [List.getElem?_append_left (List.getElem?_eq_some_iff.mp hx).1]; exact hx
  have ho : Owns (h ++ [List.replicate src.len none]) ⟨h.length, 0⟩ ([] : List E) :=
    ⟨⟨List.replicate src.len none, by show (_ ++ _)[h.length]? = _; rw [List.getElem?_append_right (Nat.le_refl _)]; simp⟩, rfl⟩
  have hs' : Owns (h ++ [List.replicate src.len none]) src ss := by
    obtain ⟨⟨r, hr⟩, hl⟩ := hs; exact ⟨⟨r, f _ _ hr⟩, hl⟩
  have hne : src.arr ≠ h.length := by have := hs.1.lt; omega
  obtain ⟨h', d', e, u⟩ := appendLoop_upd (grow := grow) src ss src.len 0 _ _ _ ho hs' (fun hh => absurd hh hne) (by simp [hs.2])
  refine ⟨h', ⟨d', [], false⟩, ?_, ?_, by simpa using u.owns, ?_, rfl⟩
  · simp only [append, e, Res.bind_ok]
  · intro b x hx
    have := (List.getElem?_eq_some_iff.mp hx).1
    exact u.frame b (by simp; omega) x (f b x hx)
  · rcases u.arr with h1 | h1
    · simp only at h1 ⊢; omega
    · simp at h1; simp only; omega

theorem newArrayLoop_spec (grow : Nat → Nat) : ∀ (args : List E) (h : Heap E) (d : Document E) (es : List E), Owns h d.elems es →
    d.cacheValid = false →
    ∃ h' d', newArrayLoop grow h d args = .ok (h', d') ∧ (∀ (b : Nat) x, b ≠ d.elems.arr → h[b]? = some x → h'[b]? = some x) ∧
      Owns h' d'.elems (es ++ args) ∧ (d'.elems.arr = d.elems.arr ∨ h.length ≤ d'.elems.arr) ∧ d'.cacheValid = false := by
  intro args
  induction args with
  | nil => intro h d es ho hc; exact ⟨h, d, rfl, fun _ _ _ h => h, by simpa using ho, .inl rfl, hc⟩
  | cons e args ih =>
    intro h d es ho hc
    have hao := alloc_owns h [e]
    have hdo : Owns (alloc h [some e]).1 d.elems es := by
      obtain ⟨⟨r, hr⟩, hl⟩ := ho
      exact ⟨⟨r, alloc_frame _ _ _ _ hr⟩, hl⟩
    have hne : (alloc h [some e]).2.arr ≠ d.elems.arr := by
      have := ho.1.lt
      simp only [alloc]; omega
    obtain ⟨h1, s1, e1, u⟩ := appendLoop_upd (grow := grow) (alloc h [some e]).2 [e] 1 0 (alloc h [some e]).1 d.elems es hdo hao
      (fun hh => absurd hh hne) rfl
    obtain ⟨h2, d2, e2, f2, o2, a2, c2⟩ := ih h1 { d with elems := s1, cacheValid := false } (es ++ [e]) (by simpa using u.owns) rfl
    refine ⟨h2, d2, ?_, ?_, by simpa using o2, ?_, c2⟩
    · rw [newArrayLoop]
      have : append grow (alloc h [some e]).1 d (alloc h [some e]).2 = .ok (h1, { d with elems := s1, cacheValid := false }) := by
        rw [append, show (alloc h [some e]).2.len = 1 from rfl, e1]; rfl
      simp only [this, Res.bind_ok, e2]
    · intro b x hb hx
      have hbl := (List.getElem?_eq_some_iff.mp hx).1
      have h1x := u.frame b hb x (alloc_frame _ _ _ _ hx)
      apply f2 b x _ h1x
      rcases u.arr with h' | h'
      · simp only; rw [h']; exact hb
      · simp only [alloc, List.length_append, List.length_cons, List.length_nil] at h' ⊢; omega
    · have hl := u.len
      simp only [alloc, List.length_append, List.length_cons, List.length_nil] at hl
      rcases a2 with h' | h'
      · rw [h']
        rcases u.arr with h'' | h''
        · exact .inl h''
        · simp only [alloc, List.length_append, List.length_cons, List.length_nil] at h''
          exact .inr (by simp only; omega)
      · exact .inr (by omega)

theorem unmarshalLoop_upd (grow : Nat → Nat) : ∀ (args : List E) (h : Heap E) (s : Slice) (es : List E), Owns h s es →
    Upd h s (unmarshalLoop grow h s args).1 (unmarshalLoop grow h s args).2 (es ++ args) := by
  intro args
  induction args with
  | nil => intro h s es ho; rw [List.append_nil]; exact Upd.refl ho
  | cons e args ih =>
    intro h s es ho
    have u := (append1_upd (grow := grow) ho e).1
    have := u.trans (ih _ _ _ u.owns)
    simpa [unmarshalLoop] using this

theorem unmarshal_upd (grow : Nat → Nat) (h : Heap E) (d : Document E) (args : List E) :
    Upd h d.elems (unmarshal grow h d args).1 (unmarshal grow h d args).2.elems args := by
  have u := unmarshalLoop_upd grow args (h ++ [List.replicate 128 none]) ⟨h.length, 0⟩ []
    ⟨⟨List.replicate 128 none, by simp⟩, rfl⟩
  unfold unmarshal
  generalize List.replicate 128 none = z at u ⊢
  refine ⟨by simpa using u.owns, fun b hb x hx => ?_, ?_, ?_⟩
  · have hbl := (List.getElem?_eq_some_iff.mp hx).1
    apply u.frame b (by simp only; omega) x
    rw [List.getElem?_append_left hbl]; exact hx
  · rcases u.arr with a | a
    · exact .inr (by simp only; rw [a]; exact Nat.le_refl _)
    · simp at a; exact .inr (by simp only; omega)
  · have := u.len
    simp at this; simp only; omega

theorem newArray_spec (grow : Nat → Nat) (h : Heap E) (args : List E) :
    ∃ h' d, newArray grow h args = .ok (h', d) ∧ (∀ (b : Nat) x, h[b]? = some x → h'[b]? = some x) ∧ Owns h' d.elems args ∧
      h.length ≤ d.elems.arr ∧ d.cacheValid = false := by
  obtain ⟨h1, d1, e, f, o, a, c⟩ := newArrayLoop_spec grow args (make h args.length).1 (make h args.length).2 []
    ⟨⟨List.replicate args.length none, by simp [make]⟩, rfl⟩ rfl
  refine ⟨h1, d1, e, fun b x hx => ?_, by simpa using o, ?_, c⟩
  · have hbl := (List.getElem?_eq_some_iff.mp hx).1
    apply f b x
    · simp only [make]; omega
    · simp only [make]; rw [List.getElem?_append_left hbl]; exact hx
  · rcases a with a | a
    · rw [a]; simp [make]
    · simp [make] at a; omega

/-- what the parameters mean -/
structure Means (P : Params E) (M : Sem E) : Prop where
  key : ∀ e, P.keyOf e = .ok (M.key e)
  empty : ∀ e, P.isEmpty e = .ok (M.empty e)
  less : ∀ a b, P.less a b = .ok (M.less a b)

theorem deref_of {k : E → Bytes} {w : World E} {s : State E} (R : RepW k w s) {i : Nat} {x : List E × Bool} (hx : s[i]? = some x) :
    ∃ d, w.docs[i]? = some d ∧ deref w i = .ok d := by
  have hil := (List.getElem?_eq_some_iff.mp hx).1
  refine ⟨w.docs[i]'(by rw [R.len]; exact hil), List.getElem?_eq_getElem _, ?_⟩
  rw [deref, List.getElem?_eq_getElem (by rw [R.len]; exact hil)]

theorem find_at {P : Params E} {M : Sem E} (hm : Means P M) {h : Heap E} {s : Slice} {es : List E} (H : Owns h s es) (key : Bytes) :
    findLoop P.keyOf key h s 0 s.len = .ok (es.findIdx? (fun e => M.key e = key)) := by
  rw [findLoop_spec hm.key key H s.len 0 (by simp [H.2])]
  simp

/-- every call refines its specification -/
theorem step_refines {P : Params E} {M : Sem E} (hm : Means P M) {w : World E} {s s' : State E} (R : RepW M.key w s)
    (c : Call E) (hs : Spec.Docs.step M s c = some s') :
    ∃ w' o, Model.DocHeap.step P w c = .ok (w', o) ∧ RepW M.key w' s' ∧ out M s c o := by
  have updSome : ∀ {d f}, upd s d f = some s' → ∃ x, s[d]? = some x ∧ s' = s.set d (f x.1) := by
    intro d f h
    unfold upd at h
    cases hx : s[d]? with
    | none => rw [hx] at h; cases h
    | some x => rw [hx] at h; exact ⟨x, rfl, (Option.some.inj h).symm⟩
  have docSome : ∀ {d es}, doc s d = some es → ∃ b, s[d]? = some (es, b) := by
    intro d es h
    simp only [doc, Option.map_eq_some_iff] at h
    obtain ⟨⟨x, b⟩, h1, rfl⟩ := h
    exact ⟨b, h1⟩
  cases c with
  | make n =>
    cases hs
    refine ⟨_, _, rfl, R.push ?_ ?_ ?_ rfl, rfl⟩
    · intro b x hx
      rw [List.getElem?_append_left (List.getElem?_eq_some_iff.mp hx).1]; exact hx
    · refine ⟨⟨List.replicate n none, ?_⟩, rfl⟩
      show (_ ++ _)[w.heap.length]? = _
      rw [List.getElem?_append_right (Nat.le_refl _)]; simp
    · exact Nat.le_refl _
  | elements args =>
    cases hs
    obtain ⟨h', d, e, f, o, a, v⟩ := elements_spec P.grow (alloc_owns w.heap args)
    refine ⟨push w (h', d), .none, ?_, R.push (fun b x hx => f b x (alloc_frame _ _ b x hx)) o ?_ v, rfl⟩
    · show (elements P.grow (alloc w.heap (args.map some)).1 (alloc w.heap (args.map some)).2 >>= _) = _
      rw [e]; rfl
    · simp [alloc] at a; omega
  | append i args =>
    simp only [Spec.Docs.step] at hs
    obtain ⟨x, hx, rfl⟩ := updSome hs
    obtain ⟨d, hd, hde⟩ := deref_of R hx
    have R1 := R.heap (h' := (alloc w.heap (args.map some)).1) (alloc_frame _ _)
    have ho := R1.owns i d x hd hx
    have hne : (alloc w.heap (args.map some)).2.arr ≠ d.elems.arr := by
      have := (R.owns i d x hd hx).1.lt
      simp [alloc]; omega
    obtain ⟨h', d', e, u⟩ := appendLoop_upd (grow := P.grow) _ args args.length 0 _ _ _ ho (alloc_owns w.heap args) (fun hh => absurd hh hne)
      (by simp)
    refine ⟨store w i (h', { d with elems := d', cacheValid := false }), .none, ?_, ?_, rfl⟩
    · show (deref w i >>= fun x => append P.grow (alloc w.heap (args.map some)).1 x (alloc w.heap (args.map some)).2 >>= _) = _
      rw [hde, Res.bind_ok, append]
      rw [show (alloc w.heap (args.map some)).2.len = (args.map some).length from rfl] 
      rw [List.length_map, e]; rfl
    · exact R1.store hd hx u (by intro h; simp at h)
  | appendOmitEmpty i args =>
    simp only [Spec.Docs.step] at hs
    obtain ⟨x, hx, rfl⟩ := updSome hs
    obtain ⟨d, hd, hde⟩ := deref_of R hx
    have R1 := R.heap (h' := (alloc w.heap args).1) (alloc_frame _ _)
    have ho := R1.owns i d x hd hx
    have hne : (alloc w.heap args).2.arr ≠ d.elems.arr := by
      have := (R.owns i d x hd hx).1.lt
      simp [alloc]; omega
    obtain ⟨h', d', e, u⟩ := omitLoop_upd (grow := P.grow) hm.empty (alloc w.heap args).2 args rfl args.length 0 _ _ _ ho
      (by simp [alloc]) hne (by simp)
    refine ⟨store w i (h', { d with elems := d', cacheValid := false }), .none, ?_, ?_, rfl⟩
    · show (deref w i >>= fun x => appendOmitEmpty P.grow P.isEmpty (alloc w.heap args).1 x (alloc w.heap args).2 >>= _) = _
      rw [hde, Res.bind_ok, appendOmitEmpty]
      rw [show (alloc w.heap args).2.len = args.length from rfl, e]; rfl
    · exact R1.store hd hx u (by intro h; simp at h)
  | extend i j =>
    simp only [Spec.Docs.step, Option.bind_eq_some_iff] at hs
    obtain ⟨es2, h2, hs⟩ := hs
    obtain ⟨x, hx, rfl⟩ := updSome hs
    obtain ⟨b2, hx2⟩ := docSome h2
    obtain ⟨d, hd, hde⟩ := deref_of R hx
    obtain ⟨d2, hd2, hde2⟩ := deref_of R hx2
    have ho := R.owns i d x hd hx
    have ho2 := R.owns j d2 _ hd2 hx2
    have hp : d2.elems.arr = d.elems.arr → es2 <+: x.1 := by
      intro hh
      by_cases hij : j = i
      · subst hij; rw [hx] at hx2; cases hx2; exact List.prefix_refl _
      · exact absurd hh (R.disjoint j i d2 d hij hd2 hd)
    obtain ⟨h', d', e, u⟩ := appendLoop_upd (grow := P.grow) _ es2 d2.elems.len 0 _ _ _ ho ho2 hp (by simp [ho2.2])
    refine ⟨store w i (h', { d with elems := d', cacheValid := false }), .none, ?_, ?_, rfl⟩
    · simp only [Model.DocHeap.step, hde, hde2, Res.bind_ok, append, e]
    · exact R.store hd hx u (by intro h; simp at h)
  | set i e =>
    simp only [Spec.Docs.step] at hs
    obtain ⟨x, hx, rfl⟩ := updSome hs
    obtain ⟨d, hd, hde⟩ := deref_of R hx
    have ho := R.owns i d x hd hx
    have hf := find_at hm ho (M.key e)
    cases hfi : x.1.findIdx? (fun e' => M.key e' = M.key e) with
    | none =>
      obtain ⟨h1, h2, h3⟩ := first_of_none hfi
      have u := (append1_upd (grow := P.grow) ho e).1
      refine ⟨store w i ((append1 P.grow w.heap d.elems (some e)).1,
        { d with elems := (append1 P.grow w.heap d.elems (some e)).2, cacheValid := false }), .none, ?_, ?_, rfl⟩
      · simp only [Model.DocHeap.step, hde, Res.bind_ok, Model.DocHeap.set, hm.key, hf, hfi]
      · rw [← h3 e rfl] at u
        exact R.store hd hx u (by intro h; simp at h)
    | some p =>
      obtain ⟨hp, h1, h2, h3⟩ := first_of_idx hfi
      obtain ⟨⟨rest, Ha⟩, hl⟩ := ho
      have u := upd_set (es' := x.1.set p e) ⟨⟨rest, Ha⟩, hl⟩ ((array w.heap d.elems).set p (some e)) d.elems.len rest
        (by rw [array_eq Ha, List.set_append_left _ _ (by simpa using hp), List.map_set]) (by simp [hl])
      refine ⟨store w i (w.heap.set d.elems.arr ((array w.heap d.elems).set p (some e)), d), .none, ?_, ?_, rfl⟩
      · simp only [Model.DocHeap.step, hde, Res.bind_ok, Model.DocHeap.set, hm.key, hf, hfi, put]
        rw [if_pos (by rw [hl]; exact hp)]; rfl
      · rw [← h3 e rfl] at u
        exact R.store hd hx u (by intro _ h; simp [h1] at h)
  | delete i key =>
    simp only [Spec.Docs.step] at hs
    obtain ⟨x, hx, rfl⟩ := updSome hs
    obtain ⟨d, hd, hde⟩ := deref_of R hx
    have ho := R.owns i d x hd hx
    have hf := find_at hm ho key
    have hdoc : doc s i = some x.1 := by simp [doc, hx]
    cases hfi : x.1.findIdx? (fun e' => M.key e' = key) with
    | none =>
      obtain ⟨h1, h2, h3⟩ := first_of_none hfi
      refine ⟨store w i (w.heap, { d with cacheValid := false }), .elem none, ?_, ?_, ?_⟩
      · simp only [Model.DocHeap.step, hde, Res.bind_ok, Model.DocHeap.delete, hf, hfi]
      · refine R.store (x' := (deleteFirst M.key key x.1, _)) hd hx ?_ (by intro h; simp at h)
        simp only [h2]; exact Upd.refl ho
      · intro es hes; rw [hdoc] at hes; cases hes; rw [h1]
    | some p =>
      obtain ⟨hp, h1, h2, h3⟩ := first_of_idx hfi
      have u := removeAt_upd ho hp
      refine ⟨store w i ((removeAt w.heap d.elems p).1, { d with elems := (removeAt w.heap d.elems p).2 }), .elem (some x.1[p]), ?_, ?_, ?_⟩
      · simp only [Model.DocHeap.step, hde, Res.bind_ok, Model.DocHeap.delete, hf, hfi,
          get_has ho.1 hp (by rw [ho.2]; exact hp)]
      · rw [← h2] at u
        exact R.store hd hx u (by intro _ h; simp [h1] at h)
      · intro es hes; rw [hdoc] at hes; cases hes; rw [h1]
  | reset i =>
    simp only [Spec.Docs.step] at hs
    obtain ⟨x, hx, rfl⟩ := updSome hs
    obtain ⟨d, hd, hde⟩ := deref_of R hx
    have ho := R.owns i d x hd hx
    refine ⟨store w i (reset w.heap d), .none, ?_, ?_, rfl⟩
    · simp only [Model.DocHeap.step, hde, Res.bind_ok]
    · exact R.store hd hx (upd_set ho _ 0 _ rfl rfl) (by intro h; simp at h)
  | copy i =>
    simp only [Spec.Docs.step, new, Option.map_eq_some_iff] at hs
    obtain ⟨es, hes, rfl⟩ := hs
    obtain ⟨b, hx⟩ := docSome hes
    obtain ⟨d, hd, hde⟩ := deref_of R hx
    have ho := R.owns i d _ hd hx
    refine ⟨push w (copy w.heap d), .none, by simp only [Model.DocHeap.step, hde, Res.bind_ok], R.push ?_ ?_ (Nat.le_refl _) rfl, rfl⟩
    · intro b x hx
      rw [List.getElem?_append_left (List.getElem?_eq_some_iff.mp hx).1]; exact hx
    · refine ⟨⟨List.replicate ((array w.heap d.elems).length - d.elems.len) none, ?_⟩, ho.2⟩
      show (_ ++ _)[w.heap.length]? = _
      rw [List.getElem?_append_right (Nat.le_refl _), ← visible_owns ho]; simp [visible]
  | sorted i =>
    simp only [Spec.Docs.step, new, Option.map_map, Option.map_eq_some_iff, Function.comp] at hs
    obtain ⟨es, hes, rfl⟩ := hs
    obtain ⟨b, hx⟩ := docSome hes
    obtain ⟨d, hd, hde⟩ := deref_of R hx
    have ho := R.owns i d _ hd hx
    obtain ⟨h', d', e, f, o, a, v⟩ := elements_spec P.grow (alloc_owns w.heap (sort M.less es))
    refine ⟨push w (h', d'), .none, ?_, R.push (fun b x hx => f b x (alloc_frame _ _ b x hx)) o ?_ v, rfl⟩
    · simp only [Model.DocHeap.step, hde, Res.bind_ok, sorted, visible_owns ho, nonNil_map, sortStable_spec hm.less, e]
    · simp [alloc] at a; omega
  | map i =>
    simp only [Spec.Docs.step, Option.bind_eq_some_iff] at hs
    obtain ⟨⟨es, b⟩, hx, hs⟩ := hs
    cases hs
    obtain ⟨d, hd, hde⟩ := deref_of R hx
    have ho := R.owns i d _ hd hx
    have hself : s.set i (es, b) = s := by
      apply List.ext_getElem?
      intro j
      by_cases hj : i = j
      · subst hj; rw [hx]; simp [(List.getElem?_eq_some_iff.mp hx).1]
      · rw [List.getElem?_set_ne hj]
    have hself' : w.docs.set i d = w.docs := by
      apply List.ext_getElem?
      intro j
      by_cases hj : i = j
      · subst hj; rw [hd]; simp [(List.getElem?_eq_some_iff.mp hd).1]
      · rw [List.getElem?_set_ne hj]
    cases hv : d.cacheValid with
    | true =>
      refine ⟨store w i (w.heap, d), .map d.cache, ?_, ?_, d.cache, rfl, ?_⟩
      · simp only [Model.DocHeap.step, hde, Res.bind_ok, Model.DocHeap.map, hv, if_true]
      · simp only [store, hself']; exact R
      · intro es' hes' key
        rw [hx] at hes'; cases hes'
        exact R.cache i d _ hd hx hv rfl key
    | false =>
      obtain ⟨m, e, hmm⟩ := cacheLoop_spec hm.key ho d.elems.len 0 [] (by simp [ho.2])
      refine ⟨store w i (w.heap, { d with cache := m, cacheValid := true }), .map m, ?_, ?_, m, rfl, ?_⟩
      · simp only [Model.DocHeap.step, hde, Res.bind_ok, Model.DocHeap.map, hv, e]; rfl
      · rw [← hself]
        refine R.store (x' := (es, b)) hd hx (Upd.refl ho) ?_
        intro _ _ key
        rw [hmm key]; simp
      · intro es' hes' key
        rw [hx] at hes'; cases hes'
        rw [hmm key]; simp

  | unmarshal i args =>
    simp only [Spec.Docs.step] at hs
    obtain ⟨x, hx, rfl⟩ := updSome hs
    obtain ⟨d, hd, hde⟩ := deref_of R hx
    refine ⟨store w i (unmarshal P.grow w.heap d args), .none, by simp only [Model.DocHeap.step, hde, Res.bind_ok], ?_, rfl⟩
    exact R.store hd hx (d' := (unmarshal P.grow w.heap d args).2) (unmarshal_upd P.grow w.heap d args) (by intro _ h; simp at h)
  | newArray args =>
    simp only [Spec.Docs.step, new, Option.map_some, Option.some.injEq] at hs
    subst hs
    obtain ⟨h', d', e, f, o, a, v⟩ := newArray_spec P.grow w.heap args
    exact ⟨push w (h', d'), .none, by simp only [Model.DocHeap.step, e, Res.bind_ok], R.push f o a v, rfl⟩
  | arraySet i p e =>
    simp only [Spec.Docs.step, Option.bind_eq_some_iff] at hs
    obtain ⟨es, hes, hs⟩ := hs
    obtain ⟨b, hx⟩ := docSome hes
    by_cases hp : p < es.length
    · rw [if_pos hp] at hs
      obtain ⟨x, hx', rfl⟩ := updSome hs
      rw [hx] at hx'; cases hx'
      obtain ⟨d, hd, hde⟩ := deref_of R hx
      obtain ⟨⟨rest, Ha⟩, hl⟩ := R.owns i d _ hd hx
      have u := upd_set (es' := es.set p e) ⟨⟨rest, Ha⟩, hl⟩ ((array w.heap d.elems).set p (some e)) d.elems.len rest
        (by rw [array_eq Ha, List.set_append_left _ _ (by simpa using hp), List.map_set]) (by simp [hl])
      refine ⟨store w i (w.heap.set d.elems.arr ((array w.heap d.elems).set p (some e)), d), .none, ?_, ?_, rfl⟩
      · simp only [Model.DocHeap.step, hde, Res.bind_ok, Model.DocHeap.arraySet, put]
        rw [if_neg (by rw [hl]; simpa using hp), if_pos (by rw [hl]; exact hp)]; rfl
      · exact R.store hd hx u (by intro _ h; simp at h)
    · rw [if_neg hp] at hs; cases hs
  | arrayDelete i p =>
    simp only [Spec.Docs.step, Option.bind_eq_some_iff] at hs
    obtain ⟨⟨es, b⟩, hx, hs⟩ := hs
    obtain ⟨d, hd, hde⟩ := deref_of R hx
    have ho := R.owns i d _ hd hx
    have hdoc : doc s i = some es := by simp [doc, hx]
    by_cases hp : p < es.length
    · rw [if_pos hp] at hs; cases hs
      have u := removeAt_upd ho hp
      refine ⟨store w i ((removeAt w.heap d.elems p).1, { d with elems := (removeAt w.heap d.elems p).2 }), .elem (some es[p]), ?_, ?_, ?_⟩
      · simp only [Model.DocHeap.step, hde, Res.bind_ok, Model.DocHeap.arrayDelete]
        rw [if_neg (by rw [ho.2]; simpa using hp)]
        simp only [get_has ho.1 hp (by rw [ho.2]; exact hp), Res.bind_ok]
      · rw [← List.eraseIdx_eq_take_drop_succ] at u
        exact R.store hd hx u (by intro _ h; simp at h)
      · intro es' hes'; rw [hdoc] at hes'; cases hes'; rw [List.getElem?_eq_getElem hp]
    · rw [if_neg hp] at hs; cases hs
      have hself' : w.docs.set i d = w.docs := by
        apply List.ext_getElem?
        intro j
        by_cases hj : i = j
        · subst hj; rw [hd]; simp [(List.getElem?_eq_some_iff.mp hd).1]
        · rw [List.getElem?_set_ne hj]
      refine ⟨store w i (w.heap, d), .elem none, ?_, ?_, ?_⟩
      · simp only [Model.DocHeap.step, hde, Res.bind_ok, Model.DocHeap.arrayDelete]
        rw [if_pos (by rw [ho.2]; simpa using hp)]; rfl
      · simp only [store, hself']; exact R
      · intro es' hes'; rw [hdoc] at hes'; cases hes'; rw [List.getElem?_eq_none (by omega)]

/-- every sequence of calls refines its specification -/
theorem run_refines {P : Params E} {M : Sem E} (hm : Means P M) : ∀ (cs : List (Call E)) {w : World E} {s s' : State E},
    RepW M.key w s → Spec.Docs.run M s cs = some s' →
    ∃ w' os, Model.DocHeap.run P w cs = .ok (w', os) ∧ RepW M.key w' s' ∧ outs M s cs os := by
  intro cs
  induction cs with
  | nil => intro w s s' R h; cases h; exact ⟨w, [], rfl, R, rfl⟩
  | cons c cs ih =>
    intro w s s' R h
    simp only [Spec.Docs.run, Option.bind_eq_some_iff] at h
    obtain ⟨s1, h1, h2⟩ := h
    obtain ⟨w1, o, e1, R1, ho⟩ := step_refines hm R c h1
    obtain ⟨w2, os, e2, R2, hos⟩ := ih R1 h2
    refine ⟨w2, o :: os, by rw [Model.DocHeap.run, e1, Res.bind_ok]; simp only [e2, Res.bind_ok], R2, o, os, rfl, ho, ?_⟩
    intro s'' hs''; rw [h1] at hs''; cases hs''; exact hos

theorem specRun_snoc {M : Sem E} : ∀ (cs : List (Call E)) {s0 : State E} (s : State E), Spec.Docs.run M s0 cs = some s →
    ∀ (c : Call E) (s' : State E), Spec.Docs.step M s c = some s' → Spec.Docs.run M s0 (cs ++ [c]) = some s' := by
  intro cs
  induction cs with
  | nil => intro s0 s h c s' hs; cases h; simp [Spec.Docs.run, hs]
  | cons c0 cs ih =>
    intro s0 s h c s' hs
    simp only [Spec.Docs.run, Option.bind_eq_some_iff, List.cons_append] at h ⊢
    obtain ⟨s1, h1, h2⟩ := h
    exact ⟨s1, h1, ih s h2 c s' hs⟩

/-- a call without a specification (no such document, or out of range) panics -/
theorem step_none {P : Params E} {M : Sem E} {w : World E} {s : State E} (R : RepW M.key w s)
    (c : Call E) (hs : Spec.Docs.step M s c = none) : Model.DocHeap.step P w c = .panic := by
  have no : ∀ {d : Nat}, s[d]? = none → deref w d = .panic := by
    intro d hd
    rw [List.getElem?_eq_none_iff] at hd
    simp [deref, List.getElem?_eq_none (by rw [R.len]; exact hd : w.docs.length ≤ d)]
  have no1 : ∀ {d f}, upd s d f = none → deref w d = .panic := by
    intro d f h
    unfold upd at h
    split at h
    · cases h
    · exact no ‹_›
  have no2 : ∀ {d}, doc s d = none → deref w d = .panic := by
    intro d h
    simp only [doc, Option.map_eq_none_iff] at h
    exact no h
  cases c with
  | make n => simp [Spec.Docs.step, new] at hs
  | elements args => simp [Spec.Docs.step, new] at hs
  | newArray args => simp [Spec.Docs.step, new] at hs
  | append d args => simp only [Spec.Docs.step] at hs; simp only [Model.DocHeap.step, no1 hs]; rfl
  | appendOmitEmpty d args => simp only [Spec.Docs.step] at hs; simp only [Model.DocHeap.step, no1 hs]; rfl
  | set d e => simp only [Spec.Docs.step] at hs; simp only [Model.DocHeap.step, no1 hs]; rfl
  | delete d k => simp only [Spec.Docs.step] at hs; simp only [Model.DocHeap.step, no1 hs]; rfl
  | reset d => simp only [Spec.Docs.step] at hs; simp only [Model.DocHeap.step, no1 hs]; rfl
  | unmarshal d args => simp only [Spec.Docs.step] at hs; simp only [Model.DocHeap.step, no1 hs]; rfl
  | copy d =>
    simp only [Spec.Docs.step, new, Option.map_eq_none_iff] at hs
    simp only [Model.DocHeap.step, no2 hs]; rfl
  | sorted d =>
    simp only [Spec.Docs.step, new, Option.map_eq_none_iff] at hs
    simp only [Model.DocHeap.step, no2 hs]; rfl
  | map d =>
    simp only [Spec.Docs.step, Option.bind_eq_none_iff] at hs
    have : s[d]? = none := by
      cases h : s[d]? with
      | none => rfl
      | some x => simpa using hs x h
    simp only [Model.DocHeap.step, no this]; rfl
  | arrayDelete d i =>
    simp only [Spec.Docs.step, Option.bind_eq_none_iff] at hs
    have : s[d]? = none := by
      cases h : s[d]? with
      | none => rfl
      | some x => have := hs x h; split at this <;> cases this
    simp only [Model.DocHeap.step, no this]; rfl
  | extend d d2 =>
    simp only [Spec.Docs.step, Option.bind_eq_none_iff] at hs
    simp only [Model.DocHeap.step]
    cases h : deref w d with
    | ok x =>
      have : doc s d2 = none := by
        cases h2 : doc s d2 with
        | none => rfl
        | some es2 => have := no1 (hs es2 h2); rw [h] at this; cases this
      rw [Res.bind_ok, no2 this]; rfl
    | panic => rfl
    | err e => simp [deref] at h; split at h <;> cases h
    | oof => simp [deref] at h; split at h <;> cases h
  | arraySet d i e =>
    simp only [Spec.Docs.step, Option.bind_eq_none_iff] at hs
    simp only [Model.DocHeap.step]
    cases h : s[d]? with
    | none => rw [no h]; rfl
    | some x =>
      obtain ⟨dd, hd, hde⟩ := deref_of R h
      have ho := R.owns d dd x hd h
      have := hs x.1 (by simp [doc, h])
      split at this
      · simp [upd, h] at this
      · next hi =>
        rw [hde, Res.bind_ok, Model.DocHeap.arraySet, if_pos (by rw [ho.2]; omega)]; rfl

/-- every world reached by calls represents some specification state -/
theorem reached {P : Params E} {M : Sem E} (hm : Means P M) : ∀ (cs : List (Call E)) {w w' : World E} {s : State E} {os : List (Out E)},
    RepW M.key w s → Model.DocHeap.run P w cs = .ok (w', os) →
    ∃ s', Spec.Docs.run M s cs = some s' ∧ RepW M.key w' s' := by
  intro cs
  induction cs with
  | nil => intro w w' s os R h; rw [Model.DocHeap.run] at h; cases h; exact ⟨s, rfl, R⟩
  | cons c cs ih =>
    intro w w' s os R h
    cases hs : Spec.Docs.step M s c with
    | none => rw [Model.DocHeap.run, step_none R c hs] at h; cases h
    | some s1 =>
      obtain ⟨w1, o, e1, R1, _⟩ := step_refines hm R c hs
      rw [Model.DocHeap.run, e1, Res.bind_ok] at h
      cases h2 : Model.DocHeap.run P w1 cs with
      | ok x =>
        obtain ⟨w2, os2⟩ := x
        simp only [h2, Res.bind_ok] at h
        cases h
        obtain ⟨s', a, b⟩ := ih R1 h2
        exact ⟨s', by simp [Spec.Docs.run, hs, a], b⟩
      | err e => simp only [h2] at h; cases h
      | panic => simp only [h2] at h; cases h
      | oof => simp only [h2] at h; cases h

end Birch.Proofs.DocHeap
