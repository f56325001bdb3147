import Verif.Proofs.Jsonx

/- C90: jsonx documents made in Go, and copies of them. -/

namespace Birch.Props
open Birch Model Model.ExtJson Birch.Spec Birch.Spec.ExtJson Birch.Spec.Jsonx Proofs Proofs.ExtJson Proofs.Jsonx
open Birch.Model.Jsonx (GVal GVals GElems World Held Change jsonx mustJSONX interface interfaceErr elementAt keyAt copyDocument copyArray)

/-- A jsonx document whose numbers are of type `int` or `float64`, and in which no inner object begins with a reserved key, becomes the document it stands for: by `DCE.JSONX`, by
    `DC.JSONX`, and as a value given to `EC.Interface` and `ECE.Interface`.

    Missing from the full claim: numbers of other types (`C90_other`), reserved keys (as in C60 to C62), keys with NUL. -/
theorem C90_jsonx_partial (C : Clock) {es : GElems} {fs : Fields} (h : MeansFields es fs) (hw : fs.WF) (hl : (encDoc fs).length < 2 ^ 31) :
    ∃ d, jsonx C es = .ok d ∧ mustJSONX C es = .ok d ∧ RepFields d fs ∧
      ∀ k, NulFree k → k.length + (encDoc fs).length + 2 < 2 ^ 31 → ∃ v, interface C k es = .ok v ∧ interfaceErr C k es = .ok v ∧ Rep v k (.doc fs) := by
  obtain ⟨d, h1, h2⟩ := buildDoc_rep fs hw (by simp only [encDoc, wrapDoc_length] at hl; omega)
  have h3 : jsonx C es = .ok d := (meansFields_convert h).trans h1
  refine ⟨d, h3, by rw [mustJSONX, h3]; rfl, h2, fun k hk hkl => ?_⟩
  obtain ⟨v, h4, h5⟩ := buildVal_rep k (.doc fs) hk (by simpa [BVal.WF] using hw) (by rw [BVal.enc]; simp only [encDoc] at hkl; omega)
  have h6 : interface C k es = .ok v := by
    rw [interface, mustJSONX, h3, ← h4, buildVal, h1]
    rfl
  exact ⟨v, h6, h6, h5⟩

/-- `{"a": [-5, "x"], "b": {"c": 2.5}}` -/
example (C : Clock) := C90_jsonx_partial C
  (es := .cons [97] (.arr (.cons (.int (-5)) (.cons (.str [120]) .nil))) (.cons [98] (.obj (.cons [99] (.f64 0x4004000000000000) .nil)) .nil))
  (.cons (.arr (.cons .int (.cons .str .nil))) (.cons (.obj (by simp [Unreserved]; decide) (.cons .double .nil)) .nil))
  (by simp [Fields.WF, BVal.WF, Vals.WF, NulFree, ofInt]) (by decide +kernel)

/-- A document with a number of type `int32`, `int64` or `float32` (`jsonx.VC.Int32`, `jsonx.VC.Int64`, `jsonx.VC.Float32`) is never converted. -/
theorem C90_other (C : Clock) {es : GElems} (h : OtherElems es) (d : Doc) : jsonx C es ≠ .ok d ∧ mustJSONX C es ≠ .ok d ∧ ∀ k v, interface C k es ≠ .ok v := by
  have h1 : ∀ d, jsonx C es ≠ .ok d := otherElems_convert h
  have h2 : ∀ d, mustJSONX C es ≠ .ok d := by
    intro d h'
    rw [mustJSONX] at h'
    cases hj : jsonx C es with
    | ok d => exact h1 d hj
    | err e => rw [hj] at h'; cases h'
    | panic => rw [hj] at h'; cases h'
    | oof => rw [hj] at h'; cases h'
  refine ⟨h1 d, h2 d, fun k v h' => ?_⟩
  rw [interface] at h'
  obtain ⟨d, h3, _⟩ := Res.bind_eq_ok.mp h'
  exact h2 d h3

example (C : Clock) := C90_other C (es := .cons [97] (.arr (.cons .null (.cons (.int64 7) .nil))) .nil) (.here (.arr (.there (.here .int64)))) []

/-- If all before it can be converted, `DCE.JSONX` returns an error; `DC.JSONX` panics, and so do `EC.Interface`, which is said never to fail, and `ECE.Interface`, which is said
    to return an error. -/
theorem C90_other_panics (C : Clock) {pre r : GElems} {fs : Fields} (h : MeansFields pre fs) (hw : fs.WF) (hl : (encDoc fs).length < 2 ^ 31)
    {v : GVal} (hv : (∃ n, v = .int32 n) ∨ (∃ n, v = .int64 n) ∨ ∃ b, v = .f32 b) (k key : Bytes) :
    jsonx C (append pre (.cons k v r)) = .err .other ∧ mustJSONX C (append pre (.cons k v r)) = .panic ∧
      interface C key (append pre (.cons k v r)) = .panic ∧ interfaceErr C key (append pre (.cons k v r)) = .panic := by
  obtain ⟨d, h1, _⟩ := C90_jsonx_partial C h hw hl
  have h2 : Model.Jsonx.convert C k v = .err .other := by
    rcases hv with ⟨n, rfl⟩ | ⟨n, rfl⟩ | ⟨n, rfl⟩ <;> rw [Model.Jsonx.convert]
  have h3 : jsonx C (append pre (.cons k v r)) = .err .other := collect_err h2 pre d h1
  have h4 : mustJSONX C (append pre (.cons k v r)) = .panic := by rw [mustJSONX, h3]; rfl
  have h5 : interface C key (append pre (.cons k v r)) = .panic := by rw [interface, h4]; rfl
  exact ⟨h3, h4, h5, h5⟩

example (C : Clock) := C90_other_panics C (pre := .cons [97] .null .nil) (r := .nil) (.cons .null .nil) (by simp [Fields.WF, BVal.WF, NulFree]) (by decide +kernel) (.inl ⟨7, rfl⟩) [98] [99]

/-- An element without a value (`EC.Value(key, nil)`) behind such elements makes all of them panic, `DCE.JSONX` included. -/
theorem C90_nil_panics (C : Clock) {pre r : GElems} {fs : Fields} (h : MeansFields pre fs) (hw : fs.WF) (hl : (encDoc fs).length < 2 ^ 31) (k key : Bytes) :
    jsonx C (append pre (.cons k .nil r)) = .panic ∧ mustJSONX C (append pre (.cons k .nil r)) = .panic ∧
      interface C key (append pre (.cons k .nil r)) = .panic ∧ interfaceErr C key (append pre (.cons k .nil r)) = .panic := by
  obtain ⟨d, h1, _⟩ := C90_jsonx_partial C h hw hl
  have h3 : jsonx C (append pre (.cons k .nil r)) = .panic := collect_panic (by rw [Model.Jsonx.convert]) pre d h1
  have h4 : mustJSONX C (append pre (.cons k .nil r)) = .panic := by rw [mustJSONX, h3]; rfl
  have h5 : interface C key (append pre (.cons k .nil r)) = .panic := by rw [interface, h4]; rfl
  exact ⟨h3, h4, h5, h5⟩

example (C : Clock) := C90_nil_panics C (pre := .cons [97] .null .nil) (r := .nil) (.cons .null .nil) (by simp [Fields.WF, BVal.WF, NulFree]) (by decide +kernel) [98] [99]

/-- A timestamp in the form, with the types of numbers, that `MarshalJSON` gives it (x_json_marshal.go:103-111) is refused. -/
theorem C90_timestamp_refused (C : Clock) (k : Bytes) (t i : Int) :
    jsonx C (.cons k (.obj (.cons (ascii "$timestamp") (.obj (.cons (ascii "t") (.int64 t) (.cons (ascii "i") (.int64 i) .nil))) .nil)) .nil) = .err .other := by
  have e : ascii "$timestamp" = kTimestamp := by decide +kernel
  have e1 : ascii "t" = kT := by decide +kernel
  have e2 : ascii "i" = kI := by decide +kernel
  rw [e, e1, e2]
  have n1 : kTimestamp ≠ kMinKey := by decide
  have n2 : kTimestamp ≠ kMaxKey := by decide
  have n3 : kTimestamp ≠ kDecimal := by decide
  simp only [jsonx, Model.Jsonx.convertElems, Model.Jsonx.convert, Model.Jsonx.GElems.shape, Model.Jsonx.GVal.shape, object, n1, n2, n3, if_false, if_true, documentOf, Res.bind_ok,
    timestampLoop, collect]
  rfl

/-! ### by position -/

/-- `ElementAtIndex` gives the element, or nil if the index is too large; for negative indices, and for the largest of all integers, it panics. -/
theorem C90_at (d : GElems) (hl : d.toList.length < 2 ^ 63) (idx : Int) (h1 : -2 ^ 63 ≤ idx) (h2 : idx < 2 ^ 63) :
    (0 ≤ idx ∧ idx < d.toList.length → ∃ e, d.toList[idx.toNat]? = some e ∧ elementAt d idx = .ok (some e) ∧ keyAt d idx = .ok e.1) ∧
    (d.toList.length ≤ idx ∧ idx ≠ 2 ^ 63 - 1 → elementAt d idx = .ok none ∧ keyAt d idx = .ok []) ∧
    (idx < 0 ∨ idx = 2 ^ 63 - 1 → elementAt d idx = .panic ∧ keyAt d idx = .panic) := by
  have hw : idx ≠ 2 ^ 63 - 1 → i64 (idx + 1) = idx + 1 := fun h => _root_.Birch.i64_small (by omega) (by omega)
  refine ⟨fun ⟨a, b⟩ => ?_, fun ⟨a, b⟩ => ?_, fun h => ?_⟩
  · have hi : idx.toNat < d.toList.length := by omega
    refine ⟨_, List.getElem?_eq_getElem hi, ?_⟩
    have he : elementAt d idx = .ok (some d.toList[idx.toNat]) := by
      rw [elementAt, hw (by omega), if_neg (by omega), if_neg (by omega), List.getElem?_eq_getElem hi]
    exact ⟨he, by rw [keyAt, he]; rfl⟩
  · have he : elementAt d idx = .ok none := by rw [elementAt, hw b, if_pos (by omega)]
    exact ⟨he, by rw [keyAt, he]; rfl⟩
  · have he : elementAt d idx = .panic := by
      rcases h with h | h
      · rw [elementAt, hw (by omega), if_neg (by omega), if_pos h]
      · subst h
        have : i64 (2 ^ 63 - 1 + 1) = -2 ^ 63 := by decide
        rw [elementAt, this, if_neg (by omega), if_neg (by decide), List.getElem?_eq_none (by omega)]
    exact ⟨he, by rw [keyAt, he]; rfl⟩

example := C90_at (.cons [97] .null .nil) (by simp [GElems.toList]) 0 (by decide) (by decide)

/-! ### copies -/

variable {α : Type}

/-- `Document.Copy` makes a new document that shows the same.  Its elements and their values are new as well, so whatever is done to them - appending to the new document,
    unmarshalling into its values - all documents and arrays there were still show the same. -/
theorem C90_copy {w : World α} (hc : Closed w) {d : Nat} (hd : d < w.nd) {l : List (Bytes × Tree α)} (hs : ShowsElems w (w.docs d) l) :
    ∃ w' d', copyDocument w d = .ok (w', d') ∧ w.nd ≤ d' ∧ ShowsElems w' (w'.docs d') l ∧
      (∀ e' ∈ w'.docs d', w.ne ≤ e' ∧ ∃ k v', w'.elems e' = (k, some v') ∧ w.nv ≤ v') ∧
      ∀ cs : List (Change α), (∀ c ∈ cs, Own w c) →
        (∀ x < w.nd, ∀ m, ShowsElems w (w.docs x) m → ShowsElems (cs.foldl Change.apply w') ((cs.foldl Change.apply w').docs x) m) ∧
        (∀ x < w.na, ∀ m, ShowsVals w (w.arrs x) m → ShowsVals (cs.foldl Change.apply w') ((cs.foldl Change.apply w').arrs x) m) := by
  obtain ⟨w', h1, h2, h3, h4, h5, h6, h7⟩ := copyDocument_spec hc hd hs
  refine ⟨w', w.nd, h1, Nat.le_refl _, h4, fun e' he => ?_, fun cs hcs => ?_⟩
  · obtain ⟨i, hi⟩ := List.getElem?_of_mem he
    have hlt : i < (w.docs d).length := by have := (List.getElem?_eq_some_iff.mp hi).1; omega
    obtain ⟨a1, k, v, v', a2, a3, a4, a5⟩ := h7 i _ e' (List.getElem?_eq_getElem hlt) hi
    exact ⟨a1, k, v', a3, a4⟩
  · have hx := own_ext cs h2 hcs
    refine ⟨fun x hx' m hm => ?_, fun x hx' m hm => ?_⟩
    · rw [hx.docs x hx']
      exact showsElems_ext hc hx (hc.docs x hx') hm
    · rw [hx.arrs x hx']
      exact showsVals_ext hc hx (fun v hv => hc.arrs x hx' v hv) hm

/-- the document `{"a": {}}` (number 0), in which the inner document is number 1 -/
private def exWorld : World Nat where
  vals v := if v = 0 then .doc 1 else .leaf 7
  nv := 2
  elems e := if e = 0 then ([97], some 0) else ([98], some 1)
  ne := 2
  docs d := if d = 0 then [0] else []
  nd := 2
  arrs _ := [some 1]
  na := 1

private theorem exWorld_closed : Closed exWorld where
  docs d hd e he := by
    have : d = 0 ∨ d = 1 := by simp only [exWorld] at hd; omega
    rcases this with rfl | rfl <;> simp [exWorld] at he ⊢
    omega
  elems e he v hv := by
    have : e = 0 ∨ e = 1 := by simp only [exWorld] at he; omega
    rcases this with rfl | rfl <;> simp [exWorld] at hv ⊢ <;> omega
  arrs a ha v hv := by simp [exWorld] at hv ⊢; omega
  valDocs v hv d h := by
    have : v = 0 ∨ v = 1 := by simp only [exWorld] at hv; omega
    rcases this with rfl | rfl <;> simp [exWorld] at h ⊢
    omega
  valArrs v hv d h := by
    have : v = 0 ∨ v = 1 := by simp only [exWorld] at hv; omega
    rcases this with rfl | rfl <;> simp [exWorld] at h

private theorem exWorld_shows : ShowsElems exWorld (exWorld.docs 0) [([97], .obj [])] := .cons rfl (.doc rfl .nil) .nil

example := C90_copy exWorld_closed (by decide) exWorld_shows

/-- … `Array.Copy` -/
theorem C90_copy_array {w : World α} (hc : Closed w) {a : Nat} (ha : a < w.na) {l : List (Tree α)} (hs : ShowsVals w (w.arrs a) l) :
    ∃ w' a', copyArray w a = .ok (w', a') ∧ w.na ≤ a' ∧ ShowsVals w' (w'.arrs a') l ∧ (∀ v, some v ∈ w'.arrs a' → w.nv ≤ v) ∧
      ∀ cs : List (Change α), (∀ c ∈ cs, Own w c) →
        (∀ x < w.nd, ∀ m, ShowsElems w (w.docs x) m → ShowsElems (cs.foldl Change.apply w') ((cs.foldl Change.apply w').docs x) m) ∧
        (∀ x < w.na, ∀ m, ShowsVals w (w.arrs x) m → ShowsVals (cs.foldl Change.apply w') ((cs.foldl Change.apply w').arrs x) m) := by
  obtain ⟨w', h1, h2, h3, h4, h5, h6⟩ := copyArray_spec hc ha hs
  refine ⟨w', w.na, h1, Nat.le_refl _, h4, h6, fun cs hcs => ?_⟩
  have hx := own_ext cs h2 hcs
  refine ⟨fun x hx' m hm => ?_, fun x hx' m hm => ?_⟩
  · rw [hx.docs x hx']
    exact showsElems_ext hc hx (hc.docs x hx') hm
  · rw [hx.arrs x hx']
    exact showsVals_ext hc hx (fun v hv => hc.arrs x hx' v hv) hm

example := C90_copy_array exWorld_closed (a := 0) (by decide) (.cons (.leaf rfl) .nil)

/-- Appending elements that there were to the copy: the copy then shows what the original does, and after it those elements, in order. -/
theorem C90_copy_appended {w : World α} (hc : Closed w) {d : Nat} (hd : d < w.nd) {l : List (Bytes × Tree α)} (hs : ShowsElems w (w.docs d) l)
    {es : List Nat} (he : ∀ e ∈ es, e < w.ne) {m : List (Bytes × Tree α)} (hm : ShowsElems w es m) :
    ∃ w' d', copyDocument w d = .ok (w', d') ∧ d' ≠ d ∧ ShowsElems (Change.apply w' (.appendDoc d' es)) ((Change.apply w' (.appendDoc d' es)).docs d') (l ++ m) ∧
      ShowsElems (Change.apply w' (.appendDoc d' es)) ((Change.apply w' (.appendDoc d' es)).docs d) l := by
  obtain ⟨w', h1, h2, h3, h4, h5, h6, h7⟩ := copyDocument_spec hc hd hs
  have hx : Ext w (Change.apply w' (.appendDoc w.nd es)) := own_ext [.appendDoc w.nd es] h2 (by simp [Own])
  refine ⟨w', w.nd, h1, by omega, ?_, ?_⟩
  · have e1 : (Change.apply w' (.appendDoc w.nd es)).docs w.nd = w'.docs w.nd ++ es := by simp [Change.apply, Model.Jsonx.upd]
    rw [e1]
    exact showsElems_append (twins_show hc hx (hc.docs d hd) hs h5 h7) (showsElems_ext hc hx he hm)
  · rw [hx.docs d hd]
    exact showsElems_ext hc hx (hc.docs d hd) hs

/-- … of an array -/
theorem C90_copy_array_appended {w : World α} (hc : Closed w) {a : Nat} (ha : a < w.na) {l : List (Tree α)} (hs : ShowsVals w (w.arrs a) l)
    {vs : List (Option Nat)} (hv : ∀ v, some v ∈ vs → v < w.nv) {m : List (Tree α)} (hm : ShowsVals w vs m) :
    ∃ w' a', copyArray w a = .ok (w', a') ∧ a' ≠ a ∧ ShowsVals (Change.apply w' (.appendArr a' vs)) ((Change.apply w' (.appendArr a' vs)).arrs a') (l ++ m) ∧
      ShowsVals (Change.apply w' (.appendArr a' vs)) ((Change.apply w' (.appendArr a' vs)).arrs a) l := by
  obtain ⟨w1, us, a1, a2, a3, a4, a5, a6, a7⟩ := copyValues_spec (w.arrs a) l hc (fun v hv => hc.arrs a ha v hv) hs
  have hx1 : Proofs.Jsonx.Ext w1 (Change.apply { w1 with arrs := Model.Jsonx.upd w1.arrs w1.na us, na := w1.na + 1 } (.appendArr w1.na vs)) :=
    ⟨Nat.le_refl _, Nat.le_refl _, Nat.le_refl _, by simp [Change.apply], fun _ _ => rfl, fun _ _ => rfl, fun _ _ => rfl, fun x hx => by
      simp only [Change.apply, Model.Jsonx.upd]; rw [if_neg (by omega), if_neg (by omega)]⟩
  have hx := a2.trans hx1
  refine ⟨{ w1 with arrs := Model.Jsonx.upd w1.arrs w1.na us, na := w1.na + 1 }, w1.na, by simp only [copyArray, a1, Res.bind_ok], by omega, ?_, ?_⟩
  · have e1 : (Change.apply { w1 with arrs := Model.Jsonx.upd w1.arrs w1.na us, na := w1.na + 1 } (.appendArr w1.na vs)).arrs w1.na = us ++ vs := by simp [Change.apply, Model.Jsonx.upd]
    rw [e1]
    exact showsVals_append (showsVals_ext a3 hx1 (fun v hv => (a4 v hv).2) a5) (showsVals_ext hc hx hv hm)
  · rw [hx.arrs a ha]
    exact showsVals_ext hc hx (fun v hv => hc.arrs a ha v hv) hs

/-- the second element is appended to a copy of the document with the first -/
example := C90_copy_appended exWorld_closed (d := 0) (by decide) exWorld_shows (es := [1]) (by decide) (m := [([98], .leaf 7)]) (.cons rfl (.leaf rfl) .nil)

example := C90_copy_array_appended exWorld_closed (a := 0) (by decide) (.cons (.leaf rfl) .nil) (vs := [some 1]) (by simp [exWorld]) (.cons (.leaf rfl) .nil)

/-- Documents and arrays inside are not copied: the element of the copy holds the same one. -/
theorem C90_copy_shares {w : World α} (hc : Closed w) {d : Nat} (hd : d < w.nd) {l : List (Bytes × Tree α)} (hs : ShowsElems w (w.docs d) l)
    {i e v : Nat} {k : Bytes} (hi : (w.docs d)[i]? = some e) (he : w.elems e = (k, some v)) :
    ∃ w' d' e' v', copyDocument w d = .ok (w', d') ∧ (w'.docs d')[i]? = some e' ∧ w'.elems e' = (k, some v') ∧ w'.vals v' = w.vals v := by
  obtain ⟨w', h1, h2, h3, h4, h5, h6, h7⟩ := copyDocument_spec hc hd hs
  have hlt : i < (w'.docs w.nd).length := by have := (List.getElem?_eq_some_iff.mp hi).1; omega
  obtain ⟨_, k', v1, v2, a2, a3, _, a5⟩ := h7 i e _ hi (List.getElem?_eq_getElem hlt)
  rw [he] at a2
  cases a2
  exact ⟨w', w.nd, _, v2, h1, List.getElem?_eq_getElem hlt, a3, a5⟩

example := C90_copy_shares exWorld_closed (by decide) exWorld_shows (i := 0) rfl rfl

/-- Appending to a document inside the copy therefore changes the original: `{"a": {}}` becomes `{"a": {"b": 7}}`. -/
theorem C90_copy_changes : ∃ (w w' : World Nat) (d d' e' v' p : Nat), ShowsElems w (w.docs d) [([97], .obj [])] ∧ copyDocument w d = .ok (w', d') ∧
    (w'.docs d')[0]? = some e' ∧ w'.elems e' = ([97], some v') ∧ w'.vals v' = .doc p ∧
    let w'' := (Change.appendDoc p [1]).apply w'
    ShowsElems w'' (w''.docs d) [([97], .obj [([98], .leaf 7)])] := by
  refine ⟨exWorld, _, 0, _, 2, 2, 1, exWorld_shows, rfl, rfl, rfl, rfl, ?_⟩
  exact .cons rfl (.doc rfl (.cons rfl (.leaf rfl) .nil)) .nil

/-- A document with an element without a value (`EC.Value(key, nil)`) cannot be copied. -/
theorem C90_copy_nil {w : World α} (hc : Closed w) {d : Nat} (hd : d < w.nd) {e : Nat} (he : e ∈ w.docs d) (hn : (w.elems e).2 = none) : copyDocument w d = .panic := by
  rw [copyDocument, copyDocument_nil (hc.docs d hd) he hn (fun _ _ => rfl) (Nat.le_refl _)]
  rfl

private def exNilWorld : World Nat := { exWorld with elems := fun _ => ([97], none) }

example : copyDocument exNilWorld 0 = .panic :=
  C90_copy_nil (w := exNilWorld) (d := 0) ⟨exWorld_closed.docs, fun _ _ _ h => (by cases h), exWorld_closed.arrs, exWorld_closed.valDocs, exWorld_closed.valArrs⟩ (by decide) (e := 0) (by decide) rfl

end Birch.Props
