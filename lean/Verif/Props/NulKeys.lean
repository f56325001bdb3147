import Verif.Proofs.NulKeys
import Verif.Proofs.MarshalFuel
import Verif.Props.JsonBson

/- C107: MarshalBSON of nested documents whose keys have NUL bytes. -/

namespace Birch.Props
open Birch Model Spec Proofs Proofs.ExtJson Model.ExtJson Spec.ExtJson

/-- bytes, an error or, with `P`, a panic -/
theorem marshal_ends (P : Prop) (fs : Fields) (hw : fs.StoredAll) (hP : ¬ P → fs.NoArray) (hl : fs.enc.length < 2147483000) :
    ∃ d, buildDoc fs = .ok d ∧
      ((fs.Clean ∧ ∃ bs, Returns (fun fuel => docMarshal fuel d) (.ok bs) ∧ (bs = encDoc fs ↔ fs.WF)) ∨
       (¬ fs.Clean ∧ (Returns (fun fuel => docMarshal fuel d) (.err .tooSmall) ∨ (P ∧ Returns (fun fuel => docMarshal fuel d) .panic)))) := by
  obtain ⟨d, h1, h2⟩ := build_fields (fuel := fs.enc.length + 1) (P := P) fs hw hP hl (by omega)
  refine ⟨d, h1, ?_⟩
  rcases docMarshal_writes h2 hl with ⟨hc, bs, h3, h4⟩ | ⟨hc, h3 | ⟨p, h3⟩⟩
  · refine .inl ⟨hc, bs, docMarshal_returns h3 (by simp), fun e => ?_, fun wf => ?_⟩
    · refine (fields_exact fs hw).2.mp ?_
      rw [e] at h4
      simp only [encDoc, wrapDoc_length] at h4
      omega
    · obtain ⟨d', h5, h6⟩ := C01_marshal_canonical fs wf (by simp [encDoc]; omega)
      rw [h1] at h5
      cases h5
      have := Returns.unique (docMarshal_returns h3 (by simp)) h6
      cases this
      rfl
  · exact .inr ⟨hc, .inl (docMarshal_returns h3 (by simp))⟩
  · exact .inr ⟨hc, .inr ⟨p, docMarshal_returns h3 (by simp)⟩⟩

/-- Elements of any nesting with any bytes in keys and regular expressions.

    If a document, an array or code with scope has a key with a NUL, at any depth, nothing is returned: there is an error or a panic. Otherwise bytes are returned, and they are those of
    the document given exactly if no key and no regular expression has a NUL. -/
theorem C107_outcome (fs : Fields) (hw : fs.StoredAll) (hl : fs.enc.length < 2147483000) :
    ∃ d, buildDoc fs = .ok d ∧
      ((fs.Clean ∧ ∃ bs, Returns (fun fuel => docMarshal fuel d) (.ok bs) ∧ (bs = encDoc fs ↔ fs.WF)) ∨
       (¬ fs.Clean ∧ (Returns (fun fuel => docMarshal fuel d) (.err .tooSmall) ∨ Returns (fun fuel => docMarshal fuel d) .panic))) := by
  obtain ⟨d, h1, h2⟩ := marshal_ends True fs hw (fun h => absurd trivial h) hl
  exact ⟨d, h1, h2.imp id fun h => ⟨h.1, h.2.imp id (·.2)⟩⟩

/-- Without arrays there is no panic.

    Missing from the full claim: arrays (`C107_array_panics`). -/
theorem C107_no_panic_partial (fs : Fields) (hw : fs.StoredAll) (ha : fs.NoArray) (hl : fs.enc.length < 2147483000) :
    ∃ d, buildDoc fs = .ok d ∧ ((fs.Clean ∧ ∃ bs, Returns (fun fuel => docMarshal fuel d) (.ok bs)) ∨ (¬ fs.Clean ∧ Returns (fun fuel => docMarshal fuel d) (.err .tooSmall))) := by
  obtain ⟨d, h1, h2⟩ := marshal_ends False fs hw (fun _ => ha) hl
  refine ⟨d, h1, ?_⟩
  rcases h2 with ⟨hc, bs, h, _⟩ | ⟨hc, h | h⟩
  · exact .inl ⟨hc, bs, h⟩
  · exact .inr ⟨hc, h⟩
  · exact h.1.elim

/-- The document given comes back exactly if no key and no regular expression has a NUL, at any depth. -/
theorem C107_exact (fs : Fields) (hw : fs.StoredAll) (hl : fs.enc.length < 2147483000) :
    ∃ d, buildDoc fs = .ok d ∧ (Returns (fun fuel => docMarshal fuel d) (.ok (encDoc fs)) ↔ fs.WF) := by
  obtain ⟨d, h1, h2⟩ := C107_outcome fs hw hl
  refine ⟨d, h1, ?_⟩
  rcases h2 with ⟨_, bs, h3, h4⟩ | ⟨hc, h3⟩
  · constructor
    · intro h
      cases Returns.unique h h3
      exact h4.mp rfl
    · intro h
      rw [← h4.mpr h]; exact h3
  · constructor
    · intro h
      rcases h3 with h3 | h3 <;> cases Returns.unique h h3
    · intro h
      obtain ⟨d', h5, h6⟩ := C01_marshal_canonical fs h (by simp [encDoc]; omega)
      rw [h1] at h5
      cases h5
      exact h6

/-! ### violations -/

/-- For every array that is not empty there are keys under which it makes MarshalBSON panic: those with a NUL before as many bytes as the array has without its length. -/
theorem C107_array_panics (a b : Bytes) (t : BVal) (vs : Vals) (ha : NulFree a) (hw : (Vals.cons t vs).WF) (hb : b.length + 4 = (BVal.array (.cons t vs)).enc.length)
    (hl : a.length + b.length < 1073740000) :
    ∃ d, buildDoc (.cons (a ++ 0 :: b) (.array (.cons t vs)) .nil) = .ok d ∧ Returns (fun fuel => docMarshal fuel d) .panic := by
  have e : (BVal.array (.cons t vs)).enc.length = ((Vals.cons t vs).encFrom 0).length + 5 := by simp [BVal.enc]
  have hs := vals_storedAll _ hw
  have hz := (vals_exact 0 _ hs).2.mpr hw
  have hbn : beforeNul (a ++ 0 :: b) = a := beforeNul_append ha b
  obtain ⟨d, h1, h2⟩ := build_vals (fuel := ((Vals.cons t vs).encFrom 0).length + 1) (P := True) trivial 0 _ hs (by omega) (by omega)
  have hk : (a ++ 0 :: b).length = a.length + b.length + 1 := by simp; omega
  refine ⟨[.withDoc 0 ((a ++ 0 :: b).length + 2) (4 :: (a ++ 0 :: b ++ [0])) d], ?_, ?_⟩
  · simp only [buildDoc, buildVal]
    rw [h1]
    simp only [Res.bind_ok]
    unfold EC.array
    rw [header_ok 4 _ (by omega), u32_small (by omega), show 1 + (a ++ 0 :: b).length + 1 = (a ++ 0 :: b).length + 2 by omega]; rfl
  · exact docMarshal_returns (array_panics (by simp) h2 (by rw [hk, hbn, hz]; omega) (by omega)) (by simp)

/-- The claim that there is never a panic is false. -/
theorem C107_panics_somewhere : ¬ ∀ fs : Fields, fs.StoredAll → fs.enc.length < 2147483000 → ∀ d, buildDoc fs = .ok d → ¬ Returns (fun fuel => docMarshal fuel d) .panic := by
  intro h
  obtain ⟨d, h1, h2⟩ := C107_array_panics [97] [98, 98, 98, 98] .null .nil (by simp [NulFree]) ⟨trivial, trivial⟩ (by decide) (by decide)
  exact h (.cons ([97] ++ 0 :: [98, 98, 98, 98]) (.array (.cons .null .nil)) .nil) ⟨⟨trivial, trivial⟩, trivial⟩ (by decide) d h1 h2

/-! ### JSON -/

/-- Every JSON object that is read, of any nesting, with any characters in keys and regular expressions: it is marshalled as the BSON document with its keys and values exactly if none of
    them has a NUL. -/
theorem C106_exact_nested (S : Gjson.Strconv) (C : Clock) {lax : Bool} {t : Bytes} {es : JsonText.Jes} {fs : Fields} (ht : JsonText.Text lax t (.obj es)) (hi : ReadsFields S C es fs)
    (hw : fs.StoredAll) (hl : fs.enc.length < 2147483000) :
    ∃ d, Returns (fun n => unmarshalDocument S C [] t n) (.ok (d, none)) ∧ (Returns (fun n => docMarshal n d) (.ok (encDoc fs)) ↔ fs.WF) := by
  obtain ⟨d, h1, h2⟩ := C107_exact fs hw hl
  exact ⟨d, unmarshal_built S C ht hi h1, h2⟩

/-- Every JSON object with one array that is not empty, under a key as in `C107_array_panics`, is read without an error, and marshalling what was read panics. -/
theorem C107_json_panics (S : Gjson.Strconv) (C : Clock) {lax : Bool} {text : Bytes} {es : JsonText.Jes} (a b : Bytes) (t : BVal) (vs : Vals) (ha : NulFree a) (hw : (Vals.cons t vs).WF)
    (hb : b.length + 4 = (BVal.array (.cons t vs)).enc.length) (hl : a.length + b.length < 1073740000) (ht : JsonText.Text lax text (.obj es))
    (hi : ReadsFields S C es (.cons (a ++ 0 :: b) (.array (.cons t vs)) .nil)) :
    ∃ d, Returns (fun n => unmarshalDocument S C [] text n) (.ok (d, none)) ∧ Returns (fun n => docMarshal n d) .panic := by
  obtain ⟨d, h1, h2⟩ := C107_array_panics a b t vs ha hw hb hl
  exact ⟨d, unmarshal_built S C ht hi h1, h2⟩

/-! ### examples -/

/-- `{"a\u0000bbbb":[null]}` -/
example (S : Gjson.Strconv) (C : Clock) : ∃ d, Returns (fun n => unmarshalDocument S C [] (ascii "{\"a\\u0000bbbb\":[null]}") n) (.ok (d, none)) ∧ Returns (fun n => docMarshal n d) .panic := by
  refine C107_json_panics S C (lax := false) (es := .cons ([97] ++ 0 :: [98, 98, 98, 98]) (.arr (.cons .null .nil)) .nil) [97] [98, 98, 98, 98] .null .nil (by simp [NulFree]) ⟨trivial, trivial⟩
    (by decide) (by decide) ?_ (.cons (.arr (.cons .null .nil)) .nil)
  have pl : ∀ {s u}, JsonText.Chars false s u → JsonText.Chars false (98 :: s) (98 :: u) := fun h => .plain (by decide) (by decide) (by decide) h
  have hk : JsonText.Chars false (97 :: 92 :: 117 :: ([48, 48, 48, 48] ++ [98, 98, 98, 98])) ([97] ++ 0 :: [98, 98, 98, 98]) :=
    .plain (by decide) (by decide) (by decide) (.point (h := [48, 48, 48, 48]) (n := 0) ⟨_, _, _, _, 0, 0, 0, 0, rfl, rfl, rfl, rfl, rfl, rfl⟩ (by simp [JsonText.High]) (by simp [JsonText.Low]) (pl (pl (pl (pl .nil)))))
  exact val_text (.obj (.last Gjson.ws_nil hk Gjson.ws_nil Gjson.ws_nil (.arr (.last Gjson.ws_nil .null Gjson.ws_nil)) Gjson.ws_nil))

/-- a document under `a NUL b` within a document: an error -/
example : ∃ d, buildDoc (.cons [120] (.doc (.cons [97, 0, 98] (.doc .nil) .nil)) .nil) = .ok d ∧ Returns (fun fuel => docMarshal fuel d) (.err .tooSmall) := by
  obtain ⟨d, h1, h2⟩ := C107_no_panic_partial (.cons [120] (.doc (.cons [97, 0, 98] (.doc .nil) .nil)) .nil) ⟨⟨trivial, trivial⟩, trivial⟩ ⟨⟨trivial, trivial⟩, trivial⟩ (by decide)
  refine ⟨d, h1, ?_⟩
  rcases h2 with ⟨h, _⟩ | ⟨_, h⟩
  · exact absurd rfl (h.2.1.1 trivial 0 (by simp))
  · exact h

/-- an int32 under `a NUL b` within a document: other bytes than those of the document -/
example : ∃ d bs, buildDoc (.cons [120] (.doc (.cons [97, 0, 98] (.int32 1) .nil)) .nil) = .ok d ∧ Returns (fun fuel => docMarshal fuel d) (.ok bs) ∧
    bs ≠ encDoc (.cons [120] (.doc (.cons [97, 0, 98] (.int32 1) .nil)) .nil) := by
  obtain ⟨d, h1, h2⟩ := C107_outcome (.cons [120] (.doc (.cons [97, 0, 98] (.int32 1) .nil)) .nil) ⟨⟨by simp [BVal.StoredAll, BVal.stored, BVal.WF], trivial⟩, trivial⟩ (by decide)
  rcases h2 with ⟨_, bs, h3, h4⟩ | ⟨h, _⟩
  · exact ⟨d, bs, h1, h3, fun e => absurd rfl ((h4.mp e).2.1.1 0 (by simp))⟩
  · exact absurd ⟨by simp [NulFree], ⟨fun h => h.elim, trivial, trivial⟩, trivial⟩ h

/-- `{"a": [{"b": 1}]}` comes back -/
example : ∃ d, buildDoc (.cons [97] (.array (.cons (.doc (.cons [98] (.int32 1) .nil)) .nil)) .nil) = .ok d ∧
    Returns (fun fuel => docMarshal fuel d) (.ok (encDoc (.cons [97] (.array (.cons (.doc (.cons [98] (.int32 1) .nil)) .nil)) .nil))) := by
  have wf : (Fields.cons [97] (.array (.cons (.doc (.cons [98] (.int32 1) .nil)) .nil)) .nil).WF := by simp [Fields.WF, BVal.WF, Vals.WF, NulFree]
  obtain ⟨d, h1, h2⟩ := C107_exact _ (fields_storedAll _ wf) (by decide)
  exact ⟨d, h1, h2.mpr wf⟩

end Birch.Props
