import Verif.Proofs.DocMap
import Verif.Props.Documents

/-
C65 (`DocumentMap` and `Document.Unmarshal`).
`fuel` bounds the recursion of the model; any fuel larger than the document gives the same answer.
-/

namespace Birch.Props
open Birch Model Spec Proofs

/-- {"a": 1, "b": "x", "a": true} -/
def mapSample : Fields := .cons [97] (.int32 1) (.cons [98] (.string [120]) (.cons [97] (.bool true) .nil))

theorem mapSample_wf : mapSample.WF := by simp [mapSample, Fields.WF, BVal.WF, NulFree]

/-- `UnmarshalDocument` writes the elements of a valid document into the map: of elements with the same key the last stays, and other entries are kept. -/
theorem C65_unmarshalDocument (fuel : Nat) (m : DocMap) (d : Doc) (fs : Fields) (h : RepFields d fs) (hl : (encDoc fs).length < 2147483648)
    (hf : (encDoc fs).length < fuel) :
    ∃ m', DocMap.unmarshalDocument fuel m d = (m', .ok ()) ∧ Written m fs m' := by
  simp only [encDoc, wrapDoc_length] at hl hf
  exact ⟨_, unmarshalDocument_rep fuel m h (by omega) (by omega), putAll_written m h⟩

example : ∃ d m', RepFields d mapSample ∧ DocMap.unmarshalDocument 100 [] d = (m', .ok ()) ∧ ∃ v, m'.lookup [97] = some v ∧ Rep v [97] (.bool true) := by
  obtain ⟨d, _, h⟩ := buildDoc_rep mapSample mapSample_wf (by decide +kernel)
  obtain ⟨m', h1, h2⟩ := C65_unmarshalDocument 100 [] d mapSample h (by decide +kernel) (by decide +kernel)
  exact ⟨d, m', h, h1, h2 [97]⟩

/-- At the first invalid element `UnmarshalDocument` returns its error; the elements before it are in the map. -/
theorem C65_unmarshalDocument_invalid (fuel : Nat) (m : DocMap) (d1 d2 : Doc) (fs : Fields) (v : Value) (e : Err) (h : RepFields d1 fs)
    (hv : elemValidate fuel v = .err e) (hl : (encDoc fs).length < 2147483648) (hf : (encDoc fs).length < fuel) :
    ∃ m', DocMap.unmarshalDocument fuel m (d1 ++ v :: d2) = (m', .err e) ∧ Written m fs m' := by
  simp only [encDoc, wrapDoc_length] at hl hf
  exact ⟨_, unmarshalDocument_invalid fuel m d2 h hv (by omega) (by omega), putAll_written m h⟩

-- an int32 without its bytes
example (m : DocMap) (d : Doc) := C65_unmarshalDocument_invalid 100 m [] d .nil (.raw 0 2 [16, 0]) .tooSmall trivial (by rfl) (by decide) (by decide)

/-- `UnmarshalBSON` writes like `UnmarshalDocument`, whatever follows the document. -/
theorem C65_unmarshalBSON (fuel : Nat) (m : DocMap) (fs : Fields) (post : Bytes) (wf : fs.WF) (hl : (encDoc fs ++ post).length < 2147483648)
    (hf : (encDoc fs).length < fuel) :
    ∃ m', DocMap.unmarshalBSON fuel m (encDoc fs ++ post) = (m', .ok ()) ∧ Written m fs m' := by
  obtain ⟨d, h1, h2⟩ := forEach_enc fs wf post hl
  exact ⟨_, h2 _ _ _ fuel hf (foldRes_put m h1), putAll_written m h1⟩

example (m : DocMap) := C65_unmarshalBSON 100 m mapSample [1, 2] mapSample_wf (by decide +kernel) (by decide +kernel)

/-- `Map` keeps the first of the elements with the same key, `UnmarshalDocument` the last: for any two elements of one key, the maps made
    of the document holding both differ in that key. -/
theorem C65_map_disagrees (fuel : Nat) (grow : Nat → Nat) (e1 e2 : DocHeap.BElem) (hk : e1.key = e2.key) (hf : 2147483648 ≤ fuel)
    (hl : e1.val.enc.length + e2.val.enc.length + 2 * e1.key.length + 9 < 2147483648) :
    (∃ w os w' m, Model.DocHeap.run (DocHeap.bsonParams grow fuel) Model.DocHeap.World.empty [.elements [e1, e2]] = .ok (w, os) ∧
      Model.DocHeap.step (DocHeap.bsonParams grow fuel) w (.map 0) = .ok (w', .map m) ∧ m.lookup e1.key = some e1) ∧
    ∃ m, DocMap.unmarshalDocument fuel [] [e1.v, e2.v] = (m, .ok ()) ∧ m.lookup e1.key = some e2.v := by
  constructor
  · obtain ⟨w, os, h1, _, w', m, h2, _, h3, _⟩ := C19_map_partial (DocHeap.bson_means grow fuel hf) [.elements [e1, e2]] [([e1, e2], false)] rfl (d := 0) rfl
    exact ⟨w, os, w', m, h1, h2, (h3 _ _).mpr ⟨[], [e2], rfl, rfl, by simp⟩⟩
  · have hr : RepFields [e1.v, e2.v] (.cons e1.key e1.val (.cons e2.key e2.val .nil)) := ⟨e1.rep, e2.rep, trivial⟩
    have hs : (Fields.cons e1.key e1.val (.cons e2.key e2.val .nil)).enc.length < 2147483648 := by
      rw [fieldsEnc_length, fieldsEnc_length, ← hk]; simp [Fields.enc]; omega
    refine ⟨_, unmarshalDocument_rep fuel [] hr hs (by omega), ?_⟩
    simp [putAll, lookup_put, hk]

example (fuel : Nat) (hf : 2147483648 ≤ fuel) := C65_map_disagrees fuel (fun n => n) exA1 exA2 rfl hf (by decide +kernel)

/-- Each `MarshalBSON` of a map writes the elements of its entries, each with its own key, in some order: the keys of the map play no part. -/
theorem C65_marshal_keys_ignored (fuel : Nat) (m : DocMap) (fs : Fields) (h : Entries m fs) (hl : (encDoc fs).length < 2147483648)
    (hf : (encDoc fs).length < fuel) : DocMap.marshalBSON fuel m = .ok (encDoc fs) := by
  have hl' := hl
  have hf' := hf
  simp only [encDoc, wrapDoc_length] at hl' hf'
  unfold DocMap.marshalBSON
  rw [marshalDocument_rep fuel h (by omega) (by omega)]
  exact docMarshal_rep fuel (entries_rep h) hl hf

-- two entries with one element
example : ∃ v, Rep v [107] .null ∧ DocMap.marshalBSON 100 [([97], v), ([98], v)] = .ok (encDoc (.cons [107] .null (.cons [107] .null .nil))) := by
  obtain ⟨v, _, h⟩ := buildVal_rep [107] .null (by simp [NulFree]) (by simp [BVal.WF]) (by decide +kernel)
  exact ⟨v, h, C65_marshal_keys_ignored 100 _ _ ⟨h, h, trivial⟩ (by decide +kernel) (by decide +kernel)⟩

/-- `Validate` does not compare the keys of the map with those of the elements, which its comment says it does. -/
theorem C65_validate_keys_unchecked (fuel : Nat) (k k' : Bytes) (v : Value) (t : BVal) (h : Rep v k t) (hne : k' ≠ k)
    (hl : t.enc.length + k.length + 2 < 2147483648) (hf : t.enc.length + k.length + 2 < fuel) :
    key v ≠ .ok k' ∧ DocMap.validate fuel [(k', v)] = .ok () := by
  have he : Entries [(k', v)] (.cons k t .nil) := ⟨h, trivial⟩
  refine ⟨?_, ?_⟩
  · rw [key_rep h]; simpa using hne.symm
  · have := validateLoop_rep fuel false he (by rw [fieldsEnc_length]; simp [Fields.enc]; omega) (by rw [fieldsEnc_length]; simp [Fields.enc]; omega)
    simp [DocMap.validate, this]

example : ∃ v, Rep v [107] .null ∧ DocMap.validate 100 [([97], v)] = .ok () := by
  obtain ⟨v, _, h⟩ := buildVal_rep [107] .null (by simp [NulFree]) (by simp [BVal.WF]) (by decide +kernel)
  exact ⟨v, h, (C65_validate_keys_unchecked 100 [107] [97] v .null h (by decide) (by decide) (by decide)).2⟩

/-- `Validate` reports an invalid element, wherever the loop meets it, and nothing is marshaled. -/
theorem C65_validate_reports (fuel : Nat) (m1 m2 : DocMap) (fs1 fs2 : Fields) (k : Bytes) (v : Value) (e : Err) (h1 : Entries m1 fs1) (h2 : Entries m2 fs2)
    (hk : key v = .ok k') (hv : elemValidate fuel v = .err e) (hl1 : (encDoc fs1).length < 2147483648) (hf1 : (encDoc fs1).length < fuel)
    (hl2 : (encDoc fs2).length < 2147483648) (hf2 : (encDoc fs2).length < fuel) :
    (∃ e, DocMap.validate fuel (m1 ++ (k, v) :: m2) = .err e) ∧ ∃ e, DocMap.marshalBSON fuel (m1 ++ (k, v) :: m2) = .err e := by
  simp only [encDoc, wrapDoc_length] at hl1 hl2 hf1 hf2
  have h3 : DocMap.validateLoop fuel false (m1 ++ (k, v) :: m2) = .ok true := by
    rw [validateLoop_append fuel false _ h1 (by omega) (by omega)]
    unfold DocMap.validateLoop
    rw [hk, hv]
    simp only [Res.bind_ok]
    exact validateLoop_rep fuel true h2 (by omega) (by omega)
  have h4 : DocMap.validate fuel (m1 ++ (k, v) :: m2) = .err .other := by simp [DocMap.validate, h3]
  exact ⟨⟨_, h4⟩, ⟨.other, by simp [DocMap.marshalBSON, DocMap.marshalDocument, h4]⟩⟩

-- an int32 without its bytes
example := C65_validate_reports (k' := []) 100 [] [] .nil .nil [97] (.raw 0 2 [16, 0]) .tooSmall trivial trivial (by rfl) (by rfl) (by decide) (by decide) (by decide) (by decide)

/-- Reading a document into an empty map and marshaling the map, in whatever order its entries are visited, gives a document with the same keys,
    each once, with the value it had last in the document read.  So without repeated keys the result has the same fields in some order. -/
theorem C65_roundtrip (fuel : Nat) (fs : Fields) (wf : fs.WF) (hl : (encDoc fs).length < 2147483648) (hf : (encDoc fs).length < fuel) :
    ∃ m, DocMap.unmarshalBSON fuel [] (encDoc fs) = (m, .ok ()) ∧ ∀ m' : DocMap, m'.Perm m →
      ∃ gs, DocMap.marshalBSON fuel m' = .ok (encDoc gs) ∧ gs.keys.Nodup ∧ ∀ k, gs.last k = fs.last k := by
  obtain ⟨d, h1, h2⟩ := forEach_enc fs wf [] (by simpa using hl)
  obtain ⟨l, a, b, c, e, g⟩ := putAll_entries [] h1 (by simp) (by simp)
  refine ⟨_, by simpa [DocMap.unmarshalBSON] using h2 _ _ _ fuel hf (foldRes_put [] h1), ?_⟩
  intro m' hm
  rw [show putAll [] d fs = Entry.map l from a] at hm
  obtain ⟨l', p, rfl⟩ := perm_lift (fun x : Entry => (x.1, x.2.1)) hm l rfl
  have hs := Entry.size_perm p
  have hnd : (l'.map (·.1)).Nodup := (p.map _).nodup_iff.mpr c
  refine ⟨Entry.fields l', ?_, by rw [entry_keys]; exact hnd, ?_⟩
  · simp only [encDoc, wrapDoc_length, Entry.size] at hl hf e
    exact C65_marshal_keys_ignored fuel _ _ (entry_entries (fun x hx => b x (p.mem_iff.mp hx))) (by simp only [encDoc, wrapDoc_length, entry_size]; omega)
      (by simp only [encDoc, wrapDoc_length, entry_size]; omega)
  · intro k
    apply Option.ext
    intro t
    rw [entry_last hnd, show (∃ v, (k, v, t) ∈ l') ↔ ∃ v, (k, v, t) ∈ l from exists_congr fun v => p.mem_iff, g]
    simp

example := C65_roundtrip 100 mapSample mapSample_wf (by decide +kernel) (by decide +kernel)

/-- An error does not leave the map as it was: from bytes with complete fields, but a length that leaves no room for the final zero byte, `UnmarshalBSON`
    writes all the fields into the map and returns an error. -/
theorem C65_error_changes_map (fuel : Nat) (m : DocMap) (fs : Fields) (post : Bytes) (wf : fs.WF) (hne : fs ≠ .nil)
    (hl : fs.enc.length + 4 + post.length < 2147483648) (hf : fs.enc.length < fuel) :
    ∃ m', DocMap.unmarshalBSON fuel m (le32 (fs.enc.length + 4) ++ (fs.enc ++ post)) = (m', .err .invalidReadOnlyDocument) ∧ Written m fs m' := by
  obtain ⟨d, h1, h2⟩ := forEach_unterminated fs wf post hne hl
  exact ⟨_, h2 _ _ _ fuel hf (foldRes_put m h1), putAll_written m h1⟩

example (m : DocMap) := C65_error_changes_map 100 m mapSample [0] mapSample_wf (by simp [mapSample]) (by decide +kernel) (by decide +kernel)

/-- Likewise `Document.UnmarshalBSON` leaves the fields read before the error in the document. -/
theorem C65_error_changes_document (fuel : Nat) (fs : Fields) (post : Bytes) (wf : fs.WF) (hne : fs ≠ .nil)
    (hl : fs.enc.length + 4 + post.length < 2147483648) (hf : fs.enc.length < fuel) :
    ∃ d, docUnmarshal fuel (le32 (fs.enc.length + 4) ++ (fs.enc ++ post)) = (d, .err .invalidReadOnlyDocument) ∧ RepFields d fs := by
  obtain ⟨d, h1, h2⟩ := forEach_unterminated fs wf post hne hl
  exact ⟨d, h2 _ _ _ fuel hf (foldRes_snoc d []), h1⟩

example := C65_error_changes_document 100 mapSample [] mapSample_wf (by simp [mapSample]) (by decide +kernel) (by decide +kernel)

/-- `Document.UnmarshalBSON` succeeds, fails or panics exactly as `ReadDocument` does, and with the same elements. -/
theorem C65_document_read (fuel : Nat) (b : Bytes) :
    (∀ d, readDocument fuel b = .ok d ↔ docUnmarshal fuel b = (d, .ok ())) ∧
    (∀ e, readDocument fuel b = .err e ↔ (docUnmarshal fuel b).2 = .err e) ∧
    (readDocument fuel b = .panic ↔ (docUnmarshal fuel b).2 = .panic) := by
  unfold readDocument docUnmarshal forEach
  cases iterEnd b with
  | ok end_ =>
    simp only [Res.bind_ok]
    have := eachLoop_iterLoop fuel b 4 end_ []
    revert this
    cases iterLoop fuel b 4 end_ with
    | ok d => intro h; simp only [List.nil_append] at h; rw [h]; simp
    | err e => intro h; simp only at h; simp [h, Prod.ext_iff]
    | panic => intro h; simp only at h; simp [h, Prod.ext_iff]
    | oof => intro h; simp only at h; simp [h, Prod.ext_iff]
  | err e => simp
  | panic => simp
  | oof => simp

example : ∃ d, docUnmarshal 100 (encDoc mapSample) = (d, .ok ()) := by
  obtain ⟨d, h, _⟩ := readDocument_enc 100 mapSample mapSample_wf [] (by decide +kernel) (by decide +kernel)
  exact ⟨d, ((C65_document_read _ _).1 d).mp (by simpa using h)⟩

/-- `Document.Unmarshal` into a `map[string]any`: every key of the document gets the Go data of the last element with the key, other entries are kept.
    Missing (and false, see `C63_decimal_swapped`): documents with decimals. -/
theorem C65_unmarshal_any_partial (fuel : Nat) (d : Doc) (fs : Fields) (m : GoMap) (h : RepFields d fs) (hd : fs.NoDecimal)
    (hl : (encDoc fs).length < 2147483648) (hf : (encDoc fs).length < fuel) :
    ∃ m', unmarshalAny fuel d m = .ok m' ∧ ∀ k, GoMap.get k m' = match fs.last k with | some t => some (goOf t) | none => GoMap.get k m := by
  simp only [encDoc, wrapDoc_length] at hl hf
  obtain ⟨m', h1, h2⟩ := exportLoop_get (N := min 2147483648 fuel) (fun v k t hr hd ht => valueInterface_rep fuel v k t hr hd (by omega) (by omega)) m h hd (by omega)
  refine ⟨m', h1, fun k => ?_⟩
  rw [h2]
  cases fs.last k <;> simp

example (m : GoMap) : ∃ d m', RepFields d mapSample ∧ unmarshalAny 100 d m = .ok m' ∧ GoMap.get [97] m' = some (.bool true) ∧ GoMap.get [99] m' = GoMap.get [99] m := by
  obtain ⟨d, _, h⟩ := buildDoc_rep mapSample mapSample_wf (by decide +kernel)
  obtain ⟨m', h1, h2⟩ := C65_unmarshal_any_partial 100 d mapSample m h (by simp [mapSample, Fields.NoDecimal, BVal.NoDecimal]) (by decide +kernel) (by decide +kernel)
  exact ⟨d, m', h, h1, h2 _, h2 _⟩

/-- `Document.Unmarshal` into a `map[string]string` writes the strings of the document and nothing else; an entry that was a string
    in the map stays although the document has another value for the key. -/
theorem C65_unmarshal_strings (d : Doc) (fs : Fields) (m : Assoc Bytes) (h : RepFields d fs) :
    ∃ m', unmarshalStrings d m = .ok m' ∧ ∀ k, m'.lookup k = match fs.lastString k with | some s => some s | none => m.lookup k := by
  obtain ⟨m', h1, h2⟩ := unmarshalStrings_rep m h
  refine ⟨m', h1, fun k => ?_⟩
  rw [h2]
  cases fs.lastString k <;> simp

example (m : Assoc Bytes) : ∃ d m', RepFields d mapSample ∧ unmarshalStrings d m = .ok m' ∧ m'.lookup [98] = some [120] ∧ m'.lookup [97] = m.lookup [97] := by
  obtain ⟨d, _, h⟩ := buildDoc_rep mapSample mapSample_wf (by decide +kernel)
  obtain ⟨m', h1, h2⟩ := C65_unmarshal_strings d mapSample m h
  exact ⟨d, m', h, h1, h2 _, h2 _⟩

end Birch.Props
