import Verif.Proofs.GoValue
import Verif.Proofs.Fuel
import Verif.Proofs.WireTrunc

/-
C63 (export to Go data and back), C64 (constructors from Go data).
`fuel` bounds the recursion of the model; any fuel of at least 2^30 gives the same answer.
-/

namespace Birch.Props
open Birch Model Spec Proofs

/-- {"a": 1, "b": ["x", null], "c": {"d": true, "e": a date}} -/
def goSample : Fields :=
  .cons [97] (.int32 1) (.cons [98] (.array (.cons (.string [120]) (.cons .null .nil)))
    (.cons [99] (.doc (.cons [100] (.bool true) (.cons [101] (.datetime (-1)) .nil))) .nil))

theorem goSample_wf : goSample.WF := by simp [goSample, Fields.WF, BVal.WF, Vals.WF, NulFree]

theorem goSample_portable : PortableFields goSample := by simp [goSample, PortableFields, Portable, PortableVals, Fields.keys]

/-! ### C63 -/

/-- `Value.Interface` gives the Go data for the value: at every depth, whether the value is raw or parsed.
    Missing (and false, see `C63_decimal_swapped`): decimals. -/
theorem C63_export_partial (v : Value) (k : Bytes) (t : BVal) (h : Rep v k t) (hd : t.NoDecimal) (hl : t.enc.length < 2147483648) :
    Returns (fun fuel => Value.interface fuel v) (.ok (goOf t)) :=
  ⟨t.enc.length + 1, fun m hm => valueInterface_rep m v k t h hd hl (by omega)⟩

example : ∃ v k, Rep v k (.doc goSample) ∧ Returns (fun fuel => Value.interface fuel v) (.ok (goOf (.doc goSample))) := by
  obtain ⟨v, _, h⟩ := buildVal_rep [107] (.doc goSample) (by simp [NulFree]) goSample_wf (by decide +kernel)
  exact ⟨v, _, h, C63_export_partial v _ _ h (by simp [goSample, BVal.NoDecimal, Fields.NoDecimal, Vals.NoDecimal]) (by decide +kernel)⟩

/-- the same for `Document.ExportMap` -/
theorem C63_exportMap_partial (d : Doc) (fs : Fields) (h : RepFields d fs) (hd : fs.NoDecimal) (hl : (encDoc fs).length < 2147483648) :
    Returns (fun fuel => exportMap fuel d) (.ok (.map (goOfFields fs))) := by
  simp only [encDoc, wrapDoc_length] at hl
  refine ⟨fs.enc.length + 1, fun m hm => ?_⟩
  show exportMap m d = _
  unfold exportMap
  rw [exportLoop_rep (N := min 2147483648 m) (fun v k t hr hd ht => valueInterface_rep m v k t hr hd (by omega) (by omega)) .nil h hd (by omega)]
  rfl

example : ∃ d, RepFields d goSample ∧ Returns (fun fuel => exportMap fuel d) (.ok (.map (goOfFields goSample))) := by
  obtain ⟨d, _, h⟩ := buildDoc_rep goSample goSample_wf (by decide +kernel)
  exact ⟨d, h, C63_exportMap_partial d _ h (by simp [goSample, BVal.NoDecimal, Fields.NoDecimal, Vals.NoDecimal]) (by decide +kernel)⟩

/-- A decimal is exported with its halves exchanged (as `Decimal128` returns it, C09). -/
theorem C63_decimal_swapped (v : Value) (k : Bytes) (h l : Nat) (hr : Rep v k (.decimal h l)) :
    Returns (fun fuel => Value.interface fuel v) (.ok (.decimal l h)) := by
  refine ⟨1, fun m hm => ?_⟩
  obtain ⟨m, rfl⟩ : ∃ n, m = n + 1 := ⟨m - 1, by omega⟩
  show Value.interface (m + 1) v = _
  unfold Value.interface
  rw [type_rep hr]
  simp only [Res.bind_ok, BVal.tag]
  simp [decimal128_rep hr]

example : ∃ v k, Rep v k (.decimal 1 2) ∧ Returns (fun fuel => Value.interface fuel v) (.ok (.decimal 2 1)) := by
  obtain ⟨v, _, h⟩ := buildVal_rep [107] (.decimal 1 2) (by simp [NulFree]) (by simp [BVal.WF]) (by decide +kernel)
  exact ⟨v, _, h, C63_decimal_swapped v _ _ _ h⟩

/-- A value exported with `Value.Interface` and imported with `EC.Interface` (or `ECE.Interface`) under any key is the same value, up to
    the order of the fields, whatever the order in which the maps are visited, if it consists of doubles, strings, booleans, dates, nulls, int32, int64,
    timestamps, arrays, and documents without repeated keys.
    Missing (and false, see below): the other types, repeated keys, the order of fields. -/
theorem C63_roundtrip_partial (W : Nat → Nat) (fuel : Nat) (v : Value) (k k' : Bytes) (t : BVal) (h : Rep v k t) (hp : Portable t) (hk : NulFree k')
    (hl : k'.length + 2 + t.enc.length < 1073741824) (hf : 1073741824 ≤ fuel) :
    ∃ g, Returns (fun fuel => Value.interface fuel v) (.ok g) ∧ ∀ g', Shuffled g g' →
      ∃ t', SameUpToOrder t t' ∧ (∃ w, EC.interface W fuel k' g' = .ok w ∧ Rep w k' t') ∧ (∃ w, ECE.interface W fuel k' g' = .ok w ∧ Rep w k' t') := by
  have wf := rep_wf h
  have hd : t.NoDecimal := portable_noDecimal hp
  refine ⟨goOf t, C63_export_partial v k t h hd (by omega), fun g' hs => ?_⟩
  obtain ⟨t', h1, h2⟩ := shuffled_denotes hs (goOf_denotes (W := W) hp wf)
  obtain ⟨h3, h4, h5⟩ := same_size h2
  refine ⟨t', h2, interface_rep h1 hk (h4 wf) (by omega) (by omega), interfaceErr_rep h1 ?_ hk (h4 wf) (by omega) (by omega)⟩
  intro e
  have e' := h5 e
  subst e'
  cases hs
  rfl

example (W : Nat → Nat) : ∃ v k g, Rep v k (.doc goSample) ∧ Returns (fun fuel => Value.interface fuel v) (.ok g) ∧
    ∃ g' t', Shuffled g g' ∧ g' ≠ g ∧ SameUpToOrder (.doc goSample) t' ∧ ∃ w, EC.interface W 1073741824 [121] g' = .ok w ∧ Rep w [121] t' := by
  obtain ⟨v, _, h⟩ := buildVal_rep [107] (.doc goSample) (by simp [NulFree]) goSample_wf (by decide +kernel)
  obtain ⟨g, h1, h2⟩ := C63_roundtrip_partial W 1073741824 v _ [121] _ h goSample_portable (by simp [NulFree]) (by decide +kernel) (by decide)
  have e : g = goOf (.doc goSample) := by
    have := Returns.unique h1 (C63_export_partial v _ _ h (by simp [goSample, BVal.NoDecimal, Fields.NoDecimal, Vals.NoDecimal]) (by decide +kernel))
    exact (Res.ok.inj this)
  subst e
  have hs : Shuffled (goOf (.doc goSample)) _ := .map (.swap [97] [98] _ _ _)
  obtain ⟨t', h3, h4, _⟩ := h2 _ hs
  exact ⟨v, _, _, h, h1, _, t', hs, by simp [goOf, goSample, goOfFields, Fields.keys], h3, h4⟩

/-- Exported binary data, object ids, regular expressions, pointers, code with scope and decimals become null when imported with `EC.Interface`;
    `ECE.Interface` refuses them. -/
theorem C63_lost (W : Nat → Nat) (fuel : Nat) (k : Bytes) (t : BVal) (ht : t.tag ∈ [0x05, 0x07, 0x0B, 0x0C, 0x0F, 0x13])
    (hk : NulFree k) (hl : k.length + 2 < 1073741824) :
    (∃ w, EC.interface W fuel k (goOf t) = .ok w ∧ Rep w k .null) ∧ ECE.interface W fuel k (goOf t) = .err .other :=
  unsupported_rep (by cases t <;> simp [BVal.tag] at ht <;> simp [goOf, Unsupported]) hk hl

example (W : Nat → Nat) : ECE.interface W 0 [107] (goOf (.oid (List.replicate 12 7))) = .err .other :=
  (C63_lost W 0 [107] (.oid (List.replicate 12 7)) (by decide) (by simp [NulFree]) (by decide)).2

/-- Exported code and symbols come back as strings, undefined, MinKey and MaxKey as null. -/
theorem C63_changed (W : Nat → Nat) (fuel : Nat) (k : Bytes) (hk : NulFree k) (s : Bytes) (hl : k.length + 2 + s.length + 5 < 1073741824) :
    (∃ w, EC.interface W fuel k (goOf (.js s)) = .ok w ∧ Rep w k (.string s)) ∧
    (∃ w, EC.interface W fuel k (goOf (.symbol s)) = .ok w ∧ Rep w k (.string s)) ∧
    ∀ t ∈ [BVal.undefined, .minKey, .maxKey], ∃ w, EC.interface W fuel k (goOf t) = .ok w ∧ Rep w k .null := by
  have h1 : ∃ w, EC.interface W fuel k (.str s) = .ok w ∧ Rep w k (.string s) :=
    build (t := .string s) hk (by simp [BVal.WF]) (by simp [BVal.enc]; omega)
  refine ⟨h1, h1, fun t ht => ?_⟩
  have : goOf t = .nil := by
    simp only [List.mem_cons, List.not_mem_nil, or_false] at ht
    rcases ht with rfl | rfl | rfl <;> rfl
  rw [this]
  exact null_rep hk (by omega)

example (W : Nat → Nat) := C63_changed W 0 [107] (by simp [NulFree]) [115, 59] (by decide)

/-- Exporting code whose scope cannot be marshaled reports nothing: the scope comes back empty. -/
theorem C63_scope_lost (fuel : Nat) (k code : Bytes) (scope : Doc) (e : Err) (hk : NulFree k) (hl : k.length + code.length + 30 < 2147483648)
    (hf : code.length + 14 < fuel) (he : docMarshal fuel scope = .err e) :
    ∃ v, EC.codeWithScope k code scope = .ok v ∧ Value.interface fuel v = .ok (.codeScope code []) := by
  obtain ⟨l, h4, h⟩ := codeWithScope_ok (k := k) (c := code) scope (by omega)
  refine ⟨_, h, ?_⟩
  have hr : Rep (.withDoc 0 (k.length + 2) (0x0F :: (k ++ 0 :: (l ++ encString code))) []) k (.codeScope code .nil) := by
    simp only [Rep]
    exact ⟨hk, by simp [encString_length]; omega, [], l ++ encString code, by simp [BVal.tag], by simp, by simp, ⟨l, [], h4, by simp⟩, trivial⟩
  obtain ⟨d, h1, _⟩ := mutableCode_rep (fuel := fuel) hr (by simp [BVal.enc, Fields.enc]; omega) (by simp [BVal.enc, Fields.enc]; omega)
  have ht := type_rep hr
  obtain ⟨n, rfl⟩ : ∃ n, fuel = n + 1 := ⟨fuel - 1, by omega⟩
  have h2 : mutableCodeWithScope (n + 1) (.withDoc 0 (k.length + 2) (0x0F :: (k ++ 0 :: (l ++ encString code))) scope) = .ok (code, scope) :=
    scope_any h1
  unfold Value.interface
  rw [show type (.withDoc 0 (k.length + 2) (0x0F :: (k ++ 0 :: (l ++ encString code))) scope) = .ok 0x0F from ht]
  simp only [Res.bind_ok, h2, he, scopeBytes]
  rfl

-- a scope holding an int32 element without its four bytes
example (k : Bytes) (hk : NulFree k) (hl : k.length < 100) := C63_scope_lost 100 k [120] [.raw 0 2 [16, 0]] .tooSmall hk (by simp; omega) (by decide) (by rfl)

/-- Of elements with the same key, `ExportMap` keeps only the last: an element whose key comes again makes no difference. -/
theorem C63_duplicates_lost (v : Value) (d : Doc) (k : Bytes) (t : BVal) (fs : Fields) (h : RepFields (v :: d) (.cons k t fs)) (hk : k ∈ fs.keys)
    (hd : (Fields.cons k t fs).NoDecimal) (hl : (encDoc (.cons k t fs)).length < 2147483648) :
    ∃ g, Returns (fun fuel => exportMap fuel (v :: d)) (.ok g) ∧ Returns (fun fuel => exportMap fuel d) (.ok g) := by
  have h1 := C63_exportMap_partial _ _ h hd hl
  simp only [encDoc, wrapDoc_length] at hl
  rw [fieldsEnc_length] at hl
  have h2 := C63_exportMap_partial d fs h.2 hd.2 (by simp only [encDoc, wrapDoc_length]; omega)
  refine ⟨_, h1, ?_⟩
  simp only [goOfFields, if_pos hk]
  exact h2

example : ∃ v d g, RepFields (v :: d) (.cons [97] (.int32 1) (.cons [97] (.int32 2) .nil)) ∧ Returns (fun fuel => exportMap fuel (v :: d)) (.ok g) ∧ Returns (fun fuel => exportMap fuel d) (.ok g) := by
  obtain ⟨d, _, h⟩ := buildDoc_rep (.cons [97] (.int32 1) (.cons [97] (.int32 2) .nil)) (by simp [Fields.WF, BVal.WF, NulFree]) (by decide +kernel)
  cases d with
  | nil => simp [RepFields] at h
  | cons v d =>
    obtain ⟨g, h1, h2⟩ := C63_duplicates_lost v d _ _ _ h (by simp [Fields.keys]) (by simp [Fields.NoDecimal, BVal.NoDecimal]) (by decide +kernel)
    exact ⟨v, d, g, h, h1, h2⟩

/-! ### C64 -/

/-- `EC.Interface` builds the value the Go data stands for, with the given key: for all supported Go values at every depth, and for every order in which maps
    are visited. -/
theorem C64_builds (W : Nat → Nat) (fuel : Nat) (k : Bytes) (g : Go) (t : BVal) (h : Denotes W g t) (hk : NulFree k) (wf : t.WF)
    (hl : k.length + 2 + t.enc.length < 1073741824) (hf : 1073741824 ≤ fuel) :
    ∃ v, EC.interface W fuel k g = .ok v ∧ Rep v k t :=
  interface_rep h hk wf hl (by omega)

/-- The same for `ECE.Interface`, which returns no error for them, except if the value is null without being nil. -/
theorem C64_builds_err (W : Nat → Nat) (fuel : Nat) (k : Bytes) (g : Go) (t : BVal) (h : Denotes W g t) (h0 : t = .null → g = .nil) (hk : NulFree k) (wf : t.WF)
    (hl : k.length + 2 + t.enc.length < 1073741824) (hf : 1073741824 ≤ fuel) :
    ∃ v, ECE.interface W fuel k g = .ok v ∧ Rep v k t :=
  interfaceErr_rep h h0 hk wf hl (by omega)

/-- map[string]any{"n": uint64(2^40), "l": []any{"x", []int32{1, 2}, nil}} -/
def goMap : Go :=
  .map (.cons [110] (.int (.uint64 1099511627776)) (.cons [108] (.slice (.cons (.str [120]) (.cons (.int32s [1, 2]) (.cons .nil .nil)))) .nil))

/-- {"n": 2^40, "l": ["x", [1, 2], null]} -/
def goMapBson : BVal :=
  .doc (.cons [110] (.int64 1099511627776) (.cons [108] (.array (.cons (.string [120]) (.cons (.array (.cons (.int32 1) (.cons (.int32 2) .nil))) (.cons .null .nil)))) .nil))

theorem goMap_denotes (W : Nat → Nat) : Denotes W goMap goMapBson :=
  .map (.cons _ (.int (.uint64 1099511627776) ⟨by simp [inRange], by simp [intVal], by simp⟩)
    (.cons _ (.slice (.cons (.str _) (.cons (.int32s [1, 2]) (.cons .nil .nil)))) .nil))

theorem goMapBson_wf : goMapBson.WF := by simp [goMapBson, Fields.WF, BVal.WF, Vals.WF, NulFree]

example (W : Nat → Nat) := C64_builds W 1073741824 [107] goMap goMapBson (goMap_denotes W) (by simp [NulFree]) goMapBson_wf (by decide +kernel) (by decide)

example (W : Nat → Nat) := C64_builds_err W 1073741824 [107] goMap goMapBson (goMap_denotes W) (by simp [goMapBson]) (by simp [NulFree]) goMapBson_wf (by decide +kernel) (by decide)

/-- Values of types without a case (`[]byte`, object ids, decimals, regular expressions, pointers, code with scope, `time.Duration`, other types):
    `EC.Interface` makes null of them, `ECE.Interface` returns an error. -/
theorem C64_unsupported (W : Nat → Nat) (fuel : Nat) (k : Bytes) (g : Go) (h : Unsupported g) (hk : NulFree k) (hl : k.length + 2 < 1073741824) :
    (∃ v, EC.interface W fuel k g = .ok v ∧ Rep v k .null) ∧ ECE.interface W fuel k g = .err .other :=
  unsupported_rep h hk hl

example (W : Nat → Nat) := C64_unsupported W 0 [107] (.duration 1000000000) trivial (by simp [NulFree]) (by decide)

/-- `ECE.Interface` reports nothing when an unsupported value is inside a slice or a map: it becomes null. -/
theorem C64_nested_lost (W : Nat → Nat) (fuel : Nat) (k k' : Bytes) (g : Go) (h : Unsupported g) (hk : NulFree k) (hl : k.length + 2 < 1073741824)
    (hk' : NulFree k') (hl' : k'.length + 2 < 1073741824) :
    (∃ v, ECE.interface W fuel k (.slice (.cons g .nil)) = .ok v ∧ Rep v k (.array (.cons .null .nil))) ∧
    (∃ v, ECE.interface W fuel k (.map (.cons k' g .nil)) = .ok v ∧ Rep v k (.doc (.cons k' .null .nil))) := by
  obtain ⟨⟨v, h1, h2⟩, _⟩ := unsupported_rep (W := W) (fuel := fuel) h nulFree_nil (by decide)
  obtain ⟨⟨v', h1', h2'⟩, _⟩ := unsupported_rep (W := W) (fuel := fuel) h hk' hl'
  obtain ⟨w, h3, h4⟩ := Ftdc.array_rep (k := k) (d := [v]) (vs := .cons .null .nil) hk (by omega) ⟨⟨_, h2⟩, trivial⟩
  obtain ⟨w', h3', h4'⟩ := Ftdc.subDocument_rep (k := k) (d := [v']) (fs := .cons k' .null .nil) hk (by omega) ⟨h2', trivial⟩
  refine ⟨⟨w, ?_, h4⟩, ⟨w', ?_, h4'⟩⟩
  · simp only [ECE.interface, ECE.checked, EC.interface, EC.sliceValues, h1, Res.bind_ok, h3, type_rep h4]
    rfl
  · simp only [ECE.interface, ECE.checked, EC.interface, DC.mapInterface, h1', Res.bind_ok, h3', type_rep h4']
    rfl

example (W : Nat → Nat) := C64_nested_lost W 0 [107] [108] (.bytes [1, 2, 3]) trivial (by simp [NulFree]) (by decide) (by simp [NulFree]) (by decide)

/-- `DCE.MapInterface` (and with it `DCE.Interface` of a map) does return an error for an unsupported value among the entries, wherever it is visited. -/
theorem C64_map_refuses (W : Nat → Nat) (fuel : Nat) (m rest : GoMap) (fs : Fields) (k : Bytes) (g : Go) (hm : DenotesMapStrict W m fs) (wf : fs.WF)
    (hl : fs.enc.length < 1073741824) (hf : 1073741824 ≤ fuel) (h : Unsupported g) (hk : NulFree k) (hkl : k.length + 2 < 1073741824) :
    DCE.mapInterface W fuel (GoMap.append m (.cons k g rest)) = .err .other ∧
    DCE.interface W fuel (.map (GoMap.append m (.cons k g rest))) = .err .other := by
  obtain ⟨d, h1, _⟩ := mapInterfaceErr_rep hm wf hl (by omega : fs.enc.length < fuel)
  have h2 : DCE.mapInterface W fuel (.cons k g rest) = .err .other := by
    simp only [DCE.mapInterface, (unsupported_rep (W := W) (fuel := fuel) h hk hkl).2]
    rfl
  have := mapInterface_append _ _ h2 m h1
  exact ⟨this, this⟩

example (W : Nat → Nat) := C64_map_refuses W 1073741824 (.cons [97] .nil .nil) .nil (.cons [97] .null .nil) [98] .other (.cons _ .nil (fun _ => rfl) .nil)
  (by simp [Fields.WF, BVal.WF, NulFree]) (by decide +kernel) (by decide) trivial (by simp [NulFree]) (by decide)

/-- The same for `ECE.SliceInterface`; without unsupported values it builds the array. -/
theorem C64_slice (W : Nat → Nat) (fuel : Nat) (k : Bytes) (s rest : GoSlice) (vs : Vals) (g : Go) (hs : DenotesSliceStrict W s vs) (wf : vs.WF) (hk : NulFree k)
    (hl : k.length + 2 + (BVal.array vs).enc.length < 1073741824) (hf : 1073741824 ≤ fuel) :
    (∃ v, ECE.sliceInterface W fuel k s = .ok v ∧ Rep v k (.array vs)) ∧
    (Unsupported g → ECE.sliceInterface W fuel k (GoSlice.append s (.cons g rest)) = .err .other) := by
  simp only [BVal.enc, wrapDoc_length] at hl
  obtain ⟨d, h1, h2⟩ := sliceErr_rep (i := 0) hs wf (by omega) (by omega : (vs.encFrom 0).length < fuel)
  constructor
  · simp only [ECE.sliceInterface, h1, Res.bind_ok]
    exact Ftdc.array_rep hk (by omega) h2
  · intro h
    have h3 : ECE.sliceValues W fuel (.cons g rest) = .err .other := by
      simp only [ECE.sliceValues, (unsupported_rep (W := W) (fuel := fuel) h nulFree_nil (by decide)).2]
      rfl
    simp only [ECE.sliceInterface, sliceErr_append _ _ h3 s h1]
    rfl

example (W : Nat → Nat) := C64_slice W 1073741824 [107] (.cons (.str [97]) .nil) .nil (.cons (.string [97]) .nil) (.bytes [1]) (.cons (.str _) (by simp) .nil)
  (by simp [Vals.WF, BVal.WF]) (by simp [NulFree]) (by decide +kernel) (by decide)

/-- `EC.SliceInterface` builds the array under the key. -/
theorem C64_slice_lenient (W : Nat → Nat) (fuel : Nat) (k : Bytes) (s : GoSlice) (vs : Vals) (hs : DenotesSlice W s vs) (wf : vs.WF) (hk : NulFree k)
    (hl : k.length + 2 + (BVal.array vs).enc.length < 1073741824) (hf : 1073741824 ≤ fuel) :
    ∃ v, EC.sliceInterface W fuel k s = .ok v ∧ Rep v k (.array vs) := by
  simp only [BVal.enc, wrapDoc_length] at hl
  obtain ⟨d, h1, h2⟩ := sliceValues_rep (i := 0) hs wf (by omega) (by omega : (vs.encFrom 0).length < fuel)
  simp only [EC.sliceInterface, h1, Res.bind_ok]
  exact Ftdc.array_rep hk (by omega) h2

example (W : Nat → Nat) := C64_slice_lenient W 1073741824 [107] (.cons (.str [97]) .nil) (.cons (.string [97]) .nil) (.cons (.str _) .nil)
  (by simp [Vals.WF, BVal.WF]) (by simp [NulFree]) (by decide +kernel) (by decide)

/-- `DC.Interface` and `DCE.Interface` build the document a Go value stands for. -/
theorem C64_document (W : Nat → Nat) (fuel : Nat) (g : Go) (fs : Fields) (h : DenotesDoc W g fs) (wf : fs.WF) (hl : (encDoc fs).length < 1073741824)
    (hf : 1073741824 ≤ fuel) :
    (∃ d, DC.interface W fuel g = .ok d ∧ RepFields d fs) ∧ (∃ d, DCE.interface W fuel g = .ok d ∧ RepFields d fs) := by
  have hl' := hl
  simp only [encDoc, wrapDoc_length] at hl'
  have hr : ∃ d, readDocument fuel (encDoc fs) = .ok d ∧ RepFields d fs := by
    obtain ⟨d, h1, h2⟩ := readDocument_enc fuel fs wf [] (by omega) (by simp only [List.append_nil]; omega)
    exact ⟨d, by simpa using h1, h2⟩
  cases h with
  | map h => exact ⟨mapInterface_rep (strict_map h) wf (by omega) (by omega), mapInterfaceErr_rep h wf (by omega) (by omega)⟩
  | mapAny h => exact ⟨mapInterface_rep (strict_map h) wf (by omega) (by omega), mapInterfaceErr_rep h wf (by omega) (by omega)⟩
  | mapStr m => exact ⟨mapString_rep wf (by omega), mapString_rep wf (by omega)⟩
  | elem h => exact ⟨⟨_, rfl, h, trivial⟩, ⟨_, rfl, h, trivial⟩⟩
  | elems h => exact ⟨⟨_, rfl, h⟩, ⟨_, rfl, h⟩⟩
  | doc h => exact ⟨⟨_, rfl, h⟩, ⟨_, rfl, h⟩⟩
  | docMarshaler h => exact ⟨⟨_, rfl, h⟩, ⟨_, rfl, h⟩⟩
  | reader fs =>
    obtain ⟨d, h1, h2⟩ := hr
    exact ⟨⟨d, by simp [DC.interface, h1, orEmpty], h2⟩, ⟨d, h1, h2⟩⟩
  | marshaler fs =>
    obtain ⟨d, h1, h2⟩ := hr
    exact ⟨⟨d, by simp [DC.interface, DCE.marshaler, outcome, h1, orEmpty], h2⟩, ⟨d, h1, h2⟩⟩

example (W : Nat → Nat) := C64_document W 1073741824 (.reader (encDoc goSample)) goSample (.reader _) goSample_wf (by decide +kernel) (by decide)

/-- From anything that is not a document `DC.Interface` makes an empty document and `DCE.Interface` an error. -/
theorem C64_not_document (W : Nat → Nat) (fuel : Nat) (g : Go) (h : NotDocument g) :
    DC.interface W fuel g = .ok [] ∧ DCE.interface W fuel g = .err .other := by
  cases g with
  | docMarshaler r => cases r with
    | none => exact ⟨rfl, rfl⟩
    | some _ => simp [NotDocument] at h
  | marshaler r => cases r with
    | none => exact ⟨rfl, rfl⟩
    | some _ => simp [NotDocument] at h
  | _ => first | exact ⟨rfl, rfl⟩ | (simp [NotDocument] at h)

-- a `*Value` holding a document
example (W : Nat → Nat) (v : Value) := C64_not_document W 0 (.value v) trivial

/-- A `Reader` holding a truncated document: `EC.Interface` makes null of it, `DC.Interface` an empty document;
    `ECE.Interface` and `DCE.Interface` return an error. -/
theorem C64_truncated_reader (W : Nat → Nat) (fuel : Nat) (k b rest : Bytes) (fs : Fields) (h : b ++ rest = encDoc fs) (hr : rest ≠ [])
    (hs : (encDoc fs).length < 1073741824) (hk : NulFree k) (hl : k.length + 2 < 1073741824) :
    (∃ v, EC.interface W fuel k (.reader b) = .ok v ∧ Rep v k .null) ∧ (∃ e, ECE.interface W fuel k (.reader b) = .err e) ∧
    DC.interface W fuel (.reader b) = .ok [] ∧ (∃ e, DCE.interface W fuel (.reader b) = .err e) := by
  obtain ⟨v, h1, h2⟩ := null_rep hk hl
  obtain ⟨e, he⟩ := Wire.readDocument_cut fuel (by omega) hr h.symm
  obtain ⟨e', he'⟩ := Wire.readerValidate_cut fuel (by omega) hr h.symm
  exact ⟨⟨v, by simpa [EC.interface, he, orNull] using h1, h2⟩, ⟨e', by simp [ECE.interface, ECE.marshaler, readerMarshal, he']⟩,
    by simp [DC.interface, he, orEmpty], ⟨e, he⟩⟩

-- {"a": null} without its last byte
example (W : Nat → Nat) := C64_truncated_reader W 7 [107] [8, 0, 0, 0, 10, 97, 0] [0] (.cons [97] .null .nil) (by rfl) (by simp) (by decide)
  (by simp [NulFree]) (by decide)

/-- Values whose `MarshalDocument` or `MarshalBSON` fails: `EC.Interface` makes null of them, `ECE.Interface` returns an error. -/
theorem C64_failing_marshaler (W : Nat → Nat) (fuel : Nat) (k : Bytes) (g : Go) (h : g = .docMarshaler none ∨ g = .marshaler none)
    (hk : NulFree k) (hl : k.length + 2 < 1073741824) :
    (∃ v, EC.interface W fuel k g = .ok v ∧ Rep v k .null) ∧ ECE.interface W fuel k g = .err .other := by
  obtain ⟨v, h1, h2⟩ := null_rep hk hl
  rcases h with rfl | rfl
  · exact ⟨⟨v, h1, h2⟩, rfl⟩
  · exact ⟨⟨v, h1, h2⟩, rfl⟩

example (W : Nat → Nat) := C64_failing_marshaler W 0 [107] (.marshaler none) (.inr rfl) (by simp [NulFree]) (by decide)

/-- `EC.Interface` of an `*Element` gives the element itself: the key passed to `EC.Interface` is ignored. -/
theorem C64_element_key_ignored (W : Nat → Nat) (fuel : Nat) (k k' : Bytes) (v : Value) (t : BVal) (h : Rep v k' t) (hne : k ≠ k') :
    ∃ w, EC.interface W fuel k (.elem v) = .ok w ∧ key w = .ok k' ∧ ¬ Rep w k t :=
  ⟨v, rfl, key_rep h, fun h' => hne (Res.ok.inj ((key_rep h').symm.trans (key_rep h)))⟩

example (W : Nat → Nat) : ∃ v, Rep v [97] (.int32 1) ∧ ∃ w, EC.interface W 0 [98] (.elem v) = .ok w ∧ key w = .ok [97] ∧ ¬ Rep w [98] (.int32 1) := by
  obtain ⟨v, _, h⟩ := buildVal_rep [97] (.int32 1) (by simp [NulFree]) (by simp [BVal.WF]) (by decide +kernel)
  exact ⟨v, h, C64_element_key_ignored W 0 [98] [97] v _ h (by decide)⟩

/-- `ECE.Interface` of an `*Element` returns, without an error, an element that claims to be a document and holds the bytes of the other element instead:
    if that has a key and is short, the result is invalid. -/
theorem C64_element_corrupted (W : Nat → Nat) (fuel : Nat) (k k' : Bytes) (v : Value) (t : BVal) (h : Rep v k' t) (hk : k.length < 1073741824)
    (h0 : k' ≠ []) (hl : k'.length + 2 + t.enc.length ≤ 256) (hf : 256 ≤ fuel) :
    ∃ w, ECE.interface W fuel k (.elem v) = .ok w ∧ type w = .ok 0x03 ∧ ∀ n, elemValidate fuel w ≠ .ok n := by
  obtain ⟨w, h1, h2, h3⟩ := corrupted h hk h0 hl fuel hf
  exact ⟨w, h1, h2, h3⟩

example (W : Nat → Nat) : ∃ v, Rep v [97] (.int32 1) ∧
    ∃ w, ECE.interface W 256 [98] (.elem v) = .ok w ∧ type w = .ok 0x03 ∧ ∀ n, elemValidate 256 w ≠ .ok n := by
  obtain ⟨v, _, h⟩ := buildVal_rep [97] (.int32 1) (by simp [NulFree]) (by simp [BVal.WF]) (by decide +kernel)
  exact ⟨v, h, C64_element_corrupted W 256 [98] [97] v _ h (by decide) (by decide) (by decide) (by decide)⟩

/-- An `*Array` becomes a document with the keys "0", "1", ... instead of an array, with both constructors. -/
theorem C64_array_becomes_document (W : Nat → Nat) (fuel : Nat) (k : Bytes) (a : Doc) (vs : Vals) (h : RepVals a vs) (hk : NulFree k)
    (hl : k.length + 2 + (BVal.array vs).enc.length < 1073741824) (hf : 1073741824 ≤ fuel) :
    (∃ v, EC.interface W fuel k (.array a) = .ok v ∧ Rep v k (.doc (numbered 0 vs))) ∧
    (∃ v, ECE.interface W fuel k (.array a) = .ok v ∧ Rep v k (.doc (numbered 0 vs))) := by
  simp only [BVal.enc, wrapDoc_length] at hl
  have h1 := arrMarshal_rep fuel h (by simp only [wrapDoc_length]; omega) (by simp only [wrapDoc_length]; omega)
  have e : wrapDoc (vs.encFrom 0) = encDoc (numbered 0 vs) := by rw [encDoc, numbered_toFields, toFields_enc]
  rw [e] at h1
  have wf : (numbered 0 vs).WF := by rw [numbered_toFields]; exact toFields_wf 0 vs (repVals_wf h)
  obtain ⟨w, h3, h4⟩ := subDocumentFromReader_rep k (numbered 0 vs) hk wf (by rw [← e]; simp only [wrapDoc_length]; omega)
  exact ⟨⟨w, by simp [EC.interface, ECE.marshaler, h1, h3, orNull], h4⟩, ⟨w, by simp [ECE.interface, ECE.marshaler, h1, h3], h4⟩⟩

example (W : Nat → Nat) : ∃ a, RepVals a (.cons (.int32 1) .nil) ∧
    (∃ v, EC.interface W 1073741824 [107] (.array a) = .ok v ∧ Rep v [107] (.doc (.cons [48] (.int32 1) .nil))) := by
  obtain ⟨a, _, h⟩ := buildArr_rep (.cons (.int32 1) .nil) 0 (by simp [Vals.WF, BVal.WF]) (by decide +kernel)
  exact ⟨a, h, (C64_array_becomes_document W 1073741824 [107] a _ h (by simp [NulFree]) (by decide +kernel) (by decide)).1⟩

end Birch.Props
