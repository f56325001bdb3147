import Verif.Proofs.ExtJson
import Verif.Props.JsonRead
import Verif.Props.Bson

/-
C59, C60, C61: extended JSON.
-/

namespace Birch.Props
open Birch Spec Spec.ExtJson Model Model.ExtJson Proofs Proofs.ExtJson

/-- `{"a": "é\"", "b": {"x": [2.5, null, {"$oid": …}]}, "c": {"$date": …}, "d": {"$code": "1", "$scope": {"e": -5}}, "f": {"$timestamp": {"t": 7, "i": 9}}, "g": 2^40}` -/
def extSample : Fields :=
  .cons [97] (.string [0xC3, 0xA9, 34]) <|
  .cons [98] (.doc (.cons [120] (.array (.cons (.double 0x4004000000000000) (.cons .null (.cons (.oid [1, 2, 3, 4, 5, 6, 7, 8, 9, 10, 11, 12]) .nil)))) .nil)) <|
  .cons [99] (.datetime 7) <|
  .cons [100] (.codeScope [49] (.cons [101] (.int32 (-5)) .nil)) <|
  .cons [102] (.timestamp 7 9) <|
  .cons [103] (.int64 (2 ^ 40)) .nil

theorem extSample_wf : extSample.WF := by simp [extSample, Fields.WF, BVal.WF, Vals.WF, NulFree]
theorem extSample_size : (encDoc extSample).length < 2 ^ 31 := by decide +kernel

/-! ### C59 -/

/-- `Document.MarshalJSON` writes the relaxed extended JSON of the document, for every nesting.  Missing from the full claim: binary data, pointers and decimals, which are written
    differently (below); keys that need escapes and NaN (C30); the text of dates, which is a parameter. -/
theorem C59_marshal_partial (C : Clock) (d : Doc) (fs : Fields) (hr : RepFields d fs) (hl : (encDoc fs).length < 2 ^ 31) (hs : ShownFields C fs) :
    ∃ t es, Returns (fun n => marshalDocument C n d) (.ok t) ∧ Json.read t = some (.obj es) ∧ ExtFields C fs es := by
  obtain ⟨js, h1, h2, h3⟩ := shownFields_js C fs hs
  obtain ⟨t, j, h4, h5, h6⟩ := Proofs.Json.read_marshal (v := .obj js) (by rw [Json.Plain]; exact h2)
  cases h6 with
  | obj h6 => exact ⟨t, _, marshalDocument_ok hr hl h1 h4, h5, h3 _ h6⟩

example (C : Clock) (hC : C.parse (C.format 7) = some 7) : ∃ d t es, buildDoc extSample = .ok d ∧ Returns (fun n => marshalDocument C n d) (.ok t) ∧
    Json.read t = some (.obj es) ∧ ExtFields C extSample es := by
  obtain ⟨d, h1, h2⟩ := buildDoc_rep extSample extSample_wf (by decide +kernel)
  obtain ⟨t, es, h⟩ := C59_marshal_partial C d extSample h2 extSample_size (by
    simp only [extSample, ShownFields, Shown, ShownVals, Json.PlainKey, hC, true_and, and_true]
    exact ⟨by decide, by decide, ⟨by decide, false, _, _, .normal (x := 1024) (f := 0x4000000000000) rfl (by decide) (by decide) (by decide)⟩, by decide, by decide,
      by decide, by decide, by decide⟩)
  exact ⟨d, t, es, h1, h⟩

/-- … `Array.MarshalJSON` -/
theorem C59_array_partial (C : Clock) (d : Doc) (vs : Vals) (hr : RepVals d vs) (hl : (vs.encFrom 0).length < 2 ^ 31) (hs : ShownVals C vs) :
    ∃ t js, Returns (fun n => marshalArray C n d) (.ok t) ∧ Json.read t = some (.arr js) ∧ ExtVals C vs js := by
  obtain ⟨js, h1, h2, h3⟩ := shownVals_js C vs hs
  obtain ⟨t, j, h4, h5, h6⟩ := Proofs.Json.read_marshal (v := .arr js) (by rw [Json.Plain]; exact h2)
  cases h6 with
  | arr h6 => exact ⟨t, _, marshalArray_ok hr hl h1 h4, h5, h3 _ h6⟩

/-- … and `Value.MarshalJSON`. -/
theorem C59_value_partial (C : Clock) (v : Value) (k : Bytes) (x : BVal) (hr : Rep v k x) (hl : x.enc.length < 2 ^ 31) (hs : Shown C x) :
    ∃ t j, Returns (fun n => marshalValue C n v) (.ok t) ∧ Json.read t = some j ∧ Ext C x j := by
  obtain ⟨js, h1, h2, h3⟩ := shown_js C x hs
  obtain ⟨t, j, h4, h5, h6⟩ := Proofs.Json.read_marshal h2
  exact ⟨t, _, marshalValue_ok hr hl h1 h4, h5, h3 _ h6⟩

example (C : Clock) : ∃ v t j, buildVal [107] (.array (.cons .minKey (.cons (.regex [97] [105]) .nil))) = .ok v ∧ Returns (fun n => marshalValue C n v) (.ok t) ∧
    Json.read t = some j ∧ Ext C (.array (.cons .minKey (.cons (.regex [97] [105]) .nil))) j := by
  obtain ⟨v, h1, h2⟩ := buildVal_rep [107] (.array (.cons .minKey (.cons (.regex [97] [105]) .nil))) (by simp [NulFree]) (by simp [BVal.WF, Vals.WF, NulFree]) (by decide +kernel)
  obtain ⟨t, j, h⟩ := C59_value_partial C v _ _ h2 (by decide +kernel) (by simp [Shown, ShownVals])
  exact ⟨v, t, j, h1, h⟩

example (C : Clock) : ∃ d t js, buildArr (.cons .minKey (.cons (.regex [97] [105]) .nil)) = .ok d ∧ Returns (fun n => marshalArray C n d) (.ok t) ∧
    Json.read t = some (.arr js) ∧ ExtVals C (.cons .minKey (.cons (.regex [97] [105]) .nil)) js := by
  obtain ⟨d, h1, h2⟩ := buildArr_rep (.cons .minKey (.cons (.regex [97] [105]) .nil)) 0 (by simp [BVal.WF, Vals.WF, NulFree]) (by decide +kernel)
  obtain ⟨t, j, h⟩ := C59_array_partial C d _ h2 (by decide +kernel) (by simp [Shown, ShownVals])
  exact ⟨d, t, j, h1, h⟩

/-- A value whose type byte is that of no BSON value is refused with an error. -/
theorem C59_unknown (C : Clock) (v : Value) (t : UInt8) (ht : type v = .ok t) (hu : ∀ x : BVal, x.tag ≠ t) :
    Returns (fun fuel => marshalValue C fuel v) (.err .other) := by
  refine ⟨1, fun m hm => ?_⟩
  obtain ⟨n, rfl⟩ : ∃ n, m = n + 1 := ⟨m - 1, by omega⟩
  have h1 := hu (.double 0); have h2 := hu (.string []); have h3 := hu (.doc .nil); have h4 := hu (.array .nil); have h5 := hu (.binary 0 [])
  have h6 := hu .undefined; have h7 := hu (.oid []); have h8 := hu (.bool true); have h9 := hu (.datetime 0); have h10 := hu .null
  have h11 := hu (.regex [] []); have h12 := hu (.dbpointer [] []); have h13 := hu (.js []); have h14 := hu (.symbol []); have h15 := hu (.codeScope [] .nil)
  have h16 := hu (.int32 0); have h17 := hu (.timestamp 0 0); have h18 := hu (.int64 0); have h19 := hu (.decimal 0 0); have h20 := hu .minKey; have h21 := hu .maxKey
  simp only [BVal.tag, ne_eq] at h1 h2 h3 h4 h5 h6 h7 h8 h9 h10 h11 h12 h13 h14 h15 h16 h17 h18 h19 h20 h21
  simp [marshalValue, toJSON, ht, Ne.symm h1, Ne.symm h2, Ne.symm h3, Ne.symm h4, Ne.symm h5, Ne.symm h6, Ne.symm h7, Ne.symm h8, Ne.symm h9, Ne.symm h10,
    Ne.symm h11, Ne.symm h12, Ne.symm h13, Ne.symm h14, Ne.symm h15, Ne.symm h16, Ne.symm h17, Ne.symm h18, Ne.symm h19, Ne.symm h20, Ne.symm h21, Json.marshal, orErr]

example : ∃ v : Value, type v = .ok 0x20 ∧ ∀ x : BVal, x.tag ≠ 0x20 :=
  ⟨.raw 0 2 [0x20, 0], by decide, fun x => by cases x <;> simp [BVal.tag]⟩

/-- Binary data are never written as extended JSON: the subtype is written as `base64` and the data, which are not encoded, as `subType`. -/
theorem C59_binary_wrong (C : Clock) (v : Value) (k : Bytes) (st : UInt8) (b : Bytes) (hr : Rep v k (.binary st b)) (hl : (BVal.binary st b).enc.length < 2 ^ 31) :
    ∃ t s, Returns (fun n => marshalValue C n v) (.ok t) ∧ Json.read t = some (one "$binary" (two "base64" (.str s) "subType" (.str b))) ∧
      ∀ j, Ext C (.binary st b) j → Json.read t ≠ some j := by
  obtain ⟨t, j, h4, h5, h6⟩ := Proofs.Json.read_marshal (v := obj1 kBinary (obj2 kBase64 (.str (Gjson.encodeRune st.toNat)) kSubType (.str b)))
    (plain1 (pk (by decide)) (plain2 (pk (by decide)) (plain_str _) (pk (by decide)) (plain_str _)))
  obtain ⟨z, h7, rfl⟩ := shows1 (k := "$binary") (by decide) h6
  rw [two_shows (k := "base64") (l := "subType") (by decide) (by decide) (fun _ => str_shows) (fun _ => str_shows) h7] at h5
  refine ⟨t, _, marshalValue_ok hr hl (by rw [js]) h4, h5, fun j he h => ?_⟩
  cases he
  rw [h5] at h
  simp only [one, two, Option.some.injEq, Json.J.obj.injEq, Json.Jes.cons.injEq, Json.J.str.injEq, true_and, and_true] at h
  have h1 := rune_length st
  have h2 := base64_length b
  rw [← h.1] at h2
  omega

example (C : Clock) : ∃ v, buildVal [107] (.binary 0 [1, 2, 3]) = .ok v ∧ ∃ t, Returns (fun n => marshalValue C n v) (.ok t) ∧
    Json.read t ≠ some (one "$binary" (two "base64" (.str (base64 [1, 2, 3])) "subType" (.str (hexText [0])))) := by
  obtain ⟨v, h1, h2⟩ := buildVal_rep [107] (.binary 0 [1, 2, 3]) (by simp [NulFree]) (by simp [BVal.WF]) (by decide +kernel)
  obtain ⟨t, s, h3, _, h4⟩ := C59_binary_wrong C v _ _ _ h2 (by decide +kernel)
  exact ⟨v, h1, t, h3, h4 _ .binary⟩
-- the data would be "AQID" and the subtype "00"
example : base64 [1, 2, 3] = ascii "AQID" ∧ hexText [0] = ascii "00" := by decide +kernel

/-- Pointers are never written as extended JSON: the id is written as a string. -/
theorem C59_pointer_wrong (C : Clock) (v : Value) (k ns id : Bytes) (hr : Rep v k (.dbpointer ns id)) (hl : (BVal.dbpointer ns id).enc.length < 2 ^ 31) :
    ∃ t, Returns (fun n => marshalValue C n v) (.ok t) ∧ Json.read t = some (one "$dbPointer" (two "$ref" (.str ns) "$id" (.str (hexText id)))) ∧
      ∀ j, Ext C (.dbpointer ns id) j → Json.read t ≠ some j := by
  obtain ⟨t, j, h4, h5, h6⟩ := Proofs.Json.read_marshal (v := obj1 kDbPointer (obj2 kRef (.str ns) kId (.str (ObjectID.hex id))))
    (plain1 (pk (by decide)) (plain2 (pk (by decide)) (plain_str _) (pk (by decide)) (plain_str _)))
  obtain ⟨z, h7, rfl⟩ := shows1 (k := "$dbPointer") (by decide) h6
  rw [two_shows (k := "$ref") (l := "$id") (by decide) (by decide) (fun _ => str_shows) (fun _ => str_shows) h7, hexText_eq] at h5
  refine ⟨t, marshalValue_ok hr hl (by rw [js]) h4, h5, fun j he h => ?_⟩
  cases he
  rw [h5] at h
  simp [one, two] at h

example (C : Clock) : ∃ v, buildVal [107] (.dbpointer [110] [1, 2, 3, 4, 5, 6, 7, 8, 9, 10, 11, 12]) = .ok v ∧ ∃ t, Returns (fun n => marshalValue C n v) (.ok t) ∧
    Json.read t ≠ some (one "$dbPointer" (two "$ref" (.str [110]) "$id" (one "$oid" (.str (ascii "0102030405060708090a0b0c"))))) := by
  obtain ⟨v, h1, h2⟩ := buildVal_rep [107] (.dbpointer [110] [1, 2, 3, 4, 5, 6, 7, 8, 9, 10, 11, 12]) (by simp [NulFree]) (by simp [BVal.WF]) (by decide +kernel)
  obtain ⟨t, h3, _, h4⟩ := C59_pointer_wrong C v _ _ _ h2 (by decide +kernel)
  refine ⟨v, h1, t, h3, h4 _ ?_⟩
  rw [show ascii "0102030405060708090a0b0c" = hexText [1, 2, 3, 4, 5, 6, 7, 8, 9, 10, 11, 12] by decide +kernel]
  exact .dbpointer

/-- Decimals are written with their halves exchanged: 1 is written as another number. -/
theorem C59_decimal_wrong (C : Clock) (v : Value) (k : Bytes) (hr : Rep v k (.decimal (Decimal.encode false 1 0).h.toNat (Decimal.encode false 1 0).l.toNat)) :
    ∃ t s, Returns (fun n => marshalValue C n v) (.ok t) ∧ Json.read t = some (one "$numberDecimal" (.str s)) ∧ s ≠ Decimal.text false 1 0 := by
  obtain ⟨s, hs, hne⟩ : ∃ s, Model.Decimal.toString ⟨UInt64.ofNat (Decimal.encode false 1 0).l.toNat, UInt64.ofNat (Decimal.encode false 1 0).h.toNat⟩ = .ok s ∧
      s ≠ Decimal.text false 1 0 :=
    ⟨ascii "2.1923522986039574528E-6157", by decide +kernel, by decide +kernel⟩
  obtain ⟨t, j, h4, h5, h6⟩ := Proofs.Json.read_marshal (v := obj1 kDecimal (.str s)) (plain1 (pk (by decide)) (plain_str _))
  obtain ⟨z, h7, rfl⟩ := shows1 (k := "$numberDecimal") (by decide) h6
  rw [str_shows h7] at h5
  exact ⟨t, s, marshalValue_ok hr (by simp [BVal.enc]) (by rw [js, hs]; rfl) h4, h5, hne⟩

/-! ### C60 -/

/-- Writing a document and appending what is read from the text to a document appends the fields, changed as `Back` says (integers change type, doubles are rounded and may become
    integers, dates may lose milliseconds).  Missing from the full claim: what `Back` leaves out, which is binary data, keys that need escapes, nested documents that start
    with a key like `$oid`, NaN. -/
theorem C60_roundtrip_partial (S : Gjson.Strconv) (C : Clock) (d : Doc) (fs fs' : Fields) (hr : RepFields d fs) (hl : (encDoc fs).length < 2 ^ 31) (hb : BackFields S C fs fs')
    (hw : fs'.WF) (hl' : (encDoc fs').length < 2 ^ 31) :
    ∃ t d', Returns (fun n => marshalDocument C n d) (.ok t) ∧ RepFields d' fs' ∧ ∀ e, Returns (fun n => unmarshalDocument S C e t n) (.ok (e ++ d', none)) := by
  obtain ⟨es, h1, h2, h3, ws, h4, h5⟩ := backFields_js fs fs' hb (repFields_wf hr)
  have hp : Json.Plain (.obj es) := by rw [Json.Plain]; exact h2
  obtain ⟨t, h6, h7⟩ := Gjson.marshal_val (.obj es) hp
  rw [Gjson.jOf] at h7
  obtain ⟨d', h8, h9⟩ := buildDoc_rep fs' hw (by simp only [encDoc, wrapDoc_length] at hl'; omega)
  refine ⟨t, d', marshalDocument_ok hr hl h1 h6, h9, fun e => ?_⟩
  have := unmarshalDocument_text (C := C) (val_text h7) (val_minus h7) ((Gjson.rereadElems_conv S es ws h2 h3).mp h4) e
  rw [appendAll_collect e _ d' (h5.trans h8)] at this
  exact this

/-- the sample, with the double 2.5 and the date read as 5 milliseconds -/
example (S : Gjson.Strconv) (C : Clock) (hC : C.parse (C.format 7) = some 5) (h1 : (S.parseFloat (Model.Json.formatFloat 0x4004000000000000)).1 = 0x4004000000000000)
    (h2 : S.formatFloat 0x4004000000000000 = ascii "2.5") (h3 : S.parseFloat (ascii "2.5") = (0x4004000000000000, true)) :
    ∃ d t d', buildDoc extSample = .ok d ∧ Returns (fun n => marshalDocument C n d) (.ok t) ∧
      RepFields d' (.cons [97] (.string [0xC3, 0xA9, 34]) <|
        .cons [98] (.doc (.cons [120] (.array (.cons (.double 0x4004000000000000) (.cons .null (.cons (.oid [1, 2, 3, 4, 5, 6, 7, 8, 9, 10, 11, 12]) .nil)))) .nil)) <|
        .cons [99] (.datetime 5) <| .cons [100] (.codeScope [49] (.cons [101] (.int32 (-5)) .nil)) <| .cons [102] (.timestamp 7 9) <| .cons [103] (.int64 (2 ^ 40)) .nil) ∧
      ∀ e, Returns (fun n => unmarshalDocument S C e t n) (.ok (e ++ d', none)) := by
  obtain ⟨d, a1, a2⟩ := buildDoc_rep extSample extSample_wf (by decide +kernel)
  have hd : ∃ neg m k, Json.Double 0x4004000000000000 neg m k := ⟨false, _, _, .normal (x := 1024) (f := 0x4000000000000) rfl (by decide) (by decide) (by decide)⟩
  have hw := JsonText.Written.float (S := S) (Gjson.formatFloat_not_integral (let ⟨_, _, _, hd⟩ := hd; (Proofs.Json.double_fields hd).2.1))
  rw [h1, h2] at hw
  have hb : Back S C (.double 0x4004000000000000) (.double (0x4004000000000000 : UInt64).toNat) := .double hd (.dbl hw text25_not_int h3)
  obtain ⟨t, d', a⟩ := C60_roundtrip_partial S C d extSample _ a2 extSample_size
    (.cons (by decide) .string <| .cons (by decide) (.doc (by simp [Unreserved]; decide) (.cons (by decide) (.array (.cons hb (.cons .null (.cons .oid .nil)))) .nil)) <|
      .cons (by decide) (.datetime hC) <| .cons (by decide) (.codeScope (by simp [Unreserved]; decide) (.cons (by decide) .int32 .nil)) <| .cons (by decide) .timestamp <|
      .cons (by decide) .int64 .nil)
    (by simp [Fields.WF, BVal.WF, Vals.WF, NulFree, ofInt]) (by decide +kernel)
  exact ⟨d, t, d', a1, a⟩

/-- … an array -/
theorem C60_array_partial (S : Gjson.Strconv) (C : Clock) (d : Doc) (vs vs' : Vals) (hr : RepVals d vs) (hl : (vs.encFrom 0).length < 2 ^ 31) (hb : BackVals S C vs vs')
    (hw : vs'.WF) (hl' : (vs'.encFrom 0).length < 2 ^ 31) :
    ∃ t d', Returns (fun n => marshalArray C n d) (.ok t) ∧ RepVals d' vs' ∧ ∀ e, Returns (fun n => unmarshalArray S C e t n) (.ok (e ++ d', none)) := by
  obtain ⟨es, h1, h2, h3, ws, h4, h5⟩ := backVals_js vs vs' hb (repVals_wf hr)
  have hp : Json.Plain (.arr es) := by rw [Json.Plain]; exact h2
  obtain ⟨t, h6, h7⟩ := Gjson.marshal_val (.arr es) hp
  rw [Gjson.jOf] at h7
  obtain ⟨d', h8, h9⟩ := buildArr_rep vs' 0 hw hl'
  refine ⟨t, d', marshalArray_ok hr hl h1 h6, h9, fun e => ?_⟩
  have := unmarshalArray_text (C := C) (val_text h7) (val_minus h7) ((Gjson.rereadVals_conv S es ws h2 h3).mp h4) e
  rw [appendAll_collect e _ d' (h5.trans h8)] at this
  exact this

example (S : Gjson.Strconv) (C : Clock) : ∃ d t d', buildArr (.cons .minKey (.cons (.int64 (-1)) .nil)) = .ok d ∧ Returns (fun n => marshalArray C n d) (.ok t) ∧
    RepVals d' (.cons .minKey (.cons (.int32 (-1)) .nil)) ∧ ∀ e, Returns (fun n => unmarshalArray S C e t n) (.ok (e ++ d', none)) := by
  obtain ⟨d, h1, h2⟩ := buildArr_rep (.cons .minKey (.cons (.int64 (-1)) .nil)) 0 (by simp [BVal.WF, Vals.WF]) (by decide +kernel)
  obtain ⟨t, d', h⟩ := C60_array_partial S C d _ _ h2 (by decide +kernel) (.cons .minKey (.cons .int64 .nil)) (by simp [BVal.WF, Vals.WF, ofInt]) (by decide +kernel)
  exact ⟨d, t, d', h1, h⟩

/-- … a value -/
theorem C60_value_partial (S : Gjson.Strconv) (C : Clock) (v : Value) (k : Bytes) (x x' : BVal) (hr : Rep v k x) (hl : x.enc.length < 2 ^ 31) (hb : Back S C x x')
    (hw : x'.WF) (hl' : x'.enc.length + 2 < 2 ^ 31) :
    ∃ t v', Returns (fun n => marshalValue C n v) (.ok t) ∧ Rep v' [] x' ∧ Returns (fun n => unmarshalValue S C t n) (.ok v') := by
  obtain ⟨j, h1, h2, h3, w, h4, h5⟩ := back_js x x' hb (rep_wf hr)
  obtain ⟨t, h6, h7⟩ := Gjson.marshal_val j h2
  obtain ⟨v', h8, h9⟩ := buildVal_rep [] x' (by simp [NulFree]) hw (by simp; omega)
  refine ⟨t, v', marshalValue_ok hr hl h1 h6, h9, ?_⟩
  have := unmarshalValue_conv (C := C) (val_text h7) (val_minus h7) ((Gjson.reread_conv S j w h2 h3).mp h4)
  rw [h5, h8] at this
  exact this

example (S : Gjson.Strconv) (C : Clock) : ∃ v t v', buildVal [107] (.regex [97] [105]) = .ok v ∧ Returns (fun n => marshalValue C n v) (.ok t) ∧
    Rep v' [] (.regex [97] [105]) ∧ Returns (fun n => unmarshalValue S C t n) (.ok v') := by
  obtain ⟨v, h1, h2⟩ := buildVal_rep [107] (.regex [97] [105]) (by simp [NulFree]) (by simp [BVal.WF, NulFree]) (by decide +kernel)
  obtain ⟨t, v', h⟩ := C60_value_partial S C v _ _ _ h2 (by decide +kernel) .regex (by simp [BVal.WF, NulFree]) (by decide +kernel)
  exact ⟨v, t, v', h1, h⟩

/-- Documents without doubles, decimals and int64 values below 2^31-1 come back as they are. -/
theorem C60_same_partial (S : Gjson.Strconv) (C : Clock) (d : Doc) (fs : Fields) (hr : RepFields d fs) (hl : (encDoc fs).length < 2 ^ 31) (hk : KeptFields C fs) :
    ∃ t d', Returns (fun n => marshalDocument C n d) (.ok t) ∧ RepFields d' fs ∧ Returns (fun n => unmarshalDocument S C [] t n) (.ok (d', none)) := by
  obtain ⟨t, d', h1, h2, h3⟩ := C60_roundtrip_partial S C d fs fs hr hl (keptFields_back fs (repFields_wf hr) hk) (repFields_wf hr) hl
  exact ⟨t, d', h1, h2, h3 []⟩

example (S : Gjson.Strconv) (C : Clock) (hC : C.parse (C.format 7) = some 7) :
    let fs : Fields := .cons [97] (.doc (.cons [98] (.int32 (-5)) (.cons (ascii "$oid") (.datetime 7) .nil))) (.cons [99] (.dbpointer [110] [1, 2, 3, 4, 5, 6, 7, 8, 9, 10, 11, 12]) .nil)
    ∃ d t d', buildDoc fs = .ok d ∧ Returns (fun n => marshalDocument C n d) (.ok t) ∧ RepFields d' fs ∧ Returns (fun n => unmarshalDocument S C [] t n) (.ok (d', none)) := by
  intro fs
  obtain ⟨d, h1, h2⟩ := buildDoc_rep fs (by simp [fs, Fields.WF, BVal.WF, NulFree, ascii]) (by decide +kernel)
  obtain ⟨t, d', h⟩ := C60_same_partial S C d fs h2 (by decide +kernel) (by
    simp only [fs, KeptFields, Kept, Unreserved, hC]
    exact ⟨by decide, ⟨by decide, by decide, by decide, by decide, trivial, trivial⟩, by decide, by decide, trivial⟩)
  exact ⟨d, t, d', h1, h⟩

/-- int64 values below 2^31-1 come back as int32 values, and other numbers if they are below -2^31. -/
theorem C60_int64_narrowed (S : Gjson.Strconv) (C : Clock) (v : Value) (k : Bytes) (i : Int) (hr : Rep v k (.int64 i)) (h : i < 2 ^ 31 - 1) :
    ∃ t v' i', Returns (fun n => marshalValue C n v) (.ok t) ∧ Returns (fun n => unmarshalValue S C t n) (.ok v') ∧ Rep v' [] (.int32 i') ∧
      (-2 ^ 31 ≤ i → i' = i) ∧ (i < -2 ^ 31 → i' ≠ i) := by
  have e : ofInt i = .int32 ((i + 2147483648) % 4294967296 - 2147483648) := by unfold ofInt; rw [if_pos (by omega)]
  obtain ⟨t, v', h1, h2, h3⟩ := C60_value_partial S C v k _ (ofInt i) hr (by simp [BVal.enc]) .int64 (by rw [e, BVal.WF]; omega) (by rw [e]; simp [BVal.enc])
  rw [e] at h2
  exact ⟨t, v', _, h1, h3, h2, by omega, by omega⟩

example : ∃ v, Rep v [107] (.int64 (-2147483649)) := by
  obtain ⟨v, _, h⟩ := buildVal_rep [107] (.int64 (-2147483649)) (by simp [NulFree]) (by simp [BVal.WF]) (by decide +kernel)
  exact ⟨v, h⟩

/-- The int32 2^31-1 comes back as an int64. -/
theorem C60_int32_widened (S : Gjson.Strconv) (C : Clock) (v : Value) (k : Bytes) (hr : Rep v k (.int32 (2 ^ 31 - 1))) :
    ∃ t v', Returns (fun n => marshalValue C n v) (.ok t) ∧ Returns (fun n => unmarshalValue S C t n) (.ok v') ∧ Rep v' [] (.int64 (2 ^ 31 - 1)) := by
  obtain ⟨t, v', h1, h2, h3⟩ := C60_value_partial S C v k _ (ofInt (2 ^ 31 - 1)) hr (by simp [BVal.enc]) .int32 (by simp [ofInt, BVal.WF]) (by simp [ofInt, BVal.enc])
  exact ⟨t, v', h1, h3, h2⟩

example : ∃ v, Rep v [107] (.int32 (2 ^ 31 - 1)) := by
  obtain ⟨v, _, h⟩ := buildVal_rep [107] (.int32 (2 ^ 31 - 1)) (by simp [NulFree]) (by simp [BVal.WF]) (by decide +kernel)
  exact ⟨v, h⟩

/-- Reading what was written for binary data panics. -/
theorem C60_binary_panics (S : Gjson.Strconv) (C : Clock) (v : Value) (k : Bytes) (st : UInt8) (b : Bytes) (hr : Rep v k (.binary st b))
    (hl : (BVal.binary st b).enc.length < 2 ^ 31) :
    ∃ t, Returns (fun n => marshalValue C n v) (.ok t) ∧ Returns (fun n => unmarshalValue S C t n) .panic := by
  have hp : Json.Plain (obj1 kBinary (obj2 kBase64 (.str (Gjson.encodeRune st.toNat)) kSubType (.str b))) :=
    plain1 (pk (by decide)) (plain2 (pk (by decide)) (plain_str _) (pk (by decide)) (plain_str _))
  obtain ⟨t, h6, h7⟩ := Gjson.marshal_val _ hp
  refine ⟨t, marshalValue_ok hr hl (by rw [js]) h6, ?_⟩
  exact unmarshalValue_conv (C := C) (val_text h7) (val_minus h7) ((Gjson.reread_conv S _ _ hp (ints1 (ints2 (ints_str _) (ints_str _)))).mp (reread1 (reread2 .str .str)))

example (S : Gjson.Strconv) (C : Clock) : ∃ v t, buildVal [107] (.binary 0 [1, 2, 3]) = .ok v ∧ Returns (fun n => marshalValue C n v) (.ok t) ∧
    Returns (fun n => unmarshalValue S C t n) .panic := by
  obtain ⟨v, h1, h2⟩ := buildVal_rep [107] (.binary 0 [1, 2, 3]) (by simp [NulFree]) (by simp [BVal.WF]) (by decide +kernel)
  obtain ⟨t, h⟩ := C60_binary_panics S C v _ _ _ h2 (by decide +kernel)
  exact ⟨v, t, h1, h⟩

/-- A pointer into a collection without a name cannot be read again. -/
theorem C60_pointer_refused (S : Gjson.Strconv) (C : Clock) (v : Value) (k id : Bytes) (hr : Rep v k (.dbpointer [] id)) (hl : (BVal.dbpointer [] id).enc.length < 2 ^ 31) :
    ∃ t, Returns (fun n => marshalValue C n v) (.ok t) ∧ Returns (fun n => unmarshalValue S C t n) (.err .other) := by
  have hp : Json.Plain (obj1 kDbPointer (obj2 kRef (.str []) kId (.str (ObjectID.hex id)))) :=
    plain1 (pk (by decide)) (plain2 (pk (by decide)) (plain_str _) (pk (by decide)) (plain_str _))
  obtain ⟨t, h6, h7⟩ := Gjson.marshal_val _ hp
  refine ⟨t, marshalValue_ok hr hl (by rw [js]) h6, ?_⟩
  exact unmarshalValue_conv (C := C) (val_text h7) (val_minus h7) ((Gjson.reread_conv S _ _ hp (ints1 (ints2 (ints_str _) (ints_str _)))).mp (reread1 (reread2 .str .str)))

example : ∃ v, Rep v [107] (.dbpointer [] [1, 2, 3, 4, 5, 6, 7, 8, 9, 10, 11, 12]) ∧ (BVal.dbpointer [] [1, 2, 3, 4, 5, 6, 7, 8, 9, 10, 11, 12]).enc.length < 2 ^ 31 := by
  obtain ⟨v, _, h⟩ := buildVal_rep [107] (.dbpointer [] [1, 2, 3, 4, 5, 6, 7, 8, 9, 10, 11, 12]) (by simp [NulFree]) (by simp [BVal.WF]) (by decide +kernel)
  exact ⟨v, h, by decide +kernel⟩

/-- A nested document whose first key is `$minKey` comes back as a MinKey; its fields are lost. -/
theorem C60_reserved_confused (S : Gjson.Strconv) (C : Clock) (v : Value) (k : Bytes) (fs fs' : Fields) (x : BVal) (hr : Rep v k (.doc (.cons (ascii "$minKey") x fs)))
    (hl : (BVal.doc (.cons (ascii "$minKey") x fs)).enc.length < 2 ^ 31) (hb : BackFields S C (.cons (ascii "$minKey") x fs) fs') :
    ∃ t v', Returns (fun n => marshalValue C n v) (.ok t) ∧ Returns (fun n => unmarshalValue S C t n) (.ok v') ∧ Rep v' [] .minKey := by
  have hw := rep_wf hr
  rw [BVal.WF] at hw
  obtain ⟨es, h1, h2, h3, ws, h4, h5⟩ := backFields_js _ fs' hb hw
  have hp : Json.Plain (.obj es) := by rw [Json.Plain]; exact h2
  obtain ⟨t, h6, h7⟩ := Gjson.marshal_val (.obj es) hp
  obtain ⟨v', h8, h9⟩ := buildVal_rep [] .minKey (by simp [NulFree]) (by simp [BVal.WF]) (by simp [BVal.enc])
  refine ⟨t, v', marshalValue_ok hr hl (by rw [js, h1]; rfl) h6, ?_, h9⟩
  have := unmarshalValue_conv (C := C) (val_text h7) (val_minus h7) ((Gjson.reread_conv S (.obj es) (.obj ws) hp (by rw [JsonText.Ints]; exact h3)).mp (.obj h4))
  rw [jsFields] at h1
  simp only [Res.bind_eq_ok, Res.ok.injEq] at h1
  obtain ⟨_, _, _, _, rfl⟩ := h1
  cases h4 with
  | cons _ _ =>
    rw [convert] at this
    rw [← h8, buildVal]
    exact this

/-- `{"$minKey": "x", "a": true}` -/
example (S : Gjson.Strconv) (C : Clock) : ∃ v t v', buildVal [107] (.doc (.cons (ascii "$minKey") (.string [120]) (.cons [97] (.bool true) .nil))) = .ok v ∧
    Returns (fun n => marshalValue C n v) (.ok t) ∧ Returns (fun n => unmarshalValue S C t n) (.ok v') ∧ Rep v' [] .minKey := by
  obtain ⟨v, h1, h2⟩ := buildVal_rep [107] (.doc (.cons (ascii "$minKey") (.string [120]) (.cons [97] (.bool true) .nil))) (by simp [NulFree])
    (by simp [BVal.WF, Fields.WF, NulFree, ascii]) (by decide +kernel)
  obtain ⟨t, v', h⟩ := C60_reserved_confused S C v _ _ _ _ h2 (by decide +kernel) (.cons (by decide) .string (.cons (by decide) .bool .nil))
  exact ⟨v, t, v', h1, h⟩

/-! ### C61 -/

/-- `Document.UnmarshalJSON` of the text of an object appends a field for each member: strings, booleans, nulls, arrays and objects as they are, numbers as int32 or int64 (the
    limit is 2^31-1, and numbers below -2^31 are cut) or doubles.  Missing from the full claim: objects that begin with a key like `$oid` (C60 and below), keys with NUL. -/
theorem C61_import_partial (S : Gjson.Strconv) (C : Clock) {lax : Bool} {t : Bytes} {es : JsonText.Jes} {fs : Fields} (ht : JsonText.Text lax t (.obj es)) (hi : ImportsFields S es fs)
    (hw : fs.WF) (hl : (encDoc fs).length < 2 ^ 31) :
    ∃ d', RepFields d' fs ∧ ∀ e, Returns (fun n => unmarshalDocument S C e t n) (.ok (e ++ d', none)) := by
  obtain ⟨ws, h1, h2⟩ := importsFields_conv (C := C) es fs hi
  obtain ⟨d', h8, h9⟩ := buildDoc_rep fs hw (by simp only [encDoc, wrapDoc_length] at hl; omega)
  refine ⟨d', h9, fun e => ?_⟩
  have := unmarshalDocument_text (C := C) ht (fun hm => by cases C55_minus ht hm) h1 e
  rw [appendAll_collect e _ d' (h2.trans h8)] at this
  exact this

example (S : Gjson.Strconv) (C : Clock) : ∃ d', RepFields d' (.cons [97] (.array (.cons (.int32 (-5)) (.cons (.string [0xC3, 0xA9, 10]) .nil))) (.cons [98] .null .nil)) ∧
    ∀ e, Returns (fun n => unmarshalDocument S C e sampleText n) (.ok (e ++ d', none)) :=
  C61_import_partial S C (val_text sampleText_val)
    (.cons (.arr (.cons (.int (i := -5) (.int (.integral (.inr ⟨[53], rfl, by simp [JsonText.Digit]⟩)) (.neg (ds := [53]) ⟨by simp, by simp [JsonText.Digit]⟩ (by decide))))
      (.cons .str .nil))) (.cons .null .nil))
    (by simp [Fields.WF, BVal.WF, Vals.WF, NulFree]) (by decide +kernel)

/-- … `Array.UnmarshalJSON` -/
theorem C61_array_partial (S : Gjson.Strconv) (C : Clock) {lax : Bool} {t : Bytes} {js : JsonText.Js} {vs : Vals} (ht : JsonText.Text lax t (.arr js)) (hi : ImportsVals S js vs)
    (hw : vs.WF) (hl : (vs.encFrom 0).length < 2 ^ 31) :
    ∃ d', RepVals d' vs ∧ ∀ e, Returns (fun n => unmarshalArray S C e t n) (.ok (e ++ d', none)) := by
  obtain ⟨ws, h1, h2⟩ := importsVals_conv (C := C) js vs hi
  obtain ⟨d', h8, h9⟩ := buildArr_rep vs 0 hw hl
  refine ⟨d', h9, fun e => ?_⟩
  have := unmarshalArray_text (C := C) ht (fun hm => by cases C55_minus ht hm) h1 e
  rw [appendAll_collect e _ d' (h2.trans h8)] at this
  exact this

/-- `[null,true]` -/
example (S : Gjson.Strconv) (C : Clock) : ∃ d', RepVals d' (.cons .null (.cons (.bool true) .nil)) ∧
    ∀ e, Returns (fun n => unmarshalArray S C e (ascii "[null,true]") n) (.ok (e ++ d', none)) := by
  have e : ascii "[null,true]" = 91 :: (([] ++ ([110, 117, 108, 108] ++ ([] ++ 44 :: ([] ++ ([116, 114, 117, 101] ++ []))))) ++ [93]) := by decide
  have hv : JsonText.Val false (ascii "[null,true]") (.arr (.cons .null (.cons (.bool true) .nil))) := by
    rw [e]
    exact .arr (.cons Gjson.ws_nil .null Gjson.ws_nil (.last Gjson.ws_nil .tru Gjson.ws_nil))
  exact C61_array_partial S C (val_text hv) (.cons .null (.cons .bool .nil)) (by simp [Vals.WF, BVal.WF]) (by decide +kernel)

/-- … and `Value.UnmarshalJSON`, for texts that do not end with a minus sign (C55) -/
theorem C61_value_partial (S : Gjson.Strconv) (C : Clock) {lax : Bool} {t : Bytes} {j : JsonText.J} {x : BVal} (ht : JsonText.Text lax t j) (hm : t.getLast? ≠ some 45)
    (hi : Imports S j x) (hw : x.WF) (hl : x.enc.length + 2 < 2 ^ 31) :
    ∃ v, Rep v [] x ∧ Returns (fun n => unmarshalValue S C t n) (.ok v) := by
  obtain ⟨w, h1, h2⟩ := imports_conv (C := C) j x hi
  obtain ⟨v, h8, h9⟩ := buildVal_rep [] x (by simp [NulFree]) hw (by simp; omega)
  refine ⟨v, h9, ?_⟩
  have := unmarshalValue_conv (C := C) ht hm h1
  rw [h2, h8] at this
  exact this

example (S : Gjson.Strconv) (C : Clock) : ∃ v, Rep v [] (.bool true) ∧ Returns (fun n => unmarshalValue S C (ascii "true") n) (.ok v) :=
  C61_value_partial S C (lax := false) (val_text .tru) (by decide) .bool (by simp [BVal.WF]) (by simp [BVal.enc])

/-- If the text is not an object, or has a number that is too large, an error is returned and the document is unchanged. -/
theorem C61_error (S : Gjson.Strconv) (C : Clock) (t : Bytes) (h : ¬ ∃ es ws, JsonText.Text true t (.obj es) ∧ JsonText.ConvElems S es ws) (e : Doc) :
    Returns (fun n => unmarshalDocument S C e t n) (.ok (e, some .other)) := by
  rcases (C55_document S t).2 with ⟨d, hd⟩ | ⟨n, hn⟩
  · obtain ⟨es, h1, h2⟩ := ((C55_document S t).1 d).mp hd
    exact absurd ⟨es, d, h1, h2⟩ h
  · exact ⟨n, fun m hm => by
      show unmarshalDocument S C e t m = _
      unfold ExtJson.unmarshalDocument
      rw [show Gjson.unmarshalDocument S m t = _ from hn m hm]⟩

-- `[` is not JSON
example (S : Gjson.Strconv) : ¬ ∃ es ws, JsonText.Text true [91] (.obj es) ∧ JsonText.ConvElems S es ws := fun h => by
  obtain ⟨es, ws, h, _⟩ := h
  have := (C56_accepts [91]).mpr ⟨⟨_, h⟩, by decide⟩
  revert this
  decide +kernel

/-- The keys whose values are taken as strings without a check -/
def stringKeys : List String := ["$oid", "$symbol", "$numberDecimal", "$date", "$binary"]
/-- … and as objects -/
def objectKeys : List String := ["$timestamp", "$dbPointer", "$regularExpression"]

/-- The full claim is false: well-formed JSON can make `UnmarshalJSON` panic. -/
theorem C61_panics (S : Gjson.Strconv) (C : Clock) {lax : Bool} {t k : Bytes} {key : String} {j : JsonText.J} {r es : JsonText.Jes} {ws : Json.JElems}
    (ht : JsonText.Text lax t (.obj (.cons k (.obj (.cons (ascii key) j r)) es)))
    (hc : JsonText.ConvElems S (.cons k (.obj (.cons (ascii key) j r)) es) ws)
    (hk : (key ∈ stringKeys ∧ ∀ s, j ≠ .str s) ∨ (key ∈ objectKeys ∧ ∀ d, j ≠ .obj d)) (e : Doc) :
    Returns (fun n => unmarshalDocument S C e t n) .panic := by
  have := unmarshalDocument_text (C := C) ht (fun hm => by cases C55_minus ht hm) hc e
  cases hc with
  | cons h1 h2 =>
  cases h1 with
  | obj h1 =>
  cases h1 with
  | @cons _ _ w _ _ h1 h3 =>
  have hs : (∀ s, j ≠ .str s) → stringOf w = .panic := fun h => by
    cases h1 with
    | str => exact absurd rfl (h _)
    | _ => rfl
  have ho : (∀ s, j ≠ .obj s) → documentOf w = .panic := fun h => by
    cases h1 with
    | obj => exact absurd rfl (h _)
    | _ => rfl
  rw [convertElems, convert] at this
  have hp : ∀ {ws cs}, object C k (.cons (ascii key) w ws) cs = .panic := by
    intro ws cs
    rw [object.eq_def]
    rcases hk with ⟨hk, hj⟩ | ⟨hk, hj⟩
    · simp only [stringKeys, List.mem_cons, List.not_mem_nil, or_false] at hk
      rcases hk with rfl | rfl | rfl | rfl | rfl <;>
        simp [ascii, kMinKey, kMaxKey, kDecimal, kTimestamp, kSymbol, kCode, kDbPointer, kRegex, kDate, kOid, kUndefined, kBinary, hs hj]
    · simp only [objectKeys, List.mem_cons, List.not_mem_nil, or_false] at hk
      rcases hk with rfl | rfl | rfl <;>
        simp [ascii, kMinKey, kMaxKey, kDecimal, kTimestamp, kSymbol, kCode, kDbPointer, kRegex, ho hj]
  rw [hp] at this
  exact this

/-- `{"a":{"$oid":null}}` -/
def panicText : Bytes := ascii "{\"a\":{\"$oid\":null}}"

theorem panicText_val : JsonText.Val false panicText (.obj (.cons [97] (.obj (.cons (ascii "$oid") .null .nil)) .nil)) := by
  have e : panicText = 123 :: (([] ++ 34 :: ([97] ++ 34 :: ([] ++ 58 :: ([] ++ ((123 :: (([] ++ 34 :: ([36, 111, 105, 100] ++ 34 :: ([] ++ 58 :: ([] ++
    ([110, 117, 108, 108] ++ []))))) ++ [125])) ++ []))))) ++ [125]) := by decide
  have pl : ∀ {c : UInt8} {s u}, 35 ≤ c → c ≠ 92 → JsonText.Chars false s u → JsonText.Chars false (c :: s) (c :: u) := fun {c s u} h1 h2 h => .plain
    (by simp only [UInt8.le_iff_toNat_le] at *; simp at *; omega) (by rintro rfl; revert h1; decide) h2 h
  rw [e, show ascii "$oid" = [36, 111, 105, 100] by decide]
  exact .obj (.last Gjson.ws_nil (pl (by decide) (by decide) .nil) Gjson.ws_nil Gjson.ws_nil
    (.obj (.last Gjson.ws_nil (pl (by decide) (by decide) (pl (by decide) (by decide) (pl (by decide) (by decide) (pl (by decide) (by decide) .nil)))) Gjson.ws_nil Gjson.ws_nil .null
      Gjson.ws_nil)) Gjson.ws_nil)

example (S : Gjson.Strconv) (C : Clock) (e : Doc) : Returns (fun n => unmarshalDocument S C e panicText n) .panic :=
  C61_panics S C (val_text panicText_val) (.cons (.obj (.cons .null .nil)) .nil) (.inl ⟨by decide, fun _ h => by cases h⟩) e

/-- An error leaves the document with the fields that come before it: here an object with a bad `$oid` after a first field. -/
theorem C61_error_keeps (S : Gjson.Strconv) (C : Clock) {lax : Bool} {t k0 k s : Bytes} {j0 : JsonText.J} {r es : JsonText.Jes} {x : BVal} {ws : Json.JElems}
    (ht : JsonText.Text lax t (.obj (.cons k0 j0 (.cons k (.obj (.cons (ascii "$oid") (.str s) r)) es))))
    (hc : JsonText.ConvElems S (.cons k (.obj (.cons (ascii "$oid") (.str s) r)) es) ws)
    (hi : Imports S j0 x) (hk : NulFree k0) (hw : x.WF) (hl : k0.length + 2 + x.enc.length < 2 ^ 31) (hs : s.length ≠ 24) :
    ∃ v, Rep v k0 x ∧ ∀ e, Returns (fun n => unmarshalDocument S C e t n) (.ok (e ++ [v], some .other)) := by
  obtain ⟨w, h1, h2⟩ := imports_conv (C := C) j0 x hi
  obtain ⟨v, h3, h4⟩ := buildVal_rep k0 x hk hw hl
  refine ⟨v, h4, fun e => ?_⟩
  have := unmarshalDocument_text (C := C) ht (fun hm => by cases C55_minus ht hm) (.cons h1 hc) e
  rw [convertElems, h2, h3, appendAll] at this
  cases hc with
  | cons a1 a2 =>
  cases a1 with
  | obj a1 =>
  cases a1 with
  | cons a1 a3 =>
  cases a1
  rw [convertElems, convert] at this
  have hn : ObjectID.fromHex s = none := by
    unfold ObjectID.fromHex
    cases hd : hexDecode s with
    | none => rfl
    | some b =>
      have := (decode_iff s b hd).1
      simp
      omega
  have ho : ∀ {ws cs}, object C k (.cons (ascii "$oid") (.str s) ws) cs = .err .other := by
    intro ws cs
    show errOr _ (ObjectID.fromHex s) = _
    rw [hn]
    rfl
  rw [ho, appendAll] at this
  exact this

/-- `{"b":true,"a":{"$oid":""}}` -/
example (S : Gjson.Strconv) (C : Clock) : ∃ v, Rep v [98] (.bool true) ∧
    ∀ e, Returns (fun n => unmarshalDocument S C e (ascii "{\"b\":true,\"a\":{\"$oid\":\"\"}}") n) (.ok (e ++ [v], some .other)) := by
  have e : ascii "{\"b\":true,\"a\":{\"$oid\":\"\"}}" = 123 :: (([] ++ 34 :: ([98] ++ 34 :: ([] ++ 58 :: ([] ++ ([116, 114, 117, 101] ++ ([] ++ 44 ::
    ([] ++ 34 :: ([97] ++ 34 :: ([] ++ 58 :: ([] ++ ((123 :: (([] ++ 34 :: ([36, 111, 105, 100] ++ 34 :: ([] ++ 58 :: ([] ++
    ((34 :: ([] ++ [34])) ++ []))))) ++ [125])) ++ []))))))))))) ++ [125]) := by decide
  have pl : ∀ {c : UInt8} {s u}, 35 ≤ c → c ≠ 92 → JsonText.Chars false s u → JsonText.Chars false (c :: s) (c :: u) := fun {c s u} h1 h2 h => .plain
    (by simp only [UInt8.le_iff_toNat_le] at *; simp at *; omega) (by rintro rfl; revert h1; decide) h2 h
  have hv : JsonText.Val false (ascii "{\"b\":true,\"a\":{\"$oid\":\"\"}}")
      (.obj (.cons [98] (.bool true) (.cons [97] (.obj (.cons (ascii "$oid") (.str []) .nil)) .nil))) := by
    rw [e, show ascii "$oid" = [36, 111, 105, 100] by decide]
    exact .obj (.cons Gjson.ws_nil (pl (by decide) (by decide) .nil) Gjson.ws_nil Gjson.ws_nil .tru Gjson.ws_nil
      (.last Gjson.ws_nil (pl (by decide) (by decide) .nil) Gjson.ws_nil Gjson.ws_nil
      (.obj (.last Gjson.ws_nil (pl (by decide) (by decide) (pl (by decide) (by decide) (pl (by decide) (by decide) (pl (by decide) (by decide) .nil)))) Gjson.ws_nil Gjson.ws_nil
        (.str .nil) Gjson.ws_nil)) Gjson.ws_nil))
  exact C61_error_keeps S C (val_text hv) (.cons (.obj (.cons .str .nil)) .nil) .bool (by simp [NulFree]) (by simp [BVal.WF]) (by simp [BVal.enc]) (by decide)

/-- `{"a\u0000":null}` -/
def nulText : Bytes := ascii "{\"a\\u0000\":null}"

/-- Keys with NUL are not refused: a document whose key is `a` and NUL is written with the key `a`. -/
theorem C61_nul_key (S : Gjson.Strconv) (C : Clock) : JsonText.Text false nulText (.obj (.cons [97, 0] .null .nil)) ∧
    ∃ v, (∀ e, Returns (fun n => unmarshalDocument S C e nulText n) (.ok (e ++ [v], none))) ∧
      Returns (fun n => docMarshal n [v]) (.ok (encDoc (.cons [97] .null .nil))) := by
  have hv : JsonText.Val false nulText (.obj (.cons [97, 0] .null .nil)) := by
    have e : nulText = 123 :: (([] ++ 34 :: ((97 :: 92 :: 117 :: ([48, 48, 48, 48] ++ [])) ++ 34 :: ([] ++ 58 :: ([] ++ ([110, 117, 108, 108] ++ []))))) ++ [125]) := by decide
    rw [e]
    exact .obj (.last Gjson.ws_nil (.plain (by decide) (by decide) (by decide) (.point (n := 0) ⟨_, _, _, _, 0, 0, 0, 0, rfl, rfl, rfl, rfl, rfl, rfl⟩ (by simp [JsonText.High])
      (by simp [JsonText.Low]) .nil)) Gjson.ws_nil Gjson.ws_nil .null Gjson.ws_nil)
  obtain ⟨v, h1, h2⟩ := C01_nul_key_truncated
  refine ⟨val_text hv, v, fun e => ?_, h2⟩
  have := unmarshalDocument_text (S := S) (C := C) (val_text hv) (val_minus hv) (.cons .null .nil) e
  rw [convertElems, convert, convertElems] at this
  rw [buildVal] at h1
  rw [h1] at this
  exact this

end Birch.Props
