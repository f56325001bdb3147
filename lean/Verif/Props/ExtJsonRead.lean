import Verif.Props.ExtJson

/-
C61 (errors), C62: reading extended JSON.
-/

namespace Birch.Props
open Birch Spec Spec.ExtJson Model Model.ExtJson Proofs Proofs.ExtJson

/-- `Array.UnmarshalJSON`: if the text is not an array, or has a number that is too large, an error is returned and the array is unchanged. -/
theorem C61_array_error (S : Gjson.Strconv) (C : Clock) (t : Bytes) (h : ¬ ∃ js ws, JsonText.Text true t (.arr js) ∧ JsonText.ConvVals S js ws) (e : Doc) :
    Returns (fun n => unmarshalArray S C e t n) (.ok (e, some .other)) := by
  rcases (C55_array S t).2 with ⟨d, hd⟩ | ⟨n, hn⟩
  · obtain ⟨es, h1, h2⟩ := ((C55_array S t).1 d).mp hd
    exact absurd ⟨es, d, h1, h2⟩ h
  · exact ⟨n, fun m hm => by
      show unmarshalArray S C e t m = _
      unfold ExtJson.unmarshalArray
      rw [show Gjson.unmarshalArray S m t = _ from hn m hm]⟩

-- `{}` is not an array
example (S : Gjson.Strconv) (C : Clock) (e : Doc) : Returns (fun n => unmarshalArray S C e [123, 125] n) (.ok (e, some .other)) :=
  C61_array_error S C _ (fun ⟨js, ws, h, hc⟩ => by
    obtain ⟨m, hm⟩ := ((C55_array S [123, 125]).1 ws).mpr ⟨js, h, hc⟩
    have := hm (m + 2) (by omega)
    revert this
    show Gjson.unmarshalArray S (m + 2) [123, 125] = _ → _
    intro h
    cases h) e

/-- `Value.UnmarshalJSON`: if the text is not JSON (or ends with a minus sign, C55), or has a number that is too large, an error is returned. -/
theorem C61_value_error (S : Gjson.Strconv) (C : Clock) (t : Bytes) (h : ¬ ∃ j w, JsonText.Text true t j ∧ t.getLast? ≠ some 45 ∧ JsonText.Conv S j w) :
    Returns (fun n => unmarshalValue S C t n) (.err .other) := by
  rcases (C55_value S t).2 with ⟨d, hd⟩ | ⟨n, hn⟩
  · obtain ⟨j, h1, h2⟩ := ((C55_value S t).1 d).mp hd
    exact absurd ⟨j, d, h1, h2⟩ h
  · exact ⟨n, fun m hm => by
      show unmarshalValue S C t m = _
      unfold ExtJson.unmarshalValue
      rw [show Gjson.unmarshalValue S m t = _ from hn m hm]
      rfl⟩

-- `[` is not JSON
example (S : Gjson.Strconv) (C : Clock) : Returns (fun n => unmarshalValue S C [91] n) (.err .other) :=
  C61_value_error S C _ fun ⟨j, w, h, _⟩ => by
    have := (C56_accepts [91]).mpr ⟨⟨_, h⟩, by decide⟩
    revert this
    decide +kernel

/-! ### C62 -/

/-- `Document.UnmarshalJSON` of extended JSON appends the fields it stands for, for every nesting and every way to write the text.  Missing from the full claim: binary data and
    pointers, and the canonical format for numbers, which are read differently (below); keys with NUL; the text of dates, which is a parameter. -/
theorem C62_reads_partial (S : Gjson.Strconv) (C : Clock) {lax : Bool} {t : Bytes} {es : JsonText.Jes} {fs : Fields} (ht : JsonText.Text lax t (.obj es)) (hi : ReadsFields S C es fs)
    (hw : fs.WF) (hl : (encDoc fs).length < 2 ^ 31) :
    ∃ d', RepFields d' fs ∧ ∀ e, Returns (fun n => unmarshalDocument S C e t n) (.ok (e ++ d', none)) := by
  obtain ⟨ws, h1, h2⟩ := readsFields_conv hi
  obtain ⟨d', h8, h9⟩ := buildDoc_rep fs hw (by simp only [encDoc, wrapDoc_length] at hl; omega)
  refine ⟨d', h9, fun e => ?_⟩
  have := unmarshalDocument_text (C := C) ht (fun hm => by cases C55_minus ht hm) h1 e
  rw [appendAll_collect e _ d' (h2.trans h8)] at this
  exact this

/-- … `Array.UnmarshalJSON` -/
theorem C62_array_partial (S : Gjson.Strconv) (C : Clock) {lax : Bool} {t : Bytes} {js : JsonText.Js} {vs : Vals} (ht : JsonText.Text lax t (.arr js)) (hi : ReadsVals S C js vs)
    (hw : vs.WF) (hl : (vs.encFrom 0).length < 2 ^ 31) :
    ∃ d', RepVals d' vs ∧ ∀ e, Returns (fun n => unmarshalArray S C e t n) (.ok (e ++ d', none)) := by
  obtain ⟨ws, h1, h2⟩ := readsVals_conv hi
  obtain ⟨d', h8, h9⟩ := buildArr_rep vs 0 hw hl
  refine ⟨d', h9, fun e => ?_⟩
  have := unmarshalArray_text (C := C) ht (fun hm => by cases C55_minus ht hm) h1 e
  rw [appendAll_collect e _ d' (h2.trans h8)] at this
  exact this

/-- … and `Value.UnmarshalJSON`, for texts that do not end with a minus sign (C55) -/
theorem C62_value_partial (S : Gjson.Strconv) (C : Clock) {lax : Bool} {t : Bytes} {j : JsonText.J} {x : BVal} (ht : JsonText.Text lax t j) (hm : t.getLast? ≠ some 45)
    (hi : Reads S C j x) (hw : x.WF) (hl : x.enc.length + 2 < 2 ^ 31) :
    ∃ v, Rep v [] x ∧ Returns (fun n => unmarshalValue S C t n) (.ok v) := by
  obtain ⟨w, h1, h2⟩ := reads_conv hi
  obtain ⟨v, h8, h9⟩ := buildVal_rep [] x (by simp [NulFree]) hw (by simp; omega)
  refine ⟨v, h9, ?_⟩
  have := unmarshalValue_conv (C := C) ht hm h1
  rw [h2, h8] at this
  exact this

/-! Texts for the examples: there is a text for every value with plain keys. -/

/-- `{"a": {"$oid": …}, "b": [{"$numberDecimal": "12.5"}, {"$minKey": 1}], "c": {"$code": "1", "$scope": {"d": {"$timestamp": {"t": 7, "i": 9}}}}, "e": {"$date": "x"}}` -/
def readElems : JsonText.Jes :=
  .cons [97] (single "$oid" (.str (hexText [1, 2, 3, 4, 5, 6, 7, 8, 9, 10, 11, 0xAB]))) <|
  .cons [98] (.arr (.cons (single "$numberDecimal" (.str (Decimal.text false 125 (-1)))) (.cons (single "$minKey" (.num [49])) .nil))) <|
  .cons [99] (Spec.ExtJson.double "$code" (.str [49]) "$scope" (.obj (.cons [100] (single "$timestamp" (Spec.ExtJson.double "t" (.num [55]) "i" (.num [57]))) .nil))) <|
  .cons [101] (single "$date" (.str [120])) .nil

def readFields : Fields :=
  .cons [97] (.oid [1, 2, 3, 4, 5, 6, 7, 8, 9, 10, 11, 0xAB]) <|
  .cons [98] (.array (.cons (.decimal (Decimal.encode false 125 (-1)).h.toNat (Decimal.encode false 125 (-1)).l.toNat) (.cons .minKey .nil))) <|
  .cons [99] (.codeScope [49] (.cons [100] (.timestamp 7 9) .nil)) <|
  .cons [101] (.datetime 5) .nil

theorem readElems_reads (S : Gjson.Strconv) (C : Clock) (hC : C.parse [120] = some 5) : ReadsFields S C readElems readFields := by
  have dg : ∀ {c : UInt8}, JsonText.Digit c → JsonText.Conv S (.num [c]) (.int (JsonText.natValue [c] : Nat)) := fun {c} h => by
    have hd : JsonText.Digits [c] := ⟨by simp, by simpa using h⟩
    refine .int (.integral (.inl hd)) (.pos hd ?_)
    have := c.toNat_lt
    simp only [JsonText.natValue, List.foldl_cons, List.foldl_nil]
    omega
  refine .cons (.oid (by decide)) (.cons (.arr (.cons (.decimal (by unfold Decimal.Representable; omega)) (.cons (.minKey (dg (c := 49) (by unfold JsonText.Digit; decide))) .nil))) (.cons (.codeScope (by unfold Unreserved; decide) (.cons
    (.timestamp (dg (c := 55) (by unfold JsonText.Digit; decide)) (dg (c := 57) (by unfold JsonText.Digit; decide)) (by decide) (by decide)) .nil)) (.cons (.datetime hC) .nil)))

/-- `readElems` as `jsonx` elements, to write its text -/
def readJs : Json.JElems :=
  .cons [97] (obj1 kOid (.str (hexText [1, 2, 3, 4, 5, 6, 7, 8, 9, 10, 11, 0xAB]))) <|
  .cons [98] (.arr (.cons (obj1 kDecimal (.str (Decimal.text false 125 (-1)))) (.cons (obj1 kMinKey (.int 1)) .nil))) <|
  .cons [99] (obj2 kCode (.str [49]) kScope (.obj (.cons [100] (obj1 kTimestamp (obj2 kT (.int 7) kI (.int 9))) .nil))) <|
  .cons [101] (obj1 kDate (.str [120])) .nil

theorem readElems_text : ∃ t, JsonText.Val false t (.obj readElems) := by
  obtain ⟨t, _, h⟩ := Gjson.marshal_val (.obj readJs) (by
    simp only [readJs, obj1, obj2, Json.Plain, Json.PlainElems, Json.PlainVals, and_true, true_and]
    decide)
  have e : Gjson.jOf (.obj readJs) = .obj readElems := by rfl
  rw [e] at h
  exact ⟨t, h⟩

example (S : Gjson.Strconv) (C : Clock) (hC : C.parse [120] = some 5) : ∃ t d', JsonText.Text false t (.obj readElems) ∧ RepFields d' readFields ∧
    ∀ e, Returns (fun n => unmarshalDocument S C e t n) (.ok (e ++ d', none)) := by
  obtain ⟨t, h⟩ := readElems_text
  obtain ⟨d', h'⟩ := C62_reads_partial S C (val_text h) (readElems_reads S C hC) (by simp [readFields, Fields.WF, BVal.WF, Vals.WF, NulFree, Decimal.encode]) (by decide +kernel)
  exact ⟨t, d', val_text h, h'⟩

example (S : Gjson.Strconv) (C : Clock) (hC : C.parse [120] = some 5) : ∃ t v, JsonText.Text false t (.obj readElems) ∧ Rep v [] (.doc readFields) ∧
    Returns (fun n => unmarshalValue S C t n) (.ok v) := by
  obtain ⟨t, h⟩ := readElems_text
  obtain ⟨d', h'⟩ := C62_value_partial S C (val_text h) (val_minus h) (.obj (fs := readFields) (show [97] ∉ reserved by decide) (readElems_reads S C hC))
    (by simp [readFields, Fields.WF, BVal.WF, Vals.WF, NulFree, Decimal.encode]) (by decide +kernel)
  exact ⟨t, d', val_text h, h'⟩

example (S : Gjson.Strconv) (C : Clock) (hC : C.parse [120] = some 5) : ∃ t d', JsonText.Text false t (.arr (.cons (.obj readElems) .nil)) ∧ RepVals d' (.cons (.doc readFields) .nil) ∧
    ∀ e, Returns (fun n => unmarshalArray S C e t n) (.ok (e ++ d', none)) := by
  obtain ⟨t, h⟩ := readElems_text
  have h := val_text (JsonText.Val.arr (.last Gjson.ws_nil h Gjson.ws_nil))
  obtain ⟨d', h'⟩ := C62_array_partial S C h (.cons (.obj (fs := readFields) (show [97] ∉ reserved by decide) (readElems_reads S C hC)) .nil)
    (by simp [readFields, Fields.WF, BVal.WF, Vals.WF, NulFree, Decimal.encode]) (by decide +kernel)
  exact ⟨_, d', h, h'⟩

/-- The full claim is false: reading binary data panics, however it is written. -/
theorem C62_binary_panics (S : Gjson.Strconv) (C : Clock) {lax : Bool} {t k b s : Bytes} {es : JsonText.Jes} {ws : Json.JElems}
    (ht : JsonText.Text lax t (.obj (.cons k (single "$binary" (Spec.ExtJson.double "base64" (.str b) "subType" (.str s))) es))) (hc : JsonText.ConvElems S es ws) (e : Doc) :
    Returns (fun n => unmarshalDocument S C e t n) .panic :=
  C61_panics S C ht (.cons (.obj (.cons (.obj (.cons .str (.cons .str .nil))) .nil)) hc) (.inl ⟨by decide, fun _ h => by cases h⟩) e

-- `{"a": {"$binary": {"base64": "AQI=", "subType": "00"}}, "b": 1}`
example (S : Gjson.Strconv) (C : Clock) (e : Doc) : ∃ t, JsonText.Text false t (.obj (.cons [97]
      (single "$binary" (Spec.ExtJson.double "base64" (.str (ascii "AQI=")) "subType" (.str (ascii "00")))) (.cons [98] .null .nil))) ∧
    Returns (fun n => unmarshalDocument S C e t n) .panic := by
  obtain ⟨t, h⟩ := text_of (j := .obj (.cons [97] (single "$binary" (Spec.ExtJson.double "base64" (.str (ascii "AQI=")) "subType" (.str (ascii "00")))) (.cons [98] .null .nil)))
    (.obj (.cons [97] (obj1 kBinary (obj2 kBase64 (.str (ascii "AQI=")) kSubType (.str (ascii "00")))) (.cons [98] .null .nil)))
    (by simp only [obj1, obj2, Json.Plain, Json.PlainElems, and_true, true_and]; decide) rfl
  exact ⟨t, h, C62_binary_panics S C h (.cons .null .nil) e⟩

/-- … and so do dates in the canonical format, which is also used for years after 9999 in the relaxed format. -/
theorem C62_date_panics (S : Gjson.Strconv) (C : Clock) {lax : Bool} {t k s : Bytes} {es : JsonText.Jes} {ws : Json.JElems}
    (ht : JsonText.Text lax t (.obj (.cons k (single "$date" (single "$numberLong" (.str s))) es))) (hc : JsonText.ConvElems S es ws) (e : Doc) :
    Returns (fun n => unmarshalDocument S C e t n) .panic :=
  C61_panics S C ht (.cons (.obj (.cons (.obj (.cons .str .nil)) .nil)) hc) (.inl ⟨by decide, fun _ h => by cases h⟩) e

-- `{"a": {"$date": {"$numberLong": "5"}}}`
example (S : Gjson.Strconv) (C : Clock) (e : Doc) : ∃ t, JsonText.Text false t (.obj (.cons [97] (single "$date" (single "$numberLong" (.str [53]))) .nil)) ∧
    Returns (fun n => unmarshalDocument S C e t n) .panic := by
  obtain ⟨t, h⟩ := text_of (j := .obj (.cons [97] (single "$date" (single "$numberLong" (.str [53]))) .nil))
    (.obj (.cons [97] (obj1 kDate (obj1 (ascii "$numberLong") (.str [53]))) .nil))
    (by simp only [obj1, Json.Plain, Json.PlainElems, and_true]; decide) rfl
  exact ⟨t, h, C62_date_panics S C h .nil e⟩

/-- Pointers are refused. -/
theorem C62_pointer_refused (S : Gjson.Strconv) (C : Clock) {lax : Bool} {t k ns id : Bytes} {es : JsonText.Jes} {ws : Json.JElems}
    (ht : JsonText.Text lax t (.obj (.cons k (single "$dbPointer" (Spec.ExtJson.double "$ref" (.str ns) "$id" (single "$oid" (.str (hexText id))))) es)))
    (hc : JsonText.ConvElems S es ws) (e : Doc) :
    Returns (fun n => unmarshalDocument S C e t n) (.ok (e, some .other)) :=
  unmarshalDocument_text (C := C) ht (fun hm => by cases C55_minus ht hm) (.cons (.obj (.cons (.obj (.cons .str (.cons (.obj (.cons .str .nil)) .nil))) .nil)) hc) e

-- `{"a": {"$dbPointer": {"$ref": "c", "$id": {"$oid": …}}}}`
example (S : Gjson.Strconv) (C : Clock) (e : Doc) : ∃ t, JsonText.Text false t (.obj (.cons [97]
      (single "$dbPointer" (Spec.ExtJson.double "$ref" (.str [99]) "$id" (single "$oid" (.str (hexText (List.replicate 12 7)))))) .nil)) ∧
    Returns (fun n => unmarshalDocument S C e t n) (.ok (e, some .other)) := by
  obtain ⟨t, h⟩ := text_of (j := .obj (.cons [97] (single "$dbPointer" (Spec.ExtJson.double "$ref" (.str [99]) "$id" (single "$oid" (.str (hexText (List.replicate 12 7)))))) .nil))
    (.obj (.cons [97] (obj1 kDbPointer (obj2 kRef (.str [99]) kId (obj1 kOid (.str (hexText (List.replicate 12 7)))))) .nil))
    (by simp only [obj1, obj2, Json.Plain, Json.PlainElems, and_true, true_and]; decide) rfl
  exact ⟨t, h, C62_pointer_refused S C h .nil e⟩

/-- Numbers in the canonical format become documents. -/
theorem C62_canonical_numbers (S : Gjson.Strconv) (C : Clock) {lax : Bool} {t s : Bytes} {key : String} (hk : key ∈ ["$numberInt", "$numberLong", "$numberDouble"])
    (hs : s.length < 2 ^ 30) (ht : JsonText.Text lax t (single key (.str s))) :
    ∃ v, Rep v [] (.doc (.cons (ascii key) (.string s) .nil)) ∧ Returns (fun n => unmarshalValue S C t n) (.ok v) := by
  have hm : t.getLast? ≠ some 45 := fun hm => by cases C55_minus ht hm
  simp only [List.mem_cons, List.not_mem_nil, or_false] at hk
  have hr : ascii key ∉ reserved := by rcases hk with rfl | rfl | rfl <;> decide
  rcases hk with rfl | rfl | rfl <;>
  exact C62_value_partial S C ht hm (.obj hr (.cons .str .nil)) (by simp [BVal.WF, Fields.WF, NulFree, ascii])
    (by simp [BVal.enc, Fields.enc, ascii, wrapDoc]; omega)

-- `{"$numberLong": "5"}`
example (S : Gjson.Strconv) (C : Clock) : ∃ t v, JsonText.Text false t (single "$numberLong" (.str [53])) ∧ Rep v [] (.doc (.cons (ascii "$numberLong") (.string [53]) .nil)) ∧
    Returns (fun n => unmarshalValue S C t n) (.ok v) := by
  obtain ⟨t, h⟩ := text_of (j := single "$numberLong" (.str [53])) (obj1 (ascii "$numberLong") (.str [53]))
    (by simp only [obj1, Json.Plain, Json.PlainElems, and_true]; decide) rfl
  obtain ⟨v, h'⟩ := C62_canonical_numbers S C (by decide) (by decide) h
  exact ⟨t, v, h, h'⟩

/-- Members after a reserved key (other than `$code`) are dropped without an error. -/
theorem C62_extra_dropped (S : Gjson.Strconv) (C : Clock) {lax : Bool} {t : Bytes} {key : String} {j : JsonText.J} {x : BVal} {es : JsonText.Jes} {ws : Json.JElems}
    (hk : ascii key ∈ reserved) (hk' : ascii key ≠ ascii "$code") (hi : Reads S C (single key j) x) (hw : x.WF) (hl : x.enc.length + 2 < 2 ^ 31)
    (ht : JsonText.Text lax t (.obj (.cons (ascii key) j es))) (hc : JsonText.ConvElems S es ws) :
    ∃ v, Rep v [] x ∧ Returns (fun n => unmarshalValue S C t n) (.ok v) := by
  have hm : t.getLast? ≠ some 45 := fun hm => by cases C55_minus ht hm
  obtain ⟨w, h1, h2⟩ := reads_conv hi
  obtain ⟨v, h8, h9⟩ := buildVal_rep [] x (by simp [NulFree]) hw (by simp; omega)
  refine ⟨v, h9, ?_⟩
  cases h1 with
  | obj h1 =>
  cases h1 with
  | cons h1 h3 =>
  cases h3
  have := unmarshalValue_conv (C := C) ht hm (.obj (.cons h1 hc))
  rw [convert, object_extra hk hk' ws .nil _ _, ← convert, h2, h8] at this
  exact this

-- `{"$symbol": "a", "price": 5}`
example (S : Gjson.Strconv) (C : Clock) : ∃ t v, JsonText.Text false t (.obj (.cons (ascii "$symbol") (.str [97]) (.cons (ascii "price") (.num [53]) .nil))) ∧ Rep v [] (.symbol [97]) ∧
    Returns (fun n => unmarshalValue S C t n) (.ok v) := by
  obtain ⟨t, h⟩ := text_of (j := .obj (.cons (ascii "$symbol") (.str [97]) (.cons (ascii "price") (.num [53]) .nil))) (obj2 (ascii "$symbol") (.str [97]) (ascii "price") (.int 5))
    (by simp only [obj2, Json.Plain, Json.PlainElems, and_true, true_and]; decide) rfl
  have hd : JsonText.Digits [53] := ⟨by simp, by simp [JsonText.Digit]⟩
  obtain ⟨v, h'⟩ := C62_extra_dropped S C (by decide) (by decide) .symbol (by simp [BVal.WF]) (by decide) h (.cons (.int (.integral (.inl hd)) (.pos hd (by decide))) .nil)
  exact ⟨t, v, h, h'⟩

/-- … and so is everything after `$code` if the second key is empty. -/
theorem C62_code_empty (S : Gjson.Strconv) (C : Clock) {lax : Bool} {t c : Bytes} {j : JsonText.J} {es : JsonText.Jes} {ws : Json.JElems} (hl : c.length < 2 ^ 30)
    (ht : JsonText.Text lax t (.obj (.cons (ascii "$code") (.str c) (.cons [] j es)))) (hc : JsonText.ConvElems S (.cons [] j es) ws) :
    ∃ v, Rep v [] (.js c) ∧ Returns (fun n => unmarshalValue S C t n) (.ok v) := by
  have hm : t.getLast? ≠ some 45 := fun hm => by cases C55_minus ht hm
  obtain ⟨v, h8, h9⟩ := buildVal_rep [] (.js c) (by simp [NulFree]) (by simp [BVal.WF]) (by simp [BVal.enc]; omega)
  refine ⟨v, h9, ?_⟩
  have := unmarshalValue_conv (C := C) ht hm (.obj (.cons .str hc))
  cases hc with
  | cons hc hc' =>
  rw [convert, show object C [] (.cons (ascii "$code") (.str c) (.cons [] _ _)) _ = EC.javaScript [] c from rfl] at this
  rw [buildVal] at h8
  rw [h8] at this
  exact this

-- `{"$code": "1", "": null}`
example (S : Gjson.Strconv) (C : Clock) : ∃ t v, JsonText.Text false t (.obj (.cons (ascii "$code") (.str [49]) (.cons [] .null .nil))) ∧ Rep v [] (.js [49]) ∧
    Returns (fun n => unmarshalValue S C t n) (.ok v) := by
  obtain ⟨t, h⟩ := text_of (j := .obj (.cons (ascii "$code") (.str [49]) (.cons [] .null .nil))) (obj2 (ascii "$code") (.str [49]) [] .null)
    (by simp only [obj2, Json.Plain, Json.PlainElems, and_true, true_and]; decide) rfl
  obtain ⟨v, h'⟩ := C62_code_empty S C (by decide) h (.cons .null .nil)
  exact ⟨t, v, h, h'⟩

end Birch.Props
