import Verif.Proofs.GjsonWrite
import Verif.Proofs.Returns

/-
C55, C56, C57: reading JSON text.
-/

namespace Birch.Props
open Birch Model.Json Model.Gjson Spec.JsonText Proofs Proofs.Gjson

/-! ### C55 -/

/-- For every text, `Value.UnmarshalJSON` returns a value or an error.  It returns the value of the text if it is one of the grammar (`lax`) and
    does not end with a minus sign, and an error otherwise or if a number of it has no value. -/
theorem C55_value (S : Strconv) (t : Bytes) :
    (∀ v, Returns (fun n => unmarshalValue S n t) (.ok v) ↔ ∃ j, Text true t j ∧ t.getLast? ≠ some 45 ∧ Conv S j v) ∧
    ((∃ v, Returns (fun n => unmarshalValue S n t) (.ok v)) ∨ Returns (fun n => unmarshalValue S n t) (.err .other)) := by
  by_cases h : (∃ j, Text true t j) ∧ t.getLast? ≠ some 45
  · obtain ⟨⟨j, hj⟩, hl⟩ := h
    have hr : ∀ {j}, Text true t j → Returns (fun n => unmarshalValue S n t) (conv S j) :=
      fun hj => ⟨t.length, fun n hn => unmarshalValue_text S hj hl hn⟩
    refine ⟨fun v => ⟨fun h => ⟨j, hj, hl, (conv_iff S j v).mpr (Returns.unique (hr hj) h)⟩, ?_⟩, ?_⟩
    · rintro ⟨j', hj', _, hc⟩
      rw [← (conv_iff S j' v).mp hc]
      exact hr hj'
    · rcases conv_total S j with ⟨v, hv⟩ | hv
      · exact .inl ⟨v, hv ▸ hr hj⟩
      · exact .inr (hv ▸ hr hj)
  · have he : Returns (fun n => unmarshalValue S n t) (.err .other) := ⟨0, fun n _ => by
      show unmarshalValue S n t = _
      unfold unmarshalValue
      rw [parse_none h, Res.bind_err]⟩
    refine ⟨fun v => ⟨fun h' => ?_, ?_⟩, .inr he⟩
    · have := Returns.unique he h'
      cases this
    · rintro ⟨j, hj, hl, _⟩
      exact absurd ⟨⟨j, hj⟩, hl⟩ h

/-- a text that ends with a minus sign has no value other than a number -/
theorem C55_minus {lax : Bool} {t : Bytes} {j : J} (h : Text lax t j) (hl : t.getLast? = some 45) : j = .num [45] := by
  obtain ⟨w, t', w', rfl, hw, hv, hw'⟩ := h
  obtain ⟨c, x, hx, _⟩ := val_head hv
  rw [getLast?_append_ne (by rw [hx]; simp)] at hl
  cases w' with
  | nil =>
    rw [List.append_nil] at hl
    have := val_getLast hv hl
    subst this
    cases hv
    rfl
  | cons a r =>
    rw [getLast?_append_ne (by simp)] at hl
    exact absurd hl (ws_getLast hw')

example : Text true [32, 45] (.num [45]) := ⟨[32], [45], [], rfl, by simp [Ws], .num (.bare (f := []) (e := []) rfl .none .none), by simp [Ws]⟩

/-- `Document.UnmarshalJSON`: the elements of the object, in the order of the text; an error for every other text. -/
theorem C55_document (S : Strconv) (t : Bytes) :
    (∀ d, Returns (fun n => unmarshalDocument S n t) (.ok d) ↔ ∃ es, Text true t (.obj es) ∧ ConvElems S es d) ∧
    ((∃ d, Returns (fun n => unmarshalDocument S n t) (.ok d)) ∨ Returns (fun n => unmarshalDocument S n t) (.err .other)) := by
  by_cases h : ∃ es, Text true t (.obj es)
  · obtain ⟨es, hj⟩ := h
    have hl : t.getLast? ≠ some 45 := fun hl => by cases C55_minus hj hl
    have hr : ∀ {es}, Text true t (.obj es) → Returns (fun n => unmarshalDocument S n t) (convElems S es) :=
      fun hj => ⟨t.length, fun n hn => unmarshalDocument_obj S hj hl hn⟩
    refine ⟨fun v => ⟨fun h => ⟨es, hj, (convElems_iff S es v).mpr (Returns.unique (hr hj) h)⟩, ?_⟩, ?_⟩
    · rintro ⟨j', hj', hc⟩
      rw [← (convElems_iff S j' v).mp hc]
      exact hr hj'
    · rcases convElems_total S es with ⟨v, hv⟩ | hv
      · exact .inl ⟨v, hv ▸ hr hj⟩
      · exact .inr (hv ▸ hr hj)
  · have he : Returns (fun n => unmarshalDocument S n t) (.err .other) := ⟨0, fun n _ => by
      show unmarshalDocument S n t = _
      by_cases hp : (∃ j, Text true t j) ∧ t.getLast? ≠ some 45
      · obtain ⟨⟨j, hj⟩, hl⟩ := hp
        exact unmarshalDocument_other S hj hl (fun es e => h ⟨es, e ▸ hj⟩) n
      · unfold unmarshalDocument
        rw [parse_none hp, Res.bind_err]⟩
    refine ⟨fun v => ⟨fun h' => ?_, ?_⟩, .inr he⟩
    · have := Returns.unique he h'
      cases this
    · rintro ⟨es, hj, _⟩
      exact absurd ⟨es, hj⟩ h

/-- `Array.UnmarshalJSON`: the same for arrays. -/
theorem C55_array (S : Strconv) (t : Bytes) :
    (∀ a, Returns (fun n => unmarshalArray S n t) (.ok a) ↔ ∃ vs, Text true t (.arr vs) ∧ ConvVals S vs a) ∧
    ((∃ a, Returns (fun n => unmarshalArray S n t) (.ok a)) ∨ Returns (fun n => unmarshalArray S n t) (.err .other)) := by
  by_cases h : ∃ vs, Text true t (.arr vs)
  · obtain ⟨vs, hj⟩ := h
    have hl : t.getLast? ≠ some 45 := fun hl => by cases C55_minus hj hl
    have hr : ∀ {vs}, Text true t (.arr vs) → Returns (fun n => unmarshalArray S n t) (convVals S vs) :=
      fun hj => ⟨t.length, fun n hn => unmarshalArray_arr S hj hl hn⟩
    refine ⟨fun v => ⟨fun h => ⟨vs, hj, (convVals_iff S vs v).mpr (Returns.unique (hr hj) h)⟩, ?_⟩, ?_⟩
    · rintro ⟨j', hj', hc⟩
      rw [← (convVals_iff S j' v).mp hc]
      exact hr hj'
    · rcases convVals_total S vs with ⟨v, hv⟩ | hv
      · exact .inl ⟨v, hv ▸ hr hj⟩
      · exact .inr (hv ▸ hr hj)
  · have he : Returns (fun n => unmarshalArray S n t) (.err .other) := ⟨0, fun n _ => by
      show unmarshalArray S n t = _
      by_cases hp : (∃ j, Text true t j) ∧ t.getLast? ≠ some 45
      · obtain ⟨⟨j, hj⟩, hl⟩ := hp
        exact unmarshalArray_other S hj hl (fun es e => h ⟨es, e ▸ hj⟩) n
      · unfold unmarshalArray
        rw [parse_none hp, Res.bind_err]⟩
    refine ⟨fun v => ⟨fun h' => ?_, ?_⟩, .inr he⟩
    · have := Returns.unique he h'
      cases this
    · rintro ⟨es, hj, _⟩
      exact absurd ⟨es, hj⟩ h

/-- the text of a JSON value without white space around it -/
theorem C55_json (S : Strconv) {t : Bytes} {j : J} {v : JVal} (h : Val false t j) (hc : Conv S j v) : Returns (fun n => unmarshalValue S n t) (.ok v) := by
  have hl : t.getLast? ≠ some 45 := fun hl => by
    have := val_getLast h hl
    subst this
    exact no_minus h
  exact ⟨t.length, fun n hn => by
    rw [← (conv_iff S j v).mp hc]
    exact unmarshalValue_text S ⟨[], t, [], by simp, ws_nil, h, ws_nil⟩ hl hn⟩
where
  no_minus {j : J} (h : Val false [45] j) : False := by
    have := strict_minus h rfl
    obtain ⟨d, r, h, _⟩ := this
    cases h

/-- `{"a":[-5,"é\n"], "b":null}` -/
def sampleText : Bytes :=
  [123, 34, 97, 34, 58, 91, 45, 53, 44, 34, 92, 117, 48, 48, 101, 57, 92, 110, 34, 93, 44, 32, 34, 98, 34, 58, 110, 117, 108, 108, 125]

theorem sampleText_val : Val false sampleText
    (.obj (.cons [97] (.arr (.cons (.num [45, 53]) (.cons (.str [0xC3, 0xA9, 10]) .nil))) (.cons [98] .null .nil))) := by
  have d5 : IntPart [53] := .digits ⟨by simp, by simp [Digit]⟩ (by decide)
  have hn : Number false [45, 53] := .neg (f := []) (e := []) d5 .none .none
  have hs : Chars false [92, 117, 48, 48, 101, 57, 92, 110] [0xC3, 0xA9, 10] :=
    .point (h := [48, 48, 101, 57]) (n := 0xE9) ⟨_, _, _, _, 0, 0, 14, 9, rfl, rfl, rfl, rfl, rfl, rfl⟩ (by simp [High]) (by simp [Low]) (.short .n .nil)
  have ha : Val false [91, 45, 53, 44, 34, 92, 117, 48, 48, 101, 57, 92, 110, 34, 93] (.arr (.cons (.num [45, 53]) (.cons (.str [0xC3, 0xA9, 10]) .nil))) :=
    .arr (.cons (w := []) (w' := []) ws_nil (.num hn) ws_nil (.last (w := []) (w' := []) ws_nil (.str hs) ws_nil))
  have ka : ∀ {c : UInt8}, 97 ≤ c → c ≤ 122 → Chars false [c] [c] := fun {c} h1 h2 => .plain
    (by simp only [UInt8.le_iff_toNat_le] at *; simp at *; omega)
    (by rintro rfl; revert h1; decide) (by rintro rfl; revert h1; decide) .nil
  exact .obj (.cons (w := []) (s := [97]) (w1 := []) (w2 := []) (w3 := []) ws_nil (ka (by decide) (by decide)) ws_nil ws_nil ha ws_nil
    (.last (w := [32]) (s := [98]) (w1 := []) (w2 := []) (w3 := []) (by simp [Ws]) (ka (by decide) (by decide)) ws_nil ws_nil .null ws_nil))

example (S : Strconv) : Returns (fun n => unmarshalValue S n sampleText)
    (.ok (.obj (.cons [97] (.arr (.cons (.int (-5)) (.cons (.str [0xC3, 0xA9, 10]) .nil))) (.cons [98] .null .nil)))) :=
  C55_json S sampleText_val (.obj (.cons (.arr (.cons (.int (.integral (.inr ⟨[53], rfl, by simp [Digit]⟩)) (.neg (ds := [53]) ⟨by simp, by simp [Digit]⟩ (by decide)))
    (.cons .str .nil))) (.cons .null .nil)))

/-- A surrogate that is followed by another escape takes it with it: `"\ud800A"` with the A escaped is read as U+FFFD alone. -/
theorem C55_surrogate_swallows (S : Strconv) : Returns (fun n => unmarshalValue S n [34, 92, 117, 100, 56, 48, 48, 92, 117, 48, 48, 52, 49, 34])
    (.ok (.str [0xEF, 0xBF, 0xBD])) := by
  refine ((C55_value S _).1 _).mpr ⟨.str [0xEF, 0xBF, 0xBD], ⟨[], _, [], (List.append_nil _).symm.trans (List.nil_append _).symm, ws_nil, ?_, ws_nil⟩, by decide, .str⟩
  exact .str (s := [92, 117, 100, 56, 48, 48, 92, 117, 48, 48, 52, 49])
    (.mismatch (h := [100, 56, 48, 48]) (n := 0xD800) (h' := [48, 48, 52, 49]) (n' := 0x41) (s := []) (u := []) rfl
      ⟨_, _, _, _, 13, 8, 0, 0, rfl, rfl, rfl, rfl, rfl, rfl⟩ (by simp [High])
      ⟨_, _, _, _, 0, 0, 4, 1, rfl, rfl, rfl, rfl, rfl, rfl⟩ (by simp [Low]) .nil)

/-- `-.5` is not JSON but is read as a number (`strconv` reads it as -0.5). -/
theorem C55_not_json_read (S : Strconv) (x : UInt64) (h1 : S.parseFloat [45, 46, 53] = (x, true)) (h2 : S.formatFloat x = [45, 48, 46, 53])
    (h3 : S.parseFloat [45, 48, 46, 53] = (x, true)) :
    (¬ ∃ j, Text false [45, 46, 53] j) ∧ Returns (fun n => unmarshalValue S n [45, 46, 53]) (.ok (.dbl x)) := by
  refine ⟨bare_not_json (by decide) (by simp [Digit]), ((C55_value S _).1 _).mpr
    ⟨.num [45, 46, 53], ⟨[], _, [], (List.append_nil _).symm.trans (List.nil_append _).symm, ws_nil, ?_, ws_nil⟩, by decide, ?_⟩⟩
  · exact .num (.bare (f := [46, 53]) (e := []) rfl (.some ⟨by simp, by simp [Digit]⟩) .none)
  · have hi : ¬ Integral [45, 46, 53] := by
      rw [integral_iff]
      rintro ⟨c, r, h, h'⟩
      cases h
      revert h'
      decide
    have hw := Written.float (S := S) hi
    rw [h1, h2] at hw
    refine .dbl hw ?_ h3
    rintro ⟨i, hi⟩
    have := parseInt_eq.mpr hi
    revert this
    simp [show parseInt [45, 48, 46, 53] = none from by decide +kernel]

/-- A number written with a fraction or an exponent is read as an integer if `strconv` prints it as one (as it does for `2.0`, `1e3`). -/
theorem C55_integral_double (S : Strconv) {t : Bytes} {i : Int} (h : Number false t) (hi : ¬ Integral t) (hs : Int64Text (S.formatFloat (S.parseFloat t).1) i) :
    Returns (fun n => unmarshalValue S n t) (.ok (.int i)) := C55_json S (.num h) (.int (.float hi) hs)

example (S : Strconv) (h : S.formatFloat (S.parseFloat [50, 46, 48]).1 = [50]) : Returns (fun n => unmarshalValue S n [50, 46, 48]) (.ok (.int 2)) :=
  C55_integral_double S (.pos (i := [50]) (f := [46, 48]) (e := []) (.digits ⟨by simp, by simp [Digit]⟩ (by decide)) (.some ⟨by simp, by simp [Digit]⟩) .none)
    (by rw [integral_iff]; rintro ⟨c, r, h, h'⟩; cases h; revert h'; decide)
    (by rw [h]; exact .pos (ds := [50]) ⟨by simp, by simp [Digit]⟩ (by decide))

/-! ### C56 -/

/-- Every JSON text is accepted by the validator. -/
theorem C56_accepts_json {t : Bytes} {j : J} (h : Text false t j) : validateJSON t = true := by
  apply validate_text h
  intro hl
  obtain ⟨w, t', w', rfl, hw, hv, hw'⟩ := h
  obtain ⟨c, x, hx, _⟩ := val_head hv
  rw [getLast?_append_ne (by rw [hx]; simp)] at hl
  cases w' with
  | nil =>
    rw [List.append_nil] at hl
    have := val_getLast hv hl
    subst this
    exact C55_json.no_minus hv
  | cons a r =>
    rw [getLast?_append_ne (by simp)] at hl
    exact ws_getLast hw' hl

example : validateJSON sampleText = true := C56_accepts_json ⟨[], sampleText, [], by simp, ws_nil, sampleText_val, ws_nil⟩

/-- What is accepted beyond that: minus signs without digits, unless at the end of the text.  (Unpaired surrogates, which `lax` allows too, are
    left open by RFC 8259.) -/
theorem C56_accepts (t : Bytes) : validateJSON t = true ↔ (∃ j, Text true t j) ∧ t.getLast? ≠ some 45 :=
  ⟨validate_complete, fun h => let ⟨⟨_, hj⟩, hl⟩ := h; validate_text hj hl⟩

/-- The full claim is false: `-.5`, `-e1` and `- ` are accepted. -/
theorem C56_counterexample : ∀ t ∈ ([[45, 46, 53], [45, 101, 49], [45, 32]] : List Bytes), validateJSON t = true ∧ ¬ ∃ j, Text false t j := by
  intro t ht
  simp only [List.mem_cons, List.not_mem_nil, or_false] at ht
  rcases ht with rfl | rfl | rfl
  · exact ⟨by decide +kernel, bare_not_json (by decide) (by simp [Digit])⟩
  · exact ⟨by decide +kernel, bare_not_json (by decide) (by simp [Digit])⟩
  · exact ⟨by decide +kernel, bare_not_json (by decide) (by simp [Digit])⟩

/-! ### C57 -/

/-- What `MarshalJSON` writes for a value, `UnmarshalJSON` reads back, with floating point numbers replaced by what their text is read as.  Missing
    from the full claim: keys that need escaping, nil values, NaN and infinities, and that the floating point numbers are the same. -/
theorem C57_roundtrip_partial (S : Strconv) (v : JVal) (h : Spec.Json.Plain v) (hi : Ints v) :
    ∃ t, marshal v = some t ∧ ∀ w, Returns (fun n => unmarshalValue S n t) (.ok w) ↔ Reread S v w := by
  obtain ⟨t, h1, h2⟩ := marshal_val v h
  refine ⟨t, h1, fun w => ?_⟩
  rw [reread_conv S v w h hi]
  have hl : t.getLast? ≠ some 45 := fun hl => by
    have := val_getLast h2 hl
    subst this
    exact C55_json.no_minus h2
  have hr : Returns (fun n => unmarshalValue S n t) (conv S (jOf v)) :=
    ⟨t.length, fun n hn => unmarshalValue_text S ⟨[], t, [], by simp, ws_nil, h2, ws_nil⟩ hl hn⟩
  exact ⟨fun hw => (conv_iff S _ w).mpr (Returns.unique hr hw), C55_json S h2⟩

/-- Without floating point numbers, the value itself is read back. -/
theorem C57_same_partial (S : Strconv) (v : JVal) (h : Spec.Json.Plain v) (hi : Ints v) (hf : NoFloat v) :
    ∃ t, marshal v = some t ∧ Returns (fun n => unmarshalValue S n t) (.ok v) := by
  obtain ⟨t, h1, h2⟩ := C57_roundtrip_partial S v h hi
  exact ⟨t, h1, (h2 v).mpr ((reread_same S v v h hf).mpr rfl)⟩

example (S : Strconv) : ∃ t, marshal (.obj (.cons [97] (.arr (.cons (.int (-5)) (.cons (.str [34, 10]) (.cons (.obj .nil) .nil)))) .nil)) = some t ∧
    Returns (fun n => unmarshalValue S n t) (.ok (.obj (.cons [97] (.arr (.cons (.int (-5)) (.cons (.str [34, 10]) (.cons (.obj .nil) .nil)))) .nil))) :=
  C57_same_partial S _ (by simp [Spec.Json.Plain, Spec.Json.PlainElems, Spec.Json.PlainVals, Spec.Json.PlainKey])
    (by simp [Ints, IntsElems, IntsVals]) (by simp [NoFloat, NoFloatElems, NoFloatVals])

/-- A floating point number is read back as itself if `%f` loses nothing (`S.parseFloat` reads the number from its text) and it has a fraction
    (`S.formatFloat` prints something other than an integer, and something that is read as the number). -/
theorem C57_double (S : Strconv) (b : UInt64) (hb : ∃ neg m k, Spec.Json.Double b neg m k) (h1 : (S.parseFloat (Model.Json.formatFloat b)).1 = b)
    (h2 : S.parseFloat (S.formatFloat b) = (b, true)) (h3 : ¬ ∃ i, Int64Text (S.formatFloat b) i) :
    ∃ t, marshal (.dbl b) = some t ∧ Returns (fun n => unmarshalValue S n t) (.ok (.dbl b)) := by
  obtain ⟨t, h, h'⟩ := C57_roundtrip_partial S (.dbl b) (by rw [Spec.Json.Plain]; exact hb) (by simp [Ints])
  refine ⟨t, h, (h' _).mpr (.dbl ?_)⟩
  have hw := Written.float (S := S) (formatFloat_not_integral (let ⟨_, _, _, hd⟩ := hb; (Proofs.Json.double_fields hd).2.1))
  rw [h1] at hw
  exact .dbl hw h3 h2

/-- … but one without a fraction, like 2, is read back as an integer. -/
theorem C57_double_becomes_int (S : Strconv) (b : UInt64) (hb : ∃ neg m k, Spec.Json.Double b neg m k)
    (h1 : (S.parseFloat (Model.Json.formatFloat b)).1 = b) {i : Int} (h2 : Int64Text (S.formatFloat b) i) :
    ∃ t, marshal (.dbl b) = some t ∧ Returns (fun n => unmarshalValue S n t) (.ok (.int i)) := by
  obtain ⟨t, h, h'⟩ := C57_roundtrip_partial S (.dbl b) (by rw [Spec.Json.Plain]; exact hb) (by simp [Ints])
  refine ⟨t, h, (h' _).mpr (.dbl ?_)⟩
  have hw := Written.float (S := S) (formatFloat_not_integral (let ⟨_, _, _, hd⟩ := hb; (Proofs.Json.double_fields hd).2.1))
  rw [h1] at hw
  exact .int hw h2

example (S : Strconv) (h1 : (S.parseFloat [50, 46, 48, 48, 48, 48, 48, 48]).1 = 0x4000000000000000) (h2 : S.formatFloat 0x4000000000000000 = [50]) :
    ∃ t, marshal (.dbl 0x4000000000000000) = some t ∧ Returns (fun n => unmarshalValue S n t) (.ok (.int 2)) :=
  C57_double_becomes_int S _ ⟨false, _, _, .normal (x := 1024) (f := 0) rfl (by decide) (by decide) (by decide)⟩
    (by rw [show Model.Json.formatFloat 0x4000000000000000 = [50, 46, 48, 48, 48, 48, 48, 48] by decide +kernel]; exact h1)
    (by rw [h2]; exact .pos (ds := [50]) ⟨by simp, by simp [Digit]⟩ (by decide))

/-- The repository's own reader sees two fields where the document had one, because the key is not escaped. -/
theorem C57_key_counterexample (S : Strconv) :
    ∃ (k t : Bytes), marshal (.obj (.cons k (.int 1) .nil)) = some t ∧
      Returns (fun n => unmarshalDocument S n t) (.ok (.cons [97] (.int 2) (.cons [98] (.int 1) .nil))) := by
  refine ⟨[97, 34, 58, 50, 44, 34, 98], _, rfl, ((C55_document S _).1 _).mpr
    ⟨.cons [97] (.num [50]) (.cons [98] (.num [49]) .nil), ⟨[], _, [], (List.append_nil _).symm.trans (List.nil_append _).symm, ws_nil, ?_, ws_nil⟩, ?_⟩⟩
  · have ka : ∀ {c : UInt8}, 97 ≤ c → c ≤ 122 → Chars true [c] [c] := fun {c} h1 h2 => .plain
      (by simp only [UInt8.le_iff_toNat_le] at *; simp at *; omega)
      (by rintro rfl; revert h1; decide) (by rintro rfl; revert h1; decide) .nil
    have nd : ∀ {c : UInt8}, Digit c → c ≠ 48 → Number true [c] := fun {c} h1 h2 =>
      .pos (i := [c]) (f := []) (e := []) (.digits ⟨by simp, by simpa using h1⟩ (by simpa using h2)) .none .none
    exact .obj (t := [34, 97, 34, 58, 50, 44, 34, 98, 34, 58, 49])
      (.cons (w := []) (s := [97]) (w1 := []) (w2 := []) (w3 := []) ws_nil (ka (by decide) (by decide)) ws_nil ws_nil (.num (nd (by simp [Digit]) (by decide))) ws_nil
      (.last (w := []) (s := [98]) (w1 := []) (w2 := []) (w3 := []) ws_nil (ka (by decide) (by decide)) ws_nil ws_nil (.num (nd (by simp [Digit]) (by decide))) ws_nil))
  · have n : ∀ {c : UInt8}, Digit c → Conv S (.num [c]) (.int (natValue [c])) := fun {c} h =>
      .int (.integral (.inl ⟨by simp, by simpa using h⟩)) (.pos ⟨by simp, by simpa using h⟩ (by
        rw [digit_nat] at h
        simp only [natValue, List.foldl]
        omega))
    exact .cons (n (c := 50) (by simp [Digit])) (.cons (n (c := 49) (by simp [Digit])) .nil)

end Birch.Props
