import Verif.Props.ExtJsonRead
import Verif.Props.BadArgs

/- C106: JSON text becomes the BSON document that it stands for. -/

namespace Birch.Props
open Birch Model Spec Proofs Proofs.ExtJson Model.ExtJson Spec.ExtJson

/-- A JSON object, in whichever way it is written, is read by `UnmarshalJSON` and marshalled as the BSON document with its keys and values.

    Missing from the full claim: texts with an escaped NUL in keys and regular expressions (`C106_exact`, `C106_injected`), and those of `C62`. -/
theorem C106_bytes_partial (S : Gjson.Strconv) (C : Clock) {lax : Bool} {t : Bytes} {es : JsonText.Jes} {fs : Fields} (ht : JsonText.Text lax t (.obj es)) (hi : ReadsFields S C es fs)
    (hw : fs.WF) (hl : (encDoc fs).length < 2 ^ 31) :
    ∃ d, Returns (fun n => unmarshalDocument S C [] t n) (.ok (d, none)) ∧ Returns (fun n => docMarshal n d) (.ok (encDoc fs)) := by
  obtain ⟨d, h1, h2⟩ := C62_reads_partial S C ht hi hw hl
  exact ⟨d, h2 [], (encDoc fs).length + 1, fun m hm => docMarshal_rep m h1 hl (by omega)⟩

/-- what `UnmarshalJSON` makes of an object is what the constructors make -/
theorem unmarshal_built (S : Gjson.Strconv) (C : Clock) {lax : Bool} {t : Bytes} {es : JsonText.Jes} {fs : Fields} {d : Doc} (ht : JsonText.Text lax t (.obj es))
    (hi : ReadsFields S C es fs) (hd : buildDoc fs = .ok d) : Returns (fun n => unmarshalDocument S C [] t n) (.ok (d, none)) := by
  obtain ⟨ws, h1, h2⟩ := readsFields_conv hi
  have := unmarshalDocument_text (C := C) ht (fun hm => by cases C55_minus ht hm) h1 []
  rw [appendAll_collect [] _ d (h2.trans hd)] at this
  exact this

/-- For objects without nested ones and any keys: there is never an error, and the bytes are those of the BSON document with these keys and values exactly if no key and no
    regular expression has a NUL. -/
theorem C106_exact (S : Gjson.Strconv) (C : Clock) {lax : Bool} {t : Bytes} {es : JsonText.Jes} {fs : Fields} (ht : JsonText.Text lax t (.obj es)) (hi : ReadsFields S C es fs)
    (hs : fs.Scalar) (hw : fs.Stored) (hl : fs.bytes < 2147483000) :
    ∃ d bs, Returns (fun n => unmarshalDocument S C [] t n) (.ok (d, none)) ∧ Returns (fun n => docMarshal n d) (.ok bs) ∧ (bs = encDoc fs ↔ fs.WF) := by
  obtain ⟨d, bs, h1, h2, h3⟩ := C95_exact fs hs hw hl
  exact ⟨d, bs, unmarshal_built S C ht hi h1, h2, h3⟩

/-! ### texts for any string -/

def hexOf (n : Nat) : UInt8 := UInt8.ofNat (if n < 10 then 48 + n else 87 + n)

theorem hexOf_digit : ∀ n < 16, JsonText.hexDigit (hexOf n) = some n := by decide

theorem escaped (c : UInt8) (h : c < 128) : JsonText.Hex4 [48, 48, hexOf (c.toNat / 16), hexOf (c.toNat % 16)] c.toNat ∧ JsonText.utf8 c.toNat = [c] := by
  have h' : c.toNat < 128 := by simpa [UInt8.lt_iff_toNat_lt] using h
  refine ⟨⟨48, 48, _, _, 0, 0, c.toNat / 16, c.toNat % 16, rfl, by decide, by decide, hexOf_digit _ (by omega), hexOf_digit _ (by omega), by omega⟩, ?_⟩
  rw [JsonText.utf8, if_pos h']
  simp

theorem chars_exist : ∀ k : Bytes, ∃ s, JsonText.Chars false s k
  | [] => ⟨[], .nil⟩
  | c :: k => by
    obtain ⟨s, h⟩ := chars_exist k
    by_cases hc : 32 ≤ c ∧ c ≠ 34 ∧ c ≠ 92
    · exact ⟨_, .plain hc.1 hc.2.1 hc.2.2 h⟩
    · have hs : c < 128 := by
        have : ¬ (32 ≤ c ∧ c ≠ 34 ∧ c ≠ 92) → c < 128 := by
          simp only [UInt8.le_iff_toNat_le, UInt8.lt_iff_toNat_lt, ne_eq, ← UInt8.toNat_inj]
          simp; omega
        exact this hc
      obtain ⟨h1, h2⟩ := escaped c hs
      have hn : c.toNat < 128 := by simpa [UInt8.lt_iff_toNat_lt] using hs
      have := JsonText.Chars.point h1 (by unfold JsonText.High; omega) (by unfold JsonText.Low; omega) h
      rw [h2] at this
      exact ⟨_, this⟩

theorem string_field_text (k s : Bytes) : ∃ t, JsonText.Text false t (.obj (.cons k (.str s) .nil)) := by
  obtain ⟨k', hk⟩ := chars_exist k
  obtain ⟨s', hs⟩ := chars_exist s
  exact ⟨_, val_text (.obj (.last Gjson.ws_nil hk Gjson.ws_nil Gjson.ws_nil (.str hs) Gjson.ws_nil))⟩

/-! ### violations -/

/-- For any fields there are JSON texts of one string under one key, all of which are read without an error and marshalled as a BSON document with these fields, of which the text
    has none: the fields are taken from the key, and the string is in none of them. -/
theorem C106_injected (S : Gjson.Strconv) (C : Clock) (a s : Bytes) (fs : Fields) (ha : NulFree a) (h : s.length = fs.enc.length) (hl : a.length + s.length < 1073740000) :
    (∃ t, JsonText.Text false t (.obj (.cons (a ++ [0] ++ (encString [] ++ fs.enc)) (.str s) .nil))) ∧
    ∀ lax t, JsonText.Text lax t (.obj (.cons (a ++ [0] ++ (encString [] ++ fs.enc)) (.str s) .nil)) →
      ∃ d, Returns (fun n => unmarshalDocument S C [] t n) (.ok (d, none)) ∧ Returns (fun n => docMarshal n d) (.ok (encDoc (.cons a (.string []) fs))) := by
  refine ⟨string_field_text _ _, fun lax t ht => ?_⟩
  obtain ⟨d, h1, h2⟩ := C95_fields_from_key a s fs ha h hl
  exact ⟨d, unmarshal_built S C ht (.cons .str .nil) h1, h2⟩

/-- Of a regular expression with a NUL in its pattern the options are replaced by the rest of the pattern. -/
theorem C106_options (S : Gjson.Strconv) (C : Clock) {lax : Bool} {t : Bytes} (k a b o : Bytes) (hk : NulFree k) (ha : NulFree a) (hb : NulFree b)
    (hl : k.length + a.length + b.length + o.length < 2147482000)
    (ht : JsonText.Text lax t (.obj (.cons k (single "$regularExpression" (Spec.ExtJson.double "pattern" (.str (a ++ [0] ++ b)) "options" (.str o))) .nil))) :
    ∃ d, Returns (fun n => unmarshalDocument S C [] t n) (.ok (d, none)) ∧ Returns (fun n => docMarshal n d) (.ok (encDoc (.cons k (.regex a b) .nil))) := by
  obtain ⟨d, h1, h2⟩ := C95_regex_options_lost k a b o hk ha hb hl
  exact ⟨d, unmarshal_built S C ht (.cons .regex .nil) h1, h2⟩

/-- The claim for all texts is false. -/
theorem C106_not_always (S : Gjson.Strconv) (C : Clock) : ¬ ∀ t es fs, JsonText.Text false t (.obj es) → ReadsFields S C es fs → (encDoc fs).length < 2 ^ 31 →
    ∃ d, Returns (fun n => unmarshalDocument S C [] t n) (.ok (d, none)) ∧ Returns (fun n => docMarshal n d) (.ok (encDoc fs)) := by
  intro h
  obtain ⟨⟨t, ht⟩, hd⟩ := C106_injected S C [117] (ascii "12345678") (.cons (ascii "admin") (.bool true) .nil) (by simp [NulFree]) (by decide) (by decide)
  obtain ⟨d, h1, h2⟩ := hd _ t ht
  obtain ⟨d', h3, h4⟩ := h t _ _ ht (.cons .str .nil) (by decide)
  have e := Proofs.Returns.unique h1 h3
  cases e
  have e := Proofs.Returns.unique h2 h4
  revert e
  simp only [Res.ok.injEq]
  decide

/-! ### examples -/

/-- `{"u\u0000\u0001\u0000\u0000\u0000\u0000\u0008admin\u0000\u0001":"12345678"}` is marshalled as {"u": "", "admin": true} -/
example (S : Gjson.Strconv) (C : Clock) : ∃ d,
    Returns (fun n => unmarshalDocument S C [] (ascii "{\"u\\u0000\\u0001\\u0000\\u0000\\u0000\\u0000\\u0008admin\\u0000\\u0001\":\"12345678\"}") n) (.ok (d, none)) ∧
    Returns (fun n => docMarshal n d) (.ok (encDoc (.cons [117] (.string []) (.cons (ascii "admin") (.bool true) .nil)))) := by
  refine (C106_injected S C [117] (ascii "12345678") (.cons (ascii "admin") (.bool true) .nil) (by simp [NulFree]) (by decide) (by decide)).2 false _ ?_
  have pl : ∀ {c s u}, (32 ≤ c ∧ c ≠ 34 ∧ c ≠ 92) → JsonText.Chars false s u → JsonText.Chars false (c :: s) (c :: u) := fun h => .plain h.1 h.2.1 h.2.2
  have es : ∀ {s u} (c : UInt8), c < 32 → JsonText.Chars false s u → JsonText.Chars false (92 :: 117 :: ([48, 48, hexOf (c.toNat / 16), hexOf (c.toNat % 16)] ++ s)) (c :: u) := by
    intro s u c hc h
    have hn : c.toNat < 32 := by simpa [UInt8.lt_iff_toNat_lt] using hc
    obtain ⟨h1, h2⟩ := escaped c (by simp [UInt8.lt_iff_toNat_lt]; omega)
    have := JsonText.Chars.point h1 (by unfold JsonText.High; omega) (by unfold JsonText.Low; omega) h
    rwa [h2] at this
  have hk := pl (c := 117) (by decide) (es 0 (by decide) (es 1 (by decide) (es 0 (by decide) (es 0 (by decide) (es 0 (by decide) (es 0 (by decide) (es 8 (by decide)
    (pl (c := 97) (by decide) (pl (c := 100) (by decide) (pl (c := 109) (by decide) (pl (c := 105) (by decide) (pl (c := 110) (by decide)
      (es 0 (by decide) (es 1 (by decide) .nil))))))))))))))
  have hv := pl (c := 49) (by decide) (pl (c := 50) (by decide) (pl (c := 51) (by decide) (pl (c := 52) (by decide) (pl (c := 53) (by decide) (pl (c := 54) (by decide)
    (pl (c := 55) (by decide) (pl (c := 56) (by decide) .nil)))))))
  exact val_text (.obj (.last Gjson.ws_nil hk Gjson.ws_nil Gjson.ws_nil (.str hv) Gjson.ws_nil))

/-- `{"a": true}` -/
example (S : Gjson.Strconv) (C : Clock) {t : Bytes} (ht : JsonText.Text false t (.obj (.cons [97] (.bool true) .nil))) : ∃ d bs,
    Returns (fun n => unmarshalDocument S C [] t n) (.ok (d, none)) ∧ Returns (fun n => docMarshal n d) (.ok bs) ∧ bs = encDoc (.cons [97] (.bool true) .nil) := by
  obtain ⟨d, bs, h1, h2, h3⟩ := C106_exact S C ht (fs := .cons [97] (.bool true) .nil) (.cons .bool .nil) ⟨trivial, trivial⟩ ⟨by simp [BVal.stored, BVal.WF], trivial⟩ (by decide)
  exact ⟨d, bs, h1, h2, h3.mpr ⟨by simp [NulFree], by simp [BVal.WF], trivial⟩⟩

/-- `{"a": {"b": "c"}}`, a nested object -/
example (S : Gjson.Strconv) (C : Clock) {t : Bytes} (ht : JsonText.Text true t (.obj (.cons [97] (.obj (.cons [98] (.str [99]) .nil)) .nil))) : ∃ d,
    Returns (fun n => unmarshalDocument S C [] t n) (.ok (d, none)) ∧ Returns (fun n => docMarshal n d) (.ok (encDoc (.cons [97] (.doc (.cons [98] (.string [99]) .nil)) .nil))) :=
  C106_bytes_partial S C ht (fs := .cons [97] (.doc (.cons [98] (.string [99]) .nil)) .nil) (.cons (.obj (by unfold Unreserved; decide) (.cons .str .nil)) .nil) (by simp [Fields.WF, BVal.WF, NulFree]) (by decide)

/-- the expression `x NUL m` with the options `i` is marshalled as `x` with the options `m` -/
example (S : Gjson.Strconv) (C : Clock) {t : Bytes}
    (ht : JsonText.Text false t (.obj (.cons [97] (single "$regularExpression" (Spec.ExtJson.double "pattern" (.str [120, 0, 109]) "options" (.str [105]))) .nil))) :
    ∃ d, Returns (fun n => unmarshalDocument S C [] t n) (.ok (d, none)) ∧ Returns (fun n => docMarshal n d) (.ok (encDoc (.cons [97] (.regex [120] [109]) .nil))) :=
  C106_options S C [97] [120] [109] [105] (by simp [NulFree]) (by simp [NulFree]) (by simp [NulFree]) (by decide) ht

end Birch.Props
