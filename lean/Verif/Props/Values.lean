import Verif.Props.Bson
import Verif.Proofs.Readers

/-
C08, C09: constructors and typed accessors.

The value constructors are the element constructors with the empty key
(constructor.go:596-723), so `k = []` is the case of `VC.X`.
-/

namespace Birch.Props
open Birch Model Spec Proofs

/-! ### C08 -/

theorem C08_double (k : Bytes) (bits : Nat) (hk : NulFree k) (hb : bits < 18446744073709551616)
    (hl : k.length + 2 + (BVal.double bits).enc.length < 2147483648) :
    ∃ v, EC.double k bits = .ok v ∧ double v = .ok bits ∧ key v = .ok k ∧ type v = .ok 0x01 := by
  obtain ⟨v, hv, hr⟩ := buildVal_rep k (.double bits) hk hb hl
  exact ⟨v, by simpa only [buildVal] using hv, double_rep hr, key_rep hr, type_rep hr⟩

example := C08_double [107] 4611686018427387904 (by simp [NulFree]) (by decide) (by decide)

theorem C08_string (k : Bytes) (s : Bytes) (hk : NulFree k) 
    (hl : k.length + 2 + (BVal.string s).enc.length < 2147483648) :
    ∃ v, EC.string k s = .ok v ∧ stringValue v = .ok s ∧ key v = .ok k ∧ type v = .ok 0x02 := by
  obtain ⟨v, hv, hr⟩ := buildVal_rep k (.string s) hk True.intro hl
  exact ⟨v, by simpa only [buildVal] using hv, stringValue_rep hr, key_rep hr, type_rep hr⟩

example := C08_string [107] [104, 105] (by simp [NulFree]) (by decide)

theorem C08_javaScript (k : Bytes) (s : Bytes) (hk : NulFree k) 
    (hl : k.length + 2 + (BVal.js s).enc.length < 2147483648) :
    ∃ v, EC.javaScript k s = .ok v ∧ javaScript v = .ok s ∧ key v = .ok k ∧ type v = .ok 0x0D := by
  obtain ⟨v, hv, hr⟩ := buildVal_rep k (.js s) hk True.intro hl
  exact ⟨v, by simpa only [buildVal] using hv, javaScript_rep hr, key_rep hr, type_rep hr⟩

example := C08_javaScript [107] [104, 105] (by simp [NulFree]) (by decide)

theorem C08_symbol (k : Bytes) (s : Bytes) (hk : NulFree k) 
    (hl : k.length + 2 + (BVal.symbol s).enc.length < 2147483648) :
    ∃ v, EC.symbol k s = .ok v ∧ symbol v = .ok s ∧ key v = .ok k ∧ type v = .ok 0x0E := by
  obtain ⟨v, hv, hr⟩ := buildVal_rep k (.symbol s) hk True.intro hl
  exact ⟨v, by simpa only [buildVal] using hv, symbol_rep hr, key_rep hr, type_rep hr⟩

example := C08_symbol [107] [] (by simp [NulFree]) (by decide)

theorem C08_objectID (k : Bytes) (id : Bytes) (hk : NulFree k) (hb : id.length = 12)
    (hl : k.length + 2 + (BVal.oid id).enc.length < 2147483648) :
    ∃ v, EC.objectID k id = .ok v ∧ objectID v = .ok id ∧ key v = .ok k ∧ type v = .ok 0x07 := by
  obtain ⟨v, hv, hr⟩ := buildVal_rep k (.oid id) hk hb hl
  exact ⟨v, by simpa only [buildVal] using hv, objectID_rep hr, key_rep hr, type_rep hr⟩

example := C08_objectID [107] [1,2,3,4,5,6,7,8,9,10,11,12] (by simp [NulFree]) rfl (by decide)

theorem C08_boolean (k : Bytes) (b : Bool) (hk : NulFree k) 
    (hl : k.length + 2 + (BVal.bool b).enc.length < 2147483648) :
    ∃ v, EC.boolean k b = .ok v ∧ boolean v = .ok b ∧ key v = .ok k ∧ type v = .ok 0x08 := by
  obtain ⟨v, hv, hr⟩ := buildVal_rep k (.bool b) hk True.intro hl
  exact ⟨v, by simpa only [buildVal] using hv, boolean_rep hr, key_rep hr, type_rep hr⟩

example := C08_boolean [107] true (by simp [NulFree]) (by decide)

theorem C08_dateTime (k : Bytes) (ms : Int) (hk : NulFree k) (hb : -9223372036854775808 ≤ ms ∧ ms < 9223372036854775808)
    (hl : k.length + 2 + (BVal.datetime ms).enc.length < 2147483648) :
    ∃ v, EC.dateTime k ms = .ok v ∧ dateTime v = .ok ms ∧ key v = .ok k ∧ type v = .ok 0x09 := by
  obtain ⟨v, hv, hr⟩ := buildVal_rep k (.datetime ms) hk hb hl
  exact ⟨v, by simpa only [buildVal] using hv, dateTime_rep hr, key_rep hr, type_rep hr⟩

example := C08_dateTime [107] (-5) (by simp [NulFree]) (by decide) (by decide)

theorem C08_int32 (k : Bytes) (i : Int) (hk : NulFree k) (hb : -2147483648 ≤ i ∧ i < 2147483648)
    (hl : k.length + 2 + (BVal.int32 i).enc.length < 2147483648) :
    ∃ v, EC.int32 k i = .ok v ∧ int32 v = .ok i ∧ key v = .ok k ∧ type v = .ok 0x10 := by
  obtain ⟨v, hv, hr⟩ := buildVal_rep k (.int32 i) hk hb hl
  exact ⟨v, by simpa only [buildVal] using hv, int32_rep hr, key_rep hr, type_rep hr⟩

example := C08_int32 [107] (-2147483648) (by simp [NulFree]) (by decide) (by decide)

theorem C08_int64 (k : Bytes) (i : Int) (hk : NulFree k) (hb : -9223372036854775808 ≤ i ∧ i < 9223372036854775808)
    (hl : k.length + 2 + (BVal.int64 i).enc.length < 2147483648) :
    ∃ v, EC.int64 k i = .ok v ∧ int64 v = .ok i ∧ key v = .ok k ∧ type v = .ok 0x12 := by
  obtain ⟨v, hv, hr⟩ := buildVal_rep k (.int64 i) hk hb hl
  exact ⟨v, by simpa only [buildVal] using hv, int64_rep hr, key_rep hr, type_rep hr⟩

example := C08_int64 [107] (-9223372036854775808) (by simp [NulFree]) (by decide) (by decide)

theorem C08_timestamp (k : Bytes) (t i : Nat) (hk : NulFree k) (hb : t < 4294967296 ∧ i < 4294967296)
    (hl : k.length + 2 + (BVal.timestamp t i).enc.length < 2147483648) :
    ∃ v, EC.timestamp k t i = .ok v ∧ timestamp v = .ok (t, i) ∧ key v = .ok k ∧ type v = .ok 0x11 := by
  obtain ⟨v, hv, hr⟩ := buildVal_rep k (.timestamp t i) hk hb hl
  exact ⟨v, by simpa only [buildVal] using hv, timestamp_rep hr, key_rep hr, type_rep hr⟩

example := C08_timestamp [107] 7 4294967295 (by simp [NulFree]) (by decide) (by decide)

theorem C08_binaryWithSubtype (k : Bytes) (b : Bytes) (st : UInt8) (hk : NulFree k) (hb : st ≤ 5 ∨ 0x80 ≤ st)
    (hl : k.length + 2 + (BVal.binary st b).enc.length < 2147483648) :
    ∃ v, EC.binaryWithSubtype k b st = .ok v ∧ binary v = .ok (st, b) ∧ key v = .ok k ∧ type v = .ok 0x05 := by
  obtain ⟨v, hv, hr⟩ := buildVal_rep k (.binary st b) hk hb hl
  exact ⟨v, by simpa only [buildVal] using hv, binary_rep hr, key_rep hr, type_rep hr⟩

example := C08_binaryWithSubtype [107] [1,2,3] 2 (by simp [NulFree]) (by decide) (by decide)

theorem C08_regex (k : Bytes) (p o : Bytes) (hk : NulFree k) (hb : NulFree p ∧ NulFree o)
    (hl : k.length + 2 + (BVal.regex p o).enc.length < 2147483648) :
    ∃ v, EC.regex k p o = .ok v ∧ regex v = .ok (p, o) ∧ key v = .ok k ∧ type v = .ok 0x0B := by
  obtain ⟨v, hv, hr⟩ := buildVal_rep k (.regex p o) hk hb hl
  exact ⟨v, by simpa only [buildVal] using hv, regex_rep hr, key_rep hr, type_rep hr⟩

example := C08_regex [107] [97] [105] (by simp [NulFree]) (by simp [NulFree]) (by decide)

theorem C08_dbPointer (k : Bytes) (ns id : Bytes) (hk : NulFree k) (hb : id.length = 12)
    (hl : k.length + 2 + (BVal.dbpointer ns id).enc.length < 2147483648) :
    ∃ v, EC.dbPointer k ns id = .ok v ∧ dbPointer v = .ok (ns, id) ∧ key v = .ok k ∧ type v = .ok 0x0C := by
  obtain ⟨v, hv, hr⟩ := buildVal_rep k (.dbpointer ns id) hk hb hl
  exact ⟨v, by simpa only [buildVal] using hv, dbPointer_rep hr, key_rep hr, type_rep hr⟩

example := C08_dbPointer [107] [97] [1,2,3,4,5,6,7,8,9,10,11,12] (by simp [NulFree]) rfl (by decide)

/-- the types without a payload -/
theorem C08_constants (k : Bytes) (hk : NulFree k) (hl : k.length + 2 < 2147483648) :
    (∃ v, EC.undefined k = .ok v ∧ key v = .ok k ∧ type v = .ok 0x06) ∧
    (∃ v, EC.null k = .ok v ∧ key v = .ok k ∧ type v = .ok 0x0A) ∧
    (∃ v, EC.minKey k = .ok v ∧ key v = .ok k ∧ type v = .ok 0xFF) ∧
    (∃ v, EC.maxKey k = .ok v ∧ key v = .ok k ∧ type v = .ok 0x7F) := by
  have h := fun t (wf : t.WF) (he : t.enc = []) => buildVal_rep k t hk wf (by rw [he]; simpa using hl)
  refine ⟨?_, ?_, ?_, ?_⟩
  · obtain ⟨v, hv, hr⟩ := h .undefined True.intro rfl
    exact ⟨v, by simpa only [buildVal] using hv, key_rep hr, type_rep hr⟩
  · obtain ⟨v, hv, hr⟩ := h .null True.intro rfl
    exact ⟨v, by simpa only [buildVal] using hv, key_rep hr, type_rep hr⟩
  · obtain ⟨v, hv, hr⟩ := h .minKey True.intro rfl
    exact ⟨v, by simpa only [buildVal] using hv, key_rep hr, type_rep hr⟩
  · obtain ⟨v, hv, hr⟩ := h .maxKey True.intro rfl
    exact ⟨v, by simpa only [buildVal] using hv, key_rep hr, type_rep hr⟩

example := C08_constants [107] (by simp [NulFree]) (by decide)

/-- Decimals do not come back: the accessor returns the two halves exchanged. -/
theorem C08_decimal128_swapped (k : Bytes) (h l : Nat) (hk : NulFree k) (hh : h < 18446744073709551616)
    (hlo : l < 18446744073709551616) (hl : k.length + 18 < 2147483648) :
    ∃ v, EC.decimal128 k h l = .ok v ∧ decimal128 v = .ok (l, h) ∧ key v = .ok k ∧ type v = .ok 0x13 := by
  obtain ⟨v, hv, hr⟩ := buildVal_rep k (.decimal h l) hk ⟨hh, hlo⟩ (by simp [BVal.enc]; omega)
  exact ⟨v, by simpa only [buildVal] using hv, decimal128_rep hr, key_rep hr, type_rep hr⟩

/-- so the inverse property is false for decimals -/
theorem C08_decimal128_counterexample :
    ∃ v, EC.decimal128 [107] 0x3040000000000000 1 = .ok v ∧ decimal128 v ≠ .ok (0x3040000000000000, 1) := by
  obtain ⟨v, h1, h2, _⟩ := C08_decimal128_swapped [107] 0x3040000000000000 1 (by simp [NulFree]) (by decide) (by decide) (by decide)
  exact ⟨v, h1, by rw [h2]; simp⟩

/-- `EC.Binary(key, b)` has subtype 0 -/
theorem C08_binary (k b : Bytes) (hk : NulFree k) (hl : k.length + 7 + b.length < 2147483648) :
    ∃ v, EC.binary k b = .ok v ∧ binary v = .ok (0, b) ∧ key v = .ok k ∧ type v = .ok 0x05 :=
  C08_binaryWithSubtype k b 0 hk (Or.inl (by decide)) (by simp [BVal.enc]; omega)

example := C08_binary [107] [1, 2, 3] (by simp [NulFree]) (by decide)

/-- `EC.SubDocumentFromReader` of canonical bytes is an element with that document. -/
theorem C08_subDocumentFromReader (k : Bytes) (fs : Fields) (hk : NulFree k) (wf : fs.WF)
    (hl : k.length + 2 + (encDoc fs).length < 2147483648) :
    ∃ v d, EC.subDocumentFromReader k (encDoc fs) = .ok v ∧ key v = .ok k ∧ type v = .ok 0x03 ∧
      Returns (fun fuel => readerDocument fuel v) (.ok (encDoc fs)) ∧
      Returns (fun fuel => mutableDocument fuel v) (.ok d) ∧
      Returns (fun fuel => docMarshal fuel d) (.ok (encDoc fs)) := by
  obtain ⟨v, hv, hr⟩ := subDocumentFromReader_rep k fs hk wf hl
  have hl' : (encDoc fs).length < 2147483648 := by omega
  obtain ⟨d, hd, hr'⟩ := mutableDocument_rep hr hl' (Nat.lt_succ_self _)
  exact ⟨v, d, hv, key_rep hr, type_rep hr, returns_of _ fun m hm => readerDocument_rep hr hl' hm,
    ⟨_, fun m hm => by simp only; rw [mutableDocument_mono hm (by rw [hd]; simp), hd]⟩,
    returns_of _ fun m hm => docMarshal_rep m hr' hl' hm⟩

example := C08_subDocumentFromReader [107] sample (by simp [NulFree]) sample_wf (by decide +kernel)

/-! ### C09 -/

/-- `x` is the type byte the accessor is for, `r` what it gives, `ok` what its `OK` form gives -/
def Exact {α : Type} (t : BVal) (x : UInt8) (r : Res α) (ok : Res (Option α)) : Prop :=
  (t.tag = x → ∃ a, r = .ok a ∧ ok = .ok (some a)) ∧ (t.tag ≠ x → r = .panic ∧ ok = .ok none)

theorem exact_of {α : Type} {v : Value} {k : Bytes} {t : BVal} (h : Rep v k t) {x : UInt8} {f : Value → Res α} {g : Unit → Res α}
    (hf : f v = (expect x v >>= g)) (hok : t.tag = x → ∃ a, f v = .ok a) : Exact t x (f v) (okVariant x f v) := by
  unfold okVariant
  rw [if_neg (rep_offset h), (rep_key h).2.1]
  simp only [Res.bind_ok]
  constructor
  · intro ht
    obtain ⟨a, ha⟩ := hok ht
    exact ⟨a, ha, by simp [ht, ha]⟩
  · intro ht
    rw [hf, expect_rep h, if_neg ht]
    exact ⟨by simp, by simp [ht]⟩

/-- On every value of every type, each accessor succeeds exactly on its own type and panics on all others;
    its `OK` form then returns the same result, and false on the others. -/
theorem C09_accessors (v : Value) (k : Bytes) (t : BVal) (h : Rep v k t) :
    Exact t 0x01 (double v) (doubleOK v) ∧ Exact t 0x02 (stringValue v) (stringValueOK v) ∧
    Exact t 0x05 (binary v) (binaryOK v) ∧ Exact t 0x07 (objectID v) (objectIDOK v) ∧
    Exact t 0x08 (boolean v) (booleanOK v) ∧ Exact t 0x09 (dateTime v) (dateTimeOK v) ∧
    Exact t 0x0C (dbPointer v) (dbPointerOK v) ∧ Exact t 0x0D (javaScript v) (javaScriptOK v) ∧
    Exact t 0x10 (int32 v) (int32OK v) ∧ Exact t 0x11 (timestamp v) (timestampOK v) ∧
    Exact t 0x12 (int64 v) (int64OK v) ∧ Exact t 0x13 (decimal128 v) (decimal128OK v) := by
  refine ⟨?_, ?_, ?_, ?_, ?_, ?_, ?_, ?_, ?_, ?_, ?_, ?_⟩
  · exact exact_of h rfl fun ht => by cases t <;> simp [BVal.tag] at ht; exact ⟨_, double_rep h⟩
  · exact exact_of h rfl fun ht => by cases t <;> simp [BVal.tag] at ht; exact ⟨_, stringValue_rep h⟩
  · exact exact_of h rfl fun ht => by cases t <;> simp [BVal.tag] at ht; exact ⟨_, binary_rep h⟩
  · exact exact_of h rfl fun ht => by cases t <;> simp [BVal.tag] at ht; exact ⟨_, objectID_rep h⟩
  · exact exact_of h rfl fun ht => by cases t <;> simp [BVal.tag] at ht; exact ⟨_, boolean_rep h⟩
  · exact exact_of h rfl fun ht => by cases t <;> simp [BVal.tag] at ht; exact ⟨_, dateTime_rep h⟩
  · exact exact_of h rfl fun ht => by cases t <;> simp [BVal.tag] at ht; exact ⟨_, dbPointer_rep h⟩
  · exact exact_of h rfl fun ht => by cases t <;> simp [BVal.tag] at ht; exact ⟨_, javaScript_rep h⟩
  · exact exact_of h rfl fun ht => by cases t <;> simp [BVal.tag] at ht; exact ⟨_, int32_rep h⟩
  · exact exact_of h rfl fun ht => by cases t <;> simp [BVal.tag] at ht; exact ⟨_, timestamp_rep h⟩
  · exact exact_of h rfl fun ht => by cases t <;> simp [BVal.tag] at ht; exact ⟨_, int64_rep h⟩
  · exact exact_of h rfl fun ht => by cases t <;> simp [BVal.tag] at ht; exact ⟨_, decimal128_rep h⟩

example : ∃ v, Rep v [107] (.binary 2 [1, 2, 3]) := by
  obtain ⟨v, _, h⟩ := buildVal_rep [107] (.binary 2 [1, 2, 3]) (by simp [NulFree]) (by simp [BVal.WF]) (by decide)
  exact ⟨v, h⟩

/-- The accessors of nested values, for every large enough fuel (that is, whenever the call returns). -/
theorem C09_nested_accessors (v : Value) (k : Bytes) (t : BVal) (h : Rep v k t) (hl : t.enc.length < 2147483648)
    (fuel : Nat) (hf : t.enc.length < fuel) :
    Exact t 0x03 (readerDocument fuel v) (readerDocumentOK fuel v) ∧
    Exact t 0x03 (mutableDocument fuel v) (mutableDocumentOK fuel v) ∧
    Exact t 0x04 (mutableArray fuel v) (mutableArrayOK fuel v) ∧
    Exact t 0x0F (readerCodeWithScope fuel v) (readerCodeWithScopeOK fuel v) ∧
    Exact t 0x0F (mutableCodeWithScope fuel v) (mutableCodeWithScopeOK fuel v) := by
  refine ⟨?_, ?_, ?_, ?_, ?_⟩
  · refine exact_of h rfl fun ht => ?_
    cases t <;> simp [BVal.tag] at ht
    exact ⟨_, readerDocument_rep h hl hf⟩
  · refine exact_of h rfl fun ht => ?_
    cases t <;> simp [BVal.tag] at ht
    obtain ⟨d, hd, _⟩ := mutableDocument_rep h hl hf
    exact ⟨_, hd⟩
  · refine exact_of h rfl fun ht => ?_
    cases t <;> simp [BVal.tag] at ht
    obtain ⟨d, hd, _⟩ := mutableArray_rep h hl hf
    exact ⟨_, hd⟩
  · refine exact_of h rfl fun ht => ?_
    cases t <;> simp [BVal.tag] at ht
    simp only [BVal.enc, List.length_append] at hl hf
    exact ⟨_, readerCode_rep h (by simp only [encDoc]; omega) (by simp only [encDoc]; omega)⟩
  · refine exact_of h rfl fun ht => ?_
    cases t <;> simp [BVal.tag] at ht
    obtain ⟨d, hd, _⟩ := mutableCode_rep h hl hf
    exact ⟨_, hd⟩

example : ∃ v, Rep v [107] (.codeScope [49] sample) ∧ (BVal.codeScope [49] sample).enc.length < 2147483648 := by
  obtain ⟨v, _, h⟩ := buildVal_rep [107] (.codeScope [49] sample) (by simp [NulFree]) sample_wf (by decide +kernel)
  exact ⟨v, h, by decide +kernel⟩

/-- `ReaderArray` on an array that has not been opened.  (On an opened or constructed array it marshals the
    values under their stored keys, which is not covered here.) -/
theorem C09_readerArray (s o : Nat) (data k : Bytes) (t : BVal) (h : Rep (.raw s o data) k t) (fuel : Nat) :
    Exact t 0x04 (readerArray fuel (.raw s o data)) (readerArrayOK fuel (.raw s o data)) := by
  refine exact_of h rfl fun ht => ?_
  cases t <;> simp [BVal.tag] at ht
  exact ⟨_, readerArray_raw h⟩

example : ∃ s o data, Rep (.raw s o data) [107] (.array (.cons .null .nil)) := by
  refine ⟨0, 3, [0x04, 107, 0, 8, 0, 0, 0, 0x0A, 48, 0, 0], ?_⟩
  simp only [Rep]
  exact ⟨by simp [NulFree], by simp [BVal.WF, Vals.WF], by decide, [], [], by decide, rfl, rfl⟩

/-- `Regex` and `Symbol` have no `OK` form. -/
theorem C09_regex_symbol (v : Value) (k : Bytes) (t : BVal) (h : Rep v k t) :
    ((∃ r, regex v = .ok r) ↔ t.tag = 0x0B) ∧ (regex v = .panic ↔ t.tag ≠ 0x0B) ∧
    ((∃ r, symbol v = .ok r) ↔ t.tag = 0x0E) ∧ (symbol v = .panic ↔ t.tag ≠ 0x0E) := by
  have e1 := exact_of (f := regex) h rfl fun ht => by cases t <;> simp [BVal.tag] at ht; exact ⟨_, regex_rep h⟩
  have e2 := exact_of (f := symbol) h rfl fun ht => by cases t <;> simp [BVal.tag] at ht; exact ⟨_, symbol_rep h⟩
  have conv : ∀ {α : Type} {x : UInt8} {r : Res α} {ok : Res (Option α)}, Exact t x r ok →
      ((∃ a, r = .ok a) ↔ t.tag = x) ∧ (r = .panic ↔ t.tag ≠ x) := by
    intro α x r ok ⟨h1, h2⟩
    by_cases ht : t.tag = x
    · obtain ⟨a, ha, _⟩ := h1 ht
      simp [ht, ha]
    · simp [ht, (h2 ht).1]
  exact ⟨(conv e1).1, (conv e1).2, (conv e2).1, (conv e2).2⟩

example : ∃ v, Rep v [107] (.regex [97] []) := by
  obtain ⟨v, _, h⟩ := buildVal_rep [107] (.regex [97] []) (by simp [NulFree]) (by simp [BVal.WF, NulFree]) (by decide)
  exact ⟨v, h⟩

/-- `Int` and `IntOK` accept exactly the two integer types and return their number. -/
theorem C09_int (v : Value) (k : Bytes) (t : BVal) (h : Rep v k t) :
    (∀ i, t = .int32 i ∨ t = .int64 i → int v = .ok i ∧ intOK v = .ok (some i)) ∧
    (t.tag ≠ 0x10 ∧ t.tag ≠ 0x12 → int v = .panic ∧ intOK v = .ok none) := by
  have e1 := (C09_accessors v k t h).2.2.2.2.2.2.2.2.1
  have e2 := (C09_accessors v k t h).2.2.2.2.2.2.2.2.2.2.1
  constructor
  · rintro i (rfl | rfl)
    · obtain ⟨a, ha, hb⟩ := e1.1 rfl
      rw [int32_rep h] at ha
      injection ha with ha
      subst ha
      have hi : int v = .ok i := by unfold int; rw [hb]; rfl
      refine ⟨hi, ?_⟩
      unfold intOK
      rw [if_neg (rep_offset h), (rep_key h).2.1, hi]; rfl
    · have hb := (e1.2 (by simp [BVal.tag])).2
      obtain ⟨a, ha, hc⟩ := e2.1 rfl
      rw [int64_rep h] at ha
      injection ha with ha
      subst ha
      have hi : int v = .ok i := by unfold int; rw [hb]; simp only [Res.bind_ok]; rw [hc]; rfl
      refine ⟨hi, ?_⟩
      unfold intOK
      rw [if_neg (rep_offset h), (rep_key h).2.1, hi]; rfl
  · rintro ⟨h1, h2⟩
    refine ⟨?_, ?_⟩
    · unfold int
      rw [(e1.2 h1).2]; simp only [Res.bind_ok]; rw [(e2.2 h2).2]; rfl
    · unfold intOK
      rw [if_neg (rep_offset h), (rep_key h).2.1]
      simp [h1, h2]

example : ∃ v, Rep v [107] (.int64 (-7)) := by
  obtain ⟨v, _, h⟩ := buildVal_rep [107] (.int64 (-7)) (by simp [NulFree]) (by simp [BVal.WF]) (by decide)
  exact ⟨v, h⟩

/-- On an uninitialized value every accessor panics and every `OK` form returns false. -/
theorem C09_uninitialized (v : Value) (h : v.offset = 0 ∨ v.data = []) (fuel : Nat) :
    type v = .panic ∧ double v = .panic ∧ stringValue v = .panic ∧ readerDocument fuel v = .panic ∧
    mutableDocument fuel v = .panic ∧ readerArray fuel v = .panic ∧ mutableArray fuel v = .panic ∧ binary v = .panic ∧
    objectID v = .panic ∧ boolean v = .panic ∧ dateTime v = .panic ∧ regex v = .panic ∧ dbPointer v = .panic ∧
    javaScript v = .panic ∧ symbol v = .panic ∧ readerCodeWithScope fuel v = .panic ∧ mutableCodeWithScope fuel v = .panic ∧
    int32 v = .panic ∧ timestamp v = .panic ∧ int64 v = .panic ∧ decimal128 v = .panic ∧
    doubleOK v = .ok none ∧ stringValueOK v = .ok none ∧ readerDocumentOK fuel v = .ok none ∧
    mutableDocumentOK fuel v = .ok none ∧ readerArrayOK fuel v = .ok none ∧ mutableArrayOK fuel v = .ok none ∧
    binaryOK v = .ok none ∧ objectIDOK v = .ok none ∧ booleanOK v = .ok none ∧ dateTimeOK v = .ok none ∧
    dbPointerOK v = .ok none ∧ javaScriptOK v = .ok none ∧ readerCodeWithScopeOK fuel v = .ok none ∧
    mutableCodeWithScopeOK fuel v = .ok none ∧ int32OK v = .ok none ∧ timestampOK v = .ok none ∧ int64OK v = .ok none ∧
    decimal128OK v = .ok none ∧ intOK v = .ok none := by
  have e : ∀ x, expect x v = .panic := fun x => by unfold expect; rw [if_pos h]
  have o : ∀ {α : Type} (x : UInt8) (f : Value → Res α), okVariant x f v = .ok none := fun x f => by unfold okVariant; rw [if_pos h]
  simp [type, h, double, stringValue, readerDocument, mutableDocument, readerArray, mutableArray, binary, objectID, boolean,
    dateTime, regex, dbPointer, javaScript, symbol, readerCodeWithScope, mutableCodeWithScope, int32, timestamp, int64,
    decimal128, e, o, doubleOK, stringValueOK, readerDocumentOK, mutableDocumentOK, readerArrayOK, mutableArrayOK, binaryOK,
    objectIDOK, booleanOK, dateTimeOK, dbPointerOK, javaScriptOK, readerCodeWithScopeOK, mutableCodeWithScopeOK, int32OK,
    timestampOK, int64OK, decimal128OK, intOK]

example := C09_uninitialized (.raw 0 0 [1, 2]) (Or.inl rfl) 1

end Birch.Props
