import Verif.Spec.ExtJson
import Verif.Proofs.GjsonWrite
import Verif.Proofs.Json
import Verif.Proofs.Construct
import Verif.Proofs.Compare
import Verif.Proofs.ObjectID
import Verif.Proofs.Returns
import Verif.Proofs.DecimalParse

/-
Lemmas about extended JSON.
-/

namespace Birch.Proofs.ExtJson
open Birch Spec Spec.ExtJson Model Model.Json Model.Gjson Model.ExtJson Proofs Proofs.Gjson

/-! ### writing -/

mutual
/-- what `toJSON` makes of a value -/
def js (C : Clock) : BVal → Res JVal
  | .double b => .ok (.dbl (UInt64.ofNat b))
  | .string s => .ok (.str s)
  | .doc fs => do .ok (.obj (← jsFields C fs))
  | .array vs => do .ok (.arr (← jsVals C vs))
  | .binary st b => .ok (obj1 kBinary (obj2 kBase64 (.str (encodeRune st.toNat)) kSubType (.str b)))
  | .undefined => .ok (obj1 kUndefined (.bool true))
  | .oid id => .ok (obj1 kOid (.str (ObjectID.hex id)))
  | .bool b => .ok (.bool b)
  | .datetime ms => .ok (obj1 kDate (.str (C.format ms)))
  | .null => .ok .null
  | .regex p o => .ok (obj1 kRegex (obj2 kPattern (.str p) kOptions (.str o)))
  | .dbpointer ns id => .ok (obj1 kDbPointer (obj2 kRef (.str ns) kId (.str (ObjectID.hex id))))
  | .js c => .ok (obj1 kCode (.str c))
  | .symbol s => .ok (obj1 kSymbol (.str s))
  | .codeScope c fs => do .ok (obj2 kCode (.str c) kScope (.obj (← jsFields C fs)))
  | .int32 i => .ok (.int i)
  | .timestamp t i => .ok (obj1 kTimestamp (obj2 kT (.int t) kI (.int i)))
  | .int64 i => .ok (.int i)
  | .decimal h l => do .ok (obj1 kDecimal (.str (← Decimal.toString ⟨UInt64.ofNat l, UInt64.ofNat h⟩)))
  | .minKey => .ok (obj1 kMinKey (.int 1))
  | .maxKey => .ok (obj1 kMaxKey (.int 1))
def jsFields (C : Clock) : Fields → Res JElems
  | .nil => .ok .nil
  | .cons k t fs => do
    let j ← js C t
    .ok (.cons k j (← jsFields C fs))
def jsVals (C : Clock) : Vals → Res JVals
  | .nil => .ok .nil
  | .cons t vs => do
    let j ← js C t
    .ok (.cons j (← jsVals C vs))
end

theorem elemsToJSON_rep {C : Clock} {f : Value → Res JVal} {N : Nat} (hf : ∀ v k t, Rep v k t → t.enc.length < N → f v = js C t) :
    ∀ (d : Doc) (fs : Fields), RepFields d fs → fs.enc.length < N → elemsToJSON f d = jsFields C fs
  | [], .nil, _, _ => by simp [elemsToJSON, jsFields]
  | [], .cons _ _ _, h, _ => by simp [RepFields] at h
  | _ :: _, .nil, h, _ => by simp [RepFields] at h
  | v :: d, .cons k t fs, h, hl => by
    rw [RepFields] at h
    rw [fieldsEnc_length] at hl
    rw [elemsToJSON, key_rep h.1, Res.bind_ok, hf v k t h.1 (by omega), elemsToJSON_rep hf d fs h.2 (by omega), jsFields]

theorem valsToJSON_rep {C : Clock} {f : Value → Res JVal} {N : Nat} (hf : ∀ v k t, Rep v k t → t.enc.length < N → f v = js C t) :
    ∀ (d : Doc) (vs : Vals) (i : Nat), RepVals d vs → (vs.encFrom i).length < N → valsToJSON f d = jsVals C vs
  | [], .nil, _, _, _ => by simp [valsToJSON, jsVals]
  | [], .cons _ _, _, h, _ => by simp [RepVals] at h
  | _ :: _, .nil, _, h, _ => by simp [RepVals] at h
  | v :: d, .cons t vs, i, h, hl => by
    rw [RepVals] at h
    rw [encFrom_length] at hl
    obtain ⟨⟨k, hk⟩, h2⟩ := h
    rw [valsToJSON, hf v k t hk (by omega), valsToJSON_rep hf d vs (i + 1) h2 (by omega), jsVals]

theorem toJSON_rep (C : Clock) : ∀ (fuel : Nat) (v : Value) (k : Bytes) (t : BVal), Rep v k t → t.enc.length < 2147483648 →
    t.enc.length < fuel → toJSON C fuel v = js C t
  | 0, _, _, _, _, _, h => by omega
  | fuel + 1, v, k, t, h, hl, hf => by
    have ih := toJSON_rep C fuel
    unfold toJSON
    rw [type_rep h]
    simp only [Res.bind_ok]
    cases t with
    | double b => simp only [BVal.tag]; simp [double_rep h, js]
    | string b => simp only [BVal.tag]; simp [stringValue_rep h, js]
    | doc fs =>
      obtain ⟨d, h1, h2⟩ := mutableDocument_rep h hl hf
      simp only [BVal.enc, wrapDoc_length] at hl hf
      have := elemsToJSON_rep (f := toJSON C fuel) (N := min 2147483648 fuel) (fun v k t hr ht => ih v k t hr (by omega) (by omega)) d fs h2 (by omega)
      simp only [BVal.tag]; simp [h1, this, js]
    | array vs =>
      obtain ⟨d, h1, h2⟩ := mutableArray_rep h hl hf
      simp only [BVal.enc, wrapDoc_length] at hl hf
      have := valsToJSON_rep (f := toJSON C fuel) (N := min 2147483648 fuel) (fun v k t hr ht => ih v k t hr (by omega) (by omega)) d vs 0 h2 (by omega)
      simp only [BVal.tag]; simp [h1, this, js]
    | binary st b => simp only [BVal.tag]; simp [binary_rep h, js]
    | undefined => simp only [BVal.tag]; simp [js]
    | oid b => simp only [BVal.tag]; simp [objectID_rep h, js]
    | bool b => simp only [BVal.tag]; simp [boolean_rep h, js]
    | datetime b => simp only [BVal.tag]; simp [dateTime_rep h, js]
    | null => simp only [BVal.tag]; simp [js]
    | regex p o => simp only [BVal.tag]; simp [regex_rep h, js]
    | dbpointer n i => simp only [BVal.tag]; simp [dbPointer_rep h, js]
    | js b => simp only [BVal.tag]; simp [javaScript_rep h, js]
    | symbol b => simp only [BVal.tag]; simp [symbol_rep h, js]
    | codeScope c fs =>
      obtain ⟨d, h1, h2⟩ := mutableCode_rep h hl hf
      have hn : (BVal.codeScope c fs).enc.length = c.length + fs.enc.length + 14 := by simp [BVal.enc]; omega
      rw [hn] at hl hf
      have := elemsToJSON_rep (f := toJSON C fuel) (N := min 2147483648 fuel) (fun v k t hr ht => ih v k t hr (by omega) (by omega)) d fs h2 (by omega)
      simp only [BVal.tag]; simp [h1, this, js]
    | int32 b => simp only [BVal.tag]; simp [int32_rep h, js]
    | timestamp b c => simp only [BVal.tag]; simp [timestamp_rep h, js]
    | int64 b => simp only [BVal.tag]; simp [int64_rep h, js]
    | decimal b c => simp only [BVal.tag]; simp [decimal128_rep h, js]
    | minKey => simp only [BVal.tag]; simp [js]
    | maxKey => simp only [BVal.tag]; simp [js]

theorem docToJSON_rep (C : Clock) {fuel : Nat} {d : Doc} {fs : Fields} (h : RepFields d fs) (hl : (encDoc fs).length < 2147483648) (hf : (encDoc fs).length < fuel) :
    elemsToJSON (toJSON C fuel) d = jsFields C fs := by
  simp only [encDoc, wrapDoc_length] at hl hf
  exact elemsToJSON_rep (N := min 2147483648 fuel) (fun v k t hr ht => toJSON_rep C fuel v k t hr (by omega) (by omega)) d fs h (by omega)

theorem arrToJSON_rep (C : Clock) {fuel : Nat} {d : Doc} {vs : Vals} (h : RepVals d vs) (hl : (vs.encFrom 0).length < 2147483648) (hf : (vs.encFrom 0).length < fuel) :
    valsToJSON (toJSON C fuel) d = jsVals C vs :=
  valsToJSON_rep (N := min 2147483648 fuel) (fun v k t hr ht => toJSON_rep C fuel v k t hr (by omega) (by omega)) d vs 0 h (by omega)

/-! ### the written values -/

theorem hexText_eq (b : Bytes) : ObjectID.hex b = hexText b := by
  unfold ObjectID.hex
  induction b with
  | nil => rfl
  | cons c r ih => rw [hexEncode, ih]; rfl

instance (k : Bytes) : Decidable (Json.PlainKey k) := by unfold Json.PlainKey; infer_instance

theorem plainKey_name : ∀ k ∈ [kBinary, kBase64, kSubType, kUndefined, kOid, kDate, kRegex, kPattern, kOptions, kDbPointer, kRef, kId, kCode, kScope, kSymbol, kTimestamp, kT, kI,
    kDecimal, kMinKey, kMaxKey], Json.PlainKey k := by
  unfold Json.PlainKey
  decide +kernel

theorem pk {k : Bytes} (h : k ∈ [kBinary, kBase64, kSubType, kUndefined, kOid, kDate, kRegex, kPattern, kOptions, kDbPointer, kRef, kId, kCode, kScope, kSymbol, kTimestamp, kT, kI,
    kDecimal, kMinKey, kMaxKey]) : Json.PlainKey k := plainKey_name k h

theorem plain1 {k : Bytes} {v : JVal} (hk : Json.PlainKey k) (hv : Json.Plain v) : Json.Plain (obj1 k v) := by
  simp only [obj1, Json.Plain, Json.PlainElems]
  exact ⟨hk, hv, trivial⟩

theorem plain2 {k l : Bytes} {v w : JVal} (hk : Json.PlainKey k) (hv : Json.Plain v) (hl : Json.PlainKey l) (hw : Json.Plain w) : Json.Plain (obj2 k v l w) := by
  simp only [obj2, Json.Plain, Json.PlainElems]
  exact ⟨hk, hv, hl, hw, trivial⟩

theorem shows1 {k : String} {k' : Bytes} (hk : ascii k = k') {v : JVal} {x : Json.J} (h : Json.Shows (obj1 k' v) x) : ∃ y, Json.Shows v y ∧ x = one k y := by
  subst hk
  cases h with
  | obj h => cases h with | cons h1 h2 => cases h2; exact ⟨_, h1, rfl⟩

theorem shows2 {k l : String} {k' l' : Bytes} (hk : ascii k = k') (hl : ascii l = l') {v w : JVal} {x : Json.J} (h : Json.Shows (obj2 k' v l' w) x) :
    ∃ y z, Json.Shows v y ∧ Json.Shows w z ∧ x = two k y l z := by
  subst hk hl
  cases h with
  | obj h => cases h with | cons h1 h2 => cases h2 with | cons h2 h3 => cases h3; exact ⟨_, _, h1, h2, rfl⟩

theorem plain_str (s : Bytes) : Json.Plain (.str s) := by simp [Json.Plain]
theorem plain_int (n : Int) : Json.Plain (.int n) := by simp [Json.Plain]
theorem plain_bool (b : Bool) : Json.Plain (.bool b) := by simp [Json.Plain]

theorem shown1 {C : Clock} {k : String} {k' : Bytes} {v : JVal} {y : Json.J} {t : BVal} (hk : ascii k = k') (hv : Json.Plain v) (hs : ∀ z, Json.Shows v z → z = y)
    (hp : Json.PlainKey k') (he : Ext C t (one k y)) : Json.Plain (obj1 k' v) ∧ ∀ x, Json.Shows (obj1 k' v) x → Ext C t x :=
  ⟨plain1 hp hv, fun x hx => by
    obtain ⟨z, h1, rfl⟩ := shows1 hk hx
    rw [hs z h1]
    exact he⟩

theorem str_shows {s : Bytes} {z : Json.J} (h : Json.Shows (.str s) z) : z = .str s := by cases h; rfl
theorem int_shows {n : Int} {z : Json.J} (h : Json.Shows (.int n) z) : z = .num n 0 := by cases h; rfl
theorem bool_shows {b : Bool} {z : Json.J} (h : Json.Shows (.bool b) z) : z = .bool b := by cases h; rfl

theorem two_shows {k l : String} {k' l' : Bytes} {v w : JVal} {y z : Json.J} (hk : ascii k = k') (hl : ascii l = l') (hv : ∀ x, Json.Shows v x → x = y)
    (hw : ∀ x, Json.Shows w x → x = z) {x : Json.J} (h : Json.Shows (obj2 k' v l' w) x) : x = two k y l z := by
  obtain ⟨a, b, h1, h2, rfl⟩ := shows2 hk hl h
  rw [hv a h1, hw b h2]

mutual
theorem shown_js (C : Clock) : ∀ t : BVal, Shown C t → ∃ j, js C t = .ok j ∧ Json.Plain j ∧ ∀ x, Json.Shows j x → Ext C t x
  | .double b, h => ⟨_, by rw [js], by rw [Shown] at h; rw [Json.Plain]; exact h, fun x hx => by cases hx with | dbl h1 h2 => exact .double h1 h2⟩
  | .string s, _ => ⟨_, by rw [js], plain_str s, fun x hx => by cases hx; exact .string⟩
  | .doc fs, h => by
    rw [Shown] at h
    obtain ⟨es, h1, h2, h3⟩ := shownFields_js C fs h
    exact ⟨_, by rw [js, h1]; rfl, by rw [Json.Plain]; exact h2, fun x hx => by cases hx with | obj hx => exact .doc (h3 _ hx)⟩
  | .array vs, h => by
    rw [Shown] at h
    obtain ⟨es, h1, h2, h3⟩ := shownVals_js C vs h
    exact ⟨_, by rw [js, h1]; rfl, by rw [Json.Plain]; exact h2, fun x hx => by cases hx with | arr hx => exact .array (h3 _ hx)⟩
  | .binary .., h => by rw [Shown] at h; exact h.elim
  | .undefined, _ => ⟨_, by rw [js], shown1 (by decide) (plain_bool _) (fun _ => bool_shows) (pk (by decide)) .undefined⟩
  | .oid id, _ => ⟨_, by rw [js], shown1 (k := "$oid") (by decide) (plain_str _) (fun _ => str_shows) (pk (by decide)) (by rw [hexText_eq]; exact .oid)⟩
  | .bool b, _ => ⟨_, by rw [js], plain_bool b, fun x hx => by cases hx; exact .bool⟩
  | .datetime ms, h => ⟨_, by rw [js], shown1 (by decide) (plain_str _) (fun _ => str_shows) (pk (by decide)) (.datetime (by rw [Shown] at h; exact h))⟩
  | .null, _ => ⟨_, by rw [js], by simp [Json.Plain], fun x hx => by cases hx; exact .null⟩
  | .regex p o, _ => ⟨_, by rw [js], shown1 (by decide) (plain2 (pk (by decide)) (plain_str _) (pk (by decide)) (plain_str _))
      (fun _ => two_shows (by decide) (by decide) (fun _ => str_shows) (fun _ => str_shows)) (pk (by decide)) .regex⟩
  | .dbpointer .., h => by rw [Shown] at h; exact h.elim
  | .js c, _ => ⟨_, by rw [js], shown1 (by decide) (plain_str _) (fun _ => str_shows) (pk (by decide)) .js⟩
  | .symbol c, _ => ⟨_, by rw [js], shown1 (by decide) (plain_str _) (fun _ => str_shows) (pk (by decide)) .symbol⟩
  | .codeScope c fs, h => by
    rw [Shown] at h
    obtain ⟨es, h1, h2, h3⟩ := shownFields_js C fs h
    refine ⟨_, by rw [js, h1]; rfl, plain2 (pk (by decide)) (plain_str _) (pk (by decide)) (by rw [Json.Plain]; exact h2), fun x hx => ?_⟩
    obtain ⟨y, z, hy, hz, rfl⟩ := shows2 (k := "$code") (l := "$scope") (by decide) (by decide) hx
    rw [str_shows hy]
    cases hz with
    | obj hz => exact .codeScope (h3 _ hz)
  | .int32 i, _ => ⟨_, by rw [js], plain_int i, fun x hx => by cases hx; exact .int32⟩
  | .timestamp t i, _ => ⟨_, by rw [js], shown1 (by decide) (plain2 (pk (by decide)) (plain_int _) (pk (by decide)) (plain_int _))
      (fun _ => two_shows (by decide) (by decide) (fun _ => int_shows) (fun _ => int_shows)) (pk (by decide)) .timestamp⟩
  | .int64 i, _ => ⟨_, by rw [js], plain_int i, fun x hx => by cases hx; exact .int64⟩
  | .decimal .., h => by rw [Shown] at h; exact h.elim
  | .minKey, _ => ⟨_, by rw [js], shown1 (by decide) (plain_int _) (fun _ => int_shows) (pk (by decide)) .minKey⟩
  | .maxKey, _ => ⟨_, by rw [js], shown1 (by decide) (plain_int _) (fun _ => int_shows) (pk (by decide)) .maxKey⟩
theorem shownFields_js (C : Clock) : ∀ fs : Fields, ShownFields C fs → ∃ js, jsFields C fs = .ok js ∧ Json.PlainElems js ∧ ∀ x, Json.ShowsElems js x → ExtFields C fs x
  | .nil, _ => ⟨_, by rw [jsFields], by simp [Json.PlainElems], fun x hx => by cases hx; exact .nil⟩
  | .cons k t fs, h => by
    rw [ShownFields] at h
    obtain ⟨j, a1, a2, a3⟩ := shown_js C t h.2.1
    obtain ⟨es, b1, b2, b3⟩ := shownFields_js C fs h.2.2
    exact ⟨_, by rw [jsFields, a1, Res.bind_ok, b1]; rfl, by rw [Json.PlainElems]; exact ⟨h.1, a2, b2⟩,
      fun x hx => by cases hx with | cons h1 h2 => exact .cons (a3 _ h1) (b3 _ h2)⟩
theorem shownVals_js (C : Clock) : ∀ vs : Vals, ShownVals C vs → ∃ js, jsVals C vs = .ok js ∧ Json.PlainVals js ∧ ∀ x, Json.ShowsVals js x → ExtVals C vs x
  | .nil, _ => ⟨_, by rw [jsVals], by simp [Json.PlainVals], fun x hx => by cases hx; exact .nil⟩
  | .cons t fs, h => by
    rw [ShownVals] at h
    obtain ⟨j, a1, a2, a3⟩ := shown_js C t h.1
    obtain ⟨es, b1, b2, b3⟩ := shownVals_js C fs h.2
    exact ⟨_, by rw [jsVals, a1, Res.bind_ok, b1]; rfl, by rw [Json.PlainVals]; exact ⟨a2, b2⟩,
      fun x hx => by cases hx with | cons h1 h2 => exact .cons (a3 _ h1) (b3 _ h2)⟩
end

theorem rune_length (st : UInt8) : (encodeRune st.toNat).length = 1 ∨ (encodeRune st.toNat).length = 2 := by
  have := st.toNat_lt
  unfold encodeRune
  split
  · simp
  · rw [if_pos (by omega)]; simp

theorem base64_length : ∀ b : Bytes, (base64 b).length % 4 = 0
  | [] => by simp [base64]
  | [_] => by simp [base64]
  | [_, _] => by simp [base64]
  | _ :: _ :: _ :: r => by
    have := base64_length r
    simp [base64]
    omega

/-! ### reading again -/

open Spec.JsonText in
theorem ints1 {k : Bytes} {v : JVal} (hv : Ints v) : Ints (obj1 k v) := by
  simp only [obj1, Ints, IntsElems]; exact ⟨hv, trivial⟩

open Spec.JsonText in
theorem ints2 {k l : Bytes} {v w : JVal} (hv : Ints v) (hw : Ints w) : Ints (obj2 k v l w) := by
  simp only [obj2, Ints, IntsElems]; exact ⟨hv, hw, trivial⟩

open Spec.JsonText in
theorem reread1 {S : Strconv} {k : Bytes} {v w : JVal} (h : Reread S v w) : Reread S (obj1 k v) (obj1 k w) := .obj (.cons h .nil)

open Spec.JsonText in
theorem reread2 {S : Strconv} {k l : Bytes} {v w v' w' : JVal} (h : Reread S v v') (h' : Reread S w w') : Reread S (obj2 k v l w) (obj2 k v' l w') := .obj (.cons h (.cons h' .nil))

theorem ofInt_build (k : Bytes) (i : Int) : EC.int k i = buildVal k (ofInt i) := by
  unfold EC.int ofInt
  split
  · rw [buildVal, i32]
  · rw [buildVal]

/-- the object does not begin with a reserved key -/
def Free : JElems → Prop
  | .nil => True
  | .cons k _ _ => k ∉ reserved

theorem object_default {C : Clock} {k : Bytes} {es : JElems} {cs : List (Res Value)} (h : Free es) :
    object C k es cs = (do EC.subDocument k (← collect cs)) := by
  cases es with
  | nil => rfl
  | cons k0 v r =>
    rw [Free] at h
    have e : reserved = [kMinKey, kMaxKey, kDecimal, kTimestamp, kSymbol, kCode, kDbPointer, kRegex, kDate, kOid, kUndefined, kBinary] := by decide +kernel
    rw [e] at h
    simp only [List.mem_cons, List.not_mem_nil, or_false, not_or] at h
    obtain ⟨h1, h2, h3, h4, h5, h6, h7, h8, h9, h10, h11, h12⟩ := h
    rw [object.eq_def]
    simp only [h1, h2, h3, h4, h5, h6, h7, h8, h9, h10, h11, h12, if_false]

theorem scope_open (d : Doc) : (EC.subDocument kScope d).bind (mutableDocument 0) = .ok d := by
  unfold EC.subDocument
  rw [header_ok 3 kScope (by decide)]
  rfl

/-- what comes back -/
structure Goes (S : Strconv) (C : Clock) (j : JVal) (t : BVal) : Prop where
  plain : Json.Plain j
  ints : JsonText.Ints j
  back : ∃ w, JsonText.Reread S j w ∧ ∀ k, convert C k w = buildVal k t

theorem goes1 {S : Strconv} {C : Clock} {k0 : Bytes} {v : JVal} {t : BVal} (hk : Json.PlainKey k0) (hp : Json.Plain v) (hi : JsonText.Ints v) (hr : JsonText.Reread S v v)
    (hc : ∀ k, convert C k (obj1 k0 v) = buildVal k t) : Goes S C (obj1 k0 v) t :=
  ⟨plain1 hk hp, ints1 hi, _, reread1 hr, hc⟩

theorem fromHex_hex {id : Bytes} (h : id.length = 12) : ObjectID.fromHex (ObjectID.hex id) = some id := by
  unfold ObjectID.fromHex ObjectID.hex
  rw [decode_encode]
  simp [h]

theorem ints_str (s : Bytes) : JsonText.Ints (.str s) := by simp [JsonText.Ints]

theorem goes_ofInt {S : Strconv} {C : Clock} {i : Int} (h : -2 ^ 63 ≤ i ∧ i < 2 ^ 63) : Goes S C (.int i) (ofInt i) :=
  ⟨plain_int i, by rw [JsonText.Ints]; exact h, _, .int, fun k => by rw [convert]; exact ofInt_build k i⟩

theorem reread_free {S : Strconv} {es ws : JElems} (h : JsonText.RereadElems S es ws) : Free es ↔ Free ws := by
  cases h <;> exact Iff.rfl

theorem js_free {C : Clock} {fs : Fields} {es : JElems} (h : jsFields C fs = .ok es) (hu : Unreserved fs) : Free es := by
  cases fs with
  | nil => rw [jsFields] at h; cases h; trivial
  | cons k t fs =>
    rw [jsFields] at h
    simp only [Res.bind_eq_ok, Res.ok.injEq] at h
    obtain ⟨_, _, _, _, rfl⟩ := h
    exact hu

mutual
theorem back_js {S : Strconv} {C : Clock} : ∀ (t t' : BVal), Back S C t t' → t.WF → ∃ j, js C t = .ok j ∧ Goes S C j t'
  | .double b, _, h, _ => by
    cases h with
    | double h1 h2 => exact ⟨_, by rw [js], by rw [Json.Plain]; exact h1, by simp [JsonText.Ints], _, .dbl h2, fun k => by rw [convert, buildVal]⟩
    | doubleInt h1 h2 => exact ⟨_, by rw [js], by rw [Json.Plain]; exact h1, by simp [JsonText.Ints], _, .dbl h2, fun k => by rw [convert]; exact ofInt_build k _⟩
  | .string s, _, h, _ => by cases h; exact ⟨_, by rw [js], plain_str s, ints_str s, _, .str, fun k => by rw [convert, buildVal]⟩
  | .doc fs, _, h, hw => by
    cases h with
    | doc hu h =>
      rw [BVal.WF] at hw
      obtain ⟨es, h1, h2, h3, ws, h4, h5⟩ := backFields_js fs _ h hw
      refine ⟨_, by rw [js, h1]; rfl, by rw [Json.Plain]; exact h2, by rw [JsonText.Ints]; exact h3, _, .obj h4, fun k => ?_⟩
      rw [convert, object_default ((reread_free h4).1 (js_free h1 hu)), h5, buildVal]
  | .array vs, _, h, hw => by
    cases h with
    | array h =>
      rw [BVal.WF] at hw
      obtain ⟨es, h1, h2, h3, ws, h4, h5⟩ := backVals_js vs _ h hw
      refine ⟨_, by rw [js, h1]; rfl, by rw [Json.Plain]; exact h2, by rw [JsonText.Ints]; exact h3, _, .arr h4, fun k => ?_⟩
      rw [convert, h5, buildVal]
  | .binary .., _, h, _ => by cases h
  | .undefined, _, h, _ => by
    cases h
    exact ⟨_, by rw [js], goes1 (pk (by decide)) (plain_bool _) (by simp [JsonText.Ints]) .bool fun k => by rw [buildVal]; rfl⟩
  | .oid id, _, h, hw => by
    cases h
    rw [BVal.WF] at hw
    refine ⟨_, by rw [js], goes1 (pk (by decide)) (plain_str _) (ints_str _) .str fun k => ?_⟩
    rw [buildVal]
    show errOr _ (ObjectID.fromHex _) = _
    rw [fromHex_hex hw]
    rfl
  | .bool b, _, h, _ => by cases h; exact ⟨_, by rw [js], plain_bool b, by simp [JsonText.Ints], _, .bool, fun k => by rw [convert, buildVal]⟩
  | .datetime ms, _, h, _ => by
    cases h with
    | datetime h =>
    refine ⟨_, by rw [js], goes1 (pk (by decide)) (plain_str _) (ints_str _) .str fun k => ?_⟩
    rw [buildVal]
    show errOr _ (C.parse _) = _
    rw [h]
    rfl
  | .null, _, h, _ => by cases h; exact ⟨_, by rw [js], by simp [Json.Plain], by simp [JsonText.Ints], _, .null, fun k => by rw [convert, buildVal]⟩
  | .regex p o, _, h, _ => by
    cases h
    exact ⟨_, by rw [js], goes1 (pk (by decide)) (plain2 (pk (by decide)) (plain_str _) (pk (by decide)) (plain_str _)) (ints2 (ints_str _) (ints_str _)) (reread2 .str .str)
      fun k => by rw [buildVal]; rfl⟩
  | .dbpointer ns id, _, h, hw => by
    cases h with
    | dbpointer hn =>
    rw [BVal.WF] at hw
    refine ⟨_, by rw [js], goes1 (pk (by decide)) (plain2 (pk (by decide)) (plain_str _) (pk (by decide)) (plain_str _)) (ints2 (ints_str _) (ints_str _)) (reread2 .str .str)
      fun k => ?_⟩
    rw [buildVal]
    show (if ns = [] ∨ ObjectID.hex id = [] then Res.err .other else errOr _ (ObjectID.fromHex (ObjectID.hex id))) = _
    rw [fromHex_hex hw, if_neg]
    · rfl
    · rintro (h | h)
      · exact hn h
      · have := fromHex_hex hw
        rw [h] at this
        cases this
  | .js c, _, h, _ => by
    cases h
    exact ⟨_, by rw [js], goes1 (pk (by decide)) (plain_str _) (ints_str _) .str fun k => by rw [buildVal]; rfl⟩
  | .symbol c, _, h, _ => by
    cases h
    exact ⟨_, by rw [js], goes1 (pk (by decide)) (plain_str _) (ints_str _) .str fun k => by rw [buildVal]; rfl⟩
  | .codeScope c fs, _, h, hw => by
    cases h with
    | codeScope hu h =>
      rw [BVal.WF] at hw
      obtain ⟨es, h1, h2, h3, ws, h4, h5⟩ := backFields_js fs _ h hw
      refine ⟨_, by rw [js, h1]; rfl, plain2 (pk (by decide)) (plain_str _) (pk (by decide)) (by rw [Json.Plain]; exact h2),
        ints2 (ints_str _) (by rw [JsonText.Ints]; exact h3), _, reread2 .str (.obj h4), fun k => ?_⟩
      show (convert C kScope (.obj ws)).bind (fun scope => (mutableDocument 0 scope).bind _) = _
      rw [convert, object_default ((reread_free h4).1 (js_free h1 hu)), h5, buildVal]
      cases buildDoc _ with
      | ok d =>
        show (EC.subDocument kScope d).bind (fun scope => (mutableDocument 0 scope).bind _) = _
        have := scope_open d
        cases he : EC.subDocument kScope d with
        | ok v =>
          rw [he] at this
          show (mutableDocument 0 v).bind _ = _
          rw [show mutableDocument 0 v = .ok d from this]
          rfl
        | err e => rw [he] at this; cases this
        | panic => rw [he] at this; cases this
        | oof => rw [he] at this; cases this
      | err e => rfl
      | panic => rfl
      | oof => rfl
  | .int32 i, _, h, hw => by
    cases h
    rw [BVal.WF] at hw
    exact ⟨_, by rw [js], goes_ofInt (by omega)⟩
  | .timestamp t i, _, h, hw => by
    cases h
    rw [BVal.WF] at hw
    refine ⟨_, by rw [js], goes1 (pk (by decide)) (plain2 (pk (by decide)) (plain_int _) (pk (by decide)) (plain_int _))
      (ints2 (by rw [JsonText.Ints]; omega) (by rw [JsonText.Ints]; omega)) (reread2 .int .int) fun k => ?_⟩
    rw [buildVal]
    show EC.timestamp k (u32i t) (u32i i) = _
    rw [u32i_nat hw.1, u32i_nat hw.2]
  | .int64 i, _, h, hw => by
    cases h
    rw [BVal.WF] at hw
    exact ⟨_, by rw [js], goes_ofInt (by omega)⟩
  | .decimal h l, _, hb, _ => by
    cases hb with
    | decimal h1 h2 =>
    refine ⟨_, by rw [js, h1]; rfl, goes1 (pk (by decide)) (plain_str _) (ints_str _) .str fun k => ?_⟩
    rw [buildVal]
    show errOr _ (Decimal.parse _) = _
    rw [h2]
    rfl
  | .minKey, _, h, _ => by
    cases h
    exact ⟨_, by rw [js], goes1 (pk (by decide)) (plain_int _) (by simp [JsonText.Ints]) .int fun k => by rw [buildVal]; rfl⟩
  | .maxKey, _, h, _ => by
    cases h
    exact ⟨_, by rw [js], goes1 (pk (by decide)) (plain_int _) (by simp [JsonText.Ints]) .int fun k => by rw [buildVal]; rfl⟩
theorem backFields_js {S : Strconv} {C : Clock} : ∀ (fs fs' : Fields), BackFields S C fs fs' → fs.WF → ∃ es, jsFields C fs = .ok es ∧ Json.PlainElems es ∧
    JsonText.IntsElems es ∧ ∃ ws, JsonText.RereadElems S es ws ∧ collect (convertElems C ws) = buildDoc fs'
  | .nil, _, h, _ => by
    cases h
    exact ⟨_, by rw [jsFields], by simp [Json.PlainElems], by simp [JsonText.IntsElems], _, .nil, by rw [convertElems, collect, buildDoc]⟩
  | .cons k t fs, _, h, hw => by
    cases h with
    | cons hk h1 h2 =>
    rw [Fields.WF] at hw
    obtain ⟨j, a1, a2, a3, w, a4, a5⟩ := back_js t _ h1 hw.2.1
    obtain ⟨es, b1, b2, b3, ws, b4, b5⟩ := backFields_js fs _ h2 hw.2.2
    exact ⟨_, by rw [jsFields, a1, Res.bind_ok, b1]; rfl, by rw [Json.PlainElems]; exact ⟨hk, a2, b2⟩, by rw [JsonText.IntsElems]; exact ⟨a3, b3⟩, _, .cons a4 b4,
      by rw [convertElems, collect, a5, b5, buildDoc]⟩
theorem backVals_js {S : Strconv} {C : Clock} : ∀ (fs fs' : Vals), BackVals S C fs fs' → fs.WF → ∃ es, jsVals C fs = .ok es ∧ Json.PlainVals es ∧
    JsonText.IntsVals es ∧ ∃ ws, JsonText.RereadVals S es ws ∧ collect (convertVals C ws) = buildArr fs'
  | .nil, _, h, _ => by
    cases h
    exact ⟨_, by rw [jsVals], by simp [Json.PlainVals], by simp [JsonText.IntsVals], _, .nil, by rw [convertVals, collect, buildArr]⟩
  | .cons t fs, _, h, hw => by
    cases h with
    | cons h1 h2 =>
    rw [Vals.WF] at hw
    obtain ⟨j, a1, a2, a3, w, a4, a5⟩ := back_js t _ h1 hw.1
    obtain ⟨es, b1, b2, b3, ws, b4, b5⟩ := backVals_js fs _ h2 hw.2
    exact ⟨_, by rw [jsVals, a1, Res.bind_ok, b1]; rfl, by rw [Json.PlainVals]; exact ⟨a2, b2⟩, by rw [JsonText.IntsVals]; exact ⟨a3, b3⟩, _, .cons a4 b4,
      by rw [convertVals, collect, a5, b5, buildArr]⟩
end

theorem appendAll_collect : ∀ (d : Doc) (cs : List (Res Value)) (e : Doc), collect cs = .ok e → appendAll d cs = .ok (d ++ e, none)
  | d, [], e, h => by
    rw [collect] at h
    cases h
    rw [appendAll, List.append_nil]
  | d, c :: cs, e, h => by
    rw [collect] at h
    simp only [Res.bind_eq_ok, Res.ok.injEq] at h
    obtain ⟨v, rfl, r, h, rfl⟩ := h
    rw [appendAll, appendAll_collect _ cs r h, List.append_assoc]
    rfl

/-! ### the methods -/

theorem val_minus {t : Bytes} {j : JsonText.J} (h : JsonText.Val false t j) : t.getLast? ≠ some 45 := fun hl => by
  have := val_getLast h hl
  subst this
  obtain ⟨d, r', h, _⟩ := strict_minus h rfl
  cases h

theorem val_text {lax : Bool} {t : Bytes} {j : JsonText.J} (h : JsonText.Val lax t j) : JsonText.Text lax t j :=
  ⟨[], t, [], (List.append_nil _).symm.trans (List.nil_append _).symm, ws_nil, h, ws_nil⟩

theorem marshalDocument_ok {C : Clock} {d : Doc} {fs : Fields} {es : JElems} (hr : RepFields d fs) (hl : (encDoc fs).length < 2147483648) (hj : jsFields C fs = .ok es)
    {t : Bytes} (hm : marshal (.obj es) = some t) : Returns (fun n => marshalDocument C n d) (.ok t) :=
  ⟨(encDoc fs).length + 1, fun n hn => by
    show marshalDocument C n d = _
    unfold marshalDocument
    rw [docToJSON_rep C hr hl (by omega), hj, Res.bind_ok, hm]
    rfl⟩

theorem marshalArray_ok {C : Clock} {d : Doc} {vs : Vals} {es : JVals} (hr : RepVals d vs) (hl : (vs.encFrom 0).length < 2147483648) (hj : jsVals C vs = .ok es)
    {t : Bytes} (hm : marshal (.arr es) = some t) : Returns (fun n => marshalArray C n d) (.ok t) :=
  ⟨(vs.encFrom 0).length + 1, fun n hn => by
    show marshalArray C n d = _
    unfold marshalArray
    rw [arrToJSON_rep C hr hl (by omega), hj, Res.bind_ok, hm]
    rfl⟩

theorem marshalValue_ok {C : Clock} {v : Value} {k : Bytes} {x : BVal} {j : JVal} (hr : Rep v k x) (hl : x.enc.length < 2147483648) (hj : js C x = .ok j)
    {t : Bytes} (hm : marshal j = some t) : Returns (fun n => marshalValue C n v) (.ok t) :=
  ⟨x.enc.length + 1, fun n hn => by
    show marshalValue C n v = _
    unfold marshalValue
    rw [toJSON_rep C n v k x hr hl (by omega), hj, Res.bind_ok, hm]
    rfl⟩

theorem unmarshalDocument_text {S : Strconv} {lax : Bool} {C : Clock} {t : Bytes} {es : JsonText.Jes} {ws : JElems} (h : JsonText.Text lax t (.obj es)) (hl : t.getLast? ≠ some 45)
    (hc : JsonText.ConvElems S es ws) (e : Doc) : Returns (fun n => unmarshalDocument S C e t n) (appendAll e (convertElems C ws)) :=
  ⟨t.length, fun n hn => by
    show unmarshalDocument S C e t n = _
    unfold ExtJson.unmarshalDocument
    rw [unmarshalDocument_obj S h hl hn, (convElems_iff S es ws).mp hc]⟩

theorem unmarshalArray_text {S : Strconv} {lax : Bool} {C : Clock} {t : Bytes} {es : JsonText.Js} {ws : JVals} (h : JsonText.Text lax t (.arr es)) (hl : t.getLast? ≠ some 45)
    (hc : JsonText.ConvVals S es ws) (e : Doc) : Returns (fun n => unmarshalArray S C e t n) (appendAll e (convertVals C ws)) :=
  ⟨t.length, fun n hn => by
    show unmarshalArray S C e t n = _
    unfold ExtJson.unmarshalArray
    rw [unmarshalArray_arr S h hl hn, (convVals_iff S es ws).mp hc]⟩

theorem unmarshalValue_conv {S : Strconv} {lax : Bool} {C : Clock} {t : Bytes} {j : JsonText.J} {w : JVal} (h : JsonText.Text lax t j) (hl : t.getLast? ≠ some 45)
    (hc : JsonText.Conv S j w) : Returns (fun n => unmarshalValue S C t n) (convert C [] w) :=
  ⟨t.length, fun n hn => by
    show unmarshalValue S C t n = _
    unfold ExtJson.unmarshalValue
    rw [unmarshalValue_text S h hl hn, (conv_iff S j w).mp hc, Res.bind_ok]⟩

theorem text25_not_int : ¬ ∃ i, JsonText.Int64Text (ascii "2.5") i := by
  have e : ascii "2.5" = [50, 46, 53] := by decide
  rw [e]
  rintro ⟨i, h⟩
  generalize hs : ([50, 46, 53] : Bytes) = s at h
  have no : ¬ JsonText.Digits [50, 46, 53] := fun h => by
    have := h.2 46 (by simp)
    revert this
    unfold JsonText.Digit
    decide
  cases h with
  | pos h => rw [← hs] at h; exact no h
  | plus h => cases hs
  | neg h => cases hs

/-! ### importing -/

mutual
theorem imports_conv {S : Strconv} {C : Clock} : ∀ (j : JsonText.J) (t : BVal), Imports S j t → ∃ w, JsonText.Conv S j w ∧ ∀ k, convert C k w = buildVal k t
  | .null, _, h => by cases h; exact ⟨_, .null, fun k => by rw [convert, buildVal]⟩
  | .bool b, _, h => by cases h; exact ⟨_, .bool, fun k => by rw [convert, buildVal]⟩
  | .num t, _, h => by
    cases h with
    | int h => exact ⟨_, h, fun k => by rw [convert]; exact ofInt_build k _⟩
    | double h => exact ⟨_, h, fun k => by rw [convert, buildVal]⟩
  | .str s, _, h => by cases h; exact ⟨_, .str, fun k => by rw [convert, buildVal]⟩
  | .arr js, _, h => by
    cases h with
    | arr h =>
      obtain ⟨ws, h1, h2⟩ := importsVals_conv (C := C) js _ h
      exact ⟨_, .arr h1, fun k => by rw [convert, h2, buildVal]⟩
  | .obj es, _, h => by
    cases h with
    | obj hu h =>
      obtain ⟨ws, h1, h2⟩ := importsFields_conv (C := C) es _ h
      refine ⟨_, .obj h1, fun k => ?_⟩
      have hf : Free ws := by
        cases h1 with
        | nil => trivial
        | cons _ _ => cases h with | cons _ _ => exact hu
      rw [convert, object_default hf, h2, buildVal]
theorem importsVals_conv {S : Strconv} {C : Clock} : ∀ (js : JsonText.Js) (vs : Vals), ImportsVals S js vs → ∃ ws, JsonText.ConvVals S js ws ∧
    collect (convertVals C ws) = buildArr vs
  | .nil, _, h => by cases h; exact ⟨_, .nil, by rw [convertVals, collect, buildArr]⟩
  | .cons j js, _, h => by
    cases h with
    | cons h1 h2 =>
      obtain ⟨w, a1, a2⟩ := imports_conv (C := C) j _ h1
      obtain ⟨ws, b1, b2⟩ := importsVals_conv (C := C) js _ h2
      exact ⟨_, .cons a1 b1, by rw [convertVals, collect, a2, b2, buildArr]⟩
theorem importsFields_conv {S : Strconv} {C : Clock} : ∀ (js : JsonText.Jes) (vs : Fields), ImportsFields S js vs → ∃ ws, JsonText.ConvElems S js ws ∧
    collect (convertElems C ws) = buildDoc vs
  | .nil, _, h => by cases h; exact ⟨_, .nil, by rw [convertElems, collect, buildDoc]⟩
  | .cons k j js, _, h => by
    cases h with
    | cons h1 h2 =>
      obtain ⟨w, a1, a2⟩ := imports_conv (C := C) j _ h1
      obtain ⟨ws, b1, b2⟩ := importsFields_conv (C := C) js _ h2
      exact ⟨_, .cons a1 b1, by rw [convertElems, collect, a2, b2, buildDoc]⟩
end

mutual
theorem kept_back {S : Strconv} {C : Clock} : ∀ t : BVal, t.WF → Kept C t → Back S C t t
  | .double _, _, h => by rw [Kept] at h; exact h.elim
  | .string _, _, _ => .string
  | .doc fs, hw, h => by rw [Kept] at h; rw [BVal.WF] at hw; exact .doc h.1 (keptFields_back fs hw h.2)
  | .array vs, hw, h => by rw [Kept] at h; rw [BVal.WF] at hw; exact .array (keptVals_back vs hw h)
  | .binary .., _, h => by rw [Kept] at h; exact h.elim
  | .undefined, _, _ => .undefined
  | .oid _, _, _ => .oid
  | .bool _, _, _ => .bool
  | .datetime _, _, h => by rw [Kept] at h; exact .datetime h
  | .null, _, _ => .null
  | .regex .., _, _ => .regex
  | .dbpointer .., _, h => by rw [Kept] at h; exact .dbpointer h
  | .js _, _, _ => .js
  | .symbol _, _, _ => .symbol
  | .codeScope _ fs, hw, h => by rw [Kept] at h; rw [BVal.WF] at hw; exact .codeScope h.1 (keptFields_back fs hw h.2)
  | .int32 i, hw, h => by
    rw [Kept] at h
    rw [BVal.WF] at hw
    have := Back.int32 (S := S) (C := C) (i := i)
    rwa [show ofInt i = .int32 i by unfold ofInt; rw [if_pos (by omega)]; congr 1; omega] at this
  | .timestamp .., _, _ => .timestamp
  | .int64 i, hw, h => by
    rw [Kept] at h
    have := Back.int64 (S := S) (C := C) (i := i)
    rwa [show ofInt i = .int64 i by unfold ofInt; rw [if_neg (by omega)]] at this
  | .decimal .., _, h => by rw [Kept] at h; exact h.elim
  | .minKey, _, _ => .minKey
  | .maxKey, _, _ => .maxKey
theorem keptFields_back {S : Strconv} {C : Clock} : ∀ fs : Fields, fs.WF → KeptFields C fs → BackFields S C fs fs
  | .nil, _, _ => .nil
  | .cons k t fs, hw, h => by
    rw [KeptFields] at h
    rw [Fields.WF] at hw
    exact .cons h.1 (kept_back t hw.2.1 h.2.1) (keptFields_back fs hw.2.2 h.2.2)
theorem keptVals_back {S : Strconv} {C : Clock} : ∀ fs : Vals, fs.WF → KeptVals C fs → BackVals S C fs fs
  | .nil, _, _ => .nil
  | .cons t fs, hw, h => by
    rw [KeptVals] at h
    rw [Vals.WF] at hw
    exact .cons (kept_back t hw.1 h.1) (keptVals_back fs hw.2 h.2)
end

/-! ### extended JSON -/

theorem conv1 {S : Strconv} {k : String} {k' : Bytes} {j : JsonText.J} {w : JVal} (hk : ascii k = k') (h : JsonText.Conv S j w) : JsonText.Conv S (single k j) (obj1 k' w) := by
  subst hk; exact .obj (.cons h .nil)

theorem conv2 {S : Strconv} {k l : String} {k' l' : Bytes} {j i : JsonText.J} {w v : JVal} (hk : ascii k = k') (hl : ascii l = l') (h : JsonText.Conv S j w)
    (h' : JsonText.Conv S i v) : JsonText.Conv S (Spec.ExtJson.double k j l i) (obj2 k' w l' v) := by
  subst hk hl; exact .obj (.cons h (.cons h' .nil))

theorem reads_free {S : Strconv} {C : Clock} {es : JsonText.Jes} {fs : Fields} {ws : JElems} (hu : Unreserved fs) (h : ReadsFields S C es fs) (h1 : JsonText.ConvElems S es ws) :
    Free ws := by
  cases h1 with
  | nil => trivial
  | cons _ _ => cases h with | cons _ _ => exact hu

theorem convert_scope {C : Clock} {c : Bytes} {ws : JElems} {fs : Fields} (hf : Free ws) (h : collect (convertElems C ws) = buildDoc fs) (k : Bytes) :
    convert C k (obj2 kCode (.str c) kScope (.obj ws)) = buildVal k (.codeScope c fs) := by
  show (convert C kScope (.obj ws)).bind (fun scope => (mutableDocument 0 scope).bind _) = _
  rw [convert, object_default hf, h, buildVal]
  cases buildDoc _ with
  | ok d =>
    show (EC.subDocument kScope d).bind (fun scope => (mutableDocument 0 scope).bind _) = _
    have := scope_open d
    cases he : EC.subDocument kScope d with
    | ok v =>
      rw [he] at this
      show (mutableDocument 0 v).bind _ = _
      rw [show mutableDocument 0 v = .ok d from this]
      rfl
    | err e => rw [he] at this; cases this
    | panic => rw [he] at this; cases this
    | oof => rw [he] at this; cases this
  | err e => rfl
  | panic => rfl
  | oof => rfl

mutual
theorem reads_conv {S : Strconv} {C : Clock} : ∀ {j : JsonText.J} {t : BVal}, Reads S C j t → ∃ w, JsonText.Conv S j w ∧ ∀ k, convert C k w = buildVal k t
  | _, _, .null => ⟨_, .null, fun k => by rw [convert, buildVal]⟩
  | _, _, .bool => ⟨_, .bool, fun k => by rw [convert, buildVal]⟩
  | _, _, .int h => ⟨_, h, fun k => by rw [convert]; exact ofInt_build k _⟩
  | _, _, .double h => ⟨_, h, fun k => by rw [convert, buildVal]⟩
  | _, _, .str => ⟨_, .str, fun k => by rw [convert, buildVal]⟩
  | _, _, .arr h => by
    obtain ⟨ws, h1, h2⟩ := readsVals_conv h
    exact ⟨_, .arr h1, fun k => by rw [convert, h2, buildVal]⟩
  | _, _, .obj hu h => by
    obtain ⟨ws, h1, h2⟩ := readsFields_conv h
    exact ⟨_, .obj h1, fun k => by rw [convert, object_default (reads_free hu h h1), h2, buildVal]⟩
  | _, _, .undefined => ⟨_, conv1 (k' := kUndefined) (by decide) .bool, fun k => by rw [buildVal]; rfl⟩
  | _, _, .oid (id := id) h => by
    refine ⟨_, conv1 (k' := kOid) (by decide) .str, fun k => ?_⟩
    rw [buildVal]
    show errOr _ (ObjectID.fromHex _) = _
    rw [← hexText_eq, fromHex_hex h]
    rfl
  | _, _, .datetime h => by
    refine ⟨_, conv1 (k' := kDate) (by decide) .str, fun k => ?_⟩
    rw [buildVal]
    show errOr _ (C.parse _) = _
    rw [h]
    rfl
  | _, _, .regex => ⟨_, conv1 (k' := kRegex) (by decide) (conv2 (k' := kPattern) (l' := kOptions) (by decide) (by decide) .str .str), fun k => by rw [buildVal]; rfl⟩
  | _, _, .js => ⟨_, conv1 (k' := kCode) (by decide) .str, fun k => by rw [buildVal]; rfl⟩
  | _, _, .symbol => ⟨_, conv1 (k' := kSymbol) (by decide) .str, fun k => by rw [buildVal]; rfl⟩
  | _, _, .codeScope hu h => by
    obtain ⟨ws, h1, h2⟩ := readsFields_conv h
    exact ⟨_, conv2 (k' := kCode) (l' := kScope) (by decide) (by decide) .str (.obj h1), convert_scope (reads_free hu h h1) h2⟩
  | _, _, .timestamp h1 h2 h3 h4 => by
    refine ⟨_, conv1 (k' := kTimestamp) (by decide) (conv2 (k' := kT) (l' := kI) (by decide) (by decide) h1 h2), fun k => ?_⟩
    rw [buildVal]
    show EC.timestamp k (u32i _) (u32i _) = _
    rw [u32i_nat h3, u32i_nat h4]
  | _, _, .decimal h => by
    refine ⟨_, conv1 (k' := kDecimal) (by decide) .str, fun k => ?_⟩
    rw [buildVal]
    show errOr _ (Decimal.parse _) = _
    rw [Proofs.Decimal.parse_text h]
    rfl
  | _, _, .minKey h => ⟨_, conv1 (k' := kMinKey) (by decide) h, fun k => by rw [buildVal]; rfl⟩
  | _, _, .maxKey h => ⟨_, conv1 (k' := kMaxKey) (by decide) h, fun k => by rw [buildVal]; rfl⟩
theorem readsVals_conv {S : Strconv} {C : Clock} : ∀ {js : JsonText.Js} {vs : Vals}, ReadsVals S C js vs → ∃ ws, JsonText.ConvVals S js ws ∧ collect (convertVals C ws) = buildArr vs
  | _, _, .nil => ⟨_, .nil, by rw [convertVals, collect, buildArr]⟩
  | _, _, .cons h1 h2 => by
    obtain ⟨w, a1, a2⟩ := reads_conv h1
    obtain ⟨ws, b1, b2⟩ := readsVals_conv h2
    exact ⟨_, .cons a1 b1, by rw [convertVals, collect, a2, b2, buildArr]⟩
theorem readsFields_conv {S : Strconv} {C : Clock} : ∀ {es : JsonText.Jes} {fs : Fields}, ReadsFields S C es fs → ∃ ws, JsonText.ConvElems S es ws ∧
    collect (convertElems C ws) = buildDoc fs
  | _, _, .nil => ⟨_, .nil, by rw [convertElems, collect, buildDoc]⟩
  | _, _, .cons h1 h2 => by
    obtain ⟨w, a1, a2⟩ := reads_conv h1
    obtain ⟨ws, b1, b2⟩ := readsFields_conv h2
    exact ⟨_, .cons a1 b1, by rw [convertElems, collect, a2, b2, buildDoc]⟩
end

theorem text_of {j : JsonText.J} (v : JVal) (hp : Json.Plain v) (e : jOf v = j) : ∃ t, JsonText.Text false t j := by
  obtain ⟨t, _, h⟩ := marshal_val v hp
  exact ⟨t, val_text (e ▸ h)⟩

theorem object_extra {C : Clock} {k k0 : Bytes} {v : JVal} (hk : k0 ∈ reserved) (hk' : k0 ≠ ascii "$code") (r r' : JElems) (cs cs' : List (Res Value)) :
    object C k (.cons k0 v r) cs = object C k (.cons k0 v r') cs' := by
  have e : reserved = [kMinKey, kMaxKey, kDecimal, kTimestamp, kSymbol, kCode, kDbPointer, kRegex, kDate, kOid, kUndefined, kBinary] := by decide +kernel
  rw [e] at hk
  simp only [List.mem_cons, List.not_mem_nil, or_false] at hk
  rcases hk with rfl | rfl | rfl | rfl | rfl | rfl | rfl | rfl | rfl | rfl | rfl | rfl
  case inr.inr.inr.inr.inr.inl => exact absurd (by decide) hk'
  all_goals rfl

end Birch.Proofs.ExtJson
