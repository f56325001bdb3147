import Verif.Spec.GoValue
import Verif.Spec.Decimals
import Verif.Proofs.Compare
import Verif.Proofs.Construct
import Verif.Proofs.FtdcTree
import Verif.Proofs.Reader
import Verif.Proofs.Readers
import Verif.Proofs.Search
import Verif.Proofs.Write

/-
Lemmas about the constructors from Go data and the export to Go data.
-/

namespace Birch.Proofs
open Birch Model Spec
open Ftdc (subDocument_rep array_rep)

/-- the constructor of a scalar -/
theorem build {k : Bytes} {t : BVal} (hk : NulFree k) (wf : t.WF) (hl : k.length + 2 + t.enc.length < 2147483648) :
    ∃ v, buildVal k t = .ok v ∧ Rep v k t := buildVal_rep k t hk wf hl

theorem nulFree_nil : NulFree [] := by intro c hc; cases hc

theorem ofUint64_rep {k : Bytes} {n : Nat} (hk : NulFree k) (hl : k.length + 10 < 2147483648) (hn : n < 9223372036854775808) :
    ∃ v, EC.ofUint64 k n = .ok v ∧ ECE.ofUint64 k n = .ok v ∧ Rep v k (if 2147483647 ≤ n then .int64 n else .int32 n) := by
  unfold EC.ofUint64 ECE.ofUint64
  by_cases h : n < 2147483647
  · rw [if_pos h, if_pos h, if_neg (by omega), i32_small (by omega) (by omega)]
    obtain ⟨v, h1, h2⟩ := build (t := .int32 n) hk (by simp only [BVal.WF]; omega) (by simp [BVal.enc]; omega)
    exact ⟨v, h1, h1, h2⟩
  · rw [if_neg h, if_neg h, if_neg (by omega), if_neg (by omega), if_pos (by omega), i64_small (by omega) (by omega)]
    obtain ⟨v, h1, h2⟩ := build (t := .int64 n) hk (by simp only [BVal.WF]; omega) (by simp [BVal.enc]; omega)
    exact ⟨v, h1, h1, h2⟩

theorem ecInt_rep {k : Bytes} {i : Int} (hk : NulFree k) (hl : k.length + 10 < 2147483648) (h : IntFits (.int i)) :
    ∃ v, EC.int k i = .ok v ∧ Rep v k (intBson (.int i)) := by
  obtain ⟨h0, h1, h2⟩ := h
  simp only [inRange, intVal] at h0 h1
  have := h2 i rfl
  unfold EC.int
  simp only [intBson, wide, intVal, decide_eq_true_eq]
  by_cases h : i < 2147483647
  · rw [if_pos h, if_neg (by omega), i32_small (by omega) (by omega)]
    exact build (t := .int32 i) hk (by simp only [BVal.WF]; omega) (by simp [BVal.enc]; omega)
  · rw [if_neg h, if_pos (by omega)]
    exact build (t := .int64 i) hk (by simp only [BVal.WF]; omega) (by simp [BVal.enc]; omega)

theorem interfaceInt_rep {k : Bytes} {g : GoInt} (hk : NulFree k) (hl : k.length + 10 < 2147483648) (h : IntFits g) :
    ∃ v, EC.interfaceInt k g = .ok v ∧ Rep v k (intBson g) := by
  have i32b : ∀ i : Int, -2147483648 ≤ i → i < 2147483648 → ∃ v, EC.int32 k i = .ok v ∧ Rep v k (.int32 i) := fun i h0 h1 =>
    build (t := .int32 i) hk (by simp only [BVal.WF]; omega) (by simp [BVal.enc]; omega)
  have i64b : ∀ i : Int, -9223372036854775808 ≤ i → i < 9223372036854775808 → ∃ v, EC.int64 k i = .ok v ∧ Rep v k (.int64 i) := fun i h0 h1 =>
    build (t := .int64 i) hk (by simp only [BVal.WF]; omega) (by simp [BVal.enc]; omega)
  cases g with
  | int i => exact ecInt_rep hk hl h
  | uint n =>
    obtain ⟨v, h1, _, h2⟩ := ofUint64_rep hk hl (n := n) (by have := h.2.1; simp only [intVal] at this; omega)
    exact ⟨v, h1, by simpa [intBson, wide, intVal] using h2⟩
  | uint64 n =>
    obtain ⟨v, h1, _, h2⟩ := ofUint64_rep hk hl (n := n) (by have := h.2.1; simp only [intVal] at this; omega)
    exact ⟨v, h1, by simpa [intBson, wide, intVal] using h2⟩
  | uint32 n =>
    have := h.1
    simp only [inRange] at this
    simp only [EC.interfaceInt, intBson, wide, intVal, decide_eq_true_eq]
    by_cases hn : n < 2147483647
    · rw [if_pos hn, if_neg (by omega), i32_small (by omega) (by omega)]; exact i32b _ (by omega) (by omega)
    · rw [if_neg hn, if_pos (by omega)]; exact i64b _ (by omega) (by omega)
  | int64 i => have := h.1; simp only [inRange] at this; exact i64b _ (by omega) (by omega)
  | _ i => have := h.1; simp only [inRange] at this; exact i32b _ (by omega) (by omega)

theorem ecTime_rep {k : Bytes} {t : Time} (hk : NulFree k) (hl : k.length + 10 < 2147483648) (h : TimeFits t) :
    ∃ v, EC.time k t = .ok v ∧ Rep v k (.datetime (millis t)) := by
  obtain ⟨hn, h0, h1⟩ := h
  unfold Normal at hn
  have hms : millis t = t.sec * 1000 + t.nsec / 1000000 := by unfold millis nanoseconds; omega
  have hwrap : i64 (i64 (t.sec * 1000) + t.nsec.tdiv 1000000) = millis t := by
    rw [Int.tdiv_eq_ediv_of_nonneg hn.1]
    rw [hms] at h0 h1 ⊢; unfold i64; omega
  unfold EC.time
  rw [hwrap]
  exact build (t := .datetime (millis t)) hk (by simp only [BVal.WF]; omega) (by simp [BVal.enc]; omega)

/-- lists of scalars -/
theorem mapRes_rep {α : Type} {f : α → Res Value} {h : α → BVal} : ∀ {l : List α} {i : Nat},
    (∀ a ∈ l, (h a).WF → 2 + (h a).enc.length < 1073741824 → ∃ v, f a = .ok v ∧ Rep v [] (h a)) →
    (valsOf h l).WF → ((valsOf h l).encFrom i).length < 1073741824 →
    ∃ d, mapRes f l = .ok d ∧ RepVals d (valsOf h l)
  | [], _, _, _, _ => ⟨[], rfl, by simp [RepVals, valsOf]⟩
  | a :: rest, i, hf, wf, hl => by
    simp only [valsOf] at wf hl ⊢
    rw [encFrom_length] at hl
    obtain ⟨v, h1, h2⟩ := hf a (by simp) wf.1 (by omega)
    obtain ⟨d, h3, h4⟩ := mapRes_rep (l := rest) (i := i + 1) (fun b hb => hf b (by simp [hb])) wf.2 (by omega)
    exact ⟨v :: d, by simp [mapRes, h1, h3], ⟨⟨_, h2⟩, h4⟩⟩

theorem mapString_rep : ∀ {m : List (Bytes × Bytes)}, (strFields m).WF → (strFields m).enc.length < 1073741824 →
    ∃ d, DC.mapString m = .ok d ∧ RepFields d (strFields m)
  | [], _, _ => ⟨[], rfl, by simp [RepFields, strFields]⟩
  | (k, s) :: rest, wf, hl => by
    simp only [strFields] at wf hl ⊢
    rw [fieldsEnc_length] at hl
    obtain ⟨v, h1, h2⟩ := build (t := .string s) wf.1 wf.2.1 (by omega)
    obtain ⟨d, h3, h4⟩ := mapString_rep (m := rest) wf.2.2 (by omega)
    refine ⟨v :: d, ?_, ⟨h2, h4⟩⟩
    simp only [buildVal] at h1
    unfold DC.mapString at h3 ⊢
    simp [mapRes, h1, h3]

theorem value_rep {v : Value} {k k' : Bytes} {t : BVal} (h : Rep v k t) (hd : v.data.length < 1073741824) (hk : NulFree k')
    (hl : k'.length + 2 < 1073741824) : ∃ w, convertValueToElem k' v = .ok (some w) ∧ Rep w k' t := by
  obtain ⟨w, h1, h2⟩ := convert_rep (k' := k') h hk (by omega)
  refine ⟨w, h1, h2.2.2 ?_⟩
  unfold convertValueToElem at h1
  rw [if_neg (rep_offset h)] at h1
  obtain ⟨rest, hr, h1⟩ := Res.bind_eq_ok.mp h1
  obtain ⟨t', _, h1⟩ := Res.bind_eq_ok.mp h1
  have hrest : rest.length ≤ v.data.length := by
    unfold slice at hr
    split at hr
    · cases hr
      rw [List.length_drop, List.take_length]; omega
    · cases hr
  cases v <;> simp only [Res.ok.injEq, Option.some.injEq] at h1 <;> subst h1 <;> simp only [Value.data, List.length_append, List.length_cons] at hrest hd ⊢ <;> omega

theorem null_rep {k : Bytes} (hk : NulFree k) (hl : k.length + 2 < 1073741824) : ∃ v, EC.null k = .ok v ∧ Rep v k .null :=
  build (t := .null) hk (by simp [BVal.WF]) (by simp [BVal.enc]; omega)

section
variable {W : Nat → Nat} {fuel : Nat}

mutual
theorem interface_rep : ∀ {g t}, Denotes W g t → ∀ {k : Bytes}, NulFree k → t.WF → k.length + 2 + t.enc.length < 1073741824 →
    t.enc.length < fuel → ∃ v, EC.interface W fuel k g = .ok v ∧ Rep v k t
  | _, _, .nil, k, hk, wf, hl, hf => build hk wf (by omega)
  | _, _, .bool b, k, hk, wf, hl, hf => build hk wf (by omega)
  | _, _, .int g h, k, hk, wf, hl, hf => by
    exact interfaceInt_rep hk (by omega) h
  | _, _, .f32 b, k, hk, wf, hl, hf => build hk wf (by omega)
  | _, _, .f64 b, k, hk, wf, hl, hf => build hk wf (by omega)
  | _, _, .str s, k, hk, wf, hl, hf => build hk wf (by omega)
  | _, _, .time t h, k, hk, wf, hl, hf => ecTime_rep hk (by simp [BVal.enc] at hl; omega) h
  | _, _, .timestamp t i, k, hk, wf, hl, hf => build hk wf (by omega)
  | _, _, .map (m := m) (fs := fs) h, k, hk, wf, hl, hf => by
    simp only [BVal.enc, wrapDoc_length] at hl hf
    obtain ⟨d, h1, h2⟩ := mapInterface_rep h wf (by omega) (by omega)
    simp only [EC.interface, h1, Res.bind_ok]
    exact subDocument_rep hk (by omega) h2
  | _, _, .mapAny h, k, hk, wf, hl, hf => by
    simp only [BVal.enc, wrapDoc_length] at hl hf
    obtain ⟨d, h1, h2⟩ := mapInterface_rep h wf (by omega) (by omega)
    simp only [EC.interface, h1, Res.bind_ok]
    exact subDocument_rep hk (by omega) h2
  | _, _, .mapStr m, k, hk, wf, hl, hf => by
    simp only [BVal.enc, wrapDoc_length] at hl hf
    obtain ⟨d, h1, h2⟩ := mapString_rep wf (by omega)
    simp only [EC.interface, h1, Res.bind_ok]
    exact subDocument_rep hk (by omega) h2
  | _, _, .slice h, k, hk, wf, hl, hf => by
    simp only [BVal.enc, wrapDoc_length] at hl hf
    obtain ⟨d, h1, h2⟩ := sliceValues_rep (i := 0) h wf (by omega) (by omega)
    simp only [EC.interface, h1, Res.bind_ok]
    exact array_rep hk (by omega) h2
  | _, _, .strs l, k, hk, wf, hl, hf => by
    simp only [BVal.enc, wrapDoc_length] at hl hf
    obtain ⟨d, h1, h2⟩ := mapRes_rep (f := EC.string []) (h := .string) (i := 0) (fun a _ w hl => build nulFree_nil w (by simp only [List.length_nil]; omega)) wf (by omega)
    simp only [EC.interface, h1, Res.bind_ok]
    exact array_rep hk (by omega) h2
  | _, _, .int64s l, k, hk, wf, hl, hf => by
    simp only [BVal.enc, wrapDoc_length] at hl hf
    obtain ⟨d, h1, h2⟩ := mapRes_rep (f := EC.int64 []) (h := .int64) (i := 0) (fun a _ w hl => build nulFree_nil w (by simp only [List.length_nil]; omega)) wf (by omega)
    simp only [EC.interface, h1, Res.bind_ok]
    exact array_rep hk (by omega) h2
  | _, _, .int32s l, k, hk, wf, hl, hf => by
    simp only [BVal.enc, wrapDoc_length] at hl hf
    obtain ⟨d, h1, h2⟩ := mapRes_rep (f := EC.int32 []) (h := .int32) (i := 0) (fun a _ w hl => build nulFree_nil w (by simp only [List.length_nil]; omega)) wf (by omega)
    simp only [EC.interface, h1, Res.bind_ok]
    exact array_rep hk (by omega) h2
  | _, _, .f64s l, k, hk, wf, hl, hf => by
    simp only [BVal.enc, wrapDoc_length] at hl hf
    obtain ⟨d, h1, h2⟩ := mapRes_rep (f := EC.double []) (h := .double) (i := 0) (fun a _ w hl => build nulFree_nil w (by simp only [List.length_nil]; omega)) wf (by omega)
    simp only [EC.interface, h1, Res.bind_ok]
    exact array_rep hk (by omega) h2
  | _, _, .f32s l, k, hk, wf, hl, hf => by
    simp only [BVal.enc, wrapDoc_length] at hl hf
    obtain ⟨d, h1, h2⟩ := mapRes_rep (f := fun b => EC.double [] (W b)) (h := fun b => .double (W b)) (i := 0) (fun a _ w hl => build nulFree_nil w (by simp only [List.length_nil]; omega)) wf (by omega)
    simp only [EC.interface, h1, Res.bind_ok]
    exact array_rep hk (by omega) h2
  | _, _, .ints l h, k, hk, wf, hl, hf => by
    simp only [BVal.enc, wrapDoc_length] at hl hf
    obtain ⟨d, h1, h2⟩ := mapRes_rep (f := EC.int []) (i := 0) (fun a ha w hl => ecInt_rep nulFree_nil (by simp) (h a ha)) wf (by omega)
    simp only [EC.interface, h1, Res.bind_ok]
    exact array_rep hk (by omega) h2
  | _, _, .times l h, k, hk, wf, hl, hf => by
    simp only [BVal.enc, wrapDoc_length] at hl hf
    obtain ⟨d, h1, h2⟩ := mapRes_rep (f := EC.time []) (i := 0) (fun a ha w hl => ecTime_rep nulFree_nil (by simp) (h a ha)) wf (by omega)
    simp only [EC.interface, h1, Res.bind_ok]
    exact array_rep hk (by omega) h2
  | _, _, .durations l, k, hk, wf, hl, hf => by
    simp only [BVal.enc, wrapDoc_length] at hl hf
    obtain ⟨d, h1, h2⟩ := mapRes_rep (f := EC.int64 []) (h := .int64) (i := 0) (fun a _ w hl => build nulFree_nil w (by simp only [List.length_nil]; omega)) wf (by omega)
    simp only [EC.interface, h1, Res.bind_ok]
    exact array_rep hk (by omega) h2
  | _, _, .elems h, k, hk, wf, hl, hf => subDocument_rep hk (by omega) h
  | _, _, .value h hd, k, hk, wf, hl, hf => by
    obtain ⟨w, h1, h2⟩ := value_rep h hd hk (by omega)
    exact ⟨w, by simp [EC.interface, h1, orNull], h2⟩
  | _, _, .values h, k, hk, wf, hl, hf => array_rep hk (by omega) h
  | _, _, .doc h, k, hk, wf, hl, hf => subDocument_rep hk (by omega) h
  | _, _, .reader fs, k, hk, wf, hl, hf => by
    obtain ⟨d, h1, h2⟩ := readDocument_enc fuel fs wf [] hf (by simp only [BVal.enc] at hl; simp only [List.append_nil, encDoc]; omega)
    rw [List.append_nil] at h1
    obtain ⟨w, h3, h4⟩ := subDocument_rep hk (by omega) h2
    exact ⟨w, by simp [EC.interface, h1, h3, orNull], h4⟩
  | _, _, .docMarshaler h, k, hk, wf, hl, hf => by
    obtain ⟨w, h3, h4⟩ := subDocument_rep hk (by omega) h
    exact ⟨w, by simp [EC.interface, h3, orNull, ECE.documentMarshaler, outcome], h4⟩
  | _, _, .marshaler fs, k, hk, wf, hl, hf => by
    obtain ⟨w, h3, h4⟩ := subDocumentFromReader_rep k fs hk wf (by simp only [BVal.enc] at hl; simp only [encDoc]; omega)
    exact ⟨w, by simp [EC.interface, h3, orNull, ECE.marshaler, outcome], h4⟩
theorem mapInterface_rep : ∀ {m fs}, DenotesMap W m fs → fs.WF → fs.enc.length < 1073741824 → fs.enc.length < fuel →
    ∃ d, DC.mapInterface W fuel m = .ok d ∧ RepFields d fs
  | _, _, .nil, _, _, _ => ⟨[], rfl, by simp [RepFields]⟩
  | _, _, .cons k h hm, wf, hl, hf => by
    rw [fieldsEnc_length] at hl hf
    obtain ⟨v, h1, h2⟩ := interface_rep h wf.1 wf.2.1 (by omega) (by omega)
    obtain ⟨d, h3, h4⟩ := mapInterface_rep hm wf.2.2 (by omega) (by omega)
    exact ⟨v :: d, by simp [DC.mapInterface, h1, h3], ⟨h2, h4⟩⟩
theorem sliceValues_rep : ∀ {s vs} {i : Nat}, DenotesSlice W s vs → vs.WF → (vs.encFrom i).length < 1073741824 → (vs.encFrom i).length < fuel →
    ∃ d, EC.sliceValues W fuel s = .ok d ∧ RepVals d vs
  | _, _, _, .nil, _, _, _ => ⟨[], rfl, by simp [RepVals]⟩
  | _, _, i, .cons h hs, wf, hl, hf => by
    rw [encFrom_length] at hl hf
    obtain ⟨v, h1, h2⟩ := interface_rep (k := []) h nulFree_nil wf.1 (by simp; omega) (by omega)
    obtain ⟨d, h3, h4⟩ := sliceValues_rep (i := i + 1) hs wf.2 (by omega) (by omega)
    exact ⟨v :: d, by simp [EC.sliceValues, h1, h3], ⟨⟨_, h2⟩, h4⟩⟩
  | _, _, i, .elem h hs, wf, hl, hf => by
    rw [encFrom_length] at hl hf
    obtain ⟨d, h3, h4⟩ := sliceValues_rep (i := i + 1) hs wf.2 (by omega) (by omega)
    exact ⟨_ :: d, by simp [EC.sliceValues, EC.interface, h3], ⟨⟨_, h⟩, h4⟩⟩
end

/-! ### constructors that report errors -/

theorem tag_null : ∀ {t : BVal}, t.tag = 0x0A → t = .null := by
  intro t h
  cases t <;> simp [BVal.tag] at h ⊢

theorem checked_rep {g : Go} {t : BVal} (h : Denotes W g t) (h0 : t ≠ .null) {k : Bytes} (hk : NulFree k) (wf : t.WF)
    (hl : k.length + 2 + t.enc.length < 1073741824) (hf : t.enc.length < fuel) :
    ∃ v, ECE.checked W fuel k g = .ok v ∧ Rep v k t := by
  obtain ⟨v, h1, h2⟩ := interface_rep (fuel := fuel) h hk wf hl hf
  refine ⟨v, ?_, h2⟩
  unfold ECE.checked
  rw [h1]
  simp only [Res.bind_ok]
  rw [type_rep h2]
  simp only [Res.bind_ok]
  rw [if_neg (fun e => h0 (tag_null e))]

theorem interfaceErr_rep {g : Go} {t : BVal} (h : Denotes W g t) (h0 : t = .null → g = .nil) {k : Bytes} (hk : NulFree k) (wf : t.WF)
    (hl : k.length + 2 + t.enc.length < 1073741824) (hf : t.enc.length < fuel) :
    ∃ v, ECE.interface W fuel k g = .ok v ∧ Rep v k t := by
  have hc : (∀ d, g ≠ .doc d) → t ≠ .null → ∃ v, ECE.checked W fuel k g = .ok v ∧ Rep v k t := fun _ h0 => checked_rep h h0 hk wf hl hf
  cases h with
  | nil => exact null_rep hk (by omega)
  | int g h =>
    have hn : intBson g ≠ .null := by unfold intBson; split <;> simp
    cases g with
    | uint n =>
      obtain ⟨v, _, h1, h2⟩ := ofUint64_rep (n := n) hk (by omega) (by have := h.2.1; simp only [intVal] at this; omega)
      exact ⟨v, h1, by simpa [intBson, wide, intVal] using h2⟩
    | uint64 n =>
      obtain ⟨v, _, h1, h2⟩ := ofUint64_rep (n := n) hk (by omega) (by have := h.2.1; simp only [intVal] at this; omega)
      exact ⟨v, h1, by simpa [intBson, wide, intVal] using h2⟩
    | _ i => exact hc (by simp) hn
  | value h hd =>
    refine hc (by simp) fun e => ?_
    have := h0 e
    cases this
  | doc h => exact subDocument_rep hk (by omega) h
  | docMarshaler h => exact subDocument_rep hk (by omega) h
  | reader fs =>
    have h1 := readerValidate_encDoc fuel fs wf [] hf (by simp only [BVal.enc] at hl; simp only [List.append_nil, encDoc]; omega)
    rw [List.append_nil] at h1
    obtain ⟨w, h3, h4⟩ := subDocumentFromReader_rep k fs hk wf (by simp only [BVal.enc] at hl; simp only [encDoc]; omega)
    exact ⟨w, by simp [ECE.interface, ECE.marshaler, readerMarshal, h1, h3], h4⟩
  | marshaler fs => exact subDocumentFromReader_rep k fs hk wf (by simp only [BVal.enc] at hl; simp only [encDoc]; omega)
  | _ => exact hc (by simp) (by simp)

theorem mapInterfaceErr_rep : ∀ {m fs}, DenotesMapStrict W m fs → fs.WF → fs.enc.length < 1073741824 → fs.enc.length < fuel →
    ∃ d, DCE.mapInterface W fuel m = .ok d ∧ RepFields d fs
  | _, _, .nil, _, _, _ => ⟨[], rfl, by simp [RepFields]⟩
  | _, _, .cons k h h0 hm, wf, hl, hf => by
    rw [fieldsEnc_length] at hl hf
    obtain ⟨v, h1, h2⟩ := interfaceErr_rep (fuel := fuel) h h0 wf.1 wf.2.1 (by omega) (by omega)
    obtain ⟨d, h3, h4⟩ := mapInterfaceErr_rep hm wf.2.2 (by omega) (by omega)
    exact ⟨v :: d, by simp [DCE.mapInterface, h1, h3], ⟨h2, h4⟩⟩

theorem sliceErr_rep : ∀ {s vs} {i : Nat}, DenotesSliceStrict W s vs → vs.WF → (vs.encFrom i).length < 1073741824 → (vs.encFrom i).length < fuel →
    ∃ d, ECE.sliceValues W fuel s = .ok d ∧ RepVals d vs
  | _, _, _, .nil, _, _, _ => ⟨[], rfl, by simp [RepVals]⟩
  | _, _, i, .cons h h0 hs, wf, hl, hf => by
    rw [encFrom_length] at hl hf
    obtain ⟨v, h1, h2⟩ := interfaceErr_rep (fuel := fuel) (k := []) h h0 nulFree_nil wf.1 (by simp; omega) (by omega)
    obtain ⟨d, h3, h4⟩ := sliceErr_rep (i := i + 1) hs wf.2 (by omega) (by omega)
    exact ⟨v :: d, by simp [ECE.sliceValues, h1, h3], ⟨⟨_, h2⟩, h4⟩⟩

theorem strict_map : ∀ {m fs}, DenotesMapStrict W m fs → DenotesMap W m fs
  | _, _, .nil => .nil
  | _, _, .cons k h _ hm => .cons k h (strict_map hm)

theorem unsupported_rep {g : Go} (h : Unsupported g) {k : Bytes} (hk : NulFree k) (hl : k.length + 2 < 1073741824) :
    (∃ v, EC.interface W fuel k g = .ok v ∧ Rep v k .null) ∧ ECE.interface W fuel k g = .err .other := by
  obtain ⟨v, h1, h2⟩ := null_rep hk hl
  have he : EC.interface W fuel k g = EC.null k := by cases g <;> simp [Unsupported] at h <;> rfl
  refine ⟨⟨v, he.trans h1, h2⟩, ?_⟩
  have hc : ECE.interface W fuel k g = ECE.checked W fuel k g := by cases g <;> simp [Unsupported] at h <;> rfl
  rw [hc]
  unfold ECE.checked
  rw [he, h1]
  simp only [Res.bind_ok]
  rw [type_rep h2]
  rfl
end

theorem mapInterface_append {W : Nat → Nat} {fuel : Nat} (n : GoMap) (e : Err) (hn : DCE.mapInterface W fuel n = .err e) : ∀ (m : GoMap) {d : Doc},
    DCE.mapInterface W fuel m = .ok d → DCE.mapInterface W fuel (GoMap.append m n) = .err e
  | .nil, _, _ => hn
  | .cons k g rest, d, h => by
    simp only [DCE.mapInterface, GoMap.append] at h ⊢
    obtain ⟨v, h1, h⟩ := Res.bind_eq_ok.mp h
    obtain ⟨d', h2, _⟩ := Res.bind_eq_ok.mp h
    rw [h1, mapInterface_append n e hn rest h2]
    rfl

theorem sliceErr_append {W : Nat → Nat} {fuel : Nat} (n : GoSlice) (e : Err) (hn : ECE.sliceValues W fuel n = .err e) : ∀ (m : GoSlice) {d : Doc},
    ECE.sliceValues W fuel m = .ok d → ECE.sliceValues W fuel (GoSlice.append m n) = .err e
  | .nil, _, _ => hn
  | .cons g rest, d, h => by
    simp only [ECE.sliceValues, GoSlice.append] at h ⊢
    obtain ⟨v, h1, h⟩ := Res.bind_eq_ok.mp h
    obtain ⟨d', h2, _⟩ := Res.bind_eq_ok.mp h
    rw [h1, sliceErr_append n e hn rest h2]
    rfl

theorem subDocumentFromReader_ok (k r : Bytes) (hl : k.length + 2 + r.length < 2147483648) :
    EC.subDocumentFromReader k r = .ok (.raw 0 (k.length + 2) (3 :: (k ++ 0 :: r))) := by
  unfold EC.subDocumentFromReader
  rw [u32_small (n := 1 + k.length + 1 + r.length) (by omega), (byte_atomic 3).fits 0 _ (by simp; omega)]
  simp only [Res.bind_ok, Bool.false_eq_true, if_false]
  rw [(cstring_atomic k).fits 1 _ (by rw [splice_length (by simp; omega)]; simp; omega)]
  simp only [Res.bind_ok, Bool.false_eq_true, if_false]
  rw [splice_splice (by simp) (by simp; omega)]
  rw [copyAt_splice (by rw [splice_length (by simp; omega)]; simp)]
  simp only [Res.bind_ok]
  rw [splice_splice (by simp; omega) (by simp), splice_all (by simp; omega), u32_small (by omega),
    show 1 + k.length + 1 = k.length + 2 by omega]
  simp

/-- the declared length of the bytes of an element with a key, as a document -/
theorem readi32_elem (t c : UInt8) (x : Bytes) (ht : t ≠ 0) (hc : c ≠ 0) (hx : 2 ≤ x.length) {l : Int}
    (h : readi32 ((t :: c :: x).take 4) = .ok l) : l < 0 ∨ 257 ≤ l := by
  match x, hx with
  | a :: b :: y, _ =>
    simp only [List.take_succ_cons, List.take_zero] at h
    simp only [readi32, rdU32, Res.bind_ok] at h
    have e1 : 1 ≤ t.toNat := by
      have : t.toNat ≠ 0 := fun e => ht (UInt8.toNat_inj.mp e)
      omega
    have e2 : 1 ≤ c.toNat := by
      have : c.toNat ≠ 0 := fun e => hc (UInt8.toNat_inj.mp e)
      omega
    have := t.toNat_lt; have := c.toNat_lt; have := a.toNat_lt; have := b.toNat_lt
    simp only [pure, Res.ok.injEq] at h
    subst h
    generalize t.toNat = t' at *
    generalize c.toNat = c' at *
    generalize a.toNat = a' at *
    generalize b.toNat = b' at *
    unfold i32
    omega

/-- a valid raw document is as long as it says -/
theorem rawValidate_length {fuel : Nat} {data : Bytes} {offset n : Nat} (h3 : idx data 0 = .ok 3) (hl : data.length < 2147483648)
    (h : rawValidate fuel data 0 offset = .ok n) : ∃ x l, slice data offset (u32 (offset + 4)) = .ok x ∧ readi32 x = .ok l ∧ 5 ≤ l ∧
      offset + l ≤ data.length := by
  unfold rawValidate at h
  rw [h3] at h
  simp only [Res.bind_ok] at h
  split at h
  · cases h
  rw [if_neg (by decide), if_pos (by decide)] at h
  split at h
  · cases h
  obtain ⟨x, hx, h⟩ := Res.bind_eq_ok.mp h
  obtain ⟨l, hr, h⟩ := Res.bind_eq_ok.mp h
  by_cases h5 : l < 5
  · rw [if_pos h5] at h; cases h
  rw [if_neg h5] at h
  split at h
  · cases h
  obtain ⟨y, hy, h⟩ := Res.bind_eq_ok.mp h
  refine ⟨x, l, hx, hr, by omega, ?_⟩
  have hl2 : l < 2147483648 := by
    unfold readi32 at hr
    obtain ⟨m, _, hr⟩ := Res.bind_eq_ok.mp hr
    simp only [pure, Res.ok.injEq] at hr
    subst hr; unfold i32; omega
  have hy' : offset ≤ u32 (offset + u32i l) ∧ u32 (offset + u32i l) ≤ data.length := by
    unfold slice at hy
    split at hy
    · assumption
    · cases hy
  have ho : offset < 2147483648 := by omega
  have e : u32i l = l.toNat := by unfold u32i; omega
  rw [e, u32_small (by omega)] at hy'
  omega

theorem corrupted {W : Nat → Nat} {k k' : Bytes} {v : Value} {t : BVal} (h : Rep v k' t) (hk : k.length < 1073741824)
    (h0 : k' ≠ []) (hl : k'.length + 2 + t.enc.length ≤ 256) (fuel : Nat) (hf : 256 ≤ fuel) :
    ∃ w, ECE.interface W fuel k (.elem v) = .ok w ∧ type w = .ok 0x03 ∧ ∀ n, elemValidate fuel w ≠ .ok n := by
  obtain ⟨c, k'', rfl⟩ : ∃ c k'', k' = c :: k'' := by cases k' with
    | nil => exact absurd rfl h0
    | cons c k'' => exact ⟨c, k'', rfl⟩
  have hm := elemMarshal_rep fuel h (by omega) (by omega)
  have hlen : (t.tag :: (c :: k'' ++ 0 :: t.enc)).length ≤ 256 := by simp at hl ⊢; omega
  have hs := subDocumentFromReader_ok k (t.tag :: (c :: k'' ++ 0 :: t.enc)) (by omega)
  have hd : (3 :: (k ++ 0 :: (t.tag :: (c :: k'' ++ 0 :: t.enc)))).length < 2147483648 := by
    rw [List.length_cons, List.length_append, List.length_cons]; omega
  refine ⟨.raw 0 (k.length + 2) (3 :: (k ++ 0 :: (t.tag :: (c :: k'' ++ 0 :: t.enc)))), by simp only [ECE.interface, ECE.marshaler, hm, Res.bind_ok, hs], ?_, ?_⟩
  · unfold type
    simp [idx, Value.offset, Value.data, Value.start]
  · intro n hn
    unfold elemValidate at hn
    obtain ⟨_, _, hn⟩ := Res.bind_eq_ok.mp hn
    obtain ⟨m, hv, _⟩ := Res.bind_eq_ok.mp hn
    simp only [valueValidate, Bool.false_eq_true, if_false] at hv
    obtain ⟨x, l, h1, h2, h3, h4⟩ := rawValidate_length (by rfl) hd hv
    have e : 3 :: (k ++ 0 :: (t.tag :: (c :: k'' ++ 0 :: t.enc))) = (3 :: (k ++ [0])) ++ (t.tag :: (c :: k'' ++ 0 :: t.enc)) := by simp
    rw [u32_small (by omega), e] at h1
    rw [e] at h4
    have hlen' : (3 :: (k ++ [0])).length = k.length + 2 := by simp
    have hx : x = (t.tag :: (c :: k'' ++ 0 :: t.enc)).take 4 ∧ 4 ≤ (t.tag :: (c :: k'' ++ 0 :: t.enc)).length := by
      unfold slice at h1
      split at h1
      · rename_i hc
        rw [List.length_append, hlen'] at hc
        cases h1
        refine ⟨?_, by omega⟩
        rw [List.drop_take, List.drop_left' hlen', show k.length + 2 + 4 - (k.length + 2) = 4 by omega]
      · cases h1
    have hx2 : 2 ≤ (k'' ++ 0 :: t.enc).length := by have := hx.2; simp at this ⊢; omega
    rw [hx.1] at h2
    have hc : c ≠ 0 := (rep_key h).2.2 c (by simp)
    have ht : t.tag ≠ 0 := by cases t <;> simp [BVal.tag]
    have := readi32_elem t.tag c (k'' ++ 0 :: t.enc) ht hc hx2 h2
    rw [List.length_append, hlen'] at h4
    omega

theorem numbered_toFields : ∀ (i : Nat) (vs : Vals), numbered i vs = toFields i vs
  | _, .nil => rfl
  | i, .cons t rest => by simp [numbered, toFields, numbered_toFields (i + 1) rest]

/-! ### export -/

theorem append_nil : ∀ m, GoMap.append m .nil = m
  | .nil => rfl
  | .cons k g rest => by simp [GoMap.append, append_nil rest]

def GoMap.without (ks : List Bytes) : GoMap → GoMap
  | .nil => .nil
  | .cons k g rest => if k ∈ ks then GoMap.without ks rest else .cons k g (GoMap.without ks rest)

theorem without_nil : ∀ m, GoMap.without [] m = m
  | .nil => rfl
  | .cons k g rest => by simp [GoMap.without, without_nil rest]

theorem without_push (ks : List Bytes) (k : Bytes) (g : Go) : ∀ m, GoMap.without ks (m.push k g) =
    if k ∈ ks then GoMap.without ks m else (GoMap.without ks m).push k g
  | .nil => by simp [GoMap.push, GoMap.without]
  | .cons k' g' rest => by
    simp only [GoMap.push, GoMap.without, without_push ks k g rest]
    by_cases h : k' ∈ ks <;> by_cases h' : k ∈ ks <;> simp [h, h', GoMap.push]

theorem without_erase (ks : List Bytes) (k : Bytes) : ∀ m, GoMap.without ks (m.erase k) = GoMap.without (k :: ks) m
  | .nil => rfl
  | .cons k' g' rest => by
    simp only [GoMap.erase, GoMap.without]
    by_cases h : k' = k
    · simp [h, without_erase ks k rest]
    · by_cases h' : k' ∈ ks <;> simp [h, h', GoMap.without, without_erase ks k rest]

theorem without_dup {ks : List Bytes} {k : Bytes} (h : k ∈ ks) : ∀ m, GoMap.without (k :: ks) m = GoMap.without ks m
  | .nil => rfl
  | .cons k' g' rest => by
    simp only [GoMap.without, without_dup h rest]
    by_cases h' : k' = k
    · subst h'; simp [h]
    · by_cases h'' : k' ∈ ks <;> simp [h', h'']

theorem app_push (k : Bytes) (g : Go) (n : GoMap) : ∀ m, GoMap.append (m.push k g) n = GoMap.append m (.cons k g n)
  | .nil => rfl
  | .cons k' g' rest => by simp [GoMap.push, GoMap.append, app_push k g n rest]

theorem exportLoop_rep {f : Value → Res Go} {N : Nat}
    (hf : ∀ v k t, Rep v k t → t.NoDecimal → t.enc.length < N → f v = .ok (goOf t)) :
    ∀ {d : Doc} {fs : Fields} (out : GoMap), RepFields d fs → fs.NoDecimal → fs.enc.length < N →
      exportLoop f d out = .ok (GoMap.append (GoMap.without fs.keys out) (goOfFields fs))
  | [], .nil, out, _, _, _ => by
    simp [exportLoop, Fields.keys, without_nil, goOfFields, append_nil]
  | [], .cons _ _ _, _, h, _, _ => by simp [RepFields] at h
  | _ :: _, .nil, _, h, _, _ => by simp [RepFields] at h
  | v :: d, .cons k t fs, out, h, hd, hl => by
    rw [fieldsEnc_length] at hl
    obtain ⟨h1, h2⟩ := h
    unfold exportLoop
    rw [key_rep h1, hf v k t h1 hd.1 (by omega)]
    simp only [Res.bind_ok]
    rw [exportLoop_rep hf _ h2 hd.2 (by omega)]
    simp only [GoMap.assign, without_push, without_erase, Fields.keys, goOfFields]
    by_cases hk : k ∈ fs.keys
    · rw [if_pos hk, if_pos hk, without_dup hk]
    · rw [if_neg hk, if_neg hk, app_push]

theorem exportSlice_rep {f : Value → Res Go} {N : Nat}
    (hf : ∀ v k t, Rep v k t → t.NoDecimal → t.enc.length < N → f v = .ok (goOf t)) :
    ∀ {d : Doc} {vs : Vals} (i : Nat), RepVals d vs → vs.NoDecimal → (vs.encFrom i).length < N →
      exportSlice f d = .ok (goOfVals vs)
  | [], .nil, _, _, _, _ => rfl
  | [], .cons _ _, _, h, _, _ => by simp [RepVals] at h
  | _ :: _, .nil, _, h, _, _ => by simp [RepVals] at h
  | v :: d, .cons t vs, i, h, hd, hl => by
    rw [encFrom_length] at hl
    obtain ⟨⟨k, h1⟩, h2⟩ := h
    unfold exportSlice
    rw [hf v k t h1 hd.1 (by omega), exportSlice_rep hf (i + 1) h2 hd.2 (by omega)]
    rfl

theorem valueInterface_rep : ∀ (fuel : Nat) (v : Value) (k : Bytes) (t : BVal), Rep v k t → t.NoDecimal → t.enc.length < 2147483648 →
    t.enc.length < fuel → Value.interface fuel v = .ok (goOf t)
  | 0, _, _, _, _, _, _, h => by omega
  | fuel + 1, v, k, t, h, hd, hl, hf => by
    have ih := valueInterface_rep fuel
    unfold Value.interface
    rw [type_rep h]
    simp only [Res.bind_ok]
    cases t with
    | double b => simp only [BVal.tag]; simp [double_rep h, goOf]
    | string b => simp only [BVal.tag]; simp [stringValue_rep h, goOf]
    | doc fs =>
      obtain ⟨d, h1, h2⟩ := mutableDocument_rep h hl hf
      simp only [BVal.enc, wrapDoc_length] at hl hf
      have := exportLoop_rep (f := Value.interface fuel) (N := min 2147483648 fuel) (fun v k t hr hd ht => ih v k t hr hd (by omega) (by omega)) .nil h2 hd (by omega)
      simp only [BVal.tag]; simp [h1, this, goOf, GoMap.without, GoMap.append]
    | array vs =>
      obtain ⟨d, h1, h2⟩ := mutableArray_rep h hl hf
      simp only [BVal.enc, wrapDoc_length] at hl hf
      have := exportSlice_rep (f := Value.interface fuel) (N := min 2147483648 fuel) (fun v k t hr hd ht => ih v k t hr hd (by omega) (by omega)) 0 h2 hd (by omega)
      simp only [BVal.tag]; simp [h1, this, goOf]
    | binary st b => simp only [BVal.tag]; simp [binary_rep h, goOf]
    | undefined => simp only [BVal.tag]; simp [goOf]
    | oid b => simp only [BVal.tag]; simp [objectID_rep h, goOf]
    | bool b => simp only [BVal.tag]; simp [boolean_rep h, goOf]
    | datetime b =>
      obtain ⟨t, h1, h2, h3, h4⟩ := time_rep h
      have : t = ⟨b / 1000, b % 1000 * 1000000⟩ := by
        unfold nanos at h2
        cases t
        simp only [Time.mk.injEq] at *
        omega
      simp only [BVal.tag]; simp [h1, goOf, this]
    | null => simp only [BVal.tag]; simp [goOf]
    | regex p o => simp only [BVal.tag]; simp [regex_rep h, goOf]
    | dbpointer n i => simp only [BVal.tag]; simp [dbPointer_rep h, goOf]
    | js b => simp only [BVal.tag]; simp [javaScript_rep h, goOf]
    | symbol b => simp only [BVal.tag]; simp [symbol_rep h, goOf]
    | codeScope c fs =>
      obtain ⟨d, h1, h2⟩ := mutableCode_rep h hl hf
      have hn : (BVal.codeScope c fs).enc.length = c.length + fs.enc.length + 14 := by simp [BVal.enc]; omega
      rw [hn] at hl hf
      have := docMarshal_rep (fuel + 1) h2 (by simp [encDoc]; omega) (by simp [encDoc]; omega)
      simp only [BVal.tag]; simp [h1, this, goOf, scopeBytes]
    | int32 b => simp only [BVal.tag]; simp [int32_rep h, goOf]
    | timestamp b c => simp only [BVal.tag]; simp [timestamp_rep h, goOf]
    | int64 b => simp only [BVal.tag]; simp [int64_rep h, goOf]
    | decimal b c => exact absurd hd (by simp [BVal.NoDecimal])
    | minKey => simp only [BVal.tag]; simp [goOf]
    | maxKey => simp only [BVal.tag]; simp [goOf]

/-! ### the way back -/

section
variable {W : Nat → Nat}

mutual
theorem goOf_denotes : ∀ {t : BVal}, Portable t → t.WF → Denotes W (goOf t) t
  | .double b, _, _ => .f64 b
  | .string s, _, _ => .str s
  | .bool b, _, _ => .bool b
  | .datetime ms, _, wf => by
    simp only [BVal.WF] at wf
    have hm : millis ⟨ms / 1000, ms % 1000 * 1000000⟩ = ms := by unfold millis nanoseconds; simp only; omega
    have := Denotes.time (W := W) ⟨ms / 1000, ms % 1000 * 1000000⟩ ⟨⟨by simp only; omega, by simp only; omega⟩, by rw [hm]; omega, by rw [hm]; omega⟩
    rw [hm] at this
    exact this
  | .null, _, _ => .nil
  | .int32 i, _, wf => .int (.int32 i) ⟨by simpa [inRange, BVal.WF] using wf, by simp only [BVal.WF] at wf; simp only [intVal]; omega, by simp⟩
  | .int64 i, _, wf => .int (.int64 i) ⟨by simpa [inRange, BVal.WF] using wf, by simp only [BVal.WF] at wf; simp only [intVal]; omega, by simp⟩
  | .timestamp a b, _, _ => .timestamp a b
  | .doc fs, h, wf => .map (goOfFields_denotes h wf)
  | .array vs, h, wf => .slice (goOfVals_denotes h wf)
theorem goOfFields_denotes : ∀ {fs : Fields}, PortableFields fs → fs.WF → DenotesMap W (goOfFields fs) fs
  | .nil, _, _ => .nil
  | .cons k t rest, h, wf => by
    simp only [goOfFields, if_neg h.1]
    exact .cons k (goOf_denotes h.2.1 wf.2.1) (goOfFields_denotes h.2.2 wf.2.2)
theorem goOfVals_denotes : ∀ {vs : Vals}, PortableVals vs → vs.WF → DenotesSlice W (goOfVals vs) vs
  | .nil, _, _ => .nil
  | .cons _ _, h, wf => .cons (goOf_denotes h.1 wf.1) (goOfVals_denotes h.2 wf.2)
end

mutual
theorem portable_noDecimal : ∀ {t : BVal}, Portable t → t.NoDecimal
  | .double _, _ => trivial
  | .string _, _ => trivial
  | .bool _, _ => trivial
  | .datetime _, _ => trivial
  | .null, _ => trivial
  | .int32 _, _ => trivial
  | .int64 _, _ => trivial
  | .timestamp _ _, _ => trivial
  | .doc fs, h => portableFields_noDecimal (fs := fs) h
  | .array vs, h => portableVals_noDecimal (vs := vs) h
theorem portableFields_noDecimal : ∀ {fs : Fields}, PortableFields fs → fs.NoDecimal
  | .nil, _ => trivial
  | .cons _ _ _, h => ⟨portable_noDecimal h.2.1, portableFields_noDecimal h.2.2⟩
theorem portableVals_noDecimal : ∀ {vs : Vals}, PortableVals vs → vs.NoDecimal
  | .nil, _ => trivial
  | .cons _ _, h => ⟨portable_noDecimal h.1, portableVals_noDecimal h.2⟩
end

mutual
theorem sameFields_refl : ∀ fs : Fields, SameFields fs fs
  | .nil => .nil
  | .cons k t rest => .cons k (.refl t) (sameFields_refl rest)
theorem sameVals_refl : ∀ vs : Vals, SameVals vs vs
  | .nil => .nil
  | .cons t rest => .cons (.refl t) (sameVals_refl rest)
end

mutual
theorem shuffled_denotes : ∀ {g g' : Go}, Shuffled g g' → ∀ {t : BVal}, Denotes W g t → ∃ t', Denotes W g' t' ∧ SameUpToOrder t t'
  | _, _, .refl _, t, h => ⟨t, h, .refl t⟩
  | _, _, .map hm, t, h => by
    cases h with
    | map h =>
      obtain ⟨gs, h1, h2⟩ := shuffledMap_denotes hm h
      exact ⟨_, .map h1, .doc h2⟩
  | _, _, .slice hs, t, h => by
    cases h with
    | slice h =>
      obtain ⟨gs, h1, h2⟩ := shuffledSlice_denotes hs h
      exact ⟨_, .slice h1, .array h2⟩
theorem shuffledMap_denotes : ∀ {m m' : GoMap}, ShuffledMap m m' → ∀ {fs : Fields}, DenotesMap W m fs →
    ∃ gs, DenotesMap W m' gs ∧ SameFields fs gs
  | _, _, .nil, _, h => ⟨_, h, sameFields_refl _⟩
  | _, _, .cons k hg hm, _, h => by
    cases h with
    | cons _ h1 h2 =>
      obtain ⟨t', h3, h4⟩ := shuffled_denotes hg h1
      obtain ⟨gs, h5, h6⟩ := shuffledMap_denotes hm h2
      exact ⟨_, .cons k h3 h5, .cons k h4 h6⟩
  | _, _, .swap k l g h m, _, h' => by
    cases h' with
    | cons _ h1 h2 =>
      cases h2 with
      | cons _ h3 h4 => exact ⟨_, .cons l h3 (.cons k h1 h4), .swap k l _ _ _⟩
  | _, _, .trans h1 h2, _, h => by
    obtain ⟨gs, h3, h4⟩ := shuffledMap_denotes h1 h
    obtain ⟨hs, h5, h6⟩ := shuffledMap_denotes h2 h3
    exact ⟨hs, h5, .trans h4 h6⟩
theorem shuffledSlice_denotes : ∀ {s s' : GoSlice}, ShuffledSlice s s' → ∀ {vs : Vals}, DenotesSlice W s vs →
    ∃ ws, DenotesSlice W s' ws ∧ SameVals vs ws
  | _, _, .nil, _, h => ⟨_, h, sameVals_refl _⟩
  | _, _, .cons hg hm, _, h => by
    cases h with
    | cons h1 h2 =>
      obtain ⟨t', h3, h4⟩ := shuffled_denotes hg h1
      obtain ⟨gs, h5, h6⟩ := shuffledSlice_denotes hm h2
      exact ⟨_, .cons h3 h5, .cons h4 h6⟩
    | elem h1 h2 =>
      cases hg
      obtain ⟨gs, h5, h6⟩ := shuffledSlice_denotes hm h2
      exact ⟨_, .elem h1 h5, .cons (.refl _) h6⟩
end
end

mutual
theorem same_size : ∀ {t u : BVal}, SameUpToOrder t u → u.enc.length = t.enc.length ∧ (t.WF → u.WF) ∧ (u = .null → t = .null)
  | _, _, .refl t => ⟨rfl, id, id⟩
  | _, _, .doc h => by
    obtain ⟨h1, h2⟩ := sameFields_size h
    simp only [BVal.enc, wrapDoc_length, BVal.WF]
    exact ⟨by omega, h2, by simp⟩
  | _, _, .array h => by
    obtain ⟨h1, h2⟩ := sameVals_size 0 h
    simp only [BVal.enc, wrapDoc_length, BVal.WF]
    exact ⟨by omega, h2, by simp⟩
theorem sameFields_size : ∀ {fs gs : Fields}, SameFields fs gs → gs.enc.length = fs.enc.length ∧ (fs.WF → gs.WF)
  | _, _, .nil => ⟨rfl, id⟩
  | _, _, .cons k h hs => by
    obtain ⟨h1, h2, _⟩ := same_size h
    obtain ⟨h3, h4⟩ := sameFields_size hs
    rw [fieldsEnc_length, fieldsEnc_length]
    exact ⟨by omega, fun w => ⟨w.1, h2 w.2.1, h4 w.2.2⟩⟩
  | _, _, .swap k l t u fs => by
    simp only [fieldsEnc_length]
    exact ⟨by omega, fun w => ⟨w.2.2.1, w.2.2.2.1, w.1, w.2.1, w.2.2.2.2⟩⟩
  | _, _, .trans h h' => by
    obtain ⟨h1, h2⟩ := sameFields_size h
    obtain ⟨h3, h4⟩ := sameFields_size h'
    exact ⟨by omega, fun w => h4 (h2 w)⟩
theorem sameVals_size : ∀ (i : Nat) {vs ws : Vals}, SameVals vs ws → (ws.encFrom i).length = (vs.encFrom i).length ∧ (vs.WF → ws.WF)
  | _, _, _, .nil => ⟨rfl, id⟩
  | i, _, _, .cons h hs => by
    obtain ⟨h1, h2, _⟩ := same_size h
    obtain ⟨h3, h4⟩ := sameVals_size (i + 1) hs
    rw [encFrom_length, encFrom_length]
    exact ⟨by omega, fun w => ⟨h2 w.1, h4 w.2⟩⟩
end

/-- `MutableJavaScriptWithScope` of a parsed value returns the scope it holds -/
theorem scope_any {fuel s o : Nat} {data c : Bytes} {d d0 d1 : Doc} (h : mutableCodeWithScope fuel (.withDoc s o data d0) = .ok (c, d1)) :
    mutableCodeWithScope fuel (.withDoc s o data d) = .ok (c, d) := by
  unfold mutableCodeWithScope at h ⊢
  simp only [Res.bind_eq_ok] at h
  obtain ⟨_, h1, b, h2, l, h3, ⟨s', sl⟩, h4, h5⟩ := h
  simp only [Res.ok.injEq, Prod.mk.injEq] at h5
  rw [← h5.1]
  have e1 : expect 0x0F (.withDoc s o data d) = .ok _ := h1
  have e2 : slice (Value.withDoc s o data d).data (Value.withDoc s o data d).offset (u32 ((Value.withDoc s o data d).offset + 4)) = .ok b := h2
  have e4 : getCode (.withDoc s o data d) = .ok (s', sl) := h4
  rw [e1, e2, e4]
  simp [h3]

end Birch.Proofs
