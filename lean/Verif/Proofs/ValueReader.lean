import Verif.Model.ValueReader
import Verif.Spec.Keyed
import Verif.Proofs.ReaderSearch
import Verif.Proofs.Decode
import Verif.Model.Programs

/- `Reader` of values. -/

namespace Birch.Proofs
open Birch Model Spec

attribute [local irreducible] i32 u32 u32i u64i i64

theorem reader_rep {fuel : Nat} {v : Value} {k : Bytes} {t : BVal} (h : Rep v k t) : reader fuel v = getReader fuel v := by
  unfold reader
  rw [if_neg]
  cases v with
  | raw s o data =>
    simp only [Rep] at h
    obtain ⟨_, _, _, pre, post, rfl, rfl, rfl⟩ := h
    simp [Value.offset, Value.data]
  | withDoc s o data d =>
    simp only [Rep] at h
    obtain ⟨_, _, pre, post, rfl, rfl, rfl, _⟩ := h
    simp [Value.offset, Value.data]

theorem repVals_keyed : ∀ {d : Doc} {vs : Vals} {ks : List Bytes}, RepVals d vs → d.map key = ks.map .ok → RepFields d (keyed ks vs)
  | [], .nil, [], _, _ => by simp [keyed, RepFields]
  | [], .nil, _ :: _, _, h => by simp at h
  | [], .cons _ _, _, h, _ => by simp [RepVals] at h
  | _ :: _, .nil, _, h, _ => by simp [RepVals] at h
  | v :: d, .cons t vs, [], _, h => by simp at h
  | v :: d, .cons t vs, k :: ks, h, hk => by
    simp only [RepVals] at h
    obtain ⟨⟨k', h1⟩, h2⟩ := h
    simp only [List.map_cons, List.cons.injEq] at hk
    rw [key_rep h1] at hk
    cases hk.1
    simp only [keyed, RepFields]
    exact ⟨h1, repVals_keyed h2 hk.2⟩

theorem keyed_eq_iff {i : Nat} : ∀ {d : Doc} {vs : Vals}, RepVals d vs → ∀ {ks : List Bytes}, d.map key = ks.map .ok →
    (keyed ks vs = toFields i vs ↔ ks = (List.range' i ks.length).map decimalKey)
  | [], .nil, _, [], _ => by simp [keyed, toFields]
  | [], .nil, _, _ :: _, h => by simp at h
  | [], .cons _ _, h, _, _ => by simp [RepVals] at h
  | _ :: _, .nil, h, _, _ => by simp [RepVals] at h
  | v :: d, .cons t vs, _, [], h => by simp at h
  | v :: d, .cons t vs, h, k :: ks, hk => by
    simp only [RepVals] at h
    simp only [List.map_cons, List.cons.injEq] at hk
    have ih := keyed_eq_iff (i := i + 1) h.2 hk.2
    simp only [keyed, toFields, List.length_cons, List.range'_succ, List.map_cons, List.cons.injEq, Fields.cons.injEq, true_and]
    rw [ih]

theorem array_enc (vs : Vals) : (BVal.array vs).enc = encDoc (toFields 0 vs) := by rw [encDoc, toFields_enc]; rfl

theorem repFields_keys : ∀ {d : Doc} {i : Nat} {vs : Vals}, RepFields d (toFields i vs) → d.map key = ((List.range' i d.length).map decimalKey).map .ok
  | [], _, _, _ => rfl
  | _ :: _, _, .nil, h => by simp [toFields, RepFields] at h
  | v :: d, i, .cons t vs, h => by
    simp only [toFields, RepFields] at h
    simp only [List.map_cons, List.length_cons, List.range'_succ, List.cons.injEq]
    exact ⟨key_rep h.1, repFields_keys h.2⟩

/-- opening an array that is still in its bytes: the values have their positions for keys -/
theorem mutableArray_raw {fuel s o : Nat} {data k : Bytes} {vs : Vals} (h : Rep (.raw s o data) k (.array vs))
    (hf : (BVal.array vs).enc.length < fuel) : ∃ d, mutableArray fuel (.raw s o data) = .ok d ∧ RepFields d (toFields 0 vs) := by
  unfold mutableArray
  rw [expect_ok h (by rfl)]
  simp only [Res.bind_ok]
  simp only [Rep] at h
  obtain ⟨hk, wf, hl, pre, post, rfl, rfl, rfl⟩ := h
  simp only [BVal.enc, wrapDoc_length] at hf
  simp only [BVal.enc, List.length_append, List.length_cons, wrapDoc_length] at hl
  rw [raw_form, raw_len (x := (BVal.array vs).tag)]
  simp only [BVal.enc]
  rw [← toFields_enc] at hl hf ⊢
  exact getDoc_raw (fuel := fuel) (hd := pre ++ (BVal.array vs).tag :: (k ++ [0])) (post := post) (toFields_wf 0 vs wf) (by simp; omega) hf pre.length

theorem rdU32_take4 {w : Bytes} (h : ¬ w.length < 4) : ∃ z : Int, -2147483648 ≤ z ∧ z < 2147483648 ∧ w = le32 (u32i z) ++ w.drop 4 := by
  match w with
  | a :: b :: c :: d :: r =>
    refine ⟨i32 ((a.toNat + b.toNat * 256 + c.toNat * 65536 + d.toNat * 16777216 : Nat) : Int), by unfold i32; omega, by unfold i32; omega, ?_⟩
    have ha := a.toNat_lt; have hb := b.toNat_lt; have hc := c.toNat_lt; have hd := d.toNat_lt
    have : u32i (i32 ((a.toNat + b.toNat * 256 + c.toNat * 65536 + d.toNat * 16777216 : Nat) : Int)) = a.toNat + b.toNat * 256 + c.toNat * 65536 + d.toNat * 16777216 := by
      unfold u32i i32; omega
    rw [this]
    simp only [le32, List.drop_succ_cons, List.drop_zero, List.cons_append, List.nil_append, List.cons.injEq, and_true, ← UInt8.toNat_inj, UInt8.toNat_ofNat']
    omega
  | [] | [_] | [_, _] | [_, _, _] => simp at h

theorem rawReader_any {data : Bytes} {o : Nat} (hl : data.length < 2147483648) (ho : o ≤ data.length) :
    ((data.drop o).length < 4 → rawReader data o = .panic) ∧
    ∀ (z : Int) rest, -2147483648 ≤ z → z < 2147483648 → data.drop o = le32 (u32i z) ++ rest →
      rawReader data o = if 0 ≤ z ∧ z ≤ (data.drop o).length then .ok ((data.drop o).take z.toNat) else .panic := by
  unfold rawReader
  rw [u32_small (n := o + 4) (by omega)]
  have hd : (data.drop o).length = data.length - o := List.length_drop ..
  constructor
  · intro h
    unfold slice
    rw [if_neg (by omega)]; rfl
  · intro z rest h0 h1 hz
    have h4 : 4 ≤ data.length - o := by rw [← hd, hz]; simp
    have e : data = data.take o ++ (le32 (u32i z) ++ rest) := by rw [← hz, List.take_append_drop]
    have hs : slice data o (o + 4) = .ok (le32 (u32i z)) := by
      rw [e]; exact slice_mid _ _ _ (by simp; omega) (by simp; omega)
    have hr : readi32 (le32 (u32i z)) = .ok z := by have := readi32_le32_int h0 h1 []; simpa using this
    rw [hs]
    simp only [Res.bind_ok, hr]
    unfold slice
    by_cases hc : 0 ≤ z ∧ z ≤ (data.drop o).length
    · rw [if_pos hc, u32i_small hc.1 (by omega), u32_small (by omega), if_pos (by omega), List.drop_take]
      congr 2; omega
    · rw [if_neg hc, if_neg]
      unfold u32 u32i
      omega

/-! ### constructed arrays -/

theorem buildArr_keys : ∀ (vs : Vals) (i : Nat), vs.WF → (vs.encFrom i).length < 2147483648 →
    ∃ d, buildArr vs = .ok d ∧ d.map key = d.map (fun _ => .ok []) ∧ RepVals d vs
  | .nil, _, _, _ => ⟨[], by simp [buildArr], rfl, by simp [RepVals]⟩
  | .cons t rest, i, wf, hl => by
    obtain ⟨ht, hr⟩ := wf
    rw [encFrom_length] at hl
    obtain ⟨v, hv, rv⟩ := buildVal_rep [] t (by simp [NulFree]) ht (by simp; omega)
    obtain ⟨d, hd, hk, rd⟩ := buildArr_keys rest (i + 1) hr (by omega)
    refine ⟨v :: d, by simp [buildArr, hv, hd], ?_, by simp only [RepVals]; exact ⟨⟨_, rv⟩, rd⟩⟩
    simp only [List.map_cons, key_rep rv, hk]

theorem keyed_empty_length : ∀ (ks : List Bytes) (vs : Vals) (i : Nat), (∀ k ∈ ks, k = []) → (keyed ks vs).enc.length ≤ (vs.encFrom i).length
  | [], _, _, _ => by simp [keyed, Fields.enc]
  | _ :: _, .nil, _, _ => by simp [keyed, Fields.enc]
  | k :: ks, .cons t vs, i, h => by
    have := keyed_empty_length ks vs (i + 1) (fun k hk => h k (List.mem_cons_of_mem _ hk))
    rw [keyed, fieldsEnc_length, encFrom_length, h k (by simp)]
    simp only [List.length_nil]
    omega

theorem keyed_none {k : Bytes} : ∀ (ks : List Bytes) (vs : Vals), (∀ k' ∈ ks, k' ≠ k) → (keyed ks vs).firstNamed k = none
  | [], _, _ => by simp [keyed, Fields.firstNamed]
  | _ :: _, .nil, _ => by simp [keyed, Fields.firstNamed]
  | k' :: ks, .cons t vs, h => by
    rw [keyed, Fields.firstNamed, if_neg (h k' (by simp))]
    exact keyed_none ks vs (fun k hk => h k (List.mem_cons_of_mem _ hk))

theorem decimalKey_ne_nil (i : Nat) : decimalKey i ≠ [] := by
  unfold decimalKey
  simp [Nat.toDigits_ne_nil]

/-! ### arrays with a gap -/

def eraseField : Nat → Fields → Fields
  | _, .nil => .nil
  | 0, .cons _ _ fs => fs
  | i + 1, .cons k t fs => .cons k t (eraseField i fs)

def eraseVal : Nat → Vals → Vals
  | _, .nil => .nil
  | 0, .cons _ vs => vs
  | i + 1, .cons t vs => .cons t (eraseVal i vs)

theorem erase_fields : ∀ {d : Doc} {fs : Fields}, RepFields d fs → ∀ i, RepFields (d.eraseIdx i) (eraseField i fs)
  | [], .nil, _, i => by cases i <;> simp [eraseField, RepFields]
  | [], .cons _ _ _, h, _ => by simp [RepFields] at h
  | _ :: _, .nil, h, _ => by simp [RepFields] at h
  | v :: d, .cons k t fs, h, 0 => by simp only [RepFields] at h; exact h.2
  | v :: d, .cons k t fs, h, i + 1 => by
    simp only [RepFields] at h
    simp only [List.eraseIdx_cons_succ, eraseField, RepFields]
    exact ⟨h.1, erase_fields h.2 i⟩

theorem erase_vals : ∀ {d : Doc} {j : Nat} {vs : Vals}, RepFields d (toFields j vs) → ∀ i, RepVals (d.eraseIdx i) (eraseVal i vs)
  | [], _, .nil, _, i => by cases i <;> simp [eraseVal, RepVals]
  | [], _, .cons _ _, h, _ => by simp [toFields, RepFields] at h
  | _ :: _, _, .nil, h, _ => by simp [toFields, RepFields] at h
  | v :: d, j, .cons t vs, h, 0 => by simp only [toFields, RepFields] at h; exact repVals_of_fields _ _ _ h.2
  | v :: d, j, .cons t vs, h, i + 1 => by
    simp only [toFields, RepFields] at h
    simp only [List.eraseIdx_cons_succ, eraseVal, RepVals]
    exact ⟨⟨_, h.1⟩, erase_vals h.2 i⟩

theorem eraseField_length : ∀ (i : Nat) (fs : Fields), (eraseField i fs).enc.length ≤ fs.enc.length
  | _, .nil => by simp [eraseField]
  | 0, .cons k t fs => by rw [eraseField, fieldsEnc_length]; omega
  | i + 1, .cons k t fs => by
    have := eraseField_length i fs
    rw [eraseField, fieldsEnc_length, fieldsEnc_length]; omega

theorem get_lt : ∀ {d : Doc} {j : Nat} {vs : Vals}, RepFields d (toFields j vs) → ∀ {i : Nat} {t : BVal}, vs.get? i = some t → i < d.length
  | [], _, .nil, _, i, t, h => by simp [Vals.get?] at h
  | [], _, .cons _ _, h, _, _, _ => by simp [toFields, RepFields] at h
  | _ :: _, _, .nil, h, _, _, _ => by simp [toFields, RepFields] at h
  | v :: d, j, .cons t vs, h, 0, _, _ => by simp
  | v :: d, j, .cons t vs, h, i + 1, _, hi => by
    simp only [toFields, RepFields] at h
    have := get_lt h.2 (i := i) hi
    simp only [List.length_cons]; omega

theorem decimalKey_inj' {i j : Nat} (h : decimalKey i = decimalKey j) : i = j :=
  Option.some.inj ((canonical_iff.2 h).symm.trans (canonical_iff.2 rfl))

theorem eraseField_named : ∀ (i n j : Nat) (vs : Vals), (eraseField i (toFields n vs)).firstNamed (decimalKey j) =
    if j = n + i then none else (toFields n vs).firstNamed (decimalKey j)
  | i, n, j, .nil => by simp [eraseField, toFields, Fields.firstNamed]
  | 0, n, j, .cons t vs => by
    simp only [toFields, eraseField, Nat.add_zero, Fields.firstNamed]
    by_cases h : j = n
    · subst h
      rw [if_pos rfl, firstNamed_toFields, canonical_iff.2 rfl]
      simp
    · rw [if_neg h, if_neg (fun e => h (decimalKey_inj' e).symm)]
  | i + 1, n, j, .cons t vs => by
    simp only [toFields, eraseField, Fields.firstNamed]
    rw [eraseField_named i (n + 1) j vs]
    by_cases h : decimalKey n = decimalKey j
    · have := decimalKey_inj' h
      rw [if_pos h, if_neg (by omega), if_pos h]
    · rw [if_neg h, if_neg h]
      by_cases h1 : j = n + (i + 1)
      · rw [if_pos h1, if_pos (by omega)]
      · rw [if_neg h1, if_neg (by omega)]

theorem header_only (x : UInt8) (k : Bytes) (hl : k.length + 2 < 2147483648) :
    (do Res.ok (Value.raw 0 (u32 (1 + k.length + 1)) (← EC.header x k))) = Res.ok (Value.raw 0 (k.length + 2) (x :: (k ++ [0]))) := by
  rw [header_ok x k (by omega), u32_small (by omega), show 1 + k.length + 1 = k.length + 2 by omega]; rfl

end Birch.Proofs
