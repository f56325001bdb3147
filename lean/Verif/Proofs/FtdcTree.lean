import Verif.Proofs.FtdcCodec
import Verif.Proofs.Search
import Verif.Proofs.Construct
import Verif.Spec.FtdcDocs

/- FTDC extraction and restoration on abstract documents. -/

namespace Birch.Proofs.Ftdc
open Birch Model Model.Ftdc Spec

/-- milliseconds of a date after `Time` and `epochMs` -/
def wrapMs (ms : Int) : Int := (i64 (ms * 1000000)).tdiv 1000000

mutual
/-- the numbers extracted from a value -/
def nums : BVal → List (UInt8 × Num)
  | .doc fs => numsF fs
  | .array vs => numsV vs
  | .bool b => [(0x08, .int (if b then 1 else 0))]
  | .double b => [(0x01, .dbl b)]
  | .int32 i => [(0x10, .int i)]
  | .int64 i => [(0x12, .int i)]
  | .datetime ms => [(0x09, .int (wrapMs ms))]
  | .timestamp t i => [(0x11, .int t), (0x11, .int i)]
  | _ => []
def numsF : Fields → List (UInt8 × Num)
  | .nil => []
  | .cons _ v rest => nums v ++ numsF rest
def numsV : Vals → List (UInt8 × Num)
  | .nil => []
  | .cons v rest => nums v ++ numsV rest
end

theorem epochMs_time {v : Value} {k : Bytes} {ms : Int} (h : Rep v k (.datetime ms)) :
    ∃ t, time v = .ok t ∧ epochMs t = wrapMs ms := by
  obtain ⟨t, h1, h2, h3⟩ := time_rep h
  refine ⟨t, h1, ?_⟩
  unfold epochMs wrapMs
  unfold nanos at h2
  rw [h2]

theorem extractAll_repF {g : Value → Res (List (UInt8 × Num))} {N : Nat}
    (hg : ∀ v k t, Rep v k t → t.enc.length < N → g v = .ok (nums t)) :
    ∀ (d : Doc) (fs : Fields), RepFields d fs → fs.enc.length < N → extractAll g d = .ok (numsF fs)
  | [], .nil, _, _ => by simp [extractAll, numsF]
  | [], .cons _ _ _, h, _ => by simp [RepFields] at h
  | _ :: _, .nil, h, _ => by simp [RepFields] at h
  | v :: d, .cons k t fs, h, hl => by
    simp only [RepFields] at h
    rw [fieldsEnc_length] at hl
    unfold extractAll
    rw [hg v k t h.1 (by omega), extractAll_repF hg d fs h.2 (by omega)]
    simp [numsF]

theorem extractAll_repV {g : Value → Res (List (UInt8 × Num))} {N : Nat}
    (hg : ∀ v k t, Rep v k t → t.enc.length < N → g v = .ok (nums t)) :
    ∀ (d : Doc) (vs : Vals) (i : Nat), RepVals d vs → (vs.encFrom i).length < N → extractAll g d = .ok (numsV vs)
  | [], .nil, _, _, _ => by simp [extractAll, numsV]
  | [], .cons _ _, _, h, _ => by simp [RepVals] at h
  | _ :: _, .nil, _, h, _ => by simp [RepVals] at h
  | v :: d, .cons t vs, i, h, hl => by
    simp only [RepVals] at h
    obtain ⟨⟨k, h1⟩, h2⟩ := h
    rw [encFrom_length] at hl
    unfold extractAll
    rw [hg v k t h1 (by omega), extractAll_repV hg d vs (i + 1) h2 (by omega)]
    simp [numsV]

theorem extractValue_rep : ∀ (fuel : Nat) (v : Value) (k : Bytes) (t : BVal), Rep v k t → t.enc.length < 2147483648 →
    t.enc.length < fuel → extractValue fuel v = .ok (nums t)
  | 0, _, _, _, _, _, h => by omega
  | fuel + 1, v, k, t, h, hl, hf => by
    have ih := extractValue_rep fuel
    unfold extractValue
    rw [type_rep h]
    simp only [Res.bind_ok]
    cases t with
    | doc fs =>
      obtain ⟨d, h1, h2⟩ := mutableDocument_rep h hl hf
      simp only [BVal.enc, wrapDoc_length] at hl hf
      have := extractAll_repF (g := extractValue fuel) (N := min 2147483648 fuel) (fun v k t hr ht => ih v k t hr (by omega) (by omega)) d fs h2 (by omega)
      simp only [BVal.tag]; simp [h1, this, nums]
    | array vs =>
      obtain ⟨d, h1, h2⟩ := mutableArray_rep h hl hf
      simp only [BVal.enc, wrapDoc_length] at hl hf
      have := extractAll_repV (g := extractValue fuel) (N := min 2147483648 fuel) (fun v k t hr ht => ih v k t hr (by omega) (by omega)) d vs 0 h2 (by omega)
      simp only [BVal.tag]; simp [h1, this, nums]
    | double b => simp only [BVal.tag]; simp [double_rep h, nums]
    | bool b => simp only [BVal.tag]; cases b <;> simp [boolean_rep h, nums]
    | datetime b =>
      obtain ⟨t, h1, h2⟩ := epochMs_time h
      simp only [BVal.tag]; simp [h1, h2, nums]
    | int32 b => simp only [BVal.tag]; simp [int32_rep h, nums]
    | timestamp b c => simp only [BVal.tag]; simp [timestamp_rep h, nums]
    | int64 b => simp only [BVal.tag]; simp [int64_rep h, nums]
    | _ => simp [BVal.tag, nums]

theorem extract_rep (fuel : Nat) {d : Doc} {fs : Fields} (h : RepFields d fs) (hl : fs.enc.length < 2147483648) (hf : fs.enc.length < fuel) :
    extract fuel d = .ok (numsF fs) :=
  extractAll_repF (N := min 2147483648 fuel) (fun v k t hr ht => extractValue_rep fuel v k t hr (by omega) (by omega)) d fs h (by omega)

/-! ### metrics of the reference document -/

mutual
/-- the metrics made from a value with the given key and path -/
def mets (key : Bytes) (path : List Bytes) : BVal → List Metric
  | .doc fs => (metsF (path ++ [key]) fs).map fun ne =>
      { parentPath := path ++ [key], keyName := ne.keyName, values := [], startingValue := ne.startingValue, originalType := ne.originalType }
  | .array vs => metsV key path 0 vs
  | .bool b => [⟨path, key, [], if b then 1 else 0, 0x08⟩]
  | .double b => [⟨path, key, [], i64 b, 0x01⟩]
  | .int32 i => [⟨path, key, [], i, 0x10⟩]
  | .int64 i => [⟨path, key, [], i, 0x12⟩]
  | .datetime ms => [⟨path, key, [], wrapMs ms, 0x09⟩]
  | .timestamp t i => [⟨path, key, [], (t : Int) * 1000, 0x11⟩, ⟨path, key ++ [46, 105, 110, 99], [], i, 0x11⟩]
  | _ => []
def metsF (path : List Bytes) : Fields → List Metric
  | .nil => []
  | .cons k v rest => mets k path v ++ metsF path rest
def metsV (key : Bytes) (path : List Bytes) : Nat → Vals → List Metric
  | _, .nil => []
  | i, .cons v rest => mets (key ++ 46 :: itoa i) path v ++ metsV key path (i + 1) rest
end

theorem metricForDocument_rep {g : Bytes → List Bytes → Value → Res (List Metric)} {N : Nat}
    (hg : ∀ key path v k t, Rep v k t → t.enc.length < N → g key path v = .ok (mets key path t)) (path : List Bytes) :
    ∀ (d : Doc) (fs : Fields), RepFields d fs → fs.enc.length < N → metricForDocument g path d = .ok (metsF path fs)
  | [], .nil, _, _ => by simp [metricForDocument, metsF]
  | [], .cons _ _ _, h, _ => by simp [RepFields] at h
  | _ :: _, .nil, h, _ => by simp [RepFields] at h
  | v :: d, .cons k t fs, h, hl => by
    simp only [RepFields] at h
    rw [fieldsEnc_length] at hl
    unfold metricForDocument
    rw [key_rep h.1, Res.bind_ok, hg k path v k t h.1 (by omega), metricForDocument_rep hg path d fs h.2 (by omega)]
    simp [metsF]

theorem metricForArray_rep {g : Bytes → List Bytes → Value → Res (List Metric)} {N : Nat}
    (hg : ∀ key path v k t, Rep v k t → t.enc.length < N → g key path v = .ok (mets key path t)) (key : Bytes) (path : List Bytes) :
    ∀ (d : Doc) (vs : Vals) (n i : Nat), RepVals d vs → (vs.encFrom i).length < N → metricForArray g key path n d = .ok (metsV key path n vs)
  | [], .nil, _, _, _, _ => by simp [metricForArray, metsV]
  | [], .cons _ _, _, _, h, _ => by simp [RepVals] at h
  | _ :: _, .nil, _, _, h, _ => by simp [RepVals] at h
  | v :: d, .cons t vs, n, i, h, hl => by
    simp only [RepVals] at h
    obtain ⟨⟨k, h1⟩, h2⟩ := h
    rw [encFrom_length] at hl
    unfold metricForArray
    rw [hg _ path v k t h1 (by omega), metricForArray_rep hg key path d vs (n + 1) (i + 1) h2 (by omega)]
    simp [metsV]

theorem metricForType_rep : ∀ (fuel : Nat) (key : Bytes) (path : List Bytes) (v : Value) (k : Bytes) (t : BVal), Rep v k t →
    t.enc.length < 2147483648 → t.enc.length < fuel → metricForType fuel key path v = .ok (mets key path t)
  | 0, _, _, _, _, _, _, _, h => by omega
  | fuel + 1, key, path, v, k, t, h, hl, hf => by
    have ih := metricForType_rep fuel
    unfold metricForType
    rw [type_rep h]
    simp only [Res.bind_ok]
    cases t with
    | doc fs =>
      obtain ⟨d, h1, h2⟩ := mutableDocument_rep h hl hf
      simp only [BVal.enc, wrapDoc_length] at hl hf
      have := metricForDocument_rep (g := metricForType fuel) (N := min 2147483648 fuel)
        (fun key path v k t hr ht => ih key path v k t hr (by omega) (by omega)) (path ++ [key]) d fs h2 (by omega)
      simp only [BVal.tag]; simp [h1, this, mets]
    | array vs =>
      obtain ⟨d, h1, h2⟩ := mutableArray_rep h hl hf
      simp only [BVal.enc, wrapDoc_length] at hl hf
      have := metricForArray_rep (g := metricForType fuel) (N := min 2147483648 fuel)
        (fun key path v k t hr ht => ih key path v k t hr (by omega) (by omega)) key path d vs 0 0 h2 (by omega)
      simp only [BVal.tag]; simp [h1, this, mets]
    | double b => simp only [BVal.tag]; simp [double_rep h, mets]
    | bool b => simp only [BVal.tag]; cases b <;> simp [boolean_rep h, mets]
    | datetime b =>
      obtain ⟨t, h1, h2⟩ := epochMs_time h
      simp only [BVal.tag]; simp [h1, h2, mets]
    | int32 b => simp only [BVal.tag]; simp [int32_rep h, mets]
    | timestamp b c => simp only [BVal.tag]; simp [timestamp_rep h, mets]
    | int64 b => simp only [BVal.tag]; simp [int64_rep h, mets]
    | _ => simp [BVal.tag, mets]

theorem metricsOf_rep (fuel : Nat) {d : Doc} {fs : Fields} (h : RepFields d fs) (hl : fs.enc.length < 2147483648) (hf : fs.enc.length < fuel) :
    metricsOf fuel d = .ok (metsF [] fs) :=
  metricForDocument_rep (N := min 2147483648 fuel) (fun key path v k t hr ht => metricForType_rep fuel key path v k t hr (by omega) (by omega)) [] d fs h (by omega)

/-! ### restoring -/

mutual
/-- the number of metrics of a value -/
def count : BVal → Nat
  | .doc fs => countF fs
  | .array vs => countV vs
  | .bool _ | .double _ | .int32 _ | .int64 _ | .datetime _ => 1
  | .timestamp _ _ => 2
  | _ => 0
def countF : Fields → Nat
  | .nil => 0
  | .cons _ v rest => count v + countF rest
def countV : Vals → Nat
  | .nil => 0
  | .cons v rest => count v + countV rest
end

mutual
/-- the metrics of a value, with the numbers replaced by `g idx`, `g (idx + 1)`, ... -/
def fill (g : Nat → Int) (idx : Nat) : BVal → Option BVal
  | .doc fs => some (.doc (fillF g idx fs))
  | .array vs => some (.array (fillV g idx vs))
  | .bool _ => some (.bool (g idx ≠ 0))
  | .double _ => some (.double (u64i (g idx)))
  | .int32 _ => some (.int32 (i32 (g idx)))
  | .int64 _ => some (.int64 (g idx))
  | .datetime _ => some (.datetime (g idx))
  | .timestamp _ _ => some (.timestamp (u32i (g idx)) (u32i (g (idx + 1))))
  | _ => none
def fillF (g : Nat → Int) (idx : Nat) : Fields → Fields
  | .nil => .nil
  | .cons k v rest =>
    match fill g idx v with
    | some m => .cons k m (fillF g (idx + count v) rest)
    | none => fillF g (idx + count v) rest
def fillV (g : Nat → Int) (idx : Nat) : Vals → Vals
  | .nil => .nil
  | .cons v rest =>
    match fill g idx v with
    | some m => .cons m (fillV g (idx + count v) rest)
    | none => fillV g (idx + count v) rest
end

mutual
theorem length_mets (key : Bytes) (path : List Bytes) : ∀ t, (mets key path t).length = count t
  | .doc fs => by simp [mets, count, length_metsF _ fs]
  | .array vs => by simp [mets, count, length_metsV _ _ _ vs]
  | .double _ | .bool _ | .datetime _ | .int32 _ | .int64 _ | .timestamp _ _ => rfl
  | .string _ | .binary _ _ | .undefined | .oid _ | .null | .regex _ _ | .dbpointer _ _ | .js _ | .symbol _ | .codeScope _ _
  | .decimal _ _ | .minKey | .maxKey => rfl
theorem length_metsF (path : List Bytes) : ∀ fs, (metsF path fs).length = countF fs
  | .nil => rfl
  | .cons k v rest => by simp [metsF, countF, length_mets k path v, length_metsF path rest]
theorem length_metsV (key : Bytes) (path : List Bytes) : ∀ i vs, (metsV key path i vs).length = countV vs
  | _, .nil => rfl
  | i, .cons v rest => by simp [metsV, countV, length_mets _ path v, length_metsV key path (i + 1) rest]
end

mutual
theorem length_nums : ∀ t, (nums t).length = count t
  | .doc fs => by simp [nums, count, length_numsF fs]
  | .array vs => by simp [nums, count, length_numsV vs]
  | .double _ | .bool _ | .datetime _ | .int32 _ | .int64 _ | .timestamp _ _ => rfl
  | .string _ | .binary _ _ | .undefined | .oid _ | .null | .regex _ _ | .dbpointer _ _ | .js _ | .symbol _ | .codeScope _ _
  | .decimal _ _ | .minKey | .maxKey => rfl
theorem length_numsF : ∀ fs, (numsF fs).length = countF fs
  | .nil => rfl
  | .cons k v rest => by simp [numsF, countF, length_nums v, length_numsF rest]
theorem length_numsV : ∀ vs, (numsV vs).length = countV vs
  | .nil => rfl
  | .cons v rest => by simp [numsV, countV, length_nums v, length_numsV rest]
end

theorem time_epoc {k : Bytes} {x : Int} (h0 : -9223372036854775808 ≤ x) (h1 : x < 9223372036854775808) :
    EC.time k (timeEpocMs x) = EC.dateTime k x := by
  unfold EC.time
  congr 1
  unfold timeEpocMs timeUnix
  have hm := Int.tmod_add_mul_tdiv x 1000
  have hb1 : -1000 < x.tmod 1000 := by have := Int.lt_tmod_of_pos x (b := 1000) (by decide); omega
  have hb2 : x.tmod 1000 < 1000 := Int.tmod_lt_of_pos x (by decide)
  generalize x.tmod 1000 = m at *
  generalize x.tdiv 1000 = q at *
  by_cases hn : m * 1000000 < 0 ∨ m * 1000000 ≥ 1000000000
  · rw [if_pos hn]
    have hz : (m * 1000000).tdiv 1000000000 = 0 := by
      rcases Int.lt_or_le m 0 with hm' | hm'
      · have e : m * 1000000 = -(-m * 1000000) := by omega
        rw [e, Int.neg_tdiv, Int.tdiv_eq_ediv_of_nonneg (by omega)]
        omega
      · omega
    simp only [hz]
    have : m < 0 := by omega
    rw [if_pos (by omega)]
    simp only []
    rw [Int.tdiv_eq_ediv_of_nonneg (by omega)]
    unfold i64; omega
  · rw [if_neg hn]
    simp only []
    rw [Int.tdiv_eq_ediv_of_nonneg (by omega)]
    unfold i64; omega

/-- `EC.Value("", v)` -/
theorem convert_nil {v : Value} {k : Bytes} {t : BVal} (h : Rep v k t) :
    ∃ w, convertValueToElem [] v = .ok (some w) ∧ Rep w [] t := by
  obtain ⟨w, h1, h2⟩ := convert_rep (k' := []) h (by intro c hc; cases hc) (by simp)
  refine ⟨w, h1, h2.2.2 ?_⟩
  obtain ⟨hk, hlen, pre, post, e1, e2, e3, _⟩ := rep_shape h
  unfold convertValueToElem at h1
  rw [if_neg (rep_offset h)] at h1
  obtain ⟨rest, hr, h1⟩ := Res.bind_eq_ok.mp h1
  obtain ⟨t', _, h1⟩ := Res.bind_eq_ok.mp h1
  have hrest : rest.length + 2 ≤ v.data.length := by
    unfold slice at hr
    split at hr
    · cases hr
      rw [List.length_drop, List.take_length]
      have : 2 ≤ v.offset := by omega
      omega
    · cases hr
  cases v <;> simp only [Res.ok.injEq, Option.some.injEq] at h1 <;> subst h1 <;> simp only [Value.data, List.nil_append, List.length_cons] at hrest hlen ⊢ <;> omega

/-- the element restored for a value, if any -/
def RepOpt : Option Value → Bytes → Option BVal → Prop
  | some w, k, some m => Rep w k m
  | none, _, none => True
  | _, _, _ => False

theorem key_size {v : Value} {k : Bytes} {t : BVal} (h : Rep v k t) : k.length + 2 < 2147483648 := by
  obtain ⟨_, hl, pre, post, e, _⟩ := rep_shape h
  rw [e] at hl; simp at hl; omega

/-- scalars are held as bytes -/
theorem scalar_size {v : Value} {k : Bytes} {t : BVal} (h : Rep v k t) (ht : t.tag ≠ 3) (ht' : t.tag ≠ 4) (ht'' : t.tag ≠ 15) :
    k.length + 2 + t.enc.length < 2147483648 := by
  cases v with
  | raw s o data =>
    simp only [Rep] at h
    obtain ⟨_, _, hl, pre, post, rfl, _⟩ := h
    simp at hl; omega
  | withDoc s o data d =>
    simp only [Rep] at h
    obtain ⟨_, _, _, _, _, _, _, h⟩ := h
    cases t <;> simp [BVal.tag] at ht ht' ht'' h

theorem subDocument_rep {k : Bytes} {d : Doc} {fs : Fields} (hk : NulFree k) (hl : k.length + 2 < 2147483648) (h : RepFields d fs) :
    ∃ w, EC.subDocument k d = .ok w ∧ Rep w k (.doc fs) := by
  refine ⟨.withDoc 0 (k.length + 2) (3 :: (k ++ [0])) d, ?_, ?_⟩
  · unfold EC.subDocument
    rw [header_ok 3 k (by omega), u32_small (by omega), show 1 + k.length + 1 = k.length + 2 by omega]; rfl
  · simp only [Rep]
    exact ⟨hk, by simp; omega, [], [], by simp [BVal.tag], by simp, by simp, h⟩

theorem array_rep {k : Bytes} {d : Doc} {vs : Vals} (hk : NulFree k) (hl : k.length + 2 < 2147483648) (h : RepVals d vs) :
    ∃ w, EC.array k d = .ok w ∧ Rep w k (.array vs) := by
  refine ⟨.withDoc 0 (k.length + 2) (4 :: (k ++ [0])) d, ?_, ?_⟩
  · unfold EC.array
    rw [header_ok 4 k (by omega), u32_small (by omega), show 1 + k.length + 1 = k.length + 2 by omega]; rfl
  · simp only [Rep]
    exact ⟨hk, by simp; omega, [], [], by simp [BVal.tag], by simp, by simp, h⟩

theorem restoreDocument_rep {r : Value → Nat → Res (Option Value × Nat)} {g : Nat → Int} {N M : Nat}
    (hr : ∀ v k t idx, Rep v k t → t.enc.length < N → idx + count t ≤ M →
      ∃ w, r v idx = .ok (w, idx + count t) ∧ RepOpt w k (fill g idx t)) :
    ∀ (d : Doc) (fs : Fields) (idx : Nat), RepFields d fs → fs.enc.length < N → idx + countF fs ≤ M →
      ∃ d', restoreDocument r d idx = .ok (d', idx + countF fs) ∧ RepFields d' (fillF g idx fs)
  | [], .nil, idx, _, _, _ => ⟨[], by simp [restoreDocument, countF], by simp [fillF, RepFields]⟩
  | [], .cons _ _ _, _, h, _, _ => by simp [RepFields] at h
  | _ :: _, .nil, _, h, _, _ => by simp [RepFields] at h
  | v :: d, .cons k t fs, idx, h, hl, hi => by
    simp only [RepFields] at h
    rw [fieldsEnc_length] at hl
    simp only [countF] at hi
    obtain ⟨w, h1, h2⟩ := hr v k t idx h.1 (by omega) (by omega)
    obtain ⟨d', h3, h4⟩ := restoreDocument_rep hr d fs (idx + count t) h.2 (by omega) (by omega)
    refine ⟨w.toList ++ d', ?_, ?_⟩
    · unfold restoreDocument
      rw [h1]; simp only [Res.bind_ok, h3, countF, Nat.add_assoc]
    · simp only [fillF]
      cases hf : fill g idx t with
      | none => rw [hf] at h2; cases w with
        | none => simpa using h4
        | some w => exact h2.elim
      | some m => rw [hf] at h2; cases w with
        | none => exact h2.elim
        | some w => exact ⟨h2, h4⟩

theorem restoreArray_rep {r : Value → Nat → Res (Option Value × Nat)} {g : Nat → Int} {N M : Nat}
    (hr : ∀ v k t idx, Rep v k t → t.enc.length < N → idx + count t ≤ M →
      ∃ w, r v idx = .ok (w, idx + count t) ∧ RepOpt w k (fill g idx t)) :
    ∀ (d : Doc) (vs : Vals) (i idx : Nat), RepVals d vs → (vs.encFrom i).length < N → idx + countV vs ≤ M →
      ∃ d', restoreArray r d idx = .ok (d', idx + countV vs) ∧ RepVals d' (fillV g idx vs)
  | [], .nil, _, idx, _, _, _ => ⟨[], by simp [restoreArray, countV], by simp [fillV, RepVals]⟩
  | [], .cons _ _, _, _, h, _, _ => by simp [RepVals] at h
  | _ :: _, .nil, _, _, h, _, _ => by simp [RepVals] at h
  | v :: d, .cons t vs, i, idx, h, hl, hi => by
    simp only [RepVals] at h
    obtain ⟨⟨k, h0⟩, h'⟩ := h
    rw [encFrom_length] at hl
    simp only [countV] at hi
    obtain ⟨e, he, hre⟩ := convert_nil h0
    obtain ⟨w, h1, h2⟩ := hr e [] t idx hre (by omega) (by omega)
    obtain ⟨d', h3, h4⟩ := restoreArray_rep hr d vs (i + 1) (idx + count t) h' (by omega) (by omega)
    refine ⟨w.toList ++ d', ?_, ?_⟩
    · unfold restoreArray
      rw [he]; simp only [Res.bind_ok]; rw [h1]; simp only [Res.bind_ok, h3, countV, Nat.add_assoc]
    · simp only [fillV]
      cases hf : fill g idx t with
      | none => rw [hf] at h2; cases w with
        | none => simpa using h4
        | some w => exact h2.elim
      | some m => rw [hf] at h2; cases w with
        | none => exact h2.elim
        | some w => exact ⟨⟨_, h2⟩, h4⟩

/-- what `restoreElement` builds for sample `sample`, `g idx` being the value of metric `idx` -/
theorem restoreElement_rep {ms : List Metric} {sample : Nat} {g : Nat → Int} (hg : ∀ i, i < ms.length → valueAt ms i sample = .ok (g i))
    (hr : ∀ i, -9223372036854775808 ≤ g i ∧ g i < 9223372036854775808) :
    ∀ (fuel : Nat) (v : Value) (k : Bytes) (t : BVal) (idx : Nat), Rep v k t → t.enc.length < 2147483648 → t.enc.length < fuel →
      idx + count t ≤ ms.length →
      ∃ w, restoreElement ms sample fuel v idx = .ok (w, idx + count t) ∧ RepOpt w k (fill g idx t)
  | 0, _, _, _, _, _, _, h, _ => by omega
  | fuel + 1, v, k, t, idx, h, hl, hf, hi => by
    have ih := restoreElement_rep hg hr fuel
    have hk := (rep_shape h).1
    have hks := key_size h
    unfold restoreElement
    rw [type_rep h, Res.bind_ok, key_rep h, Res.bind_ok]
    cases t with
    | doc fs =>
      obtain ⟨d, h1, h2⟩ := mutableDocument_rep h hl hf
      simp only [BVal.enc, wrapDoc_length] at hl hf
      simp only [count] at hi ⊢
      obtain ⟨d', h3, h4⟩ := restoreDocument_rep (g := g) (N := min 2147483648 fuel) (M := ms.length)
        (fun v k t i a b c => ih v k t i a (by omega) (by omega) c) d fs idx h2 (by omega) hi
      obtain ⟨w, h5, h6⟩ := subDocument_rep hk hks h4
      refine ⟨some w, ?_, h6⟩
      simp only [BVal.tag]; simp [h1, h3, h5]
    | array vs =>
      obtain ⟨d, h1, h2⟩ := mutableArray_rep h hl hf
      simp only [BVal.enc, wrapDoc_length] at hl hf
      simp only [count] at hi ⊢
      obtain ⟨d', h3, h4⟩ := restoreArray_rep (g := g) (N := min 2147483648 fuel) (M := ms.length)
        (fun v k t i a b c => ih v k t i a (by omega) (by omega) c) d vs 0 idx h2 (by omega) hi
      obtain ⟨w, h5, h6⟩ := array_rep hk hks h4
      refine ⟨some w, ?_, h6⟩
      simp only [BVal.tag]; simp [h1, h3, h5]
    | double b =>
      have hs := scalar_size h (by simp [BVal.tag]) (by simp [BVal.tag]) (by simp [BVal.tag])
      have e : buildVal k (.double (u64i (g idx))) = EC.double k (u64i (g idx)) := rfl
      obtain ⟨w, h5, h6⟩ := buildVal_rep k (.double (u64i (g idx))) hk (by simp only [BVal.WF]; unfold u64i; omega) hs
      refine ⟨some w, ?_, h6⟩
      simp only [BVal.tag, count] at hi ⊢; simp [hg idx (by omega), ← e, h5]
    | bool b =>
      have hs := scalar_size h (by simp [BVal.tag]) (by simp [BVal.tag]) (by simp [BVal.tag])
      have e : buildVal k (.bool (g idx ≠ 0)) = EC.boolean k (g idx ≠ 0) := rfl
      obtain ⟨w, h5, h6⟩ := buildVal_rep k (.bool (g idx ≠ 0)) hk (by simp only [BVal.WF]) hs
      refine ⟨some w, ?_, h6⟩
      rw [e] at h5
      have h5' : (EC.boolean k !decide (g idx = 0)) = .ok w := by simpa using h5
      simp only [BVal.tag, count] at hi ⊢; simp [hg idx (by omega), h5']
    | datetime b =>
      have hs := scalar_size h (by simp [BVal.tag]) (by simp [BVal.tag]) (by simp [BVal.tag])
      have e : buildVal k (.datetime (g idx)) = EC.dateTime k (g idx) := rfl
      obtain ⟨w, h5, h6⟩ := buildVal_rep k (.datetime (g idx)) hk (by simp only [BVal.WF]; exact hr idx) hs
      refine ⟨some w, ?_, h6⟩
      simp only [BVal.tag, count] at hi ⊢; simp [hg idx (by omega), time_epoc (hr idx).1 (hr idx).2, ← e, h5]
    | int32 b =>
      have hs := scalar_size h (by simp [BVal.tag]) (by simp [BVal.tag]) (by simp [BVal.tag])
      have e : buildVal k (.int32 (i32 (g idx))) = EC.int32 k (i32 (g idx)) := rfl
      obtain ⟨w, h5, h6⟩ := buildVal_rep k (.int32 (i32 (g idx))) hk (by simp only [BVal.WF]; unfold i32; omega) hs
      refine ⟨some w, ?_, h6⟩
      simp only [BVal.tag, count] at hi ⊢; simp [hg idx (by omega), ← e, h5]
    | timestamp b c =>
      have hs := scalar_size h (by simp [BVal.tag]) (by simp [BVal.tag]) (by simp [BVal.tag])
      have e : buildVal k (.timestamp (u32i (g idx)) (u32i (g (idx + 1)))) = EC.timestamp k (u32i (g idx)) (u32i (g (idx + 1))) := rfl
      obtain ⟨w, h5, h6⟩ := buildVal_rep k (.timestamp (u32i (g idx)) (u32i (g (idx + 1)))) hk (by simp only [BVal.WF]; unfold u32i; omega) hs
      refine ⟨some w, ?_, h6⟩
      simp only [BVal.tag, count] at hi ⊢; simp [hg idx (by omega), hg (idx + 1) (by omega), ← e, h5]
    | int64 b =>
      have hs := scalar_size h (by simp [BVal.tag]) (by simp [BVal.tag]) (by simp [BVal.tag])
      have e : buildVal k (.int64 (g idx)) = EC.int64 k (g idx) := rfl
      obtain ⟨w, h5, h6⟩ := buildVal_rep k (.int64 (g idx)) hk (by simp only [BVal.WF]; exact hr idx) hs
      refine ⟨some w, ?_, h6⟩
      simp only [BVal.tag, count] at hi ⊢; simp [hg idx (by omega), ← e, h5]
    | _ => exact ⟨none, by simp [BVal.tag, count], by simp [fill, RepOpt]⟩

/-! ### only the metrics matter -/

mutual
theorem nums_metric : ∀ t, nums t = (match t.metric with | some m => nums m | none => [])
  | .doc fs => by simp [BVal.metric, nums, numsF_metrics fs]
  | .array vs => by simp [BVal.metric, nums, numsV_metrics vs]
  | .double _ | .bool _ | .datetime _ | .int32 _ | .int64 _ | .timestamp _ _ => rfl
  | .string _ | .binary _ _ | .undefined | .oid _ | .null | .regex _ _ | .dbpointer _ _ | .js _ | .symbol _ | .codeScope _ _
  | .decimal _ _ | .minKey | .maxKey => rfl
theorem numsF_metrics : ∀ fs, numsF fs.metrics = numsF fs
  | .nil => rfl
  | .cons k v rest => by
    simp only [Fields.metrics, numsF]; rw [nums_metric v, ← numsF_metrics rest]
    cases v.metric <;> simp [numsF]
theorem numsV_metrics : ∀ vs, numsV vs.metrics = numsV vs
  | .nil => rfl
  | .cons v rest => by
    simp only [Vals.metrics, numsV]; rw [nums_metric v, ← numsV_metrics rest]
    cases v.metric <;> simp [numsV]
end

theorem count_metric (t : BVal) : count t = (match t.metric with | some m => count m | none => 0) := by
  have := congrArg List.length (nums_metric t)
  rw [length_nums] at this
  rw [this]
  cases t.metric <;> simp [length_nums]

mutual
theorem fill_metric (g : Nat → Int) : ∀ idx t, fill g idx t = (match t.metric with | some m => fill g idx m | none => none)
  | idx, .doc fs => by simp [BVal.metric, fill, fillF_metrics g idx fs]
  | idx, .array vs => by simp [BVal.metric, fill, fillV_metrics g idx vs]
  | _, .double _ | _, .bool _ | _, .datetime _ | _, .int32 _ | _, .int64 _ | _, .timestamp _ _ => rfl
  | _, .string _ | _, .binary _ _ | _, .undefined | _, .oid _ | _, .null | _, .regex _ _ | _, .dbpointer _ _ | _, .js _ | _, .symbol _ | _, .codeScope _ _
  | _, .decimal _ _ | _, .minKey | _, .maxKey => rfl
theorem fillF_metrics (g : Nat → Int) : ∀ idx fs, fillF g idx fs.metrics = fillF g idx fs
  | _, .nil => rfl
  | idx, .cons k v rest => by
    simp only [Fields.metrics, fillF]; rw [fill_metric g idx v, count_metric v, ← fillF_metrics g _ rest]
    cases v.metric <;> simp [fillF]
theorem fillV_metrics (g : Nat → Int) : ∀ idx vs, fillV g idx vs.metrics = fillV g idx vs
  | _, .nil => rfl
  | idx, .cons v rest => by
    simp only [Vals.metrics, fillV]; rw [fill_metric g idx v, count_metric v, ← fillV_metrics g _ rest]
    cases v.metric <;> simp [fillV]
end

mutual
/-- the starting values of the metrics of a value -/
def heads : BVal → List Int
  | .doc fs => headsF fs
  | .array vs => headsV vs
  | .bool b => [if b then 1 else 0]
  | .double b => [i64 b]
  | .int32 i => [i]
  | .int64 i => [i]
  | .datetime ms => [wrapMs ms]
  | .timestamp t i => [(t : Int) * 1000, i]
  | _ => []
def headsF : Fields → List Int
  | .nil => []
  | .cons _ v rest => heads v ++ headsF rest
def headsV : Vals → List Int
  | .nil => []
  | .cons v rest => heads v ++ headsV rest
end

mutual
theorem heads_metric : ∀ t, heads t = (match t.metric with | some m => heads m | none => [])
  | .doc fs => by simp [BVal.metric, heads, headsF_metrics fs]
  | .array vs => by simp [BVal.metric, heads, headsV_metrics vs]
  | .double _ | .bool _ | .datetime _ | .int32 _ | .int64 _ | .timestamp _ _ => rfl
  | .string _ | .binary _ _ | .undefined | .oid _ | .null | .regex _ _ | .dbpointer _ _ | .js _ | .symbol _ | .codeScope _ _
  | .decimal _ _ | .minKey | .maxKey => rfl
theorem headsF_metrics : ∀ fs, headsF fs.metrics = headsF fs
  | .nil => rfl
  | .cons k v rest => by
    simp only [Fields.metrics, headsF]; rw [heads_metric v, ← headsF_metrics rest]
    cases v.metric <;> simp [headsF]
theorem headsV_metrics : ∀ vs, headsV vs.metrics = headsV vs
  | .nil => rfl
  | .cons v rest => by
    simp only [Vals.metrics, headsV]; rw [heads_metric v, ← headsV_metrics rest]
    cases v.metric <;> simp [headsV]
end

mutual
theorem length_heads : ∀ t, (heads t).length = count t
  | .doc fs => by simp [heads, count, length_headsF fs]
  | .array vs => by simp [heads, count, length_headsV vs]
  | .double _ | .bool _ | .datetime _ | .int32 _ | .int64 _ | .timestamp _ _ => rfl
  | .string _ | .binary _ _ | .undefined | .oid _ | .null | .regex _ _ | .dbpointer _ _ | .js _ | .symbol _ | .codeScope _ _
  | .decimal _ _ | .minKey | .maxKey => rfl
theorem length_headsF : ∀ fs, (headsF fs).length = countF fs
  | .nil => rfl
  | .cons k v rest => by simp [headsF, countF, length_heads v, length_headsF rest]
theorem length_headsV : ∀ vs, (headsV vs).length = countV vs
  | .nil => rfl
  | .cons v rest => by simp [headsV, countV, length_heads v, length_headsV rest]
end

/-- type and starting value of the metrics are those of the extracted numbers -/
def Metric.head (m : Metric) : UInt8 × Int := (m.originalType, m.startingValue)

mutual
theorem mets_head : ∀ key path t, (mets key path t).map Metric.head = ((nums t).map Prod.fst).zip (heads t)
  | key, path, .doc fs => by
    simp only [mets, List.map_map, nums, heads, ← metsF_head (path ++ [key]) fs]; rfl
  | key, path, .array vs => by simp only [mets, nums, heads, metsV_head key path 0 vs]
  | _, _, .double _ | _, _, .bool _ | _, _, .datetime _ | _, _, .int32 _ | _, _, .int64 _ | _, _, .timestamp _ _ => rfl
  | _, _, .string _ | _, _, .binary _ _ | _, _, .undefined | _, _, .oid _ | _, _, .null | _, _, .regex _ _ | _, _, .dbpointer _ _
  | _, _, .js _ | _, _, .symbol _ | _, _, .codeScope _ _ | _, _, .decimal _ _ | _, _, .minKey | _, _, .maxKey => rfl
theorem metsF_head : ∀ path fs, (metsF path fs).map Metric.head = ((numsF fs).map Prod.fst).zip (headsF fs)
  | _, .nil => rfl
  | path, .cons k v rest => by
    simp only [metsF, numsF, headsF, List.map_append]
    rw [mets_head k path v, metsF_head path rest, List.zip_append]
    simp [length_nums, length_heads]
theorem metsV_head : ∀ key path i vs, (metsV key path i vs).map Metric.head = ((numsV vs).map Prod.fst).zip (headsV vs)
  | _, _, _, .nil => rfl
  | key, path, i, .cons v rest => by
    simp only [metsV, numsV, headsV, List.map_append]
    rw [mets_head _ path v, metsV_head key path (i + 1) rest, List.zip_append]
    simp [length_nums, length_heads]
end

end Birch.Proofs.Ftdc
