import Verif.Proofs.FtdcKeys
import Verif.Proofs.FtdcChunk

/- The three views of a chunk. -/

namespace Birch.Proofs.Ftdc
open Birch Model Model.Ftdc Spec

/-! ### what is read -/

def I64 (x : Int) : Prop := -9223372036854775808 ≤ x ∧ x < 9223372036854775808

theorem i64_I64 (x : Int) : I64 (i64 x) := by unfold I64 i64; omega

mutual
theorem mets_start : ∀ (t : BVal) (k : Bytes) (p : List Bytes), t.WF → ∀ m ∈ mets k p t, I64 m.startingValue
  | .doc fs, k, p, h, m, hm => by
    simp only [mets, List.mem_map] at hm
    obtain ⟨m', hm', rfl⟩ := hm
    exact metsF_start fs _ h m' hm'
  | .array vs, k, p, h, m, hm => metsV_start vs k p 0 h m hm
  | .double b, _, _, h, m, hm => by
    simp only [mets, List.mem_singleton] at hm; subst hm; exact i64_I64 _
  | .bool b, _, _, h, m, hm => by
    simp only [mets, List.mem_singleton] at hm; subst hm; cases b <;> simp [I64]
  | .datetime b, _, _, h, m, hm => by
    simp only [mets, List.mem_singleton] at hm; subst hm; have := wrapMs_range b; simp only [I64]; omega
  | .int32 b, _, _, h, m, hm => by
    simp only [mets, List.mem_singleton] at hm; subst hm; simp only [BVal.WF] at h; simp only [I64]; omega
  | .int64 b, _, _, h, m, hm => by
    simp only [mets, List.mem_singleton] at hm; subst hm; simp only [BVal.WF] at h; simp only [I64]; omega
  | .timestamp a b, _, _, h, m, hm => by
    simp only [mets, List.mem_cons, List.not_mem_nil, or_false] at hm; simp only [BVal.WF] at h
    rcases hm with rfl | rfl <;> simp only [I64] <;> omega
  | .string _, _, _, _, m, h | .binary _ _, _, _, _, m, h | .undefined, _, _, _, m, h | .oid _, _, _, _, m, h | .null, _, _, _, m, h
  | .regex _ _, _, _, _, m, h | .dbpointer _ _, _, _, _, m, h | .js _, _, _, _, m, h | .symbol _, _, _, _, m, h | .codeScope _ _, _, _, _, m, h
  | .decimal _ _, _, _, _, m, h | .minKey, _, _, _, m, h | .maxKey, _, _, _, m, h => by simp [mets] at h
theorem metsF_start : ∀ (fs : Fields) (p : List Bytes), fs.WF → ∀ m ∈ metsF p fs, I64 m.startingValue
  | .nil, _, _, m, h => by simp [metsF] at h
  | .cons k v rest, p, h, m, hm => by
    rcases List.mem_append.mp hm with hm | hm
    · exact mets_start v k p h.2.1 m hm
    · exact metsF_start rest p h.2.2 m hm
theorem metsV_start : ∀ (vs : Vals) (k : Bytes) (p : List Bytes) (i : Nat), vs.WF → ∀ m ∈ metsV k p i vs, I64 m.startingValue
  | .nil, _, _, _, _, m, h => by simp [metsV] at h
  | .cons v rest, k, p, i, h, m, hm => by
    rcases List.mem_append.mp hm with hm | hm
    · exact mets_start v _ p h.1 m hm
    · exact metsV_start rest k p (i + 1) h.2 m hm
end

theorem readDeltas_ok : ∀ (n : Nat) {nz nz' : UInt64} {b b' : Bytes} {ds : List Int}, readDeltas n nz b = .ok (ds, nz', b') → ds.length = n ∧ ∀ x ∈ ds, I64 x
  | 0, nz, nz', b, b', ds, h => by simp only [readDeltas, Res.ok.injEq, Prod.mk.injEq] at h; simp [← h.1]
  | n + 1, nz, nz', b, b', ds, h => by
    unfold readDeltas at h
    split at h
    · obtain ⟨⟨ds1, nz1, b1⟩, h1, h⟩ := Res.bind_eq_ok.mp h
      simp only [Res.ok.injEq, Prod.mk.injEq] at h
      obtain ⟨rfl, _⟩ := h
      have := readDeltas_ok n h1
      refine ⟨by simp [this.1], ?_⟩
      intro x hx; rcases List.mem_cons.mp hx with rfl | hx
      · simp [I64]
      · exact this.2 x hx
    · obtain ⟨⟨d, b1⟩, h1, h⟩ := Res.bind_eq_ok.mp h
      have h : ∃ ds1 nz1 b1 nz2 b2, readDeltas n nz1 b1 = .ok (ds1, nz2, b2) ∧ Res.ok (i64 (d.toNat : Int) :: ds1, nz2, b2) = Res.ok (ds, nz', b') := by
        simp only [] at h
        split at h
        · obtain ⟨⟨nz1, b2⟩, h2, h⟩ := Res.bind_eq_ok.mp h
          obtain ⟨⟨ds1, nz2, b3⟩, h3, h⟩ := Res.bind_eq_ok.mp h
          exact ⟨_, _, _, _, _, h3, h⟩
        · obtain ⟨⟨nz1, b2⟩, h2, h⟩ := Res.bind_eq_ok.mp h
          obtain ⟨⟨ds1, nz2, b3⟩, h3, h⟩ := Res.bind_eq_ok.mp h
          exact ⟨_, _, _, _, _, h3, h⟩
      obtain ⟨ds1, nz1, b1, nz2, b2, h3, h⟩ := h
      simp only [Res.ok.injEq, Prod.mk.injEq] at h
      obtain ⟨rfl, _⟩ := h
      have := readDeltas_ok n h3
      refine ⟨by simp [this.1], ?_⟩
      intro x hx; rcases List.mem_cons.mp hx with hx | hx
      · rw [hx]; exact i64_I64 _
      · exact this.2 x hx

theorem undelta_ok : ∀ (ds : List Int) (v : Int), I64 v → (undelta v ds).length = ds.length + 1 ∧ ∀ x ∈ undelta v ds, I64 x
  | [], v, h => by simp [undelta, h]
  | d :: ds, v, h => by
    have := undelta_ok ds (i64 (v + d)) (i64_I64 _)
    refine ⟨by simp [undelta, this.1], ?_⟩
    intro x hx
    simp only [undelta, List.mem_cons] at hx
    rcases hx with rfl | hx
    · exact h
    · exact this.2 x hx

theorem readSeries_ok (nd : Nat) : ∀ (ms : List Metric) {nz nz' : UInt64} {b b' : Bytes} {ms' : List Metric}, (∀ m ∈ ms, I64 m.startingValue) →
    readSeries nd ms nz b = .ok (ms', nz', b') → ms'.map tag = ms.map tag ∧ ∀ m ∈ ms', m.values.length = nd + 1 ∧ ∀ x ∈ m.values, I64 x
  | [], nz, nz', b, b', ms', _, h => by simp only [readSeries, Res.ok.injEq, Prod.mk.injEq] at h; simp [← h.1]
  | m :: ms, nz, nz', b, b', ms', hs, h => by
    unfold readSeries at h
    obtain ⟨⟨ds, nz1, b1⟩, h1, h⟩ := Res.bind_eq_ok.mp h
    obtain ⟨⟨ms1, nz2, b2⟩, h2, h⟩ := Res.bind_eq_ok.mp h
    simp only [Res.ok.injEq, Prod.mk.injEq] at h
    obtain ⟨rfl, _⟩ := h
    have hd := readDeltas_ok nd h1
    have ih := readSeries_ok nd ms (fun m hm => hs m (by simp [hm])) h2
    refine ⟨by simp only [List.map_cons, ih.1]; rfl, ?_⟩
    intro x hx
    rcases List.mem_cons.mp hx with rfl | hx
    · have hm := hs m (by simp)
      simp only []
      split
      · refine ⟨by simp [undeltaFloats, hd.1], ?_⟩
        intro y hy; simp only [undeltaFloats, List.mem_cons] at hy
        rcases hy with rfl | hy
        · exact hm
        · exact hd.2 y hy
      · have := undelta_ok ds _ hm
        exact ⟨by rw [this.1, hd.1], this.2⟩
    · exact ih.2 x hx

/-- a chunk with the metrics of `fs` -/
structure Good (c : Chunk) (fs : Fields) : Prop where
  ref : RepFields c.reference fs
  tags : c.metrics.map tag = tags fs.numbers
  vals : ∀ m ∈ c.metrics, m.values.length = c.nPoints ∧ ∀ x ∈ m.values, I64 x
  len : c.metrics.length = countF fs

theorem readPayload_good {fs : Fields} (wf : fs.WF) (hl : (encDoc fs).length < 2147483648) {tail : Bytes} {fuel : Nat} (hf : (encDoc fs).length < fuel)
    {md : Option Doc} {c : Chunk} (h : readPayload fuel md (encDoc fs ++ tail) = .ok c) : Good c fs := by
  obtain ⟨s', h1, h2⟩ := Props.readFrom_enc fs hl ⟨[encDoc fs ++ tail], false⟩ tail (by simp [Stream.Source.left])
  have h3 := readDocument_enc fuel fs wf [] hf (by simpa using hl)
  rw [List.append_nil] at h3
  obtain ⟨ref, h4, h5⟩ := h3
  unfold readPayload at h
  simp only [h2, h4, Res.bind_ok, h1] at h
  simp only [encDoc, wrapDoc_length] at hl hf
  rw [metricsOf_rep fuel h5 (by omega) (by omega)] at h
  simp only [Res.bind_ok] at h
  split at h
  · cases h
  obtain ⟨nm, _, h⟩ := Res.bind_eq_ok.mp h
  obtain ⟨nd, _, h⟩ := Res.bind_eq_ok.mp h
  split at h
  · cases h
  obtain ⟨⟨ms, nz, b⟩, hs, h⟩ := Res.bind_eq_ok.mp h
  cases h
  have := readSeries_ok nd _ (metsF_start fs [] wf) hs
  refine ⟨h5, by rw [this.1, metsF_tags], this.2, ?_⟩
  have hlen := congrArg List.length this.1
  simpa [length_metsF] using hlen

/-! ### leaves -/

/-- the value of type `ty` for the number `x` -/
def leafOf (ty : UInt8) (x : Int) : BVal :=
  if ty = 0x08 then .bool (x ≠ 0) else if ty = 0x01 then .double (u64i x) else if ty = 0x10 then .int32 (i32 x)
  else if ty = 0x09 then .datetime x else .int64 x

/-- the leaves of the given types for the numbers -/
def joinL : List UInt8 → List Int → List BVal
  | [], _ => []
  | _ :: _, [] => []
  | ty :: tys, x :: xs =>
    if ty = 0x11 then
      match xs with
      | [] => []
      | y :: xs => .timestamp (u32i x) (u32i y) :: joinL tys xs
    else leafOf ty x :: joinL tys xs

/-- how many numbers there are -/
def sizeL : List UInt8 → Nat
  | [] => 0
  | ty :: tys => (if ty = 0x11 then 2 else 1) + sizeL tys

theorem sizeL_append (a b : List UInt8) : sizeL (a ++ b) = sizeL a + sizeL b := by
  induction a with
  | nil => simp [sizeL]
  | cons x a ih => simp only [List.cons_append, sizeL, ih]; omega

theorem joinL_append (b : List UInt8) (ys : List Int) : ∀ (a : List UInt8) (xs : List Int), xs.length = sizeL a → joinL (a ++ b) (xs ++ ys) = joinL a xs ++ joinL b ys
  | [], xs, h => by
    simp only [sizeL, List.length_eq_zero_iff] at h; subst h; rfl
  | ty :: a, [], h => by simp only [sizeL] at h; split at h <;> simp at h <;> omega
  | ty :: a, x :: xs, h => by
    simp only [List.cons_append, joinL]
    by_cases ht : ty = 0x11
    · simp only [ht, if_true, sizeL] at h ⊢
      match xs, h with
      | [], h => simp at h; omega
      | y :: xs, h => simp only [List.cons_append, joinL_append b ys a xs (by simp at h; omega)]
    · simp only [ht, if_false, sizeL] at h ⊢
      rw [joinL_append b ys a xs (by simp at h; omega)]; rfl

mutual
theorem numbers_size : ∀ (t : BVal) (k : Bytes), sizeL ((t.numbers k).map Prod.snd) = count t
  | .doc fs, k => by
    simp only [BVal.numbers, List.map_map, count, ← numbersF_size fs]
    rfl
  | .array vs, k => numbersV_size vs k 0
  | .double _, _ | .bool _, _ | .datetime _, _ | .int32 _, _ | .int64 _, _ | .timestamp _ _, _ => rfl
  | .string _, _ | .binary _ _, _ | .undefined, _ | .oid _, _ | .null, _ | .regex _ _, _ | .dbpointer _ _, _
  | .js _, _ | .symbol _, _ | .codeScope _ _, _ | .decimal _ _, _ | .minKey, _ | .maxKey, _ => rfl
theorem numbersF_size : ∀ (fs : Fields), sizeL (fs.numbers.map Prod.snd) = countF fs
  | .nil => rfl
  | .cons k v rest => by simp [Fields.numbers, sizeL_append, countF, numbers_size v k, numbersF_size rest]
theorem numbersV_size : ∀ (vs : Vals) (k : Bytes) (i : Nat), sizeL ((vs.numbers k i).map Prod.snd) = countV vs
  | .nil, _, _ => rfl
  | .cons v rest, k, i => by simp [Vals.numbers, sizeL_append, countV, numbers_size v _, numbersV_size rest k (i + 1)]
end

/-- `g idx`, ..., `g (idx + n - 1)` -/
def run (g : Nat → Int) (idx n : Nat) : List Int := (List.range' idx n).map g

theorem run_append (g : Nat → Int) (idx a b : Nat) : run g idx (a + b) = run g idx a ++ run g (idx + a) b := by
  unfold run; rw [← List.map_append, List.range'_append_1]

theorem run_length (g : Nat → Int) (idx n : Nat) : (run g idx n).length = n := by simp [run]

mutual
theorem fill_leaves (g : Nat → Int) : ∀ (t : BVal) (k : Bytes) (idx : Nat),
    (match fill g idx t with | some m => m.leaves | none => []) = joinL ((t.numbers k).map Prod.snd) (run g idx (count t))
  | .doc fs, k, idx => by
    simp only [fill, BVal.leaves, BVal.numbers, List.map_map, count, fillF_leaves g fs idx]
    rfl
  | .array vs, k, idx => by simp only [fill, BVal.leaves, BVal.numbers, count, fillV_leaves g vs k 0 idx]
  | .double _, _, _ | .bool _, _, _ | .datetime _, _, _ | .int32 _, _, _ | .int64 _, _, _ | .timestamp _ _, _, _ => by
    simp [fill, BVal.leaves, BVal.numbers, joinL, run, count, leafOf, List.range'_succ]
  | .string _, _, _ | .binary _ _, _, _ | .undefined, _, _ | .oid _, _, _ | .null, _, _ | .regex _ _, _, _ | .dbpointer _ _, _, _
  | .js _, _, _ | .symbol _, _, _ | .codeScope _ _, _, _ | .decimal _ _, _, _ | .minKey, _, _ | .maxKey, _, _ => rfl
theorem fillF_leaves (g : Nat → Int) : ∀ (fs : Fields) (idx : Nat), (fillF g idx fs).leaves = joinL (fs.numbers.map Prod.snd) (run g idx (countF fs))
  | .nil, _ => rfl
  | .cons k v rest, idx => by
    have h1 := fill_leaves g v k idx
    have h2 := fillF_leaves g rest (idx + count v)
    simp only [Fields.numbers, countF, List.map_append, run_append]
    rw [joinL_append _ _ _ _ (by rw [run_length, numbers_size]), ← h1, ← h2]
    simp only [fillF]
    cases fill g idx v <;> simp [Fields.leaves]
theorem fillV_leaves (g : Nat → Int) : ∀ (vs : Vals) (k : Bytes) (i idx : Nat), (fillV g idx vs).leaves = joinL ((vs.numbers k i).map Prod.snd) (run g idx (countV vs))
  | .nil, _, _, _ => rfl
  | .cons v rest, k, i, idx => by
    have h1 := fill_leaves g v (k ++ 46 :: decimalKey i) idx
    have h2 := fillV_leaves g rest k (i + 1) (idx + count v)
    simp only [Vals.numbers, countV, List.map_append, run_append]
    rw [joinL_append _ _ _ _ (by rw [run_length, numbers_size]), ← h1, ← h2]
    simp only [fillV]
    cases fill g idx v <;> simp [Vals.leaves]
end

/-- the value of a metric for a sample -/
def val (i : Nat) (m : Metric) : Int := (m.values[i]?).getD 0

theorem run_vals (ms : List Metric) (i : Nat) : run (fun j => ((ms[j]?).map (val i)).getD 0) 0 ms.length = ms.map (val i) := by
  apply List.ext_getElem
  · simp [run]
  · intro j h1 h2
    simp only [run_length] at h1
    simp [run, h1]

mutual
theorem fill_shape (g : Nat → Int) : ∀ (t : BVal) (idx : Nat), match fill g idx t, t.metric with | some m, some m' => m.SameShape m' | none, none => True | _, _ => False
  | .doc fs, idx => fillF_shape g fs idx
  | .array vs, idx => fillV_shape g vs idx
  | .double _, _ | .bool _, _ | .datetime _, _ | .int32 _, _ | .int64 _, _ | .timestamp _ _, _ => by simp [fill, BVal.metric, BVal.SameShape, BVal.tag]
  | .string _, _ | .binary _ _, _ | .undefined, _ | .oid _, _ | .null, _ | .regex _ _, _ | .dbpointer _ _, _
  | .js _, _ | .symbol _, _ | .codeScope _ _, _ | .decimal _ _, _ | .minKey, _ | .maxKey, _ => trivial
theorem fillF_shape (g : Nat → Int) : ∀ (fs : Fields) (idx : Nat), (fillF g idx fs).SameShape fs.metrics
  | .nil, _ => by simp [fillF, Fields.metrics, Fields.SameShape]
  | .cons k v rest, idx => by
    have h1 := fill_shape g v idx
    have h2 := fillF_shape g rest (idx + count v)
    simp only [fillF, Fields.metrics]
    revert h1
    cases fill g idx v <;> cases v.metric <;> intro h1
    · exact h2
    · exact h1.elim
    · exact h1.elim
    · exact ⟨rfl, h1, h2⟩
theorem fillV_shape (g : Nat → Int) : ∀ (vs : Vals) (idx : Nat), (fillV g idx vs).SameShape vs.metrics
  | .nil, _ => by simp [fillV, Vals.metrics, Vals.SameShape]
  | .cons v rest, idx => by
    have h1 := fill_shape g v idx
    have h2 := fillV_shape g rest (idx + count v)
    simp only [fillV, Vals.metrics]
    revert h1
    cases fill g idx v <;> cases v.metric <;> intro h1
    · exact h2
    · exact h1.elim
    · exact h1.elim
    · exact ⟨h1, h2⟩
end

/-- the structured view -/
theorem restore_fill {c : Chunk} {fs : Fields} (h : Good c fs) (hl : (encDoc fs).length < 2147483648) {fuel : Nat} (hf : (encDoc fs).length < fuel)
    {i : Nat} (hi : i < c.nPoints) :
    ∃ d, c.restore fuel i = .ok d ∧ RepFields d (fillF (fun j => ((c.metrics[j]?).map (val i)).getD 0) 0 fs) := by
  simp only [encDoc, wrapDoc_length] at hl hf
  have hv : ∀ m ∈ c.metrics, ∃ x, m.values[i]? = some x ∧ I64 x := by
    intro m hm
    obtain ⟨a, b⟩ := h.vals m hm
    have : i < m.values.length := by omega
    exact ⟨m.values[i], List.getElem?_eq_getElem this, b _ (List.getElem_mem this)⟩
  have hg : ∀ j : Nat, j < c.metrics.length → valueAt c.metrics j i = .ok (((c.metrics[j]?).map (val i)).getD 0) := by
    intro j hj
    unfold valueAt
    rw [List.getElem?_eq_getElem hj]
    obtain ⟨x, hx, _⟩ := hv _ (List.getElem_mem hj)
    simp [hx, val]
  have hr : ∀ j : Nat, I64 (((c.metrics[j]?).map (val i)).getD 0) := by
    intro j
    cases hj : c.metrics[j]? with
    | none => simp [I64]
    | some m =>
      obtain ⟨x, hx, hx'⟩ := hv m (List.mem_of_getElem? hj)
      simpa [val, hx] using hx'
  have hre := restoreElement_rep hg hr fuel
  obtain ⟨d, h1, h2⟩ := restoreDocument_rep (g := fun (j : Nat) => ((c.metrics[j]?).map (val i)).getD 0) (N := min 2147483648 fuel) (M := c.metrics.length)
    (fun v k t idx a b e => hre v k t idx a (by omega) (by omega) e) c.reference fs 0 h.ref (by omega) (by rw [h.len]; omega)
  refine ⟨d, ?_, h2⟩
  unfold Chunk.restore; rw [h1]; rfl

theorem restore_good {c : Chunk} {fs : Fields} (h : Good c fs) (hl : (encDoc fs).length < 2147483648) {fuel : Nat} (hf : (encDoc fs).length < fuel)
    {i : Nat} (hi : i < c.nPoints) :
    ∃ d S, c.restore fuel i = .ok d ∧ RepFields d S ∧ S.SameShape fs.metrics ∧ S.leaves = joinL (fs.numbers.map Prod.snd) (c.metrics.map (val i)) := by
  obtain ⟨d, h1, h2⟩ := restore_fill h hl hf hi
  exact ⟨d, _, h1, h2, fillF_shape _ fs 0, by rw [fillF_leaves, ← h.len, run_vals]⟩

theorem samples_rep {g : Nat → Res Doc} {P : Nat → Fields → Prop} : ∀ (n i : Nat), (∀ j, i ≤ j → j < i + n → ∃ d S, g j = .ok d ∧ RepFields d S ∧ P j S) →
    ∃ ds Ss, samples g n i = .ok ds ∧ RepDocs ds Ss ∧ Ss.length = n ∧ ∀ j S, Ss[j]? = some S → P (i + j) S
  | 0, i, _ => ⟨[], [], rfl, trivial, rfl, by simp⟩
  | n + 1, i, h => by
    obtain ⟨d, S, h1, h2, h2'⟩ := h i (Nat.le_refl i) (by omega)
    obtain ⟨ds, Ss, h3, h4, h4', h5⟩ := samples_rep n (i + 1) (fun j a b => h j (by omega) (by omega))
    refine ⟨d :: ds, S :: Ss, ?_, ⟨h2, h4⟩, by simp [h4'], ?_⟩
    · simp only [samples, h1, h3, Res.bind_ok]
    · intro j d' hj
      cases j with
      | zero => simp at hj; subst hj; exact h2'
      | succ j => have := h5 j d' (by simpa using hj); rwa [show i + (j + 1) = i + 1 + j by omega]

/-! ### keys -/

mutual
theorem numbers_names : ∀ (t : BVal) (k : Bytes), t.WF → NulFree k → ∀ n ∈ t.numbers k, (∀ x ∈ n.1, NulFree x) ∧ (n.1.getLastD []).length ≤ k.length + t.enc.length ∧
    (dotted (firstLast n.1)).length ≤ k.length + t.enc.length
  | .doc fs, k, wf, hk, n, h => by
    simp only [BVal.numbers, List.mem_map] at h
    obtain ⟨m, hm, rfl⟩ := h
    have h1 := numbersF_names fs wf m hm
    have hne := numbersF_ne fs m hm
    simp only [BVal.enc, wrapDoc_length]
    refine ⟨?_, ?_, ?_⟩
    · intro x hx; rcases List.mem_cons.mp hx with rfl | hx
      · exact hk
      · exact h1.1 x hx
    · cases hm1 : m.1 with
      | nil => exact absurd hm1 hne
      | cons a l => rw [hm1] at h1; simp only [List.getLastD_cons] at h1 ⊢; omega
    · cases hm1 : m.1 with
      | nil => exact absurd hm1 hne
      | cons a l => rw [hm1] at h1; simp only [firstLast, dotted, List.length_append, List.length_cons]; omega
  | .array vs, k, wf, hk, n, h => by
    have := numbersV_names vs k 0 wf hk n h
    simp only [BVal.enc, wrapDoc_length]
    exact ⟨this.1, by omega, by omega⟩
  | .double _, k, _, hk, n, h | .bool _, k, _, hk, n, h | .datetime _, k, _, hk, n, h | .int32 _, k, _, hk, n, h | .int64 _, k, _, hk, n, h | .timestamp _ _, k, _, hk, n, h => by
    simp only [BVal.numbers, List.mem_singleton] at h; subst h
    refine ⟨by simpa using hk, by simp, by simp [firstLast, dotted]⟩
  | .string _, _, _, _, _, h | .binary _ _, _, _, _, _, h | .undefined, _, _, _, _, h | .oid _, _, _, _, _, h | .null, _, _, _, _, h | .regex _ _, _, _, _, _, h | .dbpointer _ _, _, _, _, _, h
  | .js _, _, _, _, _, h | .symbol _, _, _, _, _, h | .codeScope _ _, _, _, _, _, h | .decimal _ _, _, _, _, _, h | .minKey, _, _, _, _, h | .maxKey, _, _, _, _, h => by simp [BVal.numbers] at h
theorem numbersF_names : ∀ (fs : Fields), fs.WF → ∀ n ∈ fs.numbers, (∀ x ∈ n.1, NulFree x) ∧ (n.1.getLastD []).length ≤ fs.enc.length ∧
    (dotted (firstLast n.1)).length ≤ fs.enc.length
  | .nil, _, _, h => by simp [Fields.numbers] at h
  | .cons k v rest, wf, n, h => by
    rw [fieldsEnc_length]
    rcases List.mem_append.mp h with h | h
    · have := numbers_names v k wf.2.1 wf.1 n h; exact ⟨this.1, by omega, by omega⟩
    · have := numbersF_names rest wf.2.2 n h; exact ⟨this.1, by omega, by omega⟩
theorem numbersV_names : ∀ (vs : Vals) (k : Bytes) (i : Nat), vs.WF → NulFree k → ∀ n ∈ vs.numbers k i, (∀ x ∈ n.1, NulFree x) ∧
    (n.1.getLastD []).length ≤ k.length + (vs.encFrom i).length ∧ (dotted (firstLast n.1)).length ≤ k.length + (vs.encFrom i).length
  | .nil, _, _, _, _, _, h => by simp [Vals.numbers] at h
  | .cons v rest, k, i, wf, hk, n, h => by
    rw [encFrom_length]
    rcases List.mem_append.mp h with h | h
    · have := numbers_names v (k ++ 46 :: decimalKey i) wf.1 (by
        intro x hx
        simp only [List.mem_append, List.mem_cons] at hx
        rcases hx with hx | rfl | hx
        · exact hk x hx
        · decide
        · intro h0; subst h0
          have := Proofs.Decimal.key_digit i 0 hx
          unfold Spec.Decimal.Digit at this
          revert this; decide) n h
      simp only [List.length_append, List.length_cons] at this
      exact ⟨this.1, by omega, by omega⟩
    · have := numbersV_names rest k (i + 1) wf.2 hk n h; exact ⟨this.1, by omega, by omega⟩
end

/-! ### the flat view -/

/-- the tags of the metrics of numbers with the given keys -/
def wide (l : List (Bytes × UInt8)) : List (Bytes × UInt8) :=
  l.flatMap fun n => if n.2 = 0x11 then [n, (n.1 ++ [46, 105, 110, 99], n.2)] else [n]

/-- the numbers with their keys -/
def keyed (l : List (List Bytes × UInt8)) : List (Bytes × UInt8) := l.map fun n => (dotted (firstLast n.1), n.2)

theorem tags_wide (l : List (List Bytes × UInt8)) : tags l = wide (keyed l) := by
  simp only [tags, wide, keyed, List.flatMap_map]

theorem i32_range (x : Int) : -2147483648 ≤ i32 x ∧ i32 x < 2147483648 := by unfold i32; omega

theorem leafOf_wf (ty : UInt8) {x : Int} (h : I64 x) : (leafOf ty x).WF := by
  unfold leafOf I64 at *
  have := i32_range x
  have : u64i x < 18446744073709551616 := by unfold u64i; omega
  split <;> (try split) <;> (try split) <;> (try split) <;> simp only [BVal.WF] <;> omega

theorem leafOf_enc (ty : UInt8) (x : Int) : (leafOf ty x).enc.length ≤ 8 := by
  unfold leafOf
  split <;> (try split) <;> (try split) <;> (try split) <;> simp [BVal.enc]

theorem restoreFlat_rep (ty : UInt8) {k : Bytes} {x : Int} (hk : NulFree k) (hl : k.length < 2147483000) (hx : I64 x) :
    ∃ v, restoreFlat ty k x = .ok v ∧ Rep v k (leafOf ty x) := by
  have h := buildVal_rep k (leafOf ty x) hk (leafOf_wf ty hx) (by have := leafOf_enc ty x; omega)
  have e : restoreFlat ty k x = buildVal k (leafOf ty x) := by
    unfold restoreFlat leafOf
    split
    · rfl
    split
    · rfl
    split
    · rfl
    split
    · rw [time_epoc hx.1 hx.2]; rfl
    · rfl
  rwa [e]

theorem flatSample_rep {i : Nat} : ∀ (ms : List Metric), (∀ m ∈ ms, i < m.values.length ∧ ∀ x ∈ m.values, I64 x) → (∀ m ∈ ms, NulFree m.key ∧ m.key.length < 2147483000) →
    ∃ d F, flatSample i ms = .ok d ∧ RepFields d F ∧ F.toList = ms.map fun m => (m.key, leafOf m.originalType (val i m))
  | [], _, _ => ⟨[], .nil, rfl, by simp [RepFields], rfl⟩
  | m :: ms, hv, hk => by
    obtain ⟨d, F, h1, h2, h3⟩ := flatSample_rep ms (fun x hx => hv x (by simp [hx])) (fun x hx => hk x (by simp [hx]))
    have hm := hv m (by simp)
    have hkm := hk m (by simp)
    have hx := hm.2 _ (List.getElem_mem hm.1)
    obtain ⟨v, h4, h5⟩ := restoreFlat_rep m.originalType hkm.1 hkm.2 hx
    have hval : val i m = m.values[i]'hm.1 := by simp [val, hm.1]
    refine ⟨v :: d, .cons m.key (leafOf m.originalType (val i m)) F, ?_, ?_, by simp [Fields.toList, h3]⟩
    · simp only [flatSample, List.getElem?_eq_getElem hm.1, Res.bind_ok, h4, h1]
    · rw [hval]; exact ⟨h5, h2⟩

theorem leafOf_flat (ty : UInt8) (x : Int) (ls fs : List BVal) (h : Flat ls fs) : Flat (leafOf ty x :: ls) (leafOf ty x :: fs) := by
  unfold leafOf
  repeat (first | exact ⟨fs, rfl, h⟩ | split)

theorem u32i_cast (x : Int) : ((u32i x : Nat) : Int) = x % 4294967296 := by unfold u32i; omega

/-- the flat values go with the structured ones -/
theorem flat_join (i : Nat) : ∀ (l : List (Bytes × UInt8)) (ms : List Metric), ms.map tag = wide l →
    Flat (joinL (l.map Prod.snd) (ms.map (val i))) (ms.map fun m => leafOf m.originalType (val i m))
  | [], ms, h => by
    simp only [wide, List.flatMap_nil, List.map_eq_nil_iff] at h; subst h; simp [joinL, Flat]
  | (k, ty) :: l, ms, h => by
    by_cases ht : ty = 0x11
    · simp only [wide, List.flatMap_cons, ht, if_true, List.cons_append, List.nil_append] at h
      match ms, h with
      | [], h => simp at h
      | [m], h => simp at h
      | m :: m' :: ms, h =>
        simp only [List.map_cons, List.cons.injEq] at h
        obtain ⟨h1, h2, h3⟩ := h
        have ih := flat_join i l ms h3
        simp only [tag, Prod.mk.injEq] at h1 h2
        simp only [List.map_cons, joinL, ht, if_true, h1.2, h2.2]
        refine ⟨val i m, val i m', _, rfl, (u32i_cast _).symm, (u32i_cast _).symm, ih⟩
    · simp only [wide, List.flatMap_cons, ht, if_false, List.cons_append, List.nil_append] at h
      match ms, h with
      | [], h => simp at h
      | m :: ms, h =>
        simp only [List.map_cons, List.cons.injEq] at h
        obtain ⟨h1, h3⟩ := h
        have ih := flat_join i l ms h3
        simp only [tag, Prod.mk.injEq] at h1
        simp only [List.map_cons, joinL, ht, if_false, h1.2]
        exact leafOf_flat _ _ _ _ ih

theorem joinL_plain (i : Nat) : ∀ (l : List (Bytes × UInt8)) (ms : List Metric), ms.map tag = wide l → (∀ p ∈ l, p.2 ≠ 0x11) →
    (ms.map fun m => (m.key, leafOf m.originalType (val i m))) = (l.map Prod.fst).zip (joinL (l.map Prod.snd) (ms.map (val i)))
  | [], ms, h, _ => by
    simp only [wide, List.flatMap_nil, List.map_eq_nil_iff] at h; subst h; rfl
  | (k, ty) :: l, ms, h, hn => by
    have ht : ty ≠ 0x11 := hn (k, ty) (by simp)
    simp only [wide, List.flatMap_cons, ht, if_false, List.cons_append, List.nil_append] at h
    match ms, h with
    | [], h => simp at h
    | m :: ms, h =>
      simp only [List.map_cons, List.cons.injEq] at h
      obtain ⟨h1, h3⟩ := h
      simp only [tag, Prod.mk.injEq] at h1
      simp only [List.map_cons, joinL, ht, if_false, h1.1, h1.2, joinL_plain i l ms h3 (fun p hp => hn p (by simp [hp])), List.zip_cons_cons]

/-! ### the matrix -/

theorem arrayOf_rep (ty : UInt8) (g : Int → Res Value) (hg : ∀ x, g x = restoreFlat ty [] x) : ∀ (xs : List Int), (∀ x ∈ xs, I64 x) →
    ∃ d, arrayOf g xs = .ok d ∧ RepVals d (Vals.of (xs.map (leafOf ty)))
  | [], _ => ⟨[], rfl, by simp [Vals.of, RepVals]⟩
  | x :: xs, h => by
    obtain ⟨d, h1, h2⟩ := arrayOf_rep ty g hg xs (fun y hy => h y (by simp [hy]))
    obtain ⟨v, h3, h4⟩ := restoreFlat_rep ty (k := []) (x := x) (by intro c hc; simp at hc) (by simp) (h x (by simp))
    exact ⟨v :: d, by simp only [arrayOf, hg, h3, h1, Res.bind_ok], ⟨[], h4⟩, h2⟩

theorem arrayOfTimestamps_rep : ∀ (xs ys : List Int), xs.length = ys.length →
    ∃ d, arrayOfTimestamps xs ys = .ok d ∧ RepVals d (Vals.of (List.zipWith (fun x y => .timestamp (u32i x) (u32i y)) xs ys))
  | [], ys, _ => ⟨[], rfl, by simp [Vals.of, RepVals]⟩
  | x :: xs, [], h => by simp at h
  | x :: xs, y :: ys, h => by
    obtain ⟨d, h1, h2⟩ := arrayOfTimestamps_rep xs ys (by simpa using h)
    obtain ⟨v, h3, h4⟩ := buildVal_rep [] (.timestamp (u32i x) (u32i y)) (by intro c hc; simp at hc) (by simp only [BVal.WF]; unfold u32i; omega) (by simp [BVal.enc])
    have h3 : EC.timestamp [] (u32i x) (u32i y) = .ok v := h3
    exact ⟨v :: d, by simp only [arrayOfTimestamps, h3, h1, Res.bind_ok], ⟨[], h4⟩, h2⟩

/-- the types of numbers -/
def Number (ty : UInt8) : Prop := ty = 0x01 ∨ ty = 0x08 ∨ ty = 0x09 ∨ ty = 0x10 ∨ ty = 0x11 ∨ ty = 0x12

theorem rehydrate_one {m : Metric} (rest : List Metric) (h : Number m.originalType) (hn : m.originalType ≠ 0x11) (hv : ∀ x ∈ m.values, I64 x)
    (hk : NulFree m.key) (hl : m.key.length < 2147483000) :
    ∃ w, rehydrateMatrix m rest = .ok (w, 1) ∧ Rep w m.key (.array (Vals.of (m.values.map (leafOf m.originalType)))) := by
  have key : ∀ g : Int → Res Value, (∀ x, g x = restoreFlat m.originalType [] x) →
      ∃ w, (do let vs ← arrayOf g m.values; Res.ok (← EC.array m.key vs, 1)) = .ok (w, 1) ∧ Rep w m.key (.array (Vals.of (m.values.map (leafOf m.originalType)))) := by
    intro g hg
    obtain ⟨d, h1, h2⟩ := arrayOf_rep m.originalType g hg m.values hv
    obtain ⟨w, h3, h4⟩ := array_rep hk (by omega) h2
    exact ⟨w, by simp only [h1, Res.bind_ok, h3], h4⟩
  unfold rehydrateMatrix
  simp only [hn, if_false]
  rcases h with h | h | h | h | h | h
  · have := key (fun p => EC.double [] (u64i p)) (by intro x; rw [h]; rfl)
    simp only [h] at this ⊢; exact this
  · have := key (fun p => EC.boolean [] (p ≠ 0)) (by intro x; rw [h]; rfl)
    simp only [h] at this ⊢; exact this
  · have := key (fun p => EC.time [] (timeEpocMs p)) (by intro x; rw [h]; rfl)
    simp only [h] at this ⊢; exact this
  · have := key (fun p => EC.int32 [] (i32 p)) (by intro x; rw [h]; rfl)
    simp only [h] at this ⊢; exact this
  · exact absurd h hn
  · have := key (fun p => EC.int64 [] p) (by intro x; rw [h]; rfl)
    simp only [h] at this ⊢; exact this

theorem val_map {α : Type} (f : Int → α) {m : Metric} {n : Nat} (h : m.values.length = n) : (List.range n).map (fun i => f (val i m)) = m.values.map f := by
  apply List.ext_getElem
  · simp [h]
  · intro j h1 h2
    simp only [List.length_map] at h2
    simp [val, h2]

theorem val_zip {α : Type} (f : Int → Int → α) {m m' : Metric} {n : Nat} (h : m.values.length = n) (h' : m'.values.length = n) :
    (List.range n).map (fun i => f (val i m) (val i m')) = List.zipWith f m.values m'.values := by
  apply List.ext_getElem
  · simp [h, h']
  · intro j h1 h2
    simp only [List.length_zipWith] at h2
    simp [val, show j < m.values.length by omega, show j < m'.values.length by omega]

theorem exportLoop_rep {n : Nat} : ∀ (l : List (Bytes × UInt8)) (ms : List Metric) (k : Nat), ms.map tag = wide l → ms.length ≤ k → (∀ p ∈ l, Number p.2) →
    (∀ m ∈ ms, m.values.length = n ∧ ∀ x ∈ m.values, I64 x) → (∀ m ∈ ms, NulFree m.key ∧ m.key.length < 2147483000) →
    ∃ d M, exportLoop k ms = .ok d ∧ RepFields d M ∧
      M.toList = (columns (l.map Prod.fst) ((List.range n).map fun i => joinL (l.map Prod.snd) (ms.map (val i)))).map fun c => (c.1, .array (Vals.of c.2))
  | [], ms, k, h, _, _, _, _ => by
    simp only [wide, List.flatMap_nil, List.map_eq_nil_iff] at h; subst h
    refine ⟨[], .nil, by cases k <;> rfl, by simp [RepFields], rfl⟩
  | (key, ty) :: l, ms, k, h, hk, hn, hv, hkey => by
    by_cases ht : ty = 0x11
    · simp only [wide, List.flatMap_cons, ht, if_true, List.cons_append, List.nil_append] at h
      match ms, h with
      | [], h => simp at h
      | [m], h => simp at h
      | m :: m' :: ms, h =>
        simp only [List.map_cons, List.cons.injEq] at h
        obtain ⟨h1, h2, h3⟩ := h
        simp only [List.length_cons] at hk
        obtain ⟨k, rfl⟩ : ∃ k', k = k' + 1 := ⟨k - 1, by omega⟩
        obtain ⟨d, M, e1, e2, e3⟩ := exportLoop_rep l ms k h3 (by omega) (fun p hp => hn p (by simp [hp])) (fun x hx => hv x (by simp [hx])) (fun x hx => hkey x (by simp [hx]))
        simp only [tag, Prod.mk.injEq] at h1 h2
        have hm := hv m (by simp)
        have hm' := hv m' (by simp)
        have hkm := hkey m (by simp)
        obtain ⟨w0, e4, e5⟩ := arrayOfTimestamps_rep m.values m'.values (by rw [hm.1, hm'.1])
        obtain ⟨w, e6, e7⟩ := array_rep hkm.1 (by omega) e5
        refine ⟨w :: d, .cons m.key _ M, ?_, ⟨e7, e2⟩, ?_⟩
        · simp only [exportLoop, rehydrateMatrix, h1.2, if_true, e4, Res.bind_ok, e6, List.drop_succ_cons, List.drop_zero, e1]
        · simp only [Fields.toList, e3, List.map_cons, columns, joinL, ht, if_true, h1.1, List.filterMap_map, List.map_map, Function.comp_def, List.head?_cons, List.tail_cons,
            ← val_zip _ hm.1 hm'.1, List.filterMap_eq_map']
    · simp only [wide, List.flatMap_cons, ht, if_false, List.cons_append, List.nil_append] at h
      match ms, h with
      | [], h => simp at h
      | m :: ms, h =>
        simp only [List.map_cons, List.cons.injEq] at h
        obtain ⟨h1, h3⟩ := h
        simp only [List.length_cons] at hk
        obtain ⟨k, rfl⟩ : ∃ k', k = k' + 1 := ⟨k - 1, by omega⟩
        obtain ⟨d, M, e1, e2, e3⟩ := exportLoop_rep l ms k h3 (by omega) (fun p hp => hn p (by simp [hp])) (fun x hx => hv x (by simp [hx])) (fun x hx => hkey x (by simp [hx]))
        simp only [tag, Prod.mk.injEq] at h1
        have hm := hv m (by simp)
        have hkm := hkey m (by simp)
        obtain ⟨w, e6, e7⟩ := rehydrate_one ms (by rw [h1.2]; exact hn (key, ty) (by simp)) (by rw [h1.2]; exact ht) hm.2 hkm.1 hkm.2
        refine ⟨w :: d, .cons m.key _ M, ?_, ⟨e7, e2⟩, ?_⟩
        · simp only [exportLoop, Res.bind_ok, e6, List.drop_succ_cons, List.drop_zero, e1]
        · simp only [Fields.toList, e3, List.map_cons, columns, joinL, ht, if_false, h1.1, h1.2, List.filterMap_map, List.map_map, Function.comp_def, List.head?_cons, List.tail_cons,
            ← val_map _ hm.1, List.filterMap_eq_map']

mutual
theorem numbers_types : ∀ (t : BVal) (k : Bytes), ∀ n ∈ t.numbers k, Number n.2
  | .doc fs, k, n, h => by
    simp only [BVal.numbers, List.mem_map] at h
    obtain ⟨m, hm, rfl⟩ := h
    exact numbersF_types fs m hm
  | .array vs, k, n, h => numbersV_types vs k 0 n h
  | .double _, k, n, h | .bool _, k, n, h | .datetime _, k, n, h | .int32 _, k, n, h | .int64 _, k, n, h | .timestamp _ _, k, n, h => by
    simp only [BVal.numbers, List.mem_singleton] at h; subst h; simp [Number]
  | .string _, _, _, h | .binary _ _, _, _, h | .undefined, _, _, h | .oid _, _, _, h | .null, _, _, h | .regex _ _, _, _, h | .dbpointer _ _, _, _, h
  | .js _, _, _, h | .symbol _, _, _, h | .codeScope _ _, _, _, h | .decimal _ _, _, _, h | .minKey, _, _, h | .maxKey, _, _, h => by simp [BVal.numbers] at h
theorem numbersF_types : ∀ (fs : Fields), ∀ n ∈ fs.numbers, Number n.2
  | .nil, _, h => by simp [Fields.numbers] at h
  | .cons k v rest, n, h => by
    rcases List.mem_append.mp h with h | h
    · exact numbers_types v k n h
    · exact numbersF_types rest n h
theorem numbersV_types : ∀ (vs : Vals) (k : Bytes) (i : Nat), ∀ n ∈ vs.numbers k i, Number n.2
  | .nil, _, _, _, h => by simp [Vals.numbers] at h
  | .cons v rest, k, i, n, h => by
    rcases List.mem_append.mp h with h | h
    · exact numbers_types v _ n h
    · exact numbersV_types rest k (i + 1) n h
end

theorem nulFree_dotted : ∀ (l : List Bytes), (∀ x ∈ l, NulFree x) → NulFree (dotted l)
  | [], _ => by intro c h; simp [dotted] at h
  | [k], h => h k (by simp)
  | k :: l :: ks, h => by
    intro c hc
    simp only [dotted, List.mem_append, List.mem_cons] at hc
    rcases hc with hc | rfl | hc
    · exact h k (by simp) c hc
    · decide
    · exact nulFree_dotted (l :: ks) (fun x hx => h x (by simp [hx])) c hc

theorem firstLast_mem {l : List Bytes} {x : Bytes} (h : x ∈ firstLast l) : x ∈ l := by
  match l, h with
  | [], h => exact h
  | [k], h => exact h
  | k :: l :: rest, h =>
    simp only [firstLast, List.mem_cons, List.not_mem_nil, or_false] at h
    rcases h with rfl | rfl
    · simp
    · rw [List.getLastD_cons]
      simp only [List.mem_cons]
      right
      cases rest with
      | nil => simp
      | cons a b => right; rw [List.getLastD_eq_getLast?, List.getLast?_eq_some_getLast (by simp)]; exact List.getLast_mem _

theorem keys_good {c : Chunk} {fs : Fields} (h : Good c fs) (wf : fs.WF) (hl : (encDoc fs).length ≤ 2147482990) : ∀ m ∈ c.metrics, NulFree m.key ∧ m.key.length < 2147483000 := by
  intro m hm
  have h1 : tag m ∈ c.metrics.map tag := List.mem_map_of_mem hm
  rw [h.tags] at h1
  simp only [tags, List.mem_flatMap] at h1
  obtain ⟨n, hn, h1⟩ := h1
  have h2 := numbersF_names fs wf n hn
  have h3 := nulFree_dotted (firstLast n.1) (fun x hx => h2.1 x (firstLast_mem hx))
  simp only [encDoc, wrapDoc_length] at hl
  have h4 : m.key = dotted (firstLast n.1) ∨ m.key = dotted (firstLast n.1) ++ [46, 105, 110, 99] := by
    split at h1
    · simp only [List.mem_cons, List.not_mem_nil, or_false, tag, Prod.mk.injEq] at h1
      rcases h1 with h1 | h1
      · exact Or.inl h1.1
      · exact Or.inr h1.1
    · simp only [List.mem_singleton, tag, Prod.mk.injEq] at h1
      exact Or.inl h1.1
  rcases h4 with h4 | h4
  · rw [h4]; exact ⟨h3, by omega⟩
  · rw [h4]; refine ⟨?_, by simp; omega⟩
    intro c hc
    simp only [List.mem_append, List.mem_cons, List.not_mem_nil, or_false] at hc
    rcases hc with hc | rfl | rfl | rfl | rfl
    · exact h3 c hc
    all_goals decide

/-! ### all views -/

theorem chunk_views {fs : Fields} (wf : fs.WF) (hl : (encDoc fs).length ≤ 2147482990) {tail : Bytes} {n : Nat} (hn : (encDoc fs).length < n)
    {md : Option Doc} {c : Chunk} (h : readPayload n md (encDoc fs ++ tail) = .ok c) :
    ∃ ds Ss fl Fs, c.structured n = .ok ds ∧ RepDocs ds Ss ∧ c.flattened = .ok fl ∧ RepDocs fl Fs ∧ Ss.length = c.nPoints ∧ Fs.length = c.nPoints ∧
      (∀ i S, Ss[i]? = some S → S.SameShape fs.metrics ∧ S.leaves = joinL (fs.numbers.map Prod.snd) (c.metrics.map (val i))) ∧
      ∀ i F, Fs[i]? = some F → F.toList = c.metrics.map fun m => (m.key, leafOf m.originalType (val i m)) := by
  have hg := readPayload_good wf (by omega) hn h
  have hk := keys_good hg wf hl
  obtain ⟨ds, Ss, a1, a2, a3, a4⟩ := samples_rep (g := c.restore n)
    (P := fun i S => S.SameShape fs.metrics ∧ S.leaves = joinL (fs.numbers.map Prod.snd) (c.metrics.map (val i))) c.nPoints 0
    (fun j _ hj => restore_good hg (by omega) hn (by omega))
  obtain ⟨fl, Fs, b1, b2, b3, b4⟩ := samples_rep (g := fun i => flatSample i c.metrics)
    (P := fun i F => F.toList = c.metrics.map fun m => (m.key, leafOf m.originalType (val i m))) c.nPoints 0
    (fun j _ hj => flatSample_rep c.metrics (fun m hm => ⟨by have := (hg.vals m hm).1; omega, (hg.vals m hm).2⟩) hk)
  exact ⟨ds, Ss, fl, Fs, a1, a2, b1, b2, a3, b3, fun i S hS => by simpa using a4 i S hS, fun i F hF => by simpa using b4 i F hF⟩

theorem keyed_snd (l : List (List Bytes × UInt8)) : (keyed l).map Prod.snd = l.map Prod.snd := by simp [keyed]

theorem keyed_fst (l : List (List Bytes × UInt8)) : (keyed l).map Prod.fst = l.map fun t => dotted (firstLast t.1) := by simp [keyed]

/-! ### a chunk with one sample -/

theorem readSeries_zero (nz : UInt64) (b : Bytes) : ∀ ms : List Metric, readSeries 0 ms nz b = .ok (ms.map fun m => { m with values := [m.startingValue] }, nz, b)
  | [] => rfl
  | m :: ms => by
    simp only [readSeries, readDeltas, Res.bind_ok, readSeries_zero nz b ms, undeltaFloats, undelta, ite_self, List.map_cons]

theorem readPayload_one {fs : Fields} (wf : fs.WF) (hl : (encDoc fs).length < 2147483648) {fuel : Nat} (hf : (encDoc fs).length < fuel) (md : Option Doc) :
    ∃ ref, readPayload fuel md (encDoc fs ++ (le32 (countF fs) ++ le32 0)) =
      .ok ⟨(metsF [] fs).map fun m => { m with values := [m.startingValue] }, 1, md, ref⟩ := by
  obtain ⟨s', h1, h2⟩ := Props.readFrom_enc fs hl ⟨[encDoc fs ++ (le32 (countF fs) ++ le32 0)], false⟩ (le32 (countF fs) ++ le32 0) (by simp [Stream.Source.left])
  have h3 := readDocument_enc fuel fs wf [] hf (by simpa using hl)
  rw [List.append_nil] at h3
  obtain ⟨ref, h4, h5⟩ := h3
  refine ⟨ref, ?_⟩
  have hcl := countF_le fs
  simp only [encDoc, wrapDoc_length] at hl hf
  unfold readPayload
  simp only [h2, h4, Res.bind_ok, h1]
  have hlen : (le32 (countF fs) ++ le32 0).length = 8 := by simp
  rw [metricsOf_rep fuel h5 (by omega) (by omega), List.take_of_length_le (by omega)]
  simp only [Res.bind_ok]
  rw [if_neg (by omega), List.drop_append_of_le_length (by simp),
    rdU32_le32 (by omega), show List.drop 4 (le32 (countF fs)) = [] from List.drop_of_length_le (by simp), List.nil_append, rdU32_le32' (by omega)]
  simp only [Res.bind_ok, length_metsF, ne_eq, not_true_eq_false, if_false, readSeries_zero]

end Birch.Proofs.Ftdc
