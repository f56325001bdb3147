import Verif.Proofs.FtdcParts
import Verif.Spec.FtdcLayout

/- The bytes of a chunk. -/

namespace Birch.Proofs.Ftdc
open Birch Model Model.Ftdc Spec

theorem putUvarint_leb : ∀ (n : Nat) (x : UInt64), x.toNat = n → putUvarint x = leb128 n := by
  intro n
  induction n using Nat.strongRecOn with
  | ind n ih =>
    intro x hx
    unfold putUvarint leb128
    by_cases h : x < 128
    · have h' : n < 128 := by rw [UInt64.lt_iff_toNat_lt] at h; simpa [hx] using h
      rw [if_pos h, if_pos h']
      congr 1
      rw [← UInt8.toNat_inj]; simp [hx]
    · have h' : ¬ n < 128 := by rw [UInt64.lt_iff_toNat_lt] at h; simpa [hx] using h
      rw [if_neg h, if_neg h']
      have hs : (x >>> 7).toNat = n / 128 := by simp [UInt64.toNat_shiftRight, Nat.shiftRight_eq_div_pow, hx]
      rw [ih (n / 128) (by omega) (x >>> 7) hs]
      congr 1
      rw [← UInt8.toNat_inj]
      simp only [UInt8.toNat_or, UInt64.toNat_toUInt8, hx, UInt8.toNat_ofNat']
      have h1 : n % 2 ^ 8 ||| (128 : UInt8).toNat = n % 128 + 128 := by
        have hb : ∀ m, m < 256 → m ||| 128 = m % 128 + 128 := by decide +kernel
        have := hb (n % 2 ^ 8) (Nat.mod_lt _ (by decide))
        rw [show (128 : UInt8).toNat = 128 from rfl, this]; omega
      rw [h1]; omega

theorem encodeValue_leb (z : Int) : encodeValue z = leb128 (z % 18446744073709551616).toNat := by
  unfold encodeValue
  apply putUvarint_leb
  simp only [UInt64.toNat_ofNat', u64i]
  omega

/-- the 64 bits of an int64 -/
def bits64 (z : Int) : Nat := (z % 18446744073709551616).toNat

theorem code_runs : ∀ (n : Nat) (l : List Int), l.length ≤ n → n < 18446744073709551616 → InRange l → code 0 l = (runs (l.map bits64)).flatMap leb128
  | _, [], _, _, _ => by simp [code, runs]
  | 0, _ :: _, h, _, _ => by simp at h
  | n + 1, d :: l, h, hn, hr => by
    simp only [List.length_cons] at h
    have hr' : InRange l := fun x hx => hr x (List.mem_cons_of_mem _ hx)
    have hd := hr d (List.mem_cons_self ..)
    rw [List.map_cons, runs]
    have hz : bits64 d = 0 ↔ d = 0 := by unfold bits64; omega
    by_cases h0 : d = 0
    · rw [if_pos (hz.mpr h0), code_run, if_neg (by simp [lead0, h0])]
      have hl : lead0 (d :: l) = lead0 l + 1 := by simp [lead0, h0]
      have ht : ∀ l : List Int, InRange l → ((l.map bits64).takeWhile (· = 0)).length = lead0 l ∧ (l.map bits64).dropWhile (· = 0) = (l.drop (lead0 l)).map bits64 := by
        intro l
        induction l with
        | nil => intro _; simp [lead0]
        | cons x l ih =>
          intro hr
          have hx := hr x (List.mem_cons_self ..)
          have hx0 : bits64 x = 0 ↔ x = 0 := by unfold bits64; omega
          obtain ⟨a, b⟩ := ih fun y hy => hr y (List.mem_cons_of_mem _ hy)
          rw [List.map_cons, List.takeWhile_cons, List.dropWhile_cons, lead0]
          by_cases e : x = 0
          · rw [if_pos (by simpa using hx0.mpr e), if_pos e, if_pos (by simpa using hx0.mpr e), List.length_cons, a, List.drop_succ_cons]; exact ⟨rfl, b⟩
          · have : ¬ bits64 x = 0 := fun h => e (hx0.mp h)
            simp [this, e]
      obtain ⟨a, b⟩ := ht l hr'
      rw [hl, List.drop_succ_cons, a, b]
      rw [code_runs n (l.drop (lead0 l)) (by rw [List.length_drop]; omega) (by omega) (fun x hx => hr' x (List.mem_of_mem_drop hx))]
      have hle := lead0_le l
      simp only [List.flatMap_cons, encodeValue_leb, List.append_assoc]
      congr 1
      congr 1
      congr 1
      omega
    · rw [if_neg (fun h => h0 (hz.mp h))]
      rw [code, if_neg h0]
      simp only [if_true, List.nil_append, List.flatMap_cons]
      rw [code_runs n l (by omega) (by omega) hr', encodeValue_leb]; rfl

/-! ### the numbers -/

def cellOf : Num → Cell
  | .int i => .int i
  | .dbl b => .dbl b

mutual
theorem cells_nums : ∀ t : BVal, t.cells = (nums t).map fun p => cellOf p.2
  | .doc fs => by simp only [BVal.cells, nums]; exact cellsF_nums fs
  | .array vs => by simp only [BVal.cells, nums]; exact cellsV_nums vs
  | .double _ | .bool _ | .datetime _ | .int32 _ | .int64 _ | .timestamp _ _ => by simp [BVal.cells, nums, cellOf, wrapMs]
  | .string _ | .binary _ _ | .undefined | .oid _ | .null | .regex _ _ | .dbpointer _ _ | .js _ | .symbol _ | .codeScope _ _
  | .decimal _ _ | .minKey | .maxKey => by simp [BVal.cells, nums]
theorem cellsF_nums : ∀ fs : Fields, fs.cells = (numsF fs).map fun p => cellOf p.2
  | .nil => rfl
  | .cons k v rest => by simp only [Fields.cells, numsF, List.map_append, cells_nums v, cellsF_nums rest]
theorem cellsV_nums : ∀ vs : Vals, vs.cells = (numsV vs).map fun p => cellOf p.2
  | .nil => rfl
  | .cons v rest => by simp only [Vals.cells, numsV, List.map_append, cells_nums v, cellsV_nums rest]
end

theorem diff_delta {fsub : Nat → Nat → Nat} (hsub : ∀ a b, a < 18446744073709551616 → b < 18446744073709551616 → fsub a b < 18446744073709551616)
    {x y : Num} (hx : ∀ b, x = .dbl b → b < 18446744073709551616) (hy : ∀ b, y = .dbl b → b < 18446744073709551616) :
    Cell.diff fsub (cellOf x) (cellOf y) = bits64 (delta fsub x y) := by
  cases x with
  | int a =>
    cases y with
    | int b => simp only [cellOf, Cell.diff, delta, bits64, i64]; omega
    | dbl b => rfl
  | dbl a =>
    cases y with
    | int b => rfl
    | dbl b =>
      have := hsub a b (hx a rfl) (hy b rfl)
      simp only [cellOf, Cell.diff, delta, bits64, i64]; omega

theorem diffRows_get (fsub : Nat → Nat → Nat) : ∀ (rs : List (List Cell)) (r0 : List Cell) (j : Nat) (r r' : List Cell),
    (r0 :: rs)[j]? = some r → rs[j]? = some r' → (diffRows fsub r0 rs)[j]? = some (List.zipWith (Cell.diff fsub) r' r)
  | [], _, _, _, _, _, h => by simp at h
  | r1 :: rs, r0, 0, r, r', h, h' => by simp at h h'; subst h h'; simp [diffRows]
  | r1 :: rs, r0, j + 1, r, r', h, h' => by
    simp only [List.getElem?_cons_succ] at h h'
    simp only [diffRows, List.getElem?_cons_succ]
    exact diffRows_get fsub rs r1 j r r' h h'

theorem diffRows_length (fsub : Nat → Nat → Nat) : ∀ (rs : List (List Cell)) (r0 : List Cell), (diffRows fsub r0 rs).length = rs.length
  | [], _ => rfl
  | _ :: rs, _ => by simp [diffRows, diffRows_length fsub rs]

/-- doubles have 64 bits -/
def Bits (l : Row) : Prop := ∀ p ∈ l, ∀ b, p.2 = .dbl b → b < 18446744073709551616

mutual
theorem nums_bits : ∀ t : BVal, t.WF → Bits (nums t)
  | .doc fs, h => numsF_bits fs h
  | .array vs, h => numsV_bits vs h
  | .double b, h => by intro p hp c hc; simp only [nums, List.mem_singleton] at hp; subst hp; cases hc; exact h
  | .bool _, _ | .datetime _, _ | .int32 _, _ | .int64 _, _ => by
    intro p hp c hc; simp only [nums, List.mem_singleton] at hp; subst hp; cases hc
  | .timestamp _ _, _ => by
    intro p hp c hc; simp only [nums, List.mem_cons, List.not_mem_nil, or_false] at hp; rcases hp with rfl | rfl <;> cases hc
  | .string _, _ | .binary _ _, _ | .undefined, _ | .oid _, _ | .null, _ | .regex _ _, _ | .dbpointer _ _, _ | .js _, _ | .symbol _, _ | .codeScope _ _, _
  | .decimal _ _, _ | .minKey, _ | .maxKey, _ => by intro p hp; simp [nums] at hp
theorem numsF_bits : ∀ fs : Fields, fs.WF → Bits (numsF fs)
  | .nil, _ => by intro p hp; simp [numsF] at hp
  | .cons k v rest, h => by
    intro p hp
    simp only [numsF, List.mem_append] at hp
    rcases hp with hp | hp
    · exact nums_bits v h.2.1 p hp
    · exact numsF_bits rest h.2.2 p hp
theorem numsV_bits : ∀ vs : Vals, vs.WF → Bits (numsV vs)
  | .nil, _ => by intro p hp; simp [numsV] at hp
  | .cons v rest, h => by
    intro p hp
    simp only [numsV, List.mem_append] at hp
    rcases hp with hp | hp
    · exact nums_bits v h.1 p hp
    · exact numsV_bits rest h.2 p hp
end

/-- the table of deltas, by metric -/
theorem rows_byMetric {fsub : Nat → Nat → Nat} (hsub : ∀ a b, a < 18446744073709551616 → b < 18446744073709551616 → fsub a b < 18446744073709551616)
    {c : Better} {d0 : Doc} {h0 : Row} {hs : List Row} (h : Holds fsub c d0 h0 hs) (hb : ∀ r ∈ h0 :: hs, Bits r) :
    (rows c.deltas c.maxDeltas c.numSamples c.last.length 0).flatten.map bits64 =
      byMetric h0.length (diffRows fsub (h0.map fun p => cellOf p.2) (hs.map fun r => r.map fun p => cellOf p.2)) := by
  unfold byMetric
  rw [List.map_flatten, last_length h]
  congr 1
  apply List.ext_getElem?
  intro i
  rw [List.getElem?_map, List.getElem?_map]
  by_cases hi : i < h0.length
  · rw [rows_get _ _ _ _ _ _ hi, List.getElem?_range hi]
    simp only [Option.map_some, Nat.zero_add, Option.some.injEq]
    apply List.ext_getElem?
    intro j
    rw [List.getElem?_map, List.getElem?_map]
    by_cases hj : j < hs.length
    · rw [row_get _ _ _ _ _ _ (by rw [h.num]; exact hj)]
      obtain ⟨r, hr⟩ := get_of_lt (l := h0 :: hs) (i := j) (by simp; omega)
      obtain ⟨r', hr'⟩ := get_of_lt hj
      have hm := List.mem_of_getElem? hr
      have hm' : r' ∈ h0 :: hs := List.mem_cons_of_mem _ (List.mem_of_getElem? hr')
      obtain ⟨y, hy⟩ := get_of_lt (l := r) (i := i) (by rw [row_length_eq h hm]; exact hi)
      obtain ⟨x, hx⟩ := get_of_lt (l := r') (i := i) (by rw [row_length_eq h hm']; exact hi)
      have hc := h.cell j i r r' x y hr hr' hy hx
      rw [Nat.zero_add, List.getD_eq_getElem?_getD, hc]
      rw [diffRows_get fsub _ _ j (r.map fun p => cellOf p.2) (r'.map fun p => cellOf p.2)
        (by rw [← List.map_cons (f := fun r : Row => r.map fun p => cellOf p.2), List.getElem?_map, hr]; rfl) (by rw [List.getElem?_map, hr']; rfl)]
      simp only [Option.map_some, Option.getD_some, Option.some.injEq]
      rw [List.getD_eq_getElem?_getD, List.getElem?_zipWith, List.getElem?_map, List.getElem?_map, hx, hy]
      simp only [Option.map_some, Option.getD_some]
      exact (diff_delta hsub (hb r' hm' x (List.mem_of_getElem? hx)) (hb r hm y (List.mem_of_getElem? hy))).symm
    · rw [List.getElem?_eq_none (by rw [row_length, h.num]; omega), List.getElem?_eq_none (by rw [diffRows_length, List.length_map]; omega)]
      rfl
  · rw [List.getElem?_eq_none (by rw [rows_length]; omega), List.getElem?_eq_none (by simp; omega)]; rfl

theorem payload_layout {fsub : Nat → Nat → Nat} (hsub : ∀ a b, a < 18446744073709551616 → b < 18446744073709551616 → fsub a b < 18446744073709551616)
    {c : Better} {d0 : Doc} {f0 : Fields} {fss : List Fields} (h : Holds fsub c d0 (numsF f0) (fss.map numsF)) (wf : ∀ f ∈ f0 :: fss, f.WF)
    (hl : (encDoc f0).length < 2147483648) (hn : fss.length < 4294967296) : payloadOf c f0 = chunkPayload fsub f0 fss := by
  unfold payloadOf deltaBytes chunkPayload
  have hcl : f0.cells.length = (numsF f0).length := by rw [cellsF_nums, List.length_map]
  have hcount : (numsF f0).length < 2147483648 := by
    rw [length_numsF]; have := countF_le f0; simp only [encDoc, wrapDoc_length] at hl; omega
  have hlen : (rows c.deltas c.maxDeltas c.numSamples c.last.length 0).flatten.length = (numsF f0).length * fss.length := by
    rw [flatten_length (rows_each _ _ _ _ _), rows_length, last_length h, h.num, List.length_map]
  have hprod : (numsF f0).length * fss.length ≤ 2147483648 * 4294967296 := Nat.mul_le_mul (by omega) (by omega)
  rw [code_runs _ _ (Nat.le_refl _) (by rw [hlen]; omega) (rows_inRange h.range _ _ _ _),
    rows_byMetric hsub h (by
      intro r hr
      rw [← List.map_cons] at hr
      obtain ⟨f, hf, rfl⟩ := List.mem_map.mp hr
      exact numsF_bits f (wf f hf)), hcl, last_length h, h.num, List.length_map, cellsF_nums, List.map_map]
  have : (List.map ((fun r : Row => List.map (fun p => cellOf p.2) r) ∘ numsF) fss) = fss.map Fields.cells := by
    apply List.map_congr_left; intro f _; rw [cellsF_nums]; rfl
  rw [this]
  simp only [List.append_assoc]

/-- milliseconds since 1970 -/
theorem nowMs_eq {t : Time} (h : 0 ≤ t.nsec) : nowMs t = i64 (t.sec * 1000 + t.nsec / 1000000) := by
  unfold nowMs
  rw [Int.tdiv_eq_ediv_of_nonneg h]
  unfold i64; omega

theorem resolve_layout {fsub : Nat → Nat → Nat} (hsub : ∀ a b, a < 18446744073709551616 → b < 18446744073709551616 → fsub a b < 18446744073709551616)
    {zip : Bytes → Bytes} {c : Better} {d0 : Doc} {f0 : Fields} {fss : List Fields} (h : Holds fsub c d0 (numsF f0) (fss.map numsF)) (wf : ∀ f ∈ f0 :: fss, f.WF)
    (hd : RepFields d0 f0) (hl : (encDoc f0).length < 2147483648) (hn : fss.length < 4294967296) {mfs : Option Fields}
    (hm : RepMeta c.metadata mfs) (hml : ∀ f, mfs = some f → (encDoc f).length ≤ 2147483000)
    (hp : (zip (chunkPayload fsub f0 fss)).length ≤ 2147482000) {now : Time} (hnow : 0 ≤ now.nsec) (fuel : Nat) (hf : 10000000000 ≤ fuel) :
    c.resolve zip now fuel = .ok (chunkLayout fsub zip (i64 (now.sec * 1000 + now.nsec / 1000000)) mfs f0 fss) := by
  have hpl := payload_layout hsub h wf hl hn
  rw [← nowMs_eq hnow]
  unfold Better.resolve
  rw [h.ref]
  simp only
  rw [payload_ok h hd hl (by simpa using hn) fuel (by omega), Res.bind_ok, hpl]
  have hdl : (compressBuffer zip (chunkPayload fsub f0 fss)).length = (zip (chunkPayload fsub f0 fss)).length + 4 := by simp [compressBuffer]; omega
  have h1 := chunkDoc_ok now (compressBuffer zip (chunkPayload fsub f0 fss)) (by omega) fuel (by omega)
  have hu : compressBuffer zip (chunkPayload fsub f0 fss) = le32 ((chunkPayload fsub f0 fss).length % 4294967296) ++ zip (chunkPayload fsub f0 fss) := rfl
  obtain ⟨a, ha, ra⟩ := id_rep now
  obtain ⟨b, hb, rb⟩ := type_elem 1 (by decide) (by decide)
  obtain ⟨e, he, re⟩ := data_elem (compressBuffer zip (chunkPayload fsub f0 fss)) (by omega)
  cases hmd : c.metadata with
  | none =>
    rw [hmd] at hm
    cases mfs with
    | some m => exact hm.elim
    | none =>
      simp only [Res.bind_ok]
      simp only [ha, hb, he, Res.bind_ok] at h1 ⊢
      rw [h1, hu]
      rfl
  | some md =>
    rw [hmd] at hm
    cases mfs with
    | none => exact hm.elim
    | some mf =>
      have hml := hml mf rfl
      have h2 := metaDoc_ok now hm (by omega) fuel (by omega)
      obtain ⟨b', hb', rb'⟩ := type_elem 0 (by decide) (by decide)
      obtain ⟨e', he', re'⟩ := subDocument_rep (k := kDoc) nulFree_keys.2.2.2 (by decide) hm
      simp only [ha, hb, he, hb', he', Res.bind_ok] at h1 h2 ⊢
      rw [h1, h2, hu]
      rfl

theorem filled_layout {fsub : Nat → Nat → Nat} (hsub : ∀ a b, a < 18446744073709551616 → b < 18446744073709551616 → fsub a b < 18446744073709551616)
    {zip : Bytes → Bytes} {n max : Nat} {md : Option Doc} {docs : List Doc} {f0 : Fields} {fss : List Fields} {c : Better} (h : Run docs (f0 :: fss))
    (hf : Filled fsub n max md docs c) (hm : fss.length ≤ max) (hn : 2147483648 ≤ n) (h32 : fss.length < 4294967295) {mfs : Option Fields}
    (hmd : RepMeta md mfs) (hml : ∀ f, mfs = some f → (encDoc f).length ≤ 2147483000)
    (hp : (zip (chunkPayload fsub f0 fss)).length ≤ 2147482000) {now : Time} (hnow : 0 ≤ now.nsec) (fuel : Nat) (hfu : 10000000000 ≤ fuel) :
    c.resolve zip now fuel = .ok (chunkLayout fsub zip (i64 (now.sec * 1000 + now.nsec / 1000000)) mfs f0 fss) := by
  have h3 := filled_state h hf (by simp; omega) hn
  match docs, h with
  | d0 :: docs, h =>
    obtain ⟨e1, e2, e3, e4⟩ := h3
    exact resolve_layout hsub e4 (repDocs_wf _ _ h.rep) e3 (h.size f0 (by simp)) (by omega) (by rw [e2]; exact hmd) hml hp hnow fuel hfu
  | [], h => exact h.rep.elim

theorem docs_of : ∀ (fss : List Fields), (∀ f ∈ fss, f.WF ∧ (encDoc f).length < 2147483648) → ∃ docs, RepDocs docs fss
  | [], _ => ⟨[], trivial⟩
  | f :: fss, h => by
    obtain ⟨docs, hd⟩ := docs_of fss fun g hg => h g (List.mem_cons_of_mem _ hg)
    obtain ⟨w, hl⟩ := h f (by simp)
    have h3 := readDocument_enc 2147483648 f w [] (by omega) (by simpa using hl)
    obtain ⟨d, _, h5⟩ := h3
    exact ⟨d :: docs, h5, hd⟩

/-- a chunk of the layout is what a collector writes, so it yields its samples -/
theorem laid_yields {fsub : Nat → Nat → Nat} (hsub : ∀ a b, a < 18446744073709551616 → b < 18446744073709551616 → fsub a b < 18446744073709551616)
    {zip : Bytes → Bytes} {unzip : Bytes → Option Bytes} (hz : ∀ b, unzip (zip b) = some b) {c : LaidChunk} (h : c.Good fsub zip) :
    ∃ gss : List (Fields × List Fields), (∀ g ∈ gss, g.1.WF ∧ (encDoc g.1).length < 2147483648) ∧
      (gss.map Prod.snd).flatten = backAll fsub ((c.first :: c.rest).map Fields.metrics) ∧
      c.bytes fsub zip = (gss.map (fun g => encDoc g.1)).flatten ∧ ∀ fuel, 10000000000 ≤ fuel → ∀ g ∈ gss, Yields unzip fuel g.1 g.2 := by
  obtain ⟨h0, h1, hm, hf, hr, hp⟩ := h
  obtain ⟨docs, hd⟩ := docs_of (c.first :: c.rest) fun f hfm => ⟨(hf f hfm).1, (hf f hfm).2.1⟩
  have hmd : ∃ md, RepMeta md c.metadata := by
    cases hc : c.metadata with
    | none => exact ⟨none, trivial⟩
    | some m =>
      obtain ⟨w, hl⟩ := hm m hc
      obtain ⟨ds, hds⟩ := docs_of [m] (by intro f hfm; simp at hfm; subst hfm; exact ⟨w, by omega⟩)
      match ds, hds with
      | [d], hds => exact ⟨some d, hds.1⟩
  obtain ⟨md, hmd⟩ := hmd
  have hrun : Run docs (c.first :: c.rest) := ⟨hd, fun f hfm => (hf f hfm).2.1, fun f hfm => (hf f hfm).2.2⟩
  obtain ⟨col, hfill⟩ := run_filled (fsub := fsub) (n := 2147483648) (md := md) (max := c.rest.length) hrun (by simp) (Nat.le_refl _)
  have hlay := fun fuel hfu => filled_layout hsub (zip := zip) (now := ⟨c.ms / 1000, c.ms % 1000 * 1000000⟩) hrun hfill (Nat.le_refl _) (Nat.le_refl _) hr hmd
    (fun f hfm => (hm f hfm).2) hp (by simp only; omega) fuel hfu
  have hms : i64 (c.ms / 1000 * 1000 + c.ms % 1000 * 1000000 / 1000000) = c.ms := by unfold i64; omega
  simp only [hms] at hlay
  have hmd' : ∀ m, md = some m → ∃ mfs, RepFields m mfs ∧ (encDoc mfs).length ≤ 2147483000 := by
    rintro m rfl
    cases hc : c.metadata with
    | none => rw [hc] at hmd; exact hmd.elim
    | some mf => rw [hc] at hmd; exact ⟨mf, hmd, (hm mf hc).2⟩
  obtain ⟨gss, g1, g2, g3⟩ := run_yields hsub hz hrun (by simp) hfill (by simp) (Nat.le_refl _) (by simp; omega) hmd' (by
    rintro p ⟨N, hN⟩
    have hst := filled_state hrun hfill (by simp) (Nat.le_refl _)
    match docs, hrun, hst with
    | d0 :: docs, hrun, hst =>
      obtain ⟨e1, e2, e3, e4⟩ := hst
      have a := payload_ok e4 e3 (hrun.size c.first (by simp)) (by simp; omega) (max N 2147483648) (by have := hrun.size c.first (by simp); omega)
      have hN' := hN _ (Nat.le_max_left N 2147483648)
      simp only at hN'
      rw [hN', payload_layout hsub e4 (repDocs_wf _ _ hrun.rep) (hrun.size c.first (by simp)) (by omega)] at a
      cases a
      exact hp
    | [], hrun, _ => exact hrun.rep.elim) ⟨c.ms / 1000, c.ms % 1000 * 1000000⟩
  refine ⟨gss, g1, g2, ?_, fun fuel hfu => (g3 fuel hfu).2⟩
  have a := hlay 10000000000 (Nat.le_refl _)
  rw [(g3 10000000000 (Nat.le_refl _)).1] at a
  exact (Res.ok.inj a).symm

theorem laid_all {fsub : Nat → Nat → Nat} (hsub : ∀ a b, a < 18446744073709551616 → b < 18446744073709551616 → fsub a b < 18446744073709551616)
    {zip : Bytes → Bytes} {unzip : Bytes → Option Bytes} (hz : ∀ b, unzip (zip b) = some b) : ∀ (cs : List LaidChunk), (∀ c ∈ cs, c.Good fsub zip) →
    ∃ gss : List (Fields × List Fields), (∀ g ∈ gss, g.1.WF ∧ (encDoc g.1).length < 2147483648) ∧
      (gss.map Prod.snd).flatten = backChunks fsub (cs.map fun c => c.first :: c.rest) ∧
      cs.flatMap (LaidChunk.bytes fsub zip) = (gss.map (fun g => encDoc g.1)).flatten ∧ ∀ fuel, 10000000000 ≤ fuel → ∀ g ∈ gss, Yields unzip fuel g.1 g.2
  | [], _ => ⟨[], by simp, by simp [backChunks], by simp, by simp⟩
  | c :: cs, h => by
    obtain ⟨g, a1, a2, a3, a4⟩ := laid_yields hsub hz (h c (by simp))
    obtain ⟨gs, b1, b2, b3, b4⟩ := laid_all hsub hz cs fun x hx => h x (List.mem_cons_of_mem _ hx)
    refine ⟨g ++ gs, ?_, ?_, ?_, ?_⟩
    · intro x hx; rcases List.mem_append.mp hx with hx | hx
      · exact a1 x hx
      · exact b1 x hx
    · rw [List.map_append, List.flatten_append, a2, b2]; simp [backChunks]
    · rw [List.flatMap_cons, a3, b3]; simp
    · intro fuel hf x hx; rcases List.mem_append.mp hx with hx | hx
      · exact a4 fuel hf x hx
      · exact b4 fuel hf x hx

end Birch.Proofs.Ftdc
