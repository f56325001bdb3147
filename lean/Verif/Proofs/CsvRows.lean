import Verif.Spec.CsvRows
import Verif.Proofs.FtdcCsv
import Verif.Proofs.FtdcLayout
import Verif.Proofs.FtdcKinds

/- From a file of chunks to the rows of a table. -/

namespace Birch.Proofs.Ftdc
open Birch Model Model.Ftdc Spec

/-- the number of an integer -/
def intOf : Num → Int
  | .int a => a
  | .dbl _ => 0

theorem wrapMs_kept {ms : Int} (h : -9223372036854 ≤ ms ∧ ms ≤ 9223372036854) : wrapMs ms = ms := by
  unfold wrapMs
  rw [show i64 (ms * 1000000) = ms * 1000000 by unfold i64; omega]
  exact Int.mul_tdiv_cancel _ (by decide)

mutual
/-- the starting values of metrics that are kept are the numbers -/
theorem kept_heads : ∀ t : BVal, t.WF → t.Kept → heads t = (nums t).map (fun p => intOf p.2) ∧ ∀ p ∈ nums t, ∃ a, p.2 = .int a ∧ I64 a
  | .doc fs, h, k => kept_headsF fs h k
  | .array vs, h, k => kept_headsV vs h k
  | .double _, _, k => k.elim
  | .timestamp _ _, _, k => k.elim
  | .bool b, _, _ => by cases b <;> simp [heads, nums, intOf, I64]
  | .datetime ms, h, k => by
    simp only [BVal.Kept] at k
    simp only [heads, nums, List.map_cons, List.map_nil, intOf, List.mem_singleton, forall_eq, Num.int.injEq, exists_eq_left', true_and, wrapMs_kept k, I64]
    omega
  | .int32 i, h, _ => by
    simp only [BVal.WF] at h
    simp only [heads, nums, List.map_cons, List.map_nil, intOf, List.mem_singleton, forall_eq, Num.int.injEq, exists_eq_left', true_and, I64]
    omega
  | .int64 i, h, _ => by
    simp only [BVal.WF] at h
    simp only [heads, nums, List.map_cons, List.map_nil, intOf, List.mem_singleton, forall_eq, Num.int.injEq, exists_eq_left', true_and, I64]
    omega
  | .string _, _, _ | .binary _ _, _, _ | .undefined, _, _ | .oid _, _, _ | .null, _, _ | .regex _ _, _, _ | .dbpointer _ _, _, _ | .js _, _, _ | .symbol _, _, _ | .codeScope _ _, _, _
  | .decimal _ _, _, _ | .minKey, _, _ | .maxKey, _, _ => by simp [heads, nums]
theorem kept_headsF : ∀ fs : Fields, fs.WF → fs.Kept → headsF fs = (numsF fs).map (fun p => intOf p.2) ∧ ∀ p ∈ numsF fs, ∃ a, p.2 = .int a ∧ I64 a
  | .nil, _, _ => by simp [headsF, numsF]
  | .cons _ v rest, h, k => by
    obtain ⟨a1, a2⟩ := kept_heads v h.2.1 k.1
    obtain ⟨b1, b2⟩ := kept_headsF rest h.2.2 k.2
    refine ⟨by simp [headsF, numsF, a1, b1], fun p hp => ?_⟩
    simp only [numsF] at hp
    rcases List.mem_append.mp hp with hp | hp
    · exact a2 p hp
    · exact b2 p hp
theorem kept_headsV : ∀ vs : Vals, vs.WF → vs.Kept → headsV vs = (numsV vs).map (fun p => intOf p.2) ∧ ∀ p ∈ numsV vs, ∃ a, p.2 = .int a ∧ I64 a
  | .nil, _, _ => by simp [headsV, numsV]
  | .cons v rest, h, k => by
    obtain ⟨a1, a2⟩ := kept_heads v h.1 k.1
    obtain ⟨b1, b2⟩ := kept_headsV rest h.2 k.2
    refine ⟨by simp [headsV, numsV, a1, b1], fun p hp => ?_⟩
    simp only [numsV] at hp
    rcases List.mem_append.mp hp with hp | hp
    · exact a2 p hp
    · exact b2 p hp
end

mutual
theorem csv_nums (date : Int → Bytes) : ∀ t : BVal, t.Kept → t.csv date = (nums t).map fun p => numberText date p.1 (intOf p.2)
  | .doc fs, k => csvF_nums date fs k
  | .array vs, k => csvV_nums date vs k
  | .double _, k => k.elim
  | .timestamp _ _, k => k.elim
  | .bool b, _ => by simp [BVal.csv, nums, numberText, intOf]
  | .datetime ms, k => by simp [BVal.csv, nums, numberText, intOf, wrapMs_kept k]
  | .int32 i, _ => by simp [BVal.csv, nums, numberText, intOf]
  | .int64 i, _ => by simp [BVal.csv, nums, numberText, intOf]
  | .string _, _ | .binary _ _, _ | .undefined, _ | .oid _, _ | .null, _ | .regex _ _, _ | .dbpointer _ _, _ | .js _, _ | .symbol _, _ | .codeScope _ _, _
  | .decimal _ _, _ | .minKey, _ | .maxKey, _ => by simp [BVal.csv, nums]
theorem csvF_nums (date : Int → Bytes) : ∀ fs : Fields, fs.Kept → fs.csv date = (numsF fs).map fun p => numberText date p.1 (intOf p.2)
  | .nil, _ => rfl
  | .cons _ v rest, k => by simp [Fields.csv, numsF, csv_nums date v k.1, csvF_nums date rest k.2]
theorem csvV_nums (date : Int → Bytes) : ∀ vs : Vals, vs.Kept → vs.csv date = (numsV vs).map fun p => numberText date p.1 (intOf p.2)
  | .nil, _ => rfl
  | .cons v rest, k => by simp [Vals.csv, numsV, csv_nums date v k.1, csvV_nums date rest k.2]
end

theorem chunkMetrics_types {fsub : Nat → Nat → Nat} {c : Better} {d0 : Doc} {f0 : Fields} {hs : List Row} (h : Holds fsub c d0 (numsF f0) hs) :
    (chunkMetrics c f0).map Metric.originalType = (numsF f0).map Prod.fst := by
  have h1 : (metsF [] f0).map Metric.originalType = (numsF f0).map Prod.fst := by
    have := congrArg (List.map Prod.fst) (metsF_head [] f0)
    rw [List.map_map, List.map_fst_zip (by simp [length_numsF, length_headsF])] at this
    exact this
  rw [← h1]
  unfold chunkMetrics
  rw [List.map_zipWith]
  apply List.ext_getElem
  · simp [rows_length, length_metsF, last_length h, length_numsF]
  · intro i h2 h3
    simp [series]

/-- what is known of the metrics of a chunk with the samples `f0 :: fss` -/
structure Content (fsub : Nat → Nat → Nat) (f0 : Fields) (fss : List Fields) (ms : List Metric) : Prop where
  types : ms.map Metric.originalType = (numsF f0).map Prod.fst
  first : ∀ (i : Nat) hd x0, (headsF f0)[i]? = some hd → (numsF f0)[i]? = some x0 → valueAt ms i 0 = .ok hd
  next : ∀ (i : Nat) hd x0, (headsF f0)[i]? = some hd → (numsF f0)[i]? = some x0 → ∀ j rp rc xp xc, (f0 :: fss)[j]? = some rp → fss[j]? = some rc →
    (numsF rp)[i]? = some xp → (numsF rc)[i]? = some xc → valueAt ms i (j + 1) = .ok (bkv fsub hd x0.2 xp.2 xc.2)

/-- reading the payload of a chunk -/
theorem laid_content {fsub : Nat → Nat → Nat} (hsub : ∀ a b, a < 18446744073709551616 → b < 18446744073709551616 → fsub a b < 18446744073709551616)
    {zip : Bytes → Bytes} {c : LaidChunk} (h : c.Good fsub zip) : ∃ ms, Content fsub c.first c.rest ms ∧ ∀ fuel, 2147483648 ≤ fuel → ∀ md, ∃ ch, ch.metrics = ms ∧
      ch.nPoints = c.rest.length + 1 ∧ Good ch c.first ∧ readPayload fuel md (chunkPayload fsub c.first c.rest) = .ok ch := by
  obtain ⟨h0, h1, hm, hf, hr, hp⟩ := h
  obtain ⟨docs, hd⟩ := docs_of (c.first :: c.rest) fun f hfm => ⟨(hf f hfm).1, (hf f hfm).2.1⟩
  have hrun : Run docs (c.first :: c.rest) := ⟨hd, fun f hfm => (hf f hfm).2.1, fun f hfm => (hf f hfm).2.2⟩
  obtain ⟨col, hfill⟩ := run_filled (fsub := fsub) (n := 2147483648) (md := none) (max := c.rest.length) hrun (by simp) (Nat.le_refl _)
  have hst := filled_state hrun hfill (by simp) (Nat.le_refl _)
  match docs, hrun, hst with
  | [], hrun, _ => exact hrun.rep.elim
  | d0 :: docs, hrun, hst =>
    obtain ⟨e1, e2, e3, e4⟩ := hst
    have hs0 := hrun.size c.first (by simp)
    have hl := payload_layout hsub e4 (repDocs_wf _ _ hrun.rep) hs0 (by omega)
    refine ⟨chunkMetrics col c.first, ⟨chunkMetrics_types e4, fun i hd x0 a b => (chunk_value e4 a b).1, ?_⟩, fun fuel hfu md => ?_⟩
    · intro i hd x0 a b j rp rc xp xc p1 p2 p3 p4
      refine (chunk_value e4 a b).2 j (numsF rp) (numsF rc) xp xc ?_ ?_ p3 p4
      · rw [← List.map_cons, List.getElem?_map, p1]; rfl
      · rw [List.getElem?_map, p2]; rfl
    · obtain ⟨ref, r1, r2⟩ := readPayload_ok e4 (hf c.first (by simp)).1 hs0 (by simp; omega) fuel (by omega) md
      rw [hl] at r2
      refine ⟨_, rfl, by simp, ?_, r2⟩
      unfold chunkPayload at r2
      rw [List.append_assoc, List.append_assoc] at r2
      exact readPayload_good (hf c.first (by simp)).1 hs0 (by omega) r2

theorem valueAt_ok {ms : List Metric} {i j : Nat} {x : Int} (h : valueAt ms i j = .ok x) {m : Metric} (hm : ms[i]? = some m) : m.values[j]? = some x := by
  unfold valueAt at h
  rw [hm] at h
  simp only at h
  cases hv : m.values[j]? with
  | none => rw [hv] at h; cases h
  | some y => rw [hv] at h; cases h; rfl

/-- the rows of a chunk of documents that are kept -/
theorem content_rows {fsub : Nat → Nat → Nat} {f0 : Fields} {fss : List Fields} {ch : Chunk} (date : Int → Bytes) (h : Content fsub f0 fss ch.metrics) (hn : ch.nPoints = fss.length + 1)
    (wf : ∀ f ∈ f0 :: fss, f.WF ∧ f.Kept ∧ f0.metrics.SameShape f.metrics) {rows : List (List Bytes)} (ht : IsTable date ch rows) : rows = (f0 :: fss).map (Fields.csv date) := by
  obtain ⟨k1, k2⟩ := kept_headsF f0 (wf f0 (by simp)).1 (wf f0 (by simp)).2.1
  have hlen : ∀ f ∈ f0 :: fss, (numsF f).map Prod.fst = (numsF f0).map Prod.fst := by
    intro f hf
    have := typesF_shape _ _ (wf f hf).2.2
    rw [numsF_metrics, numsF_metrics] at this
    exact this.symm
  have hml : ch.metrics.length = (numsF f0).length := by simpa using congrArg List.length h.types
  apply List.ext_getElem
  · rw [ht.1, hn]; simp
  · intro j hj1 hj2
    rw [List.getElem_map]
    obtain ⟨r1, r2⟩ := ht.2 j rows[j] (List.getElem?_eq_getElem hj1)
    simp only [List.length_map] at hj2
    have hf : (f0 :: fss)[j] ∈ f0 :: fss := List.getElem_mem hj2
    have hfe : (f0 :: fss)[j]? = some (f0 :: fss)[j] := List.getElem?_eq_getElem hj2
    generalize (f0 :: fss)[j] = f at hf hfe
    rw [csvF_nums date f (wf f hf).2.1]
    have hfl : (numsF f).length = (numsF f0).length := by simpa using congrArg List.length (hlen f hf)
    apply List.ext_getElem
    · rw [r1, hml, List.length_map, hfl]
    · intro i hi1 hi2
      have hi : i < ch.metrics.length := by rw [← r1]; exact hi1
      obtain ⟨x, x1, x2⟩ := r2 i ch.metrics[i] (List.getElem?_eq_getElem hi)
      have hty : ch.metrics[i].originalType = (numsF f0)[i].1 := by
        have := congrArg (·[i]?) h.types
        simpa [List.getElem?_eq_getElem hi, List.getElem?_eq_getElem (show i < (numsF f0).length by omega)] using this
      have hty' : (numsF f)[i].1 = (numsF f0)[i].1 := by
        have := congrArg (·[i]?) (hlen f hf)
        simpa [List.getElem?_eq_getElem (show i < (numsF f).length by omega), List.getElem?_eq_getElem (show i < (numsF f0).length by omega)] using this
      have hx : x = intOf (numsF f)[i].2 := by
        have g0 : (numsF f0)[i]? = some (numsF f0)[i] := List.getElem?_eq_getElem (by omega)
        have gh : (headsF f0)[i]? = some (intOf (numsF f0)[i].2) := by rw [k1, List.getElem?_map, g0]; rfl
        cases j with
        | zero =>
          simp only [List.getElem?_cons_zero, Option.some.injEq] at hfe
          subst hfe
          have := valueAt_ok (h.first i _ _ gh g0) (List.getElem?_eq_getElem hi)
          rw [x1] at this
          exact Option.some.inj this
        | succ j =>
          simp only [List.getElem?_cons_succ] at hfe
          have hp : (f0 :: fss)[j]? = some (f0 :: fss)[j] := List.getElem?_eq_getElem (by omega)
          have hpm : (f0 :: fss)[j] ∈ f0 :: fss := List.getElem_mem _
          have hpl : (numsF (f0 :: fss)[j]).length = (numsF f0).length := by simpa using congrArg List.length (hlen _ hpm)
          have gp : (numsF (f0 :: fss)[j])[i]? = some (numsF (f0 :: fss)[j])[i] := List.getElem?_eq_getElem (by omega)
          have gc : (numsF f)[i]? = some (numsF f)[i] := List.getElem?_eq_getElem (by omega)
          have := valueAt_ok (h.next i _ _ gh g0 j _ _ _ _ hp hfe gp gc) (List.getElem?_eq_getElem hi)
          rw [x1] at this
          obtain ⟨a, a1, _⟩ := k2 _ (List.getElem_mem (show i < (numsF f0).length by omega))
          obtain ⟨b, b1, b2⟩ := (kept_headsF f (wf f hf).1 (wf f hf).2.1).2 _ (List.getElem_mem (show i < (numsF f).length by omega))
          rw [a1, b1] at this
          rw [b1, Option.some.inj this]
          simp only [bkv, intOf]
          unfold I64 at b2
          unfold i64; omega
      have e1 : rows[j][i]? = some rows[j][i] := List.getElem?_eq_getElem (by omega)
      rw [x2] at e1
      rw [← Option.some.inj e1, List.getElem_map, hty, hx, hty']

/-! ### reading a file -/

/-- the documents of a chunk in a file -/
def rowDocs (fsub : Nat → Nat → Nat) (zip : Bytes → Bytes) (c : LaidChunk) : List Fields :=
  (match c.metadata with | none => [] | some m => [metaDocument c.ms m]) ++
    [chunkDocument c.ms (le32 ((chunkPayload fsub c.first c.rest).length % 4294967296) ++ zip (chunkPayload fsub c.first c.rest))]

theorem rowDocs_bytes (fsub : Nat → Nat → Nat) (zip : Bytes → Bytes) (c : LaidChunk) : c.bytes fsub zip = ((rowDocs fsub zip c).map encDoc).flatten := by
  unfold LaidChunk.bytes chunkLayout rowDocs
  cases c.metadata <;> simp

theorem rowDocs_wf {fsub : Nat → Nat → Nat} {zip : Bytes → Bytes} {c : LaidChunk} (h : c.Good fsub zip) : ∀ f ∈ rowDocs fsub zip c, f.WF ∧ (encDoc f).length < 2147483648 := by
  obtain ⟨h0, h1, hm, _, _, hp⟩ := h
  have hc : ∀ b : Bytes, b.length ≤ 2147482004 → (chunkDocument c.ms b).WF ∧ (encDoc (chunkDocument c.ms b)).length < 2147483648 := by
    intro b hb
    constructor
    · simp [chunkDocument, Fields.WF, BVal.WF, NulFree]; omega
    · simp [chunkDocument, encDoc, Fields.enc, BVal.enc]; omega
  intro f hf
  unfold rowDocs at hf
  rcases List.mem_append.mp hf with hf | hf
  · cases hmd : c.metadata with
    | none => rw [hmd] at hf; cases hf
    | some m =>
      rw [hmd] at hf
      simp only [List.mem_singleton] at hf
      subst hf
      obtain ⟨w, l⟩ := hm m hmd
      constructor
      · simp [metaDocument, Fields.WF, BVal.WF, NulFree, w]; omega
      · simp [metaDocument, encDoc, Fields.enc, BVal.enc] at l ⊢; omega
  · simp only [List.mem_singleton] at hf
    subst hf
    exact hc _ (by simp; omega)

/-! ### the rows of any chunk -/

/-- the fields of a row from the starting values and the numbers of the first sample, the one before and the sample itself -/
def fieldsOf (sub : Nat → Nat → Nat) (date : Int → Bytes) : List Int → (f p c : Row) → List Bytes
  | h :: hs, x :: f, y :: p, z :: c => numberText date x.1 (bkv sub h x.2 y.2 z.2) :: fieldsOf sub date hs f p c
  | _, _, _, _ => []

theorem fieldsOf_append (sub : Nat → Nat → Nat) (date : Int → Bytes) (hs' : List Int) (f' p' c' : Row) : ∀ (hs : List Int) (f p c : Row), f.length = hs.length → p.length = hs.length →
    c.length = hs.length → fieldsOf sub date (hs ++ hs') (f ++ f') (p ++ p') (c ++ c') = fieldsOf sub date hs f p c ++ fieldsOf sub date hs' f' p' c'
  | [], [], [], [], _, _, _ => by simp [fieldsOf]
  | h :: hs, x :: f, y :: p, z :: c, h1, h2, h3 => by
    simp only [List.cons_append, fieldsOf, fieldsOf_append sub date hs' f' p' c' hs f p c (by simpa using h1) (by simpa using h2) (by simpa using h3)]

theorem fieldsOf_get (sub : Nat → Nat → Nat) (date : Int → Bytes) : ∀ (hs : List Int) (f p c : Row) (i : Nat) (h : Int) (x y z : UInt8 × Num),
    hs[i]? = some h → f[i]? = some x → p[i]? = some y → c[i]? = some z → (fieldsOf sub date hs f p c)[i]? = some (numberText date x.1 (bkv sub h x.2 y.2 z.2))
  | [], _, _, _, _, _, _, _, _, h, _, _, _ => by cases h
  | _ :: _, [], _, _, _, _, _, _, _, _, h, _, _ => by cases h
  | _ :: _, _ :: _, [], _, _, _, _, _, _, _, _, h, _ => by cases h
  | _ :: _, _ :: _, _ :: _, [], _, _, _, _, _, _, _, _, h => by cases h
  | _ :: hs, _ :: f, _ :: p, _ :: c, 0, _, _, _, _, h1, h2, h3, h4 => by cases h1; cases h2; cases h3; cases h4; rfl
  | _ :: hs, _ :: f, _ :: p, _ :: c, i + 1, h, x, y, z, h1, h2, h3, h4 => fieldsOf_get sub date hs f p c i h x y z h1 h2 h3 h4

theorem fieldsOf_length (sub : Nat → Nat → Nat) (date : Int → Bytes) : ∀ (hs : List Int) (f p c : Row), f.length = hs.length → p.length = hs.length →
    c.length = hs.length → (fieldsOf sub date hs f p c).length = hs.length
  | [], [], [], [], _, _, _ => rfl
  | h :: hs, x :: f, y :: p, z :: c, h1, h2, h3 => by
    simp only [fieldsOf, List.length_cons, fieldsOf_length sub date hs f p c (by simpa using h1) (by simpa using h2) (by simpa using h3)]

mutual
theorem heads_length : ∀ t : BVal, (heads t).length = (nums t).length
  | .doc fs => by simp only [heads, nums, headsF_length fs]
  | .array vs => by simp only [heads, nums, headsV_length vs]
  | .double _ | .bool _ | .datetime _ | .int32 _ | .int64 _ | .timestamp _ _ => by simp [heads, nums]
  | .string _ | .binary _ _ | .undefined | .oid _ | .null | .regex _ _ | .dbpointer _ _ | .js _ | .symbol _ | .codeScope _ _
  | .decimal _ _ | .minKey | .maxKey => by simp [heads, nums]
theorem headsF_length : ∀ fs : Fields, (headsF fs).length = (numsF fs).length
  | .nil => rfl
  | .cons _ v rest => by simp only [headsF, numsF, List.length_append, heads_length v, headsF_length rest]
theorem headsV_length : ∀ vs : Vals, (headsV vs).length = (numsV vs).length
  | .nil => rfl
  | .cons v rest => by simp only [headsV, numsV, List.length_append, heads_length v, headsV_length rest]
end

theorem shape_length {s t : BVal} (h : s.SameShape t) : (nums t).length = (heads s).length := by
  rw [heads_length]; simpa using (congrArg List.length (types_shape s t h)).symm

mutual
theorem after_fields (sub : Nat → Nat → Nat) (date : Int → Bytes) : ∀ f p c : BVal, f.WF → f.SameShape p → f.SameShape c → c.WF →
    f.csvAfter sub date p c = fieldsOf sub date (heads f) (nums f) (nums p) (nums c)
  | .doc f, p, c, wf, hp, hc, w => by
    cases p <;> first | exact hp.elim | skip
    cases c <;> first | exact hc.elim | skip
    simp only [BVal.csvAfter, heads, nums]
    exact after_fieldsF sub date f _ _ wf hp hc w
  | .array f, p, c, wf, hp, hc, w => by
    cases p <;> first | exact hp.elim | skip
    cases c <;> first | exact hc.elim | skip
    simp only [BVal.csvAfter, heads, nums]
    exact after_fieldsV sub date f _ _ wf hp hc w
  | .double _, p, c, wf, hp, hc, w => by
    simp only [BVal.SameShape] at hp hc
    cases p <;> first | (simp [BVal.tag] at hp; done) | skip
    cases c <;> first | (simp [BVal.tag] at hc; done) | skip
    simp [BVal.csvAfter, heads, nums, fieldsOf, bkv, numberText]
  | .timestamp t _, p, c, wf, hp, hc, w => by
    simp only [BVal.SameShape] at hp hc
    cases p <;> first | (simp [BVal.tag] at hp; done) | skip
    cases c <;> first | (simp [BVal.tag] at hc; done) | skip
    simp only [BVal.WF] at w wf
    simp [BVal.csvAfter, heads, nums, fieldsOf, bkv, numberText]
    constructor <;> congr 1 <;> unfold i64 <;> omega
  | .datetime _, p, c, wf, hp, hc, w => by
    simp only [BVal.SameShape] at hp hc
    cases p <;> first | (simp [BVal.tag] at hp; done) | skip
    cases c <;> first | (simp [BVal.tag] at hc; done) | skip
    rename_i a b ms
    have e : i64 (wrapMs a + wrapMs ms - wrapMs a) = wrapMs ms := by
      have := wrapMs_range ms
      unfold i64; omega
    simp [BVal.csvAfter, heads, nums, fieldsOf, bkv, numberText, e]
    rfl
  | .bool _, p, c, wf, hp, hc, w => by
    simp only [BVal.SameShape] at hp hc
    cases p <;> first | (simp [BVal.tag] at hp; done) | skip
    cases c <;> first | (simp [BVal.tag] at hc; done) | skip
    rename_i a b c
    simp only [BVal.csvAfter, BVal.csv, heads, nums, fieldsOf, bkv, numberText]
    cases a <;> cases c <;> simp <;> decide
  | .int32 _, p, c, wf, hp, hc, w | .int64 _, p, c, wf, hp, hc, w => by
    simp only [BVal.SameShape] at hp hc
    cases p <;> first | (simp [BVal.tag] at hp; done) | skip
    cases c <;> first | (simp [BVal.tag] at hc; done) | skip
    simp only [BVal.WF] at w
    simp [BVal.csvAfter, BVal.csv, heads, nums, fieldsOf, bkv, numberText]
    congr 1
    unfold i64; omega
  | .string _, p, c, _, _, hc, _ | .binary _ _, p, c, _, _, hc, _ | .undefined, p, c, _, _, hc, _ | .oid _, p, c, _, _, hc, _ | .null, p, c, _, _, hc, _ | .regex _ _, p, c, _, _, hc, _
  | .dbpointer _ _, p, c, _, _, hc, _ | .js _, p, c, _, _, hc, _ | .symbol _, p, c, _, _, hc, _ | .codeScope _ _, p, c, _, _, hc, _ | .decimal _ _, p, c, _, _, hc, _
  | .minKey, p, c, _, _, hc, _ | .maxKey, p, c, _, _, hc, _ => by
    simp only [BVal.SameShape] at hc
    cases c <;> first | (simp [BVal.tag] at hc; done) | (simp [BVal.csvAfter, BVal.csv, heads, nums, fieldsOf])
theorem after_fieldsF (sub : Nat → Nat → Nat) (date : Int → Bytes) : ∀ f p c : Fields, f.WF → f.SameShape p → f.SameShape c → c.WF →
    f.csvAfter sub date p c = fieldsOf sub date (headsF f) (numsF f) (numsF p) (numsF c)
  | .nil, p, c, _, _, _, _ => by simp [Fields.csvAfter, headsF, fieldsOf]
  | .cons k v f, p, c, wf, hp, hc, w => by
    cases p <;> first | exact hp.elim | skip
    cases c <;> first | exact hc.elim | skip
    simp only [Fields.SameShape] at hp hc
    simp only [Fields.csvAfter, headsF, numsF]
    rw [fieldsOf_append _ _ _ _ _ _ _ _ _ _ (heads_length v).symm (shape_length hp.2.1) (shape_length hc.2.1), after_fields sub date v _ _ wf.2.1 hp.2.1 hc.2.1 w.2.1,
      after_fieldsF sub date f _ _ wf.2.2 hp.2.2 hc.2.2 w.2.2]
theorem after_fieldsV (sub : Nat → Nat → Nat) (date : Int → Bytes) : ∀ f p c : Vals, f.WF → f.SameShape p → f.SameShape c → c.WF →
    f.csvAfter sub date p c = fieldsOf sub date (headsV f) (numsV f) (numsV p) (numsV c)
  | .nil, p, c, _, _, _, _ => by simp [Vals.csvAfter, headsV, fieldsOf]
  | .cons v f, p, c, wf, hp, hc, w => by
    cases p <;> first | exact hp.elim | skip
    cases c <;> first | exact hc.elim | skip
    simp only [Vals.SameShape] at hp hc
    simp only [Vals.csvAfter, headsV, numsV]
    rw [fieldsOf_append _ _ _ _ _ _ _ _ _ _ (heads_length v).symm (shape_length hp.1) (shape_length hc.1), after_fields sub date v _ _ wf.1 hp.1 hc.1 w.1,
      after_fieldsV sub date f _ _ wf.2 hp.2 hc.2 w.2]
end

mutual
/-- the number of a value and its starting value -/
theorem first_number : ∀ t : BVal, t.WF → ∀ (i : Nat) (h : Int) (x : UInt8 × Num), (heads t)[i]? = some h → (nums t)[i]? = some x → bkv (fun a _ => a) h x.2 x.2 x.2 = h
  | .doc fs, w, i, h, x, h1, h2 => by simp only [heads, nums] at h1 h2; exact first_numberF fs w i h x h1 h2
  | .array vs, w, i, h, x, h1, h2 => by simp only [heads, nums] at h1 h2; exact first_numberV vs w i h x h1 h2
  | .double _, w, i, h, x, h1, h2 | .bool _, w, i, h, x, h1, h2 | .datetime _, w, i, h, x, h1, h2 | .int32 _, w, i, h, x, h1, h2 | .int64 _, w, i, h, x, h1, h2 => by
    rcases i with _ | i
    · simp only [heads, nums, List.getElem?_cons_zero, Option.some.injEq] at h1 h2
      subst h1; subst h2
      first
        | rfl
        | (simp only [BVal.WF] at w; simp only [bkv]; unfold i64; omega)
        | (simp only [bkv]; split <;> decide)
        | (rename_i ms; have := wrapMs_range ms; simp only [bkv]; unfold i64; omega)
    · simp [heads] at h1
  | .timestamp _ _, w, i, h, x, h1, h2 => by
    simp only [BVal.WF] at w
    rcases i with _ | _ | i
    · simp only [heads, nums, List.getElem?_cons_zero, Option.some.injEq] at h1 h2
      subst h1; subst h2
      simp only [bkv]; unfold i64; omega
    · simp only [heads, nums, List.getElem?_cons_zero, List.getElem?_cons_succ, Nat.zero_add, Option.some.injEq] at h1 h2
      subst h1; subst h2
      simp only [bkv]; unfold i64; omega
    · simp [heads] at h1
  | .string _, _, _, _, _, h, _ | .binary _ _, _, _, _, _, h, _ | .undefined, _, _, _, _, h, _ | .oid _, _, _, _, _, h, _ | .null, _, _, _, _, h, _ | .regex _ _, _, _, _, _, h, _
  | .dbpointer _ _, _, _, _, _, h, _ | .js _, _, _, _, _, h, _ | .symbol _, _, _, _, _, h, _ | .codeScope _ _, _, _, _, _, h, _ | .decimal _ _, _, _, _, _, h, _
  | .minKey, _, _, _, _, h, _ | .maxKey, _, _, _, _, h, _ => by simp [heads] at h
theorem first_numberF : ∀ fs : Fields, fs.WF → ∀ (i : Nat) (h : Int) (x : UInt8 × Num), (headsF fs)[i]? = some h → (numsF fs)[i]? = some x → bkv (fun a _ => a) h x.2 x.2 x.2 = h
  | .nil, _, _, _, _, h, _ => by simp [headsF] at h
  | .cons k v rest, w, i, h, x, h1, h2 => by
    simp only [headsF, numsF, List.getElem?_append, heads_length] at h1 h2
    split at h1
    · next hi => rw [if_pos hi] at h2; exact first_number v w.2.1 i h x h1 h2
    · next hi => rw [if_neg hi] at h2; exact first_numberF rest w.2.2 _ h x h1 h2
theorem first_numberV : ∀ vs : Vals, vs.WF → ∀ (i : Nat) (h : Int) (x : UInt8 × Num), (headsV vs)[i]? = some h → (numsV vs)[i]? = some x → bkv (fun a _ => a) h x.2 x.2 x.2 = h
  | .nil, _, _, _, _, h, _ => by simp [headsV] at h
  | .cons v rest, w, i, h, x, h1, h2 => by
    simp only [headsV, numsV, List.getElem?_append, heads_length] at h1 h2
    split at h1
    · next hi => rw [if_pos hi] at h2; exact first_number v w.1 i h x h1 h2
    · next hi => rw [if_neg hi] at h2; exact first_numberV rest w.2 _ h x h1 h2
end

theorem csvFrom_length (sub : Nat → Nat → Nat) (date : Int → Bytes) (f : Fields) : ∀ (cs : List Fields) (p : Fields), (csvFrom sub date f p cs).length = cs.length
  | [], _ => rfl
  | c :: cs, _ => by simp only [csvFrom, List.length_cons, csvFrom_length sub date f cs c]

theorem csvFrom_get (sub : Nat → Nat → Nat) (date : Int → Bytes) (f : Fields) : ∀ (cs : List Fields) (p : Fields) (j : Nat) (q c : Fields), (p :: cs)[j]? = some q → cs[j]? = some c →
    (csvFrom sub date f p cs)[j]? = some (f.csvAfter sub date q c)
  | [], _, _, _, _, _, h => by cases h
  | _ :: cs, _, 0, _, _, h1, h2 => by cases h1; cases h2; rfl
  | c :: cs, _, j + 1, q, c', h1, h2 => csvFrom_get sub date f cs c j q c' h1 h2

/-- the rows of any chunk -/
theorem content_csv {fsub : Nat → Nat → Nat} {f0 : Fields} {fss : List Fields} {ch : Chunk} (date : Int → Bytes) (h : Content fsub f0 fss ch.metrics) (hn : ch.nPoints = fss.length + 1)
    (wf : ∀ f ∈ f0 :: fss, f.WF ∧ f0.metrics.SameShape f.metrics) {rows : List (List Bytes)} (ht : IsTable date ch rows) :
    rows = csvRows fsub date f0.metrics (fss.map Fields.metrics) := by
  have hlen : ∀ f ∈ f0 :: fss, (numsF f).length = (numsF f0).length := by
    intro f hf
    have := congrArg List.length (typesF_shape _ _ (wf f hf).2)
    simp only [numsF_metrics, List.length_map] at this
    exact this.symm
  have hml : ch.metrics.length = (numsF f0).length := by simpa using congrArg List.length h.types
  have hhl := headsF_length f0
  -- a row is determined by its numbers
  have row_eq : ∀ (j : Nat) (row : List Bytes) (sub : Nat → Nat → Nat) (p c : Fields), rows[j]? = some row → p ∈ f0 :: fss → c ∈ f0 :: fss →
      (∀ (i : Nat) hd x0 xp xc, (headsF f0)[i]? = some hd → (numsF f0)[i]? = some x0 → (numsF p)[i]? = some xp → (numsF c)[i]? = some xc →
        valueAt ch.metrics i j = .ok (bkv sub hd x0.2 xp.2 xc.2)) → row = f0.metrics.csvAfter sub date p.metrics c.metrics := by
    intro j row sub p c hr hp hc hv
    rw [after_fieldsF sub date _ _ _ (wf_metrics _ (wf f0 (by simp)).1) (wf p hp).2 (wf c hc).2 (wf_metrics _ (wf c hc).1), headsF_metrics, numsF_metrics, numsF_metrics, numsF_metrics]
    obtain ⟨r1, r2⟩ := ht.2 j row hr
    have hpl := hlen p hp
    have hcl := hlen c hc
    have hfl := fieldsOf_length sub date (headsF f0) (numsF f0) (numsF p) (numsF c) (by omega) (by omega) (by omega)
    apply List.ext_getElem
    · omega
    · intro i h1 h2
      have hi : i < ch.metrics.length := by omega
      obtain ⟨x, x1, x2⟩ := r2 i ch.metrics[i] (List.getElem?_eq_getElem hi)
      have g0 : (headsF f0)[i]? = some (headsF f0)[i] := List.getElem?_eq_getElem (by omega)
      have g1 : (numsF f0)[i]? = some (numsF f0)[i] := List.getElem?_eq_getElem (by omega)
      have g2 : (numsF p)[i]? = some (numsF p)[i] := List.getElem?_eq_getElem (by omega)
      have g3 : (numsF c)[i]? = some (numsF c)[i] := List.getElem?_eq_getElem (by omega)
      have e1 := valueAt_ok (hv i _ _ _ _ g0 g1 g2 g3) (List.getElem?_eq_getElem hi)
      rw [x1] at e1
      have hty : ch.metrics[i].originalType = (numsF f0)[i].1 := by
        have := congrArg (·[i]?) h.types
        simpa [List.getElem?_eq_getElem hi, g1] using this
      have e2 := fieldsOf_get sub date _ _ _ _ i _ _ _ _ g0 g1 g2 g3
      rw [List.getElem?_eq_getElem h2] at e2
      rw [List.getElem?_eq_getElem h1] at x2
      rw [Option.some.inj e2, Option.some.inj x2, hty, Option.some.inj e1]
  apply List.ext_getElem
  · rw [ht.1, hn]; simp [csvRows, csvFrom_length]
  · intro j h1 h2
    have hr : rows[j]? = some rows[j] := List.getElem?_eq_getElem h1
    have hj : j < fss.length + 1 := by rw [← hn, ← ht.1]; exact h1
    apply Option.some.inj
    rw [← List.getElem?_eq_getElem h2]
    cases j with
    | zero =>
      simp only [csvRows, List.getElem?_cons_zero]
      congr 1
      refine row_eq 0 _ _ f0 f0 hr (by simp) (by simp) fun i hd x0 xp xc a b c d => ?_
      rw [b] at c d
      cases c; cases d
      rw [first_numberF f0 (wf f0 (by simp)).1 i hd x0 a b]
      exact h.first i hd x0 a b
    | succ j =>
      have hj' : j < (f0 :: fss).length := by simp only [List.length_cons]; omega
      have hp : (f0 :: fss)[j]? = some (f0 :: fss)[j] := List.getElem?_eq_getElem hj'
      have hc : fss[j]? = some fss[j] := List.getElem?_eq_getElem (by omega)
      simp only [csvRows, List.getElem?_cons_succ]
      rw [csvFrom_get fsub date f0.metrics (fss.map Fields.metrics) f0.metrics j (f0 :: fss)[j].metrics fss[j].metrics (by rw [← List.map_cons, List.getElem?_map, hp]; rfl)
        (by rw [List.getElem?_map, hc]; rfl)]
      congr 1
      exact row_eq (j + 1) _ _ _ _ hr (List.getElem_mem _) (List.mem_cons_of_mem _ (List.getElem_mem _)) fun i hd x0 xp xc a b c d => h.next i hd x0 a b j _ _ xp xc hp hc c d

/-- chunks that were read from a file, and what it consists of -/
def AreRead (fsub : Nat → Nat → Nat) : List LaidChunk → List Chunk → Prop
  | [], chs => chs = []
  | c :: cs, chs => ∃ ch rest, chs = ch :: rest ∧ Content fsub c.first c.rest ch.metrics ∧ ch.nPoints = c.rest.length + 1 ∧ Good ch c.first ∧ AreRead fsub cs rest

theorem laid_readChunks {fsub : Nat → Nat → Nat} (hsub : ∀ a b, a < 18446744073709551616 → b < 18446744073709551616 → fsub a b < 18446744073709551616)
    {zip : Bytes → Bytes} {unzip : Bytes → Option Bytes} (hz : ∀ b, unzip (zip b) = some b) {fuel : Nat} (hf : 2147483648 ≤ fuel) : ∀ (cs : List LaidChunk) (docs : List Doc) (md : Option Doc),
    (∀ c ∈ cs, c.Good fsub zip) → RepDocs docs (cs.flatMap (rowDocs fsub zip)) → ∃ chs, readChunks unzip fuel md docs = (chs, .ok ()) ∧ AreRead fsub cs chs
  | [], docs, md, _, h => by
    cases docs with
    | nil => exact ⟨[], rfl, rfl⟩
    | cons d docs => exact h.elim
  | c :: cs, docs, md, hg, h => by
    have one : ∀ (d : Doc) (docs : List Doc) (md : Option Doc), RepFields d (chunkDocument c.ms (le32 ((chunkPayload fsub c.first c.rest).length % 4294967296) ++
        zip (chunkPayload fsub c.first c.rest))) → RepDocs docs (cs.flatMap (rowDocs fsub zip)) → ∃ chs, readChunks unzip fuel md (d :: docs) = (chs, .ok ()) ∧ AreRead fsub (c :: cs) chs := by
      intro d docs md h1 h2
      obtain ⟨ms, c1, c2⟩ := laid_content hsub (hg c (by simp))
      obtain ⟨ch, d1, d2, d3, d4⟩ := c2 fuel hf md
      obtain ⟨chs, e1, e2⟩ := laid_readChunks hsub hz hf cs docs md (fun x hx => hg x (by simp [hx])) h2
      refine ⟨ch :: chs, ?_, ch, chs, rfl, by rw [d1]; exact c1, d2, d3, e2⟩
      have hr : readChunkDoc unzip fuel md d = .ok (md, some ch) := by
        obtain ⟨h', _⟩ | ⟨t, h', hn, _⟩ | ⟨z, ⟨st, b, z1, z2, z3⟩, hr⟩ := doc_chunk h1 (by exact ⟨_, rfl, by simp [IsOne]⟩) unzip fuel md
        · cases h'
        · exact absurd ⟨_, _, rfl, by simp, rfl⟩ (hn (zip (chunkPayload fsub c.first c.rest)))
        · cases z1
          rw [hr, z3]
          have : List.drop 4 (le32 ((chunkPayload fsub c.first c.rest).length % 4294967296) ++ zip (chunkPayload fsub c.first c.rest)) = zip (chunkPayload fsub c.first c.rest) := by
            rw [List.drop_append_of_le_length (by simp), List.drop_of_length_le (by simp), List.nil_append]
          rw [this, hz]
          simp only [d4]
          rfl
      unfold readChunks
      simp only [hr, e1]
      rfl
    unfold rowDocs at h
    rw [List.flatMap_cons] at h
    cases hm : c.metadata with
    | none =>
      rw [hm] at h
      match docs, h with
      | d :: docs, h => exact one d docs md h.1 h.2
    | some m =>
      rw [hm] at h
      match docs, h with
      | e :: d :: docs, h =>
        obtain ⟨chs, h1, h2⟩ := one d docs (some e) h.2.1 h.2.2
        refine ⟨chs, ?_, h2⟩
        rw [readChunks, doc_meta h.1 (by exact ⟨_, rfl, by simp [IsZero]⟩) unzip fuel md]
        simp only [h1]
        rfl

/-- reading a file of chunks -/
theorem laid_readAll {fsub : Nat → Nat → Nat} (hsub : ∀ a b, a < 18446744073709551616 → b < 18446744073709551616 → fsub a b < 18446744073709551616)
    {zip : Bytes → Bytes} {unzip : Bytes → Option Bytes} (hz : ∀ b, unzip (zip b) = some b) {cs : List LaidChunk} (h : ∀ c ∈ cs, c.Good fsub zip) (s : Stream.Source)
    (hs : s.left = cs.flatMap (LaidChunk.bytes fsub zip)) : ∃ M, ∀ m, M ≤ m → ∃ chs, readAll unzip m s = (chs, .ok ()) ∧ AreRead fsub cs chs := by
  refine ⟨(cs.flatMap (rowDocs fsub zip)).length + 4294967296, fun m hm => ?_⟩
  have wf : ∀ f ∈ cs.flatMap (rowDocs fsub zip), f.WF ∧ (encDoc f).length < 2147483648 := by
    intro f hf
    obtain ⟨c, hc, hf⟩ := List.mem_flatMap.mp hf
    exact rowDocs_wf (h c hc) f hf
  obtain ⟨docs, h1, h2⟩ := readDiagnostic_ok (cs.flatMap (rowDocs fsub zip)) m s wf (fun f hf => by have := (wf f hf).2; omega) (by omega) (by
    rw [hs]
    clear hs h wf hm
    induction cs with
    | nil => rfl
    | cons c cs ih => rw [List.flatMap_cons, List.flatMap_cons, List.map_append, List.flatten_append, ih, rowDocs_bytes])
  obtain ⟨chs, h3, h4⟩ := laid_readChunks hsub hz (show 2147483648 ≤ m by omega) cs docs none h h2
  refine ⟨chs, ?_, h4⟩
  unfold readAll
  simp only [h1, h3]

/-- the tables of chunks of documents that are kept -/
theorem read_tables {fsub : Nat → Nat → Nat} (date : Int → Bytes) : ∀ (cs : List LaidChunk) (chs : List Chunk) (ts : List (List (List Bytes))), AreRead fsub cs chs →
    (∀ c ∈ cs, ∀ f ∈ c.first :: c.rest, f.WF ∧ f.Kept ∧ c.first.metrics.SameShape f.metrics) → AreTables date chs ts →
    ts.flatten = (cs.flatMap fun c => c.first :: c.rest).map (Fields.csv date)
  | [], _, ts, h, _, ht => by cases h; cases ht; rfl
  | c :: cs, _, ts, ⟨ch, rest, e, h1, h2, _, h4⟩, wf, ht => by
    subst e
    obtain ⟨t, ts', rfl, t1, t2⟩ := ht
    rw [List.flatten_cons, content_rows date h1 h2 (wf c (by simp)) t1, read_tables date cs rest ts' h4 (fun x hx => wf x (by simp [hx])) t2]
    simp

/-- the tables of any chunks -/
theorem read_csv {fsub : Nat → Nat → Nat} (date : Int → Bytes) : ∀ (cs : List LaidChunk) (chs : List Chunk) (ts : List (List (List Bytes))), AreRead fsub cs chs →
    (∀ c ∈ cs, ∀ f ∈ c.first :: c.rest, f.WF ∧ c.first.metrics.SameShape f.metrics) → AreTables date chs ts →
    ts.flatten = cs.flatMap fun c => csvRows fsub date c.first.metrics (c.rest.map Fields.metrics)
  | [], _, ts, h, _, ht => by cases h; cases ht; rfl
  | c :: cs, _, ts, ⟨ch, rest, e, h1, h2, _, h4⟩, wf, ht => by
    subst e
    obtain ⟨t, ts', rfl, t1, t2⟩ := ht
    rw [List.flatten_cons, content_csv date h1 h2 (wf c (by simp)) t1, read_csv date cs rest ts' h4 (fun x hx => wf x (by simp [hx])) t2, List.flatMap_cons]

mutual
theorem csv_count (date : Int → Bytes) : ∀ t : BVal, (t.csv date).length = (nums t).length
  | .doc fs => by simp only [BVal.csv, nums, csv_countF date fs]
  | .array vs => by simp only [BVal.csv, nums, csv_countV date vs]
  | .double _ | .bool _ | .datetime _ | .int32 _ | .int64 _ | .timestamp _ _ => by simp [BVal.csv, nums]
  | .string _ | .binary _ _ | .undefined | .oid _ | .null | .regex _ _ | .dbpointer _ _ | .js _ | .symbol _ | .codeScope _ _
  | .decimal _ _ | .minKey | .maxKey => by simp [BVal.csv, nums]
theorem csv_countF (date : Int → Bytes) : ∀ fs : Fields, (fs.csv date).length = (numsF fs).length
  | .nil => by simp [Fields.csv, numsF]
  | .cons _ v rest => by simp only [Fields.csv, numsF, List.length_append, csv_count date v, csv_countF date rest]
theorem csv_countV (date : Int → Bytes) : ∀ vs : Vals, (vs.csv date).length = (numsV vs).length
  | .nil => by simp [Vals.csv, numsV]
  | .cons v rest => by simp only [Vals.csv, numsV, List.length_append, csv_count date v, csv_countV date rest]
end

theorem read_mem {fsub : Nat → Nat → Nat} : ∀ (cs : List LaidChunk) (chs : List Chunk), AreRead fsub cs chs → ∀ ch ∈ chs, ∃ c ∈ cs, Good ch c.first
  | [], _, h, ch, hm => by cases h; cases hm
  | c :: cs, _, ⟨x, rest, e, _, _, h3, h4⟩, ch, hm => by
    subst e
    rcases List.mem_cons.mp hm with rfl | hm
    · exact ⟨c, by simp, h3⟩
    · obtain ⟨c', m1, m2⟩ := read_mem cs rest h4 ch hm
      exact ⟨c', by simp [m1], m2⟩

end Birch.Proofs.Ftdc
