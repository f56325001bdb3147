import Verif.Model.Ftdc
import Verif.Proofs.Access
import Verif.Spec.FtdcSeries

/- Variable-length integers and the zero-run coder of FTDC. -/

namespace Birch.Proofs.Ftdc
open Birch Model Model.Ftdc

theorem or_shift {x v s : UInt64} {n : Nat} (hs : s.toNat = n) (hn : n < 64) (hx : x.toNat < 2 ^ n) (hv : v.toNat * 2 ^ n < 2 ^ 64) :
    (x ||| (v <<< s)).toNat = x.toNat + v.toNat * 2 ^ n := by
  rw [UInt64.toNat_or, UInt64.toNat_shiftLeft, hs, Nat.mod_eq_of_lt hn, Nat.shiftLeft_eq, Nat.mod_eq_of_lt hv, Nat.or_comm,
    Nat.mul_comm v.toNat, ← Nat.two_pow_add_eq_or_of_lt hx, Nat.add_comm]

theorem low7 (v : UInt64) : ((v.toUInt8 ||| 128) &&& 127).toUInt64.toNat = v.toNat % 128 ∧ ¬ (v.toUInt8 ||| 128) < 128 := by
  have h : ∀ b : UInt8, ((b ||| 128) &&& 127).toNat = b.toNat % 128 ∧ ¬ (b ||| 128) < 128 := by
    intro b
    have : ∀ n : Fin 256, ((UInt8.ofNat n.val ||| 128) &&& 127).toNat = n.val % 128 ∧ ¬ (UInt8.ofNat n.val ||| 128) < 128 := by decide +kernel
    have hb := this ⟨b.toNat, b.toNat_lt⟩
    simpa using hb
  obtain ⟨h1, h2⟩ := h v.toUInt8
  refine ⟨?_, h2⟩
  rw [UInt8.toNat_toUInt64, h1, UInt64.toNat_toUInt8]
  omega

theorem readLoop_put (rest : Bytes) : ∀ (n : Nat) (v x s : UInt64) (i : Nat), v.toNat ≤ n → i ≤ 9 → s.toNat = 7 * i →
    x.toNat < 2 ^ (7 * i) → x.toNat + v.toNat * 2 ^ (7 * i) < 2 ^ 64 →
    ∃ y : UInt64, readUvarintLoop i x s (putUvarint v ++ rest) = .ok (y, rest) ∧ y.toNat = x.toNat + v.toNat * 2 ^ (7 * i) := by
  intro n
  induction n using Nat.strongRecOn with
  | _ n ih =>
    intro v x s i hv hi hs hx hb
    unfold putUvarint
    by_cases h : v < 128
    · rw [if_pos h]
      rw [UInt64.lt_iff_toNat_lt] at h
      simp only [UInt64.reduceToNat] at h
      have e : v.toUInt8.toNat = v.toNat := by rw [UInt64.toNat_toUInt8]; omega
      have h8 : v.toUInt8 < 128 := by rw [UInt8.lt_iff_toNat_lt, e]; simpa using h
      have e64 : v.toUInt8.toUInt64 = v := by apply UInt64.toNat_inj.mp; rw [UInt8.toNat_toUInt64, e]
      simp only [List.cons_append, List.nil_append, readUvarintLoop]
      rw [if_neg (by omega), if_pos h8, if_neg]
      · refine ⟨_, rfl, ?_⟩
        rw [e64]
        exact or_shift hs (by omega) hx (by omega)
      · rintro ⟨rfl, h1⟩
        have h1 : 1 < v.toUInt8 := h1
        rw [UInt8.lt_iff_toNat_lt, e] at h1
        simp only [UInt8.reduceToNat] at h1
        omega
    · rw [if_neg h]
      rw [UInt64.lt_iff_toNat_lt] at h
      simp only [UInt64.reduceToNat] at h
      obtain ⟨h7, h8⟩ := low7 v
      have e7 : (v >>> 7).toNat = v.toNat / 128 := by
        simp [UInt64.toNat_shiftRight, Nat.shiftRight_eq_div_pow]
      have hp : 2 ^ (7 * (i + 1)) = 2 ^ (7 * i) * 128 := by rw [Nat.mul_add, Nat.pow_add]
      have hq : v.toNat = 128 * (v.toNat / 128) + v.toNat % 128 := by omega
      have hsum : v.toNat * 2 ^ (7 * i) = v.toNat / 128 * (2 ^ (7 * i) * 128) + v.toNat % 128 * 2 ^ (7 * i) := by
        generalize 2 ^ (7 * i) = p at *
        conv => lhs; rw [hq, Nat.add_mul]
        congr 1
        rw [Nat.mul_comm 128, Nat.mul_assoc, Nat.mul_comm 128]
      have hi9 : i < 9 := by
        rcases Nat.lt_or_ge i 9 with h9 | h9
        · exact h9
        · have : i = 9 := by omega
          subst this
          exfalso
          simp at hb hx
          omega
      have hpos : 0 < 2 ^ (7 * i) := Nat.two_pow_pos _
      have hx1 : (x ||| (((v.toUInt8 ||| 128) &&& 127).toUInt64 <<< s)).toNat = x.toNat + v.toNat % 128 * 2 ^ (7 * i) := by
        rw [or_shift (n := 7 * i) hs (by omega) hx (by rw [h7]; omega), h7]
      simp only [List.cons_append, readUvarintLoop]
      rw [if_neg (by omega), if_neg h8]
      obtain ⟨y, h1, h2⟩ := ih (v.toNat / 128) (by omega) (v >>> 7) (x ||| (((v.toUInt8 ||| 128) &&& 127).toUInt64 <<< s)) (s + 7) (i + 1)
        (by omega) (by omega)
        (by rw [UInt64.toNat_add, hs]; simp; omega)
        (by
          rw [hx1, hp]
          have : v.toNat % 128 * 2 ^ (7 * i) ≤ 127 * 2 ^ (7 * i) := Nat.mul_le_mul_right _ (by omega)
          omega)
        (by rw [hx1, hp, e7]; omega)
      refine ⟨y, h1, ?_⟩
      rw [h2, hx1, hp, e7]; omega

theorem readUvarint_put (v : UInt64) (rest : Bytes) : readUvarint (putUvarint v ++ rest) = .ok (v, rest) := by
  obtain ⟨y, h1, h2⟩ := readLoop_put rest v.toNat v 0 0 0 (Nat.le_refl _) (by omega) rfl (by simp) (by simpa using v.toNat_lt)
  have : y = v := by apply UInt64.toNat_inj.mp; simpa using h2
  rw [readUvarint, h1, this]

theorem put_length : ∀ (k : Nat) (v : UInt64), v.toNat < 2 ^ (7 * (k + 1)) → (putUvarint v).length ≤ k + 1
  | 0, v, h => by
    unfold putUvarint
    rw [if_pos (by rw [UInt64.lt_iff_toNat_lt]; simpa using h)]; simp
  | k + 1, v, h => by
    unfold putUvarint
    by_cases h1 : v < 128
    · rw [if_pos h1]; simp
    · rw [if_neg h1]
      have e7 : (v >>> 7).toNat = v.toNat / 128 := by simp [UInt64.toNat_shiftRight, Nat.shiftRight_eq_div_pow]
      have := put_length k (v >>> 7) (by
        rw [e7]
        rw [Nat.mul_add, Nat.pow_add] at h
        exact Nat.div_lt_of_lt_mul (by rw [Nat.mul_comm]; exact h))
      simp only [List.length_cons]; omega

theorem put_form : ∀ (n : Nat) (v : UInt64), v.toNat ≤ n →
    ∃ pre last, putUvarint v = pre ++ [last] ∧ (∀ b ∈ pre, (128 : UInt8) ≤ b) ∧ last < 128 := by
  intro n
  induction n using Nat.strongRecOn with
  | _ n ih =>
    intro v hv
    unfold putUvarint
    by_cases h : v < 128
    · rw [if_pos h]
      refine ⟨[], v.toUInt8, rfl, by simp, ?_⟩
      rw [UInt64.lt_iff_toNat_lt] at h
      rw [UInt8.lt_iff_toNat_lt, UInt64.toNat_toUInt8]
      simp only [UInt64.reduceToNat] at h
      simp only [UInt8.reduceToNat]; omega
    · rw [if_neg h]
      have e7 : (v >>> 7).toNat = v.toNat / 128 := by simp [UInt64.toNat_shiftRight, Nat.shiftRight_eq_div_pow]
      rw [UInt64.lt_iff_toNat_lt] at h
      simp only [UInt64.reduceToNat] at h
      obtain ⟨pre, last, h1, h2, h3⟩ := ih (v.toNat / 128) (by omega) (v >>> 7) (by omega)
      refine ⟨_ :: pre, last, by rw [h1]; rfl, ?_, h3⟩
      intro b hb
      rcases List.mem_cons.mp hb with rfl | hb
      · exact UInt8.not_lt.mp (low7 v).2
      · exact h2 b hb

theorem u64_int {z : Int} (h0 : -9223372036854775808 ≤ z) (h1 : z < 9223372036854775808) :
    i64 ((UInt64.ofNat (u64i z)).toNat) = z := by
  have : (UInt64.ofNat (u64i z)).toNat = u64i z := by
    rw [UInt64.toNat_ofNat', Nat.mod_eq_of_lt]
    unfold u64i; omega
  rw [this]; unfold i64 u64i; omega

theorem u64_eq_zero {z : Int} (h0 : -9223372036854775808 ≤ z) (h1 : z < 9223372036854775808) :
    UInt64.ofNat (u64i z) = 0 ↔ z = 0 := by
  constructor
  · intro h
    have := u64_int h0 h1
    rw [h] at this
    rw [← this]; decide
  · rintro rfl; decide

theorem read_encode (z : Int) (rest : Bytes) : readUvarint (encodeValue z ++ rest) = .ok (UInt64.ofNat (u64i z), rest) :=
  readUvarint_put _ _

/-! ### the zero-run coder on a list of deltas -/

/-- the bytes still to be written when `z` zeros are pending and the deltas `l` follow -/
def code : Nat → List Int → Bytes
  | 0, [] => []
  | z + 1, [] => encodeValue 0 ++ encodeValue z
  | z, d :: l =>
    if d = 0 then code (z + 1) l
    else (if z = 0 then [] else encodeValue 0 ++ encodeValue ((z : Int) - 1)) ++ encodeValue d ++ code 0 l

theorem flush_out (r : Run) (z : Nat) (h : r.zeroCount = z) : r.flush.out = r.out ++ code z [] := by
  unfold Run.flush
  cases z with
  | zero => rw [if_neg (by omega)]; simp [code]
  | succ z =>
    rw [if_pos (by omega), h]
    simp only [code, List.append_assoc]
    rw [show ((z + 1 : Nat) : Int) - 1 = z by omega]

theorem foldl_put : ∀ (l : List Int) (r : Run) (z : Nat), r.zeroCount = z →
    (l.foldl Run.put r).flush.out = r.out ++ code z l
  | [], r, z, h => by simp only [List.foldl_nil]; exact flush_out r z h
  | d :: l, r, z, h => by
    rw [List.foldl_cons]
    by_cases hd : d = 0
    · subst hd
      have : r.put 0 = { r with zeroCount := r.zeroCount + 1 } := by simp [Run.put]
      rw [this, foldl_put l _ (z + 1) (by simp only []; omega)]
      cases z <;> simp [code]
    · have hc : code z (d :: l) = (if z = 0 then [] else encodeValue 0 ++ encodeValue ((z : Int) - 1)) ++ encodeValue d ++ code 0 l := by
        cases z <;> rw [code, if_neg hd]
      rw [hc]
      have hput : r.put d = { r.flush with out := r.flush.out ++ encodeValue d } := by unfold Run.put; rw [if_neg hd]
      rw [hput]
      by_cases hz : z = 0
      · subst hz
        have hf : r.flush = r := by unfold Run.flush; rw [if_neg (by omega)]
        simp only [hf]
        rw [foldl_put l _ 0 (by exact h)]
        simp
      · have hf : r.flush = ⟨0, r.out ++ encodeValue 0 ++ encodeValue (r.zeroCount - 1)⟩ := by
          unfold Run.flush; rw [if_pos (by omega)]
        simp only [hf]
        rw [foldl_put l _ 0 rfl, if_neg hz, h]
        simp [List.append_assoc]

/-- a chunk's deltas are in the range of int64 -/
def InRange (l : List Int) : Prop := ∀ d ∈ l, -9223372036854775808 ≤ d ∧ d < 9223372036854775808

/-- zeros at the front -/
def lead0 : List Int → Nat
  | [] => 0
  | d :: l => if d = 0 then lead0 l + 1 else 0

theorem lead0_le : ∀ l, lead0 l ≤ l.length
  | [] => by simp [lead0]
  | d :: l => by unfold lead0; have := lead0_le l; split <;> simp <;> omega

/-- pending zeros and the following zeros make one run -/
theorem code_run : ∀ (l : List Int) (z : Nat),
    code z l = if z + lead0 l = 0 then code 0 l else encodeValue 0 ++ encodeValue ((z + lead0 l : Nat) - 1 : Int) ++ code 0 (l.drop (lead0 l))
  | [], z => by
    cases z with
    | zero => simp [lead0]
    | succ z => simp [lead0, code]
  | d :: l, z => by
    have hc : ∀ z, code z (d :: l) = if d = 0 then code (z + 1) l
        else (if z = 0 then [] else encodeValue 0 ++ encodeValue ((z : Int) - 1)) ++ encodeValue d ++ code 0 l := by
      intro z; cases z <;> rw [code]
    by_cases hd : d = 0
    · have hl : lead0 (d :: l) = lead0 l + 1 := by simp [lead0, hd]
      rw [hc z, if_pos hd, code_run l (z + 1), if_neg (by omega), if_neg (by omega), hl]
      simp only [List.drop_succ_cons]
      rw [show z + 1 + lead0 l = z + (lead0 l + 1) by omega]
    · have hl : lead0 (d :: l) = 0 := by simp [lead0, hd]
      rw [hl, hc z, if_neg hd]
      by_cases hz : z = 0
      · subst hz
        simp only [Nat.add_zero, if_true, hc 0, if_neg hd]
      · rw [if_neg hz, if_neg (by omega)]
        simp only [List.drop_zero, Nat.add_zero]
        rw [hc 0, if_neg hd, if_pos rfl]
        simp

/-- decoding `n` deltas while `nz` zeros are pending: the deltas are `nz` zeros and then those coded in the bytes -/
theorem readDeltas_code (rest : Bytes) : ∀ (n : Nat) (nz : UInt64) (l : List Int), InRange l → nz.toNat + l.length < 2 ^ 64 →
    n ≤ nz.toNat + l.length →
    ∃ (nz' : UInt64) (l' : List Int), readDeltas n nz (code 0 l ++ rest) =
        .ok ((List.replicate nz.toNat 0 ++ l).take n, nz', code 0 l' ++ rest) ∧
      InRange l' ∧ List.replicate nz'.toNat 0 ++ l' = (List.replicate nz.toNat 0 ++ l).drop n
  | 0, nz, l, hr, _, _ => ⟨nz, l, by simp [readDeltas], hr, by simp⟩
  | n + 1, nz, l, hr, hl, hn => by
    unfold readDeltas
    by_cases hz : nz = 0
    · subst hz
      simp only [UInt64.toNat_zero, Nat.zero_add] at hl hn
      cases l with
      | nil => simp at hn
      | cons d l =>
        simp only [List.length_cons] at hl hn
        have hr' : InRange l := fun x hx => hr x (List.mem_cons_of_mem _ hx)
        simp only [ne_eq, not_true, if_false]
        by_cases hd : d = 0
        · have hl0 : lead0 (d :: l) = lead0 l + 1 := by simp [lead0, hd]
          rw [code_run (d :: l) 0, if_neg (by omega), hl0]
          simp only [List.append_assoc, read_encode, Res.bind_ok]
          rw [if_pos (by decide)]
          simp only [List.drop_succ_cons]
          have hle := lead0_le l
          have hnz : (UInt64.ofNat (u64i (((0 + (lead0 l + 1) : Nat) : Int) - 1))).toNat = lead0 l := by
            rw [UInt64.toNat_ofNat', show u64i (((0 + (lead0 l + 1) : Nat) : Int) - 1) = lead0 l by unfold u64i; omega]
            omega
          have hsplit : List.replicate (lead0 l) 0 ++ l.drop (lead0 l) = l := by
            have : ∀ l : List Int, List.replicate (lead0 l) 0 ++ l.drop (lead0 l) = l := by
              intro l
              induction l with
              | nil => rfl
              | cons d l ih =>
                unfold lead0
                by_cases hd : d = 0
                · rw [if_pos hd, hd]; simp [List.replicate_succ, ih]
                · rw [if_neg hd]; simp
            exact this l
          obtain ⟨nz', l', h1, h2, h3⟩ := readDeltas_code rest n _ (l.drop (lead0 l)) (fun x hx => hr' x (List.mem_of_mem_drop hx))
            (by rw [hnz, List.length_drop]; omega) (by rw [hnz, List.length_drop]; omega)
          rw [hnz, hsplit] at h1 h3
          rw [h1]
          refine ⟨nz', l', ?_, h2, ?_⟩
          · simp [hd]; decide
          · simpa using h3
        · have hc : code 0 (d :: l) = encodeValue d ++ code 0 l := by rw [code, if_neg hd]; simp
          have hdr := hr d (List.mem_cons_self ..)
          rw [hc, List.append_assoc, read_encode]
          simp only [Res.bind_ok]
          rw [if_neg (by rw [u64_eq_zero hdr.1 hdr.2]; exact hd)]
          obtain ⟨nz', l', h1, h2, h3⟩ := readDeltas_code rest n 0 l hr' (by simp; omega) (by simp; omega)
          simp only [UInt64.toNat_zero, List.replicate_zero, List.nil_append] at h1 h3 ⊢
          rw [h1]
          refine ⟨nz', l', ?_, h2, ?_⟩
          · simp only [Res.bind_ok, u64_int hdr.1 hdr.2, List.take_succ_cons]
          · simpa using h3
    · have hpos : 0 < nz.toNat := by
        rcases Nat.eq_zero_or_pos nz.toNat with h | h
        · exact absurd (UInt64.toNat_inj.mp h) hz
        · exact h
      have e1 : (nz - 1).toNat = nz.toNat - 1 := by
        rw [UInt64.toNat_sub_of_le _ _ (by rw [UInt64.le_iff_toNat_le]; simp; omega)]; rfl
      obtain ⟨nz', l', h1, h2, h3⟩ := readDeltas_code rest n (nz - 1) l hr (by omega) (by omega)
      rw [if_pos hz, h1]
      rw [e1] at h3
      have er : List.replicate nz.toNat (0 : Int) = 0 :: List.replicate (nz.toNat - 1) 0 := by
        rw [← List.replicate_succ]; congr 1; omega
      refine ⟨nz', l', ?_, h2, ?_⟩
      · simp [e1, er]
      · rw [h3, er]; simp

/-! ### the matrix of deltas -/

/-- `n` deltas of metric `i` from sample `j` on -/
def row (deltas : List Int) (max i : Nat) : (n j : Nat) → List Int
  | 0, _ => []
  | n + 1, j => deltas.getD (i * max + j) 0 :: row deltas max i n (j + 1)

theorem row_length (deltas : List Int) (max i : Nat) : ∀ n j, (row deltas max i n j).length = n
  | 0, _ => rfl
  | n + 1, j => by simp [row, row_length deltas max i n]

theorem row_get (deltas : List Int) (max i : Nat) : ∀ n j k, k < n → (row deltas max i n j)[k]? = some (deltas.getD (i * max + (j + k)) 0)
  | 0, _, _, h => by omega
  | n + 1, j, 0, _ => by simp [row]
  | n + 1, j, k + 1, h => by simp only [row, List.getElem?_cons_succ]; rw [row_get deltas max i n (j + 1) k (by omega)]; congr 2; omega

theorem row_inRange {deltas : List Int} (hr : InRange deltas) (max i : Nat) : ∀ n j, InRange (row deltas max i n j)
  | 0, _ => fun _ h => by simp [row] at h
  | n + 1, j => by
    intro d hd
    simp only [row, List.mem_cons] at hd
    rcases hd with rfl | hd
    · rw [List.getD_eq_getElem?_getD]
      cases h : deltas[i * max + j]? with
      | none => simp
      | some x => exact hr x (List.mem_of_getElem? h)
    · exact row_inRange hr max i n (j + 1) d hd

theorem putRow_ok {deltas : List Int} {max i : Nat} : ∀ (n j : Nat) (r : Run), i * max + (j + n) ≤ deltas.length →
    putRow deltas max i n j r = .ok ((row deltas max i n j).foldl Run.put r)
  | 0, _, _, _ => rfl
  | n + 1, j, r, h => by
    unfold putRow
    have : deltaAt deltas (getOffset max j i) = .ok (deltas.getD (i * max + j) 0) := by
      unfold deltaAt getOffset
      rw [List.getD_eq_getElem?_getD, List.getElem?_eq_getElem (by omega)]; rfl
    rw [this, Res.bind_ok, putRow_ok n (j + 1) _ (by omega)]
    rfl

/-- all rows from metric `i` on -/
def rows (deltas : List Int) (max samples : Nat) : (n i : Nat) → List (List Int)
  | 0, _ => []
  | n + 1, i => row deltas max i samples 0 :: rows deltas max samples n (i + 1)

theorem putRows_ok {deltas : List Int} {max samples : Nat} (hs : samples ≤ max) : ∀ (n i : Nat) (r : Run), max * (i + n) ≤ deltas.length →
    putRows deltas max samples n i r = .ok ((rows deltas max samples n i).flatten.foldl Run.put r)
  | 0, _, _, _ => rfl
  | n + 1, i, r, h => by
    have h1 : i * max + max ≤ deltas.length := by
      have : max * (i + 1) ≤ max * (i + (n + 1)) := Nat.mul_le_mul_left _ (by omega)
      rw [Nat.mul_comm i max]; rw [Nat.mul_add, Nat.mul_one] at this; omega
    unfold putRows
    rw [putRow_ok samples 0 r (by omega), Res.bind_ok, putRows_ok hs n (i + 1) _ (by rwa [Nat.add_assoc, Nat.add_comm 1 n])]
    simp [rows]

theorem encodeDeltas_ok {deltas : List Int} {max samples metrics : Nat} (hs : samples ≤ max) (h : max * metrics ≤ deltas.length) :
    encodeDeltas deltas max metrics samples = .ok (code 0 (rows deltas max samples metrics 0).flatten) := by
  unfold encodeDeltas
  rw [putRows_ok hs metrics 0 _ (by rwa [Nat.zero_add]), Res.bind_ok, foldl_put _ _ 0 rfl]
  simp

theorem rows_inRange {deltas : List Int} (hr : InRange deltas) (max samples : Nat) : ∀ n i, InRange (rows deltas max samples n i).flatten
  | 0, _ => fun _ h => by simp [rows] at h
  | n + 1, i => by
    intro d hd
    simp only [rows, List.flatten_cons, List.mem_append] at hd
    rcases hd with hd | hd
    · exact row_inRange hr max i samples 0 d hd
    · exact rows_inRange hr max samples n (i + 1) d hd

/-- the values of a metric after reading -/
def series (m : Metric) (ds : List Int) : Metric :=
  { m with values := if m.originalType = 0x01 then undeltaFloats m.startingValue ds else undelta m.startingValue ds }

theorem undelta_get : ∀ (ds : List Int) (start : Int), (undelta start ds).length = ds.length + 1 ∧ (undelta start ds)[0]? = some start
  | [], start => by simp [undelta]
  | d :: ds, start => by simp [undelta, (undelta_get ds _).1]

theorem undelta_totals : ∀ (ds : List Int) (start : Int), Spec.Totals start ds (undelta start ds)
  | [], start => ⟨by simp [undelta], by simp [undelta], fun j d x y h => by simp at h⟩
  | d :: ds, start => by
    refine ⟨(undelta_get _ _).1, (undelta_get _ _).2, ?_⟩
    intro j e x y h1 h2 h3
    cases j with
    | zero =>
      simp only [List.getElem?_cons_zero, Option.some.injEq] at h1
      simp only [undelta, List.getElem?_cons_zero, Option.some.injEq, Nat.zero_add, List.getElem?_cons_succ] at h2 h3
      rw [(undelta_get _ _).2] at h3
      cases h3
      subst h1 h2
      unfold Spec.Same64 i64
      omega
    | succ j =>
      simp only [undelta, List.getElem?_cons_succ] at h1 h2 h3
      exact (undelta_totals ds _).2.2 j e x y h1 h2 h3

theorem readSeries_code (rest : Bytes) (n : Nat) : ∀ (ms : List Metric) (rs : List (List Int)) (nz : UInt64) (l : List Int),
    ms.length = rs.length → (∀ r ∈ rs, r.length = n) → InRange l → nz.toNat + l.length < 2 ^ 64 →
    List.replicate nz.toNat 0 ++ l = rs.flatten →
    readSeries n ms nz (code 0 l ++ rest) = .ok (List.zipWith series ms rs, 0, rest)
  | [], [], nz, l, _, _, _, _, h => by
    simp at h
    obtain ⟨h1, rfl⟩ := h
    have : nz = 0 := UInt64.toNat_inj.mp (by simpa using h1)
    subst this
    simp [readSeries, code]
  | [], _ :: _, _, _, h, _, _, _, _ => by simp at h
  | _ :: _, [], _, _, h, _, _, _, _ => by simp at h
  | m :: ms, r :: rs, nz, l, hlen, hn, hr, hb, h => by
    have hrl : r.length = n := hn r (List.mem_cons_self ..)
    have htot : nz.toNat + l.length = n + rs.flatten.length := by
      have := congrArg List.length h
      simpa [hrl] using this
    obtain ⟨nz', l', h1, h2, h3⟩ := readDeltas_code rest n nz l hr hb (by omega)
    rw [h, List.flatten_cons] at h1 h3
    rw [List.take_left' hrl] at h1
    rw [List.drop_left' hrl] at h3
    have hlen' : nz'.toNat + l'.length = rs.flatten.length := by
      have := congrArg List.length h3
      simpa using this
    unfold readSeries
    rw [h1]
    simp only [Res.bind_ok]
    rw [readSeries_code rest n ms rs nz' l' (by simpa using hlen) (fun r hr => hn r (List.mem_cons_of_mem _ hr)) h2 (by omega) h3]
    rfl

theorem rows_length (deltas : List Int) (max samples : Nat) : ∀ n i, (rows deltas max samples n i).length = n
  | 0, _ => rfl
  | n + 1, i => by simp [rows, rows_length deltas max samples n]

theorem rows_get (deltas : List Int) (max samples : Nat) : ∀ n i k, k < n → (rows deltas max samples n i)[k]? = some (row deltas max (i + k) samples 0)
  | 0, _, _, h => by omega
  | n + 1, i, 0, _ => by simp [rows]
  | n + 1, i, k + 1, h => by
    simp only [rows, List.getElem?_cons_succ]; rw [rows_get deltas max samples n (i + 1) k (by omega)]; congr 2; omega

theorem rows_each (deltas : List Int) (max samples : Nat) : ∀ n i, ∀ r ∈ rows deltas max samples n i, r.length = samples
  | 0, _, r, h => by simp [rows] at h
  | n + 1, i, r, h => by
    simp only [rows, List.mem_cons] at h
    rcases h with rfl | h
    · exact row_length ..
    · exact rows_each deltas max samples n (i + 1) r h

theorem flatten_length {rs : List (List Int)} {n : Nat} (h : ∀ r ∈ rs, r.length = n) : rs.flatten.length = rs.length * n := by
  induction rs with
  | nil => simp
  | cons r rs ih =>
    rw [List.flatten_cons, List.length_append, h r (List.mem_cons_self ..), ih fun x hx => h x (List.mem_cons_of_mem _ hx), List.length_cons,
      Nat.add_mul, Nat.one_mul, Nat.add_comm]

/-- writing and reading the deltas of a chunk -/
theorem readSeries_encode {deltas : List Int} {max samples : Nat} {ms : List Metric} (rest : Bytes) (hs : samples ≤ max)
    (h : max * ms.length ≤ deltas.length) (hr : InRange deltas) (hb : ms.length * samples < 2 ^ 64) :
    ∃ b, encodeDeltas deltas max ms.length samples = .ok b ∧
      readSeries samples ms 0 (b ++ rest) = .ok (List.zipWith series ms (rows deltas max samples ms.length 0), 0, rest) := by
  refine ⟨_, encodeDeltas_ok hs h, ?_⟩
  have hl := flatten_length (rows_each deltas max samples ms.length 0)
  rw [rows_length] at hl
  exact readSeries_code rest samples ms _ 0 _ (by rw [rows_length]) (rows_each deltas max samples _ 0) (rows_inRange hr max samples _ 0) (by simp [hl]; exact hb) (by simp)

end Birch.Proofs.Ftdc
