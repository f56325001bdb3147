import Verif.Proofs.FtdcCodec
import Verif.Spec.FtdcSeries

/- C31, C32: FTDC integers and delta streams. -/

namespace Birch.Props
open Birch Model Model.Ftdc Spec Proofs Proofs.Ftdc

/-! ### C31 -/

/-- Reading an encoded int64 returns it (as an int64) and leaves exactly the following bytes. -/
theorem C31_roundtrip (z : Int) (h0 : -9223372036854775808 ≤ z) (h1 : z < 9223372036854775808) (rest : Bytes) :
    ∃ x, readUvarint (encodeValue z ++ rest) = .ok (x, rest) ∧ i64 x.toNat = z :=
  ⟨_, read_encode z rest, u64_int h0 h1⟩

example := C31_roundtrip (-300) (by decide) (by decide) [1, 2]

/-- An encoded integer has one to ten bytes (so `tmp[:num]` in `encodeValue` is in range), every byte but the last has its top
    bit set and the last has not. -/
theorem C31_form (z : Int) : 1 ≤ (encodeValue z).length ∧ (encodeValue z).length ≤ 10 ∧
    ∃ pre last, encodeValue z = pre ++ [last] ∧ (∀ b ∈ pre, 128 ≤ b) ∧ last < 128 := by
  obtain ⟨pre, last, h1, h2, h3⟩ := put_form (UInt64.ofNat (u64i z)).toNat _ (Nat.le_refl _)
  refine ⟨by unfold encodeValue; rw [h1]; simp, put_length 9 _ ?_, pre, last, h1, h2, h3⟩
  exact Nat.lt_trans (UInt64.toNat_lt _) (by decide)

/-- The integers of a stream are found one after the other, whatever they are. -/
theorem C31_stream (zs : List Int) (hz : ∀ z ∈ zs, -9223372036854775808 ≤ z ∧ z < 9223372036854775808) (rest : Bytes) :
    ∀ pre z post, zs = pre ++ z :: post → ∃ x, readUvarint (((z :: post).map encodeValue).flatten ++ rest) =
      .ok (x, (post.map encodeValue).flatten ++ rest) ∧ i64 x.toNat = z := by
  rintro pre z post rfl
  have := hz z (by simp)
  rw [List.map_cons, List.flatten_cons, List.append_assoc]
  exact C31_roundtrip z this.1 this.2 _

example := C31_stream [0, -1, 300] (by decide) [7] [0] (-1) [300] rfl

/-! ### C32 -/

/-- Decoding an encoded matrix of deltas consumes exactly the encoded bytes and gives every metric its own deltas in order:
    metric `i` gets the deltas at `i * max`, `i * max + 1`, ... (`max` is the capacity of the collector).  For doubles the
    deltas are the values after the first; for all other metrics the values are their running totals. -/
theorem C32_lossless (deltas : List Int) (max samples : Nat) (ms : List Metric) (rest : Bytes) (hs : samples ≤ max)
    (hl : deltas.length = max * ms.length) (hd : ∀ d ∈ deltas, -9223372036854775808 ≤ d ∧ d < 9223372036854775808)
    (h1 : ms.length < 4294967296) (h2 : samples < 4294967296) :
    ∃ b ms', encodeDeltas deltas max ms.length samples = .ok b ∧ readSeries samples ms 0 (b ++ rest) = .ok (ms', 0, rest) ∧
      ms'.length = ms.length ∧
      ∀ i m m', ms[i]? = some m → ms'[i]? = some m' →
        m'.parentPath = m.parentPath ∧ m'.keyName = m.keyName ∧ m'.originalType = m.originalType ∧
        ∃ ds : List Int, ds.length = samples ∧ (∀ j, j < samples → ds[j]? = deltas[i * max + j]?) ∧
          if m.originalType = 0x01 then m'.values = m.startingValue :: ds else Totals m.startingValue ds m'.values := by
  have hb : ms.length * samples < 2 ^ 64 := by
    have h3 : ms.length * samples ≤ 4294967295 * 4294967295 := Nat.mul_le_mul (by omega) (by omega)
    omega
  obtain ⟨b, e1, e2⟩ := readSeries_encode (ms := ms) rest hs (by omega) hd hb
  refine ⟨b, _, e1, e2, by simp [rows_length], ?_⟩
  intro i m m' hm hm'
  have hi : i < ms.length := by
    rcases Nat.lt_or_ge i ms.length with h | h
    · exact h
    · rw [List.getElem?_eq_none h] at hm; cases hm
  rw [List.getElem?_zipWith, hm, rows_get _ _ _ _ _ _ hi, Nat.zero_add] at hm'
  simp only [Option.some.injEq] at hm'
  subst hm'
  refine ⟨rfl, rfl, rfl, row deltas max i samples 0, row_length .., ?_, ?_⟩
  · intro j hj
    have : i * max + j < deltas.length := by
      rw [hl]
      have : max * (i + 1) ≤ max * ms.length := Nat.mul_le_mul_left _ hi
      rw [Nat.mul_add, Nat.mul_one] at this
      rw [Nat.mul_comm i max]; omega
    rw [row_get _ _ _ _ _ _ hj, Nat.zero_add, List.getD_eq_getElem?_getD, List.getElem?_eq_getElem this]; rfl
  · unfold series
    split
    · rfl
    · exact undelta_totals _ _

/-- two metrics, three samples, a run of zeros across the metric boundary, and an unused column -/
example := C32_lossless [5, 0, 0, 99, 0, -1, 0, 99] 4 3
  [⟨[], [97], [], 7, 0x12⟩, ⟨[], [98], [], 4607182418800017408, 0x01⟩] [1, 2, 3] (by decide) (by decide) (by decide) (by decide) (by decide)

end Birch.Props
