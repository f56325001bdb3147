import Verif.Base

/- Helper lemmas about the base vocabulary. -/

namespace Birch

theorem u32_small {n : Nat} (h : n < 4294967296) : u32 n = n := Nat.mod_eq_of_lt h

theorem u32_lt (n : Nat) : u32 n < 4294967296 := Nat.mod_lt _ (by decide)

theorem u32i_small {n : Int} (h0 : 0 ≤ n) (h : n < 4294967296) : u32i n = n.toNat := by
  unfold u32i; rw [Int.emod_eq_of_lt h0 h]

theorem u32i_nat {n : Nat} (h : n < 4294967296) : u32i (n : Int) = n := by
  rw [u32i_small (by omega) (by omega)]; rfl

theorem i32_small {z : Int} (h0 : -2147483648 ≤ z) (h : z < 2147483648) : i32 z = z := by
  unfold i32; omega

theorem i64_small {z : Int} (h0 : -9223372036854775808 ≤ z) (h : z < 9223372036854775808) :
    i64 z = z := by
  unfold i64; omega

theorem u64i_small {n : Int} (h0 : 0 ≤ n) (h : n < 18446744073709551616) : u64i n = n.toNat := by
  unfold u64i; rw [Int.emod_eq_of_lt h0 h]

theorem u32i_lt (z : Int) : u32i z < 4294967296 := by unfold u32i; omega
theorem u64i_lt (z : Int) : u64i z < 18446744073709551616 := by unfold u64i; omega

theorem i32_u32i {z : Int} (h0 : -2147483648 ≤ z) (h : z < 2147483648) : i32 (u32i z : Int) = z := by
  unfold i32 u32i; omega

theorem i64_u64i {z : Int} (h0 : -9223372036854775808 ≤ z) (h : z < 9223372036854775808) :
    i64 (u64i z : Int) = z := by
  unfold i64 u64i; omega

/-! ### little-endian -/

@[simp] theorem le32_length (n : Nat) : (le32 n).length = 4 := rfl
@[simp] theorem le64_length (n : Nat) : (le64 n).length = 8 := rfl

theorem rdU32_le32 {n : Nat} (h : n < 4294967296) (r : Bytes) : rdU32 (le32 n ++ r) = .ok n := by
  simp only [le32, List.cons_append, List.nil_append, rdU32, UInt8.toNat_ofNat']
  congr 1; omega

theorem rdU32_le32' {n : Nat} (h : n < 4294967296) : rdU32 (le32 n) = .ok n := by
  have := rdU32_le32 h []; simpa using this

theorem readi32_le32_nat {n : Nat} (h : n < 2147483648) (r : Bytes) :
    readi32 (le32 n ++ r) = .ok (n : Int) := by
  unfold readi32
  rw [rdU32_le32 (by omega)]
  simp [i32_small (z := (n : Int)) (by omega) (by omega)]

theorem readi32_le32_nat' {n : Nat} (h : n < 2147483648) :
    readi32 (le32 n) = .ok (n : Int) := by
  have := readi32_le32_nat h []; simpa using this

theorem readi32_le32_int {z : Int} (h0 : -2147483648 ≤ z) (h : z < 2147483648) (r : Bytes) :
    readi32 (le32 (u32i z) ++ r) = .ok z := by
  unfold readi32
  rw [rdU32_le32 (u32i_lt z)]
  simp [i32_u32i h0 h]

theorem rdU64_le64 {n : Nat} (h : n < 18446744073709551616) (r : Bytes) :
    rdU64 (le64 n ++ r) = .ok n := by
  unfold rdU64 le64
  have h1 : rdU32 (le32 n ++ le32 (n / 4294967296) ++ r) = .ok (n % 4294967296) := by
    have : le32 n = le32 (n % 4294967296) := by
      unfold le32
      congr 1
      · apply UInt8.toNat_inj.mp; simp only [UInt8.toNat_ofNat']; omega
      congr 1
      · apply UInt8.toNat_inj.mp; simp only [UInt8.toNat_ofNat']; omega
      congr 1
      · apply UInt8.toNat_inj.mp; simp only [UInt8.toNat_ofNat']; omega
      congr 1
      · apply UInt8.toNat_inj.mp; simp only [UInt8.toNat_ofNat']; omega
    rw [this, List.append_assoc, rdU32_le32 (by omega)]
  have h2 : (le32 n ++ le32 (n / 4294967296) ++ r).drop 4 = le32 (n / 4294967296) ++ r := by
    rw [List.append_assoc]; exact List.drop_left' (by simp)
  rw [h1, h2, rdU32_le32 (by omega)]
  simp; omega

theorem rdU64_le64' {n : Nat} (h : n < 18446744073709551616) : rdU64 (le64 n) = .ok n := by
  have := rdU64_le64 h []; simpa using this

theorem le32_inj {m n : Nat} (hm : m < 4294967296) (hn : n < 4294967296) (h : le32 m = le32 n) :
    m = n := by
  have a := rdU32_le32' hm; have b := rdU32_le32' hn; rw [h, b] at a; simpa using a.symm

theorem le64_inj {m n : Nat} (hm : m < 18446744073709551616) (hn : n < 18446744073709551616)
    (h : le64 m = le64 n) : m = n := by
  have a := rdU64_le64' hm; have b := rdU64_le64' hn; rw [h, b] at a; simpa using a.symm

theorem i32_of_nat {n : Nat} (h : n < 2147483648) : i32 (n : Int) = n :=
  i32_small (by omega) (by omega)

/-! ### indexing and slicing -/

theorem idx_eq {b : Bytes} {i : Nat} {x : UInt8} (h : b[i]? = some x) : idx b i = .ok x := by
  unfold idx; rw [h]

theorem idx_append (pre : Bytes) (x : UInt8) (post : Bytes) :
    idx (pre ++ x :: post) pre.length = .ok x := by
  apply idx_eq; simp

theorem slice_mid (hd mid tl : Bytes) {lo hi : Nat} (hlo : lo = hd.length)
    (hhi : hi = hd.length + mid.length) : slice (hd ++ (mid ++ tl)) lo hi = .ok mid := by
  subst hlo hhi
  unfold slice
  rw [if_pos ⟨by omega, by simp⟩, ← List.append_assoc, ← List.length_append, List.take_left,
    List.drop_left]

theorem slice_tail (hd mid : Bytes) {lo hi : Nat} (hlo : lo = hd.length)
    (hhi : hi = hd.length + mid.length) : slice (hd ++ mid) lo hi = .ok mid := by
  have := slice_mid hd mid [] hlo hhi; simpa using this

theorem sliceI_mid (hd mid tl : Bytes) {lo : Nat} {hi : Int} (hlo : lo = hd.length)
    (hhi : hi = hd.length + mid.length) : sliceI (hd ++ (mid ++ tl)) lo hi = .ok mid := by
  unfold sliceI
  rw [if_pos (by omega), slice_mid hd mid tl hlo (by omega)]

/-! ### writing into buffers -/

/-- overwrite `b` from position `s` on with `x` -/
def splice (b : Bytes) (s : Nat) (x : Bytes) : Bytes := b.take s ++ x ++ b.drop (s + x.length)

theorem splice_length {b : Bytes} {s : Nat} {x : Bytes} (h : s + x.length ≤ b.length) :
    (splice b s x).length = b.length := by
  simp [splice]; omega

theorem splice_nil (b : Bytes) (s : Nat) : splice b s [] = b := by simp [splice]

theorem splice_splice {b : Bytes} {s t : Nat} {x y : Bytes} (ht : t = s + x.length)
    (h : t + y.length ≤ b.length) : splice (splice b s x) t y = splice b s (x ++ y) := by
  subst ht
  have hs : (b.take s).length = s := by simp; omega
  have h1 : (b.take s ++ x).length = s + x.length := by simp; omega
  unfold splice
  rw [List.take_left' h1, ← List.drop_drop, List.drop_left' h1, List.drop_drop]
  simp [List.append_assoc, Nat.add_assoc]

theorem splice_all {b x : Bytes} (h : x.length = b.length) : splice b 0 x = x := by
  simp [splice, h]

theorem copyAt_splice {b : Bytes} {s : Nat} {x : Bytes} (h : s + x.length ≤ b.length) :
    copyAt b s x = .ok (x.length, splice b s x) := by
  unfold copyAt splice
  rw [if_pos (by omega)]
  have : min x.length (b.length - s) = x.length := by omega
  simp [this]

theorem set_splice {b : Bytes} {s : Nat} {x : UInt8} (h : s < b.length) :
    b.set s x = splice b s [x] := by
  unfold splice
  rw [List.set_eq_take_append_cons_drop, if_pos h]; simp

end Birch
