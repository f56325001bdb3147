import Verif.Proofs.Write
import Verif.Model.Constructors

/- The encoders of package `elements` and the constructors built on them. -/

namespace Birch.Proofs
open Birch Model Spec Elements

set_option linter.unusedSimpArgs false
set_option linter.unusedVariables false

/-- `f` encodes the bytes `e`: it writes exactly `e` when they fit, and otherwise fails after
    having written (and reported) a proper prefix that fits. -/
structure Good (e : Bytes) (f : Nat → Bytes → Res Out) : Prop where
  fits : ∀ st w, st + e.length ≤ w.length → f st w = .ok ⟨e.length, splice w st e, false⟩
  short : ∀ st w, w.length < st + e.length →
    ∃ m, m < e.length + 1 ∧ (m = 0 ∨ st + m ≤ w.length) ∧ f st w = .ok ⟨m, splice w st (e.take m), true⟩

/-- as `Good`, and nothing at all is written on failure -/
structure Atomic (e : Bytes) (f : Nat → Bytes → Res Out) : Prop where
  fits : ∀ st w, st + e.length ≤ w.length → f st w = .ok ⟨e.length, splice w st e, false⟩
  short : ∀ st w, w.length < st + e.length → f st w = .ok ⟨0, w, true⟩

theorem Atomic.good {e : Bytes} {f : Nat → Bytes → Res Out} (h : Atomic e f) : Good e f where
  fits := h.fits
  short st w hw := ⟨0, by omega, .inl rfl, by rw [h.short st w hw]; simp [splice_nil]⟩

theorem Good.seq {e1 e2 : Bytes} {f g : Nat → Bytes → Res Out} (h1 : Good e1 f) (h2 : Good e2 g) :
    Good (e1 ++ e2) (fun st w => Elements.seq (f st w) st g) where
  fits st w hw := by
    simp only [List.length_append] at hw
    unfold Elements.seq
    rw [h1.fits st w (by omega)]
    simp only [Res.bind_ok, Bool.false_eq_true, if_false]
    rw [h2.fits _ _ (by rw [splice_length (by omega)]; omega)]
    simp only [Res.bind_ok]
    rw [splice_splice rfl (by omega)]; simp
  short st w hw := by
    simp only [List.length_append] at hw
    unfold Elements.seq
    rcases Nat.lt_or_ge w.length (st + e1.length) with h | h
    · obtain ⟨m, hm, hs, e⟩ := h1.short st w h
      refine ⟨m, by simp; omega, hs, ?_⟩
      rw [e]
      simp only [Res.bind_ok, if_true]
      rw [List.take_append_of_le_length (by omega)]
    · rw [h1.fits st w (by omega)]
      simp only [Res.bind_ok, Bool.false_eq_true, if_false]
      have hl : (splice w st e1).length = w.length := splice_length (by omega)
      obtain ⟨m, hm, hs, e⟩ := h2.short (st + e1.length) (splice w st e1) (by omega)
      refine ⟨e1.length + m, by simp; omega, .inr (by omega), ?_⟩
      rw [e]
      simp only [Res.bind_ok]
      rw [splice_splice rfl (by simp; omega), List.take_length_add_append]

theorem byte_atomic (t : UInt8) : Atomic [t] (fun st w => byte st w t) where
  fits st w h := by
    simp only [List.length_singleton] at h
    unfold byte; rw [if_neg (by omega), setByte_splice h]; rfl
  short st w h := by
    simp only [List.length_singleton] at h
    unfold byte; rw [if_pos (by omega)]; rfl

theorem cstring_atomic (s : Bytes) : Atomic (s ++ [0]) (fun st w => cstring st w s) where
  fits st w h := by
    simp only [List.length_append, List.length_singleton] at h
    unfold cstring; rw [if_neg (by omega), copyAt_splice (by omega)]
    simp only [Res.bind_ok]
    rw [setByte_splice (by rw [splice_length (by omega)]; omega), splice_splice rfl (by simp; omega)]
    simp
  short st w h := by
    simp only [List.length_append, List.length_singleton] at h
    unfold cstring; rw [if_pos (by omega)]; rfl

theorem byteSlice_atomic (b : Bytes) : Atomic b (fun st w => byteSlice st w b) where
  fits st w h := by
    unfold byteSlice; rw [if_neg (by omega), copyAt_splice (by omega)]; rfl
  short st w h := by
    unfold byteSlice; rw [if_pos (by omega)]; rfl

theorem uint32_atomic (u : Nat) : Atomic (le32 u) (fun st w => uint32 st w u) where
  fits st w h := by
    simp only [le32_length] at h
    unfold uint32; rw [if_neg (by omega), copyAt_splice (by simp; omega)]; rfl
  short st w h := by
    simp only [le32_length] at h
    unfold uint32; rw [if_pos (by omega)]; rfl

theorem uint64_atomic (u : Nat) : Atomic (le64 u) (fun st w => uint64 st w u) where
  fits st w h := by
    simp only [le64_length] at h
    unfold uint64; rw [if_neg (by omega), copyAt_splice (by simp; omega)]; rfl
  short st w h := by
    simp only [le64_length] at h
    unfold uint64; rw [if_pos (by omega)]; rfl

theorem int32_atomic (z : Int) : Atomic (le32 (twos32 z)) (fun st w => Elements.int32 st w z) where
  fits st w h := by
    simp only [le32_length] at h
    unfold Elements.int32; rw [if_neg (by omega), copyAt_splice (by simp; omega)]; rfl
  short st w h := by
    simp only [le32_length] at h
    unfold Elements.int32; rw [if_pos (by omega)]; rfl

theorem int64_atomic (z : Int) : Atomic (le64 (twos64 z)) (fun st w => Elements.int64 st w z) :=
  uint64_atomic (twos64 z)

theorem double_atomic (u : Nat) : Atomic (le64 u) (fun st w => Elements.double st w u) where
  fits st w h := by
    simp only [le64_length] at h
    unfold Elements.double; rw [if_neg (by omega), copyAt_splice (by simp; omega)]; rfl
  short st w h := by
    simp only [le64_length] at h
    unfold Elements.double; rw [if_pos (by omega)]; rfl

theorem boolean_atomic (b : Bool) : Atomic [if b then 1 else 0] (fun st w => Elements.boolean st w b) where
  fits st w h := by
    simp only [List.length_singleton] at h
    unfold Elements.boolean; rw [if_neg (by omega), setByte_splice h]; rfl
  short st w h := by
    simp only [List.length_singleton] at h
    unfold Elements.boolean; rw [if_pos (by omega)]; rfl

/-- only the low 32 bits matter -/
theorem le32_mod (n : Nat) : le32 (n % 4294967296) = le32 n := by
  unfold le32
  have h : ∀ a b : Nat, a % 256 = b % 256 → UInt8.ofNat a = UInt8.ofNat b := by
    intro a b h; apply UInt8.toNat.inj; simpa using h
  rw [h (n % 4294967296) n (by omega), h (n % 4294967296 / 256) (n / 256) (by omega),
    h (n % 4294967296 / 65536) (n / 65536) (by omega), h (n % 4294967296 / 16777216) (n / 16777216) (by omega)]

theorem twos32_nat {z : Int} {n : Nat} (h : z % 4294967296 = (n : Int) % 4294967296) : le32 (twos32 z) = le32 n := by
  unfold twos32
  rw [h, ← le32_mod n]; congr 1

theorem i32_mod (z : Int) : i32 z % 4294967296 = z % 4294967296 := by unfold i32; omega

theorem i32_add_mod (z w : Int) : i32 (i32 z + w) % 4294967296 = (z + w) % 4294967296 := by
  rw [i32_mod, Int.add_emod, i32_mod, ← Int.add_emod]

theorem i32_add2_mod (z w c : Int) : i32 (c + i32 z + i32 w) % 4294967296 = (c + z + w) % 4294967296 := by
  rw [i32_mod]; unfold i32; omega

theorem string_good (s : Bytes) : Good (encString s) (fun st w => Elements.string st w s) := by
  have h := (int32_atomic (i32 (i32 s.length + 1))).good.seq (cstring_atomic s).good
  rw [twos32_nat (n := s.length + 1) (by rw [i32_add_mod]; rfl)] at h
  rw [encString, List.append_assoc]
  exact h

theorem binary_atomic (b : Bytes) (t : UInt8) : Atomic (BVal.binary t b).enc (fun st w => Elements.binary st w b t) := by
  by_cases ht : t = 2
  · subst ht
    have e : (BVal.binary 2 b).enc = le32 (b.length + 4) ++ ([2] ++ (le32 b.length ++ b)) := by simp [BVal.enc]
    rw [e]
    constructor
    · intro st w h
      simp only [List.length_append, le32_length, List.length_singleton] at h
      unfold Elements.binary
      rw [if_pos rfl]
      unfold binarySubtype2
      rw [if_neg (by omega)]
      have h1 := (int32_atomic (i32 (i32 b.length + 4))).fits st w (by simp; omega)
      simp only [twos32_nat (n := b.length + 4) (z := i32 (i32 b.length + 4)) (by rw [i32_add_mod]; rfl)] at h1
      unfold Elements.seq
      rw [h1]
      simp only [Res.bind_ok, Bool.false_eq_true, if_false]
      have l1 : (splice w st (le32 (b.length + 4))).length = w.length := splice_length (by simp; omega)
      rw [setByte_splice (by simp [l1]; omega)]
      simp only [Res.bind_ok, Bool.false_eq_true, if_false]
      rw [splice_splice (by simp) (by simp; omega)]
      have l2 : (splice w st (le32 (b.length + 4) ++ [2])).length = w.length := splice_length (by simp; omega)
      have h2 := (int32_atomic (i32 b.length)).fits (st + (le32 (b.length + 4)).length + 1) (splice w st (le32 (b.length + 4) ++ [2])) (by simp [l2]; omega)
      simp only [twos32_nat (n := b.length) (z := i32 b.length) (by rw [i32_mod])] at h2
      rw [h2]
      simp only [Res.bind_ok, Bool.false_eq_true, if_false]
      rw [splice_splice (by simp) (by simp; omega)]
      have l3 : (splice w st (le32 (b.length + 4) ++ [2] ++ le32 b.length)).length = w.length := splice_length (by simp; omega)
      rw [copyAt_splice (by simp only [l3, le32_length]; omega)]
      simp only [Res.bind_ok]
      rw [splice_splice (by simp) (by simp; omega)]
      simp; omega
    · intro st w h
      simp only [List.length_append, le32_length, List.length_singleton] at h
      unfold Elements.binary
      rw [if_pos rfl]
      unfold binarySubtype2
      rw [if_pos (by omega)]; rfl
  · have e : (BVal.binary t b).enc = le32 b.length ++ ([t] ++ b) := by simp [BVal.enc, ht]
    rw [e]
    constructor
    · intro st w h
      simp only [List.length_append, le32_length, List.length_singleton] at h
      unfold Elements.binary
      rw [if_neg ht, if_neg (by omega)]
      have h1 := (int32_atomic (i32 b.length)).fits st w (by simp; omega)
      simp only [twos32_nat (n := b.length) (z := i32 b.length) (by rw [i32_mod])] at h1
      unfold Elements.seq
      rw [h1]
      simp only [Res.bind_ok, Bool.false_eq_true, if_false]
      have l1 : (splice w st (le32 b.length)).length = w.length := splice_length (by simp; omega)
      rw [setByte_splice (by simp [l1]; omega)]
      simp only [Res.bind_ok, Bool.false_eq_true, if_false]
      rw [splice_splice (by simp) (by simp; omega)]
      have l2 : (splice w st (le32 b.length ++ [t])).length = w.length := splice_length (by simp; omega)
      rw [copyAt_splice (by simp [l2]; omega)]
      simp only [Res.bind_ok]
      rw [splice_splice (by simp) (by simp; omega)]
      simp; omega
    · intro st w h
      simp only [List.length_append, le32_length, List.length_singleton] at h
      unfold Elements.binary
      rw [if_neg ht, if_pos (by omega)]; rfl

theorem regex_good (p o : Bytes) : Good (BVal.regex p o).enc (fun st w => Elements.regex st w p o) := by
  have := (cstring_atomic p).good.seq (cstring_atomic o).good
  have e : (BVal.regex p o).enc = (p ++ [0]) ++ (o ++ [0]) := by simp [BVal.enc]
  rw [e]; exact this

theorem dbpointer_good (ns id : Bytes) : Good (BVal.dbpointer ns id).enc (fun st w => Elements.dbpointer st w ns id) :=
  (string_good ns).seq (byteSlice_atomic id).good

theorem timestamp_good (t i : Nat) : Good (BVal.timestamp t i).enc (fun st w => Elements.timestamp st w t i) :=
  (uint32_atomic i).good.seq (uint32_atomic t).good

theorem decimal128_good (h l : Nat) : Good (BVal.decimal h l).enc (fun st w => Elements.decimal128 st w h l) :=
  (uint64_atomic l).good.seq (uint64_atomic h).good

theorem codeWithScope_good (c : Bytes) (fs : Fields) :
    Good (BVal.codeScope c fs).enc (fun st w => Elements.codeWithScope st w c (encDoc fs)) := by
  have h := (int32_atomic (i32 (9 + i32 c.length + i32 (encDoc fs).length))).good.seq
    ((string_good c).seq (byteSlice_atomic (encDoc fs)).good)
  have e : (BVal.codeScope c fs).enc = le32 (9 + c.length + (encDoc fs).length) ++ (encString c ++ encDoc fs) := by
    simp [BVal.enc, encDoc]; congr 1; omega
  rw [twos32_nat (n := 9 + c.length + (encDoc fs).length) (by rw [i32_add2_mod]; rfl)] at h
  rw [e]; exact h

theorem element_good {e : Bytes} {f : Nat → Bytes → Res Out} (t : UInt8) (k : Bytes) (h : Good e f) :
    Good (t :: (k ++ 0 :: e)) (Elements.element t k f) := by
  have := (byte_atomic t).good.seq ((cstring_atomic k).good.seq h)
  have e' : t :: (k ++ 0 :: e) = [t] ++ ((k ++ [0]) ++ e) := by simp
  rw [e']; exact this

theorem regexElement_good (k p o : Bytes) :
    Good (0x0B :: (k ++ 0 :: (BVal.regex p o).enc)) (Elements.regexElement k p o) := by
  have := (byte_atomic 0x0B).good.seq ((cstring_atomic k).good.seq ((cstring_atomic p).good.seq (cstring_atomic o).good))
  have e' : 0x0B :: (k ++ 0 :: (BVal.regex p o).enc) = [0x0B] ++ ((k ++ [0]) ++ ((p ++ [0]) ++ (o ++ [0]))) := by simp [BVal.enc]
  rw [e']; exact this

end Birch.Proofs
