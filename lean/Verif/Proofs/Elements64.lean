import Verif.Model.Elements64
import Verif.Proofs.Construct

/- The encoders of package `elements` at 64-bit positions do what they do at unbounded positions, or panic. -/

namespace Birch.Proofs
open Birch Model Spec

set_option linter.unusedSimpArgs false
set_option linter.unusedVariables false

/-- `g` is the 64-bit version of the encoder `f` of the bytes `e` -/
structure Agree (e : Bytes) (f g : Nat → Bytes → Res Elements.Out) : Prop where
  same : ∀ st w, st < 18446744073709551616 → w.length + e.length < 9223372036854775808 →
    g st w = f st w ∨ (g st w = .panic ∧ 9223372036854775808 ≤ st + e.length)
  panics : ∀ st w, st < 18446744073709551616 → w.length + e.length < 9223372036854775808 →
    9223372036854775808 ≤ st → st + e.length ≤ 18446744073709551616 → g st w = .panic

theorem Agree.seq {e1 e2 : Bytes} {f1 f2 g1 g2 : Nat → Bytes → Res Elements.Out} (a1 : Agree e1 f1 g1) (h1 : Good e1 f1) (a2 : Agree e2 f2 g2) :
    Agree (e1 ++ e2) (fun st w => Elements.seq (f1 st w) st f2) (fun st w => Elements64.seq (g1 st w) st g2) where
  same st w hst hw := by
    simp only [List.length_append] at hw ⊢
    rcases a1.same st w hst (by omega) with h | ⟨h, hp⟩
    · rcases Nat.lt_or_ge w.length (st + e1.length) with hl | hl
      · obtain ⟨m, _, _, e⟩ := h1.short st w hl
        left
        unfold Elements.seq Elements64.seq
        rw [h, e]; rfl
      · have hs : (splice w st e1).length = w.length := splice_length (by omega)
        have hu : Elements64.up st e1.length = st + e1.length := by unfold Elements64.up; omega
        have hf := h1.fits st w hl
        rcases a2.same (st + e1.length) (splice w st e1) (by omega) (by omega) with h' | ⟨h', hp'⟩
        · left
          unfold Elements.seq Elements64.seq
          rw [h, hf]
          simp only [Res.bind_ok, Bool.false_eq_true, if_false, hu, h']
        · right
          refine ⟨?_, by omega⟩
          unfold Elements64.seq
          rw [h, hf]
          simp only [Res.bind_ok, Bool.false_eq_true, if_false, hu, h']
          rfl
    · right
      refine ⟨?_, by omega⟩
      unfold Elements64.seq
      rw [h]; rfl
  panics st w hst hw h1 h2 := by
    simp only [List.length_append] at hw h2
    unfold Elements64.seq
    simp only [a1.panics st w hst (by omega) h1 (by omega)]
    rfl

theorem setByte_panic {w : Bytes} {i : Nat} {x : UInt8} (h : w.length ≤ i) : Elements.setByte w i x = .panic := by
  unfold Elements.setByte; rw [if_neg (by omega)]

theorem copyAt_panic {w : Bytes} {i : Nat} {x : Bytes} (h : w.length < i) : copyAt w i x = .panic := by
  unfold copyAt; rw [if_neg (by omega)]

theorem put_panic {w : Bytes} {lo hi : Nat} {x : Bytes} (h : w.length < lo + x.length) : Elements64.put w lo hi x = .panic := by
  unfold Elements64.put; rw [if_neg (by omega)]

theorem put_ok {w : Bytes} {lo hi : Nat} {x : Bytes} (h : lo + x.length ≤ hi) (h2 : hi ≤ w.length) : Elements64.put w lo hi x = copyAt w lo x := by
  unfold Elements64.put; rw [if_pos ⟨h, h2⟩]

/-- A size check for all the bytes, and then writing them. -/
theorem agree_check {e : Bytes} {f g : Nat → Bytes → Res Elements.Out} (h : Atomic e f)
    (check : Nat → Bytes → Int) (write : Nat → Bytes → Res Elements.Out)
    (hg : ∀ st w, g st w = if (w.length : Int) < check st w then Elements.tooSmall w else write st w)
    (hc : ∀ st w, st < 18446744073709551616 → w.length + e.length < 9223372036854775808 → check st w = i64 ((st : Int) + e.length))
    (hw : ∀ st w, w.length + e.length < 9223372036854775808 → st + e.length ≤ w.length → write st w = f st w)
    (hs : ∀ st w, st < 18446744073709551616 → w.length + e.length < 9223372036854775808 → 9223372036854775808 ≤ st + e.length →
      i64 ((st : Int) + e.length) ≤ w.length → write st w = .panic ∨ write st w = Elements.tooSmall w)
    (hp : ∀ st w, st < 18446744073709551616 → w.length + e.length < 9223372036854775808 → 9223372036854775808 ≤ st → st + e.length ≤ 18446744073709551616 →
      write st w = .panic) : Agree e f g where
  same st w hst hl := by
    rw [hg, hc st w hst hl]
    split
    · rename_i hlt
      left
      rw [h.short st w (by unfold i64 at hlt; omega)]; rfl
    · rename_i hlt
      by_cases h2 : 9223372036854775808 ≤ st + e.length
      · rcases hs st w hst hl h2 (by omega) with h3 | h3
        · right; exact ⟨h3, h2⟩
        · left; rw [h3, h.short st w (by omega)]; rfl
      · left; exact hw st w hl (by unfold i64 at hlt; omega)
  panics st w hst hl h1 h2 := by
    rw [hg, hc st w hst hl]
    have : i64 ((st : Int) + e.length) ≤ 0 := by unfold i64; omega
    rw [if_neg (by omega)]
    exact hp st w hst hl h1 h2

/-- A size check followed by a write that panics when the bytes do not fit: the form of every encoder of one piece. -/
theorem agree_of {e : Bytes} {f g : Nat → Bytes → Res Elements.Out} (h : Atomic e f)
    (check : Nat → Bytes → Int) (write : Nat → Bytes → Res Elements.Out)
    (hg : ∀ st w, g st w = if (w.length : Int) < check st w then Elements.tooSmall w else write st w)
    (hc : ∀ st w, st < 18446744073709551616 → w.length + e.length < 9223372036854775808 → check st w = i64 ((st : Int) + e.length))
    (hw : ∀ st w, w.length + e.length < 9223372036854775808 → st + e.length ≤ w.length → write st w = f st w)
    (hp : ∀ st w, st < 18446744073709551616 → w.length + e.length < 9223372036854775808 → 9223372036854775808 ≤ st + e.length → i64 ((st : Int) + e.length) ≤ w.length → write st w = .panic) : Agree e f g :=
  agree_check h check write hg hc hw (fun st w h1 h2 h3 h4 => .inl (hp st w h1 h2 h3 h4))
    (fun st w h1 h2 h3 h4 => hp st w h1 h2 (by omega) (by unfold i64; omega))

theorem byte_agree (t : UInt8) : Agree [t] (fun st w => Elements.byte st w t) (fun st w => Elements64.byte st w t) := by
  refine agree_of (byte_atomic t) (fun st w => i64 (Elements64.up st 1)) (fun st w => do let w ← Elements.setByte w st t; .ok ⟨1, w, false⟩)
    (fun st w => rfl) ?_ ?_ ?_
  · intro st w _ _; simp only [List.length_singleton, Elements64.up, i64]; omega
  · intro st w _ h; simp only [List.length_singleton] at h; unfold Elements.byte; rw [if_neg (by omega)]
  · intro st w h1 h2 h3 h4
    simp only [List.length_singleton] at h2 h3
    rw [setByte_panic (by omega)]; rfl

theorem boolean_agree (b : Bool) : Agree [if b then 1 else 0] (fun st w => Elements.boolean st w b) (fun st w => Elements64.boolean st w b) := by
  refine agree_of (boolean_atomic b) (fun st w => i64 (i64 st + 1)) (fun st w => do let w ← Elements.setByte w st (if b then 1 else 0); .ok ⟨1, w, false⟩)
    (fun st w => rfl) ?_ ?_ ?_
  · intro st w _ _; simp only [List.length_singleton, i64]; omega
  · intro st w _ h; change st + 1 ≤ _ at h; unfold Elements.boolean; exact (if_neg (by omega)).symm
  · intro st w h1 h2 h3 h4
    simp only [List.length_singleton] at h2 h3
    rw [setByte_panic (by omega)]; rfl

theorem byteSlice_agree (b : Bytes) : Agree b (fun st w => Elements.byteSlice st w b) (fun st w => Elements64.byteSlice st w b) := by
  refine agree_of (byteSlice_atomic b) (fun st w => i64 (i64 st + b.length)) (fun st w => do let (n, w) ← copyAt w st b; .ok ⟨n, w, false⟩)
    (fun st w => rfl) ?_ ?_ ?_
  · intro st w _ _; simp only [i64]; omega
  · intro st w _ h; unfold Elements.byteSlice; rw [if_neg (by omega)]
  · intro st w h1 h2 h3 h4
    rw [copyAt_panic (by omega)]; rfl

theorem uint32_agree (u : Nat) : Agree (le32 u) (fun st w => Elements.uint32 st w u) (fun st w => Elements64.uint32 st w u) := by
  refine agree_of (uint32_atomic u) (fun st w => i64 (Elements64.up st 4)) (fun st w => do let (_, w) ← Elements64.put w st w.length (le32 u); .ok ⟨4, w, false⟩)
    (fun st w => rfl) ?_ ?_ ?_
  · intro st w _ _; simp only [le32_length, Elements64.up, i64]; omega
  · intro st w _ h; simp only [le32_length] at h; unfold Elements.uint32; rw [if_neg (by omega), put_ok (by simp; omega) (by omega)]
  · intro st w h1 h2 h3 h4
    simp only [le32_length] at h2 h3
    rw [put_panic (by simp; omega)]; rfl

theorem uint64_agree (u : Nat) : Agree (le64 u) (fun st w => Elements.uint64 st w u) (fun st w => Elements64.uint64 st w u) := by
  refine agree_of (uint64_atomic u) (fun st w => i64 (Elements64.up st 8)) (fun st w => do let (_, w) ← Elements64.put w st w.length (le64 u); .ok ⟨8, w, false⟩)
    (fun st w => rfl) ?_ ?_ ?_
  · intro st w _ _; simp only [le64_length, Elements64.up, i64]; omega
  · intro st w _ h; simp only [le64_length] at h; unfold Elements.uint64; rw [if_neg (by omega), put_ok (by simp; omega) (by omega)]
  · intro st w h1 h2 h3 h4
    simp only [le64_length] at h2 h3
    rw [put_panic (by simp; omega)]; rfl

theorem double_agree (u : Nat) : Agree (le64 u) (fun st w => Elements.double st w u) (fun st w => Elements64.double st w u) := by
  refine agree_of (double_atomic u) (fun st w => i64 (Elements64.up st 8)) (fun st w => do let (_, w) ← Elements64.put w st (Elements64.up st 8) (le64 u); .ok ⟨8, w, false⟩)
    (fun st w => rfl) ?_ ?_ ?_
  · intro st w _ _; simp only [le64_length, Elements64.up, i64]; omega
  · intro st w hl h; simp only [le64_length] at h hl; unfold Elements.double
    rw [if_neg (by omega), put_ok (by simp [Elements64.up]; omega) (by simp [Elements64.up]; omega)]
  · intro st w h1 h2 h3 h4
    simp only [le64_length] at h2 h3
    rw [put_panic (by simp; omega)]; rfl

theorem int32_agree (z : Int) : Agree (le32 (twos32 z)) (fun st w => Elements.int32 st w z) (fun st w => Elements64.int32 st w z) := by
  refine agree_of (int32_atomic z) (fun st w => i64 (i64 st + 4)) (fun st w => do let (_, w) ← Elements64.put w st (Elements64.up st 4) (le32 (u32i z)); .ok ⟨4, w, false⟩)
    (fun st w => rfl) ?_ ?_ ?_
  · intro st w _ _; simp only [le32_length, i64]; omega
  · intro st w hl h; simp only [le32_length] at h hl; unfold Elements.int32
    rw [if_neg (by omega), put_ok (by simp [Elements64.up]; omega) (by simp [Elements64.up]; omega)]
  · intro st w h1 h2 h3 h4
    simp only [le32_length] at h2 h3
    rw [put_panic (by simp; omega)]; rfl

theorem int64_agree (z : Int) : Agree (le64 (twos64 z)) (fun st w => Elements.int64 st w z) (fun st w => Elements64.int64 st w z) :=
  uint64_agree (twos64 z)

theorem cstring_agree (s : Bytes) : Agree (s ++ [0]) (fun st w => Elements.cstring st w s) (fun st w => Elements64.cstring st w s) := by
  refine agree_of (cstring_atomic s) (fun st w => i64 (i64 (Elements64.up st 1) + s.length))
    (fun st w =>
      if (st : Int) ≤ i64 (i64 st + s.length) ∧ i64 (i64 st + s.length) ≤ w.length then do
        let (n, w) ← copyAt w st s
        let w ← Elements.setByte w (i64 (i64 st + s.length)).toNat 0
        .ok ⟨n + 1, w, false⟩
      else .panic)
    (fun st w => rfl) ?_ ?_ ?_
  · intro st w _ _; simp only [List.length_append, List.length_singleton, Elements64.up, i64]; omega
  · intro st w hl h
    simp only [List.length_append, List.length_singleton] at h hl
    have he : i64 (i64 st + s.length) = st + s.length := by unfold i64; omega
    dsimp only
    rw [he, if_pos (by omega)]
    unfold Elements.cstring
    rw [if_neg (by omega), show ((st : Int) + s.length).toNat = st + s.length by omega]
  · intro st w h1 h2 h3 h4
    simp only [List.length_append, List.length_singleton] at h2 h3
    rw [if_neg (by unfold i64; omega)]

theorem string_agree (s : Bytes) : Agree (encString s) (fun st w => Elements.string st w s) (fun st w => Elements64.string st w s) := by
  have h := (int32_agree (i32 (i32 s.length + 1))).seq (int32_atomic _).good (cstring_agree s)
  rw [twos32_nat (n := s.length + 1) (by rw [i32_add_mod]; rfl)] at h
  rw [encString, List.append_assoc]
  exact h

theorem regex_agree (p o : Bytes) : Agree (BVal.regex p o).enc (fun st w => Elements.regex st w p o) (fun st w => Elements64.regex st w p o) := by
  have h := (cstring_agree p).seq (cstring_atomic p).good (cstring_agree o)
  rw [show (BVal.regex p o).enc = (p ++ [0]) ++ (o ++ [0]) by simp [BVal.enc]]
  exact h

theorem dbpointer_agree (ns id : Bytes) : Agree (BVal.dbpointer ns id).enc (fun st w => Elements.dbpointer st w ns id) (fun st w => Elements64.dbpointer st w ns id) :=
  (string_agree ns).seq (string_good ns) (byteSlice_agree id)

theorem timestamp_agree (t i : Nat) : Agree (BVal.timestamp t i).enc (fun st w => Elements.timestamp st w t i) (fun st w => Elements64.timestamp st w t i) :=
  (uint32_agree i).seq (uint32_atomic i).good (uint32_agree t)

theorem decimal128_agree (h l : Nat) : Agree (BVal.decimal h l).enc (fun st w => Elements.decimal128 st w h l) (fun st w => Elements64.decimal128 st w h l) :=
  (uint64_agree l).seq (uint64_atomic l).good (uint64_agree h)

theorem codeWithScope_agree (c : Bytes) (fs : Fields) :
    Agree (BVal.codeScope c fs).enc (fun st w => Elements.codeWithScope st w c (encDoc fs)) (fun st w => Elements64.codeWithScope st w c (encDoc fs)) := by
  have h := (int32_agree (i32 (9 + i32 c.length + i32 (encDoc fs).length))).seq (int32_atomic _).good
    ((string_agree c).seq (string_good c) (byteSlice_agree (encDoc fs)))
  have e : (BVal.codeScope c fs).enc = le32 (9 + c.length + (encDoc fs).length) ++ (encString c ++ encDoc fs) := by
    simp [BVal.enc, encDoc]; congr 1; omega
  rw [twos32_nat (n := 9 + c.length + (encDoc fs).length) (by rw [i32_add2_mod]; rfl)] at h
  rw [e]; exact h

theorem element_agree {e : Bytes} {f g : Nat → Bytes → Res Elements.Out} (t : UInt8) (k : Bytes) (h : Agree e f g) :
    Agree (t :: (k ++ 0 :: e)) (Elements.element t k f) (Elements64.element t k g) := by
  have := (byte_agree t).seq (byte_atomic t).good ((cstring_agree k).seq (cstring_atomic k).good h)
  rw [show t :: (k ++ 0 :: e) = [t] ++ ((k ++ [0]) ++ e) by simp]
  exact this

theorem regexElement_agree (k p o : Bytes) :
    Agree (0x0B :: (k ++ 0 :: (BVal.regex p o).enc)) (Elements.regexElement k p o) (Elements64.regexElement k p o) := by
  have := (byte_agree 0x0B).seq (byte_atomic 0x0B).good ((cstring_agree k).seq (cstring_atomic k).good
    ((cstring_agree p).seq (cstring_atomic p).good (cstring_agree o)))
  rw [show 0x0B :: (k ++ 0 :: (BVal.regex p o).enc) = [0x0B] ++ ((k ++ [0]) ++ ((p ++ [0]) ++ (o ++ [0]))) by simp [BVal.enc]]
  exact this

theorem int32_64_fits {z : Int} {st : Nat} {w : Bytes} (h : st + 4 ≤ w.length) (hl : w.length + 4 < 9223372036854775808) :
    Elements64.int32 st w z = .ok ⟨4, splice w st (le32 (twos32 z)), false⟩ := by
  rcases (int32_agree z).same st w (by omega) (by simpa using hl) with e | ⟨_, e⟩
  · exact e.trans ((int32_atomic z).fits st w (by simpa using h))
  · simp at e; omega

theorem int32_64_far {z : Int} {st : Nat} {w : Bytes} (h : st < 18446744073709551616) (hw : w.length < st) (hl : w.length + 4 < 9223372036854775808)
    (g : Nat → Bytes → Res Elements.Out) :
    Elements64.seq (Elements64.int32 st w z) st g = .panic ∨ Elements64.seq (Elements64.int32 st w z) st g = Elements.tooSmall w := by
  rcases (int32_agree z).same st w h (by simpa using hl) with e | ⟨e, _⟩
  · right
    rw [e, (int32_atomic z).short st w (by omega)]; rfl
  · left
    rw [e]; rfl

theorem binary_agree (b : Bytes) (t : UInt8) : Agree (BVal.binary t b).enc (fun st w => Elements.binary st w b t) (fun st w => Elements64.binary st w b t) := by
  have hat := binary_atomic b t
  by_cases ht : t = 2
  · subst ht
    have e : (BVal.binary 2 b).enc = le32 (b.length + 4) ++ ([2] ++ (le32 b.length ++ b)) := by simp [BVal.enc]
    have el : (BVal.binary 2 b).enc.length = 9 + b.length := by rw [e]; simp; omega
    refine agree_check hat (fun st w => i64 (i64 (i64 st + 9) + b.length)) _ (fun st w => by unfold Elements64.binary Elements64.binarySubtype2; rw [if_pos rfl]) ?_ ?_ ?_ ?_
    · intro st w _ _; rw [el]; unfold i64; omega
    · intro st w hl h
      rw [hat.fits st w h]
      rw [el] at hl h
      rw [e]
      unfold Elements64.seq
      rw [int32_64_fits (by omega) (by omega)]
      simp only [Res.bind_ok, Bool.false_eq_true, if_false, twos32_nat (n := b.length + 4) (z := i32 (i32 b.length + 4)) (by rw [i32_add_mod]; rfl)]
      have l1 : (splice w st (le32 (b.length + 4))).length = w.length := splice_length (by simp; omega)
      have u1 : Elements64.up st 4 = st + 4 := by unfold Elements64.up; omega
      have u2 : Elements64.up (st + 4) 1 = st + 4 + 1 := by unfold Elements64.up; omega
      have u3 : Elements64.up (st + 4 + 1) 4 = st + 4 + 1 + 4 := by unfold Elements64.up; omega
      rw [u1, setByte_splice (by omega)]
      simp only [Res.bind_ok, Bool.false_eq_true, if_false]
      rw [u2, splice_splice (by simp) (by simp; omega)]
      have l2 : (splice w st (le32 (b.length + 4) ++ [2])).length = w.length := splice_length (by simp; omega)
      rw [int32_64_fits (by omega) (by omega)]
      simp only [Res.bind_ok, Bool.false_eq_true, if_false, twos32_nat (n := b.length) (z := i32 b.length) (by rw [i32_mod])]
      rw [u3, splice_splice (by simp) (by simp; omega)]
      have l3 : (splice w st (le32 (b.length + 4) ++ [2] ++ le32 b.length)).length = w.length := splice_length (by simp; omega)
      rw [copyAt_splice (by omega)]
      simp only [Res.bind_ok]
      rw [splice_splice (by simp) (by omega)]
      simp; omega
    · intro st w h1 h2 h3 _
      rw [el] at h2 h3
      exact int32_64_far h1 (by omega) (by omega) _
    · intro st w h1 h2 h3 h4
      rw [el] at h2 h4
      unfold Elements64.seq
      have := (int32_agree (i32 (i32 b.length + 4))).panics st w h1 (by simp; omega) h3 (by simp; omega)
      rw [this]; rfl
  · have e : (BVal.binary t b).enc = le32 b.length ++ ([t] ++ b) := by simp [BVal.enc, ht]
    have el : (BVal.binary t b).enc.length = 5 + b.length := by rw [e]; simp; omega
    refine agree_check hat (fun st w => i64 (i64 (i64 st + 5) + b.length)) _ (fun st w => by unfold Elements64.binary; rw [if_neg ht]) ?_ ?_ ?_ ?_
    · intro st w _ _; rw [el]; unfold i64; omega
    · intro st w hl h
      rw [hat.fits st w h]
      rw [el] at hl h
      rw [e]
      unfold Elements64.seq
      rw [int32_64_fits (by omega) (by omega)]
      simp only [Res.bind_ok, Bool.false_eq_true, if_false, twos32_nat (n := b.length) (z := i32 b.length) (by rw [i32_mod])]
      have l1 : (splice w st (le32 b.length)).length = w.length := splice_length (by simp; omega)
      have u1 : Elements64.up st 4 = st + 4 := by unfold Elements64.up; omega
      have u2 : Elements64.up (st + 4) 1 = st + 4 + 1 := by unfold Elements64.up; omega
      rw [u1, setByte_splice (by omega)]
      simp only [Res.bind_ok, Bool.false_eq_true, if_false]
      rw [u2, splice_splice (by simp) (by simp; omega)]
      have l2 : (splice w st (le32 b.length ++ [t])).length = w.length := splice_length (by simp; omega)
      rw [copyAt_splice (by omega)]
      simp only [Res.bind_ok]
      rw [splice_splice (by simp) (by omega)]
      simp; omega
    · intro st w h1 h2 h3 _
      rw [el] at h2 h3
      exact int32_64_far h1 (by omega) (by omega) _
    · intro st w h1 h2 h3 h4
      rw [el] at h2 h4
      unfold Elements64.seq
      have := (int32_agree (i32 b.length)).panics st w h1 (by simp; omega) h3 (by simp; omega)
      rw [this]; rfl

end Birch.Proofs
