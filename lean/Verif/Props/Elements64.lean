import Verif.Proofs.Elements64
import Verif.Props.Encoders

/-
C94: the encoders of package `elements` at every position a `uint` can have.
-/

namespace Birch.Props
open Birch Model Spec Proofs

/-- `g` encodes the bytes `e` at a 64-bit position into a buffer that fits in memory together with them.
    As long as the end of the bytes is below 2^63, as `Window` says: written at `st` if they fit, else `ErrTooSmall` after a first part of them.
    Beyond that, a panic or `ErrTooSmall`, and nothing is written; a panic in any case when `st` is 2^63 or more and the end is not beyond 2^64. -/
def Window64 (e : Bytes) (g : Nat → Bytes → Res Elements.Out) : Prop :=
  ∀ st w, st < 2 ^ 64 → w.length + e.length < 2 ^ 63 →
    (st + e.length < 2 ^ 63 →
      (st + e.length ≤ w.length → g st w = .ok ⟨e.length, wrote w st e, false⟩) ∧
      (w.length < st + e.length → ∃ m, m ≤ e.length ∧ (m = 0 ∨ st + m ≤ w.length) ∧ g st w = .ok ⟨m, wrote w st (e.take m), true⟩)) ∧
    (2 ^ 63 ≤ st + e.length → g st w = .panic ∨ g st w = .ok ⟨0, w, true⟩) ∧
    (2 ^ 63 ≤ st → st + e.length ≤ 2 ^ 64 → g st w = .panic)

theorem window64_of {e : Bytes} {f g : Nat → Bytes → Res Elements.Out} (h : Good e f) (a : Agree e f g) : Window64 e g := by
  intro st w hst hl
  refine ⟨fun hs => ?_, fun hs => ?_, fun h1 h2 => a.panics st w (by omega) (by omega) (by omega) (by omega)⟩
  · rcases a.same st w (by omega) (by omega) with e | ⟨_, e⟩
    · rw [e]; exact window_of h st w
    · omega
  · rcases a.same st w (by omega) (by omega) with e1 | ⟨e1, _⟩
    · right
      obtain ⟨m, hm, hb, e2⟩ := h.short st w (by omega)
      have : m = 0 := by omega
      subst this
      rw [e1, e2]; simp [splice_nil]
    · exact .inl e1

/-- The value encoders. Missing for C94: that a position past the end is always answered with `ErrTooSmall`, which is false (`C94_not_too_small`). -/
theorem C94_values_partial :
    (∀ t, Window64 [t] (fun st w => Elements64.byte st w t)) ∧
    (∀ s, Window64 (s ++ [0]) (fun st w => Elements64.cstring st w s)) ∧
    (∀ x, Window64 (BVal.double x).enc (fun st w => Elements64.double st w x)) ∧
    (∀ s, Window64 (BVal.string s).enc (fun st w => Elements64.string st w s)) ∧
    (∀ b, Window64 b (fun st w => Elements64.byteSlice st w b)) ∧
    (∀ b x, Window64 (BVal.binary x b).enc (fun st w => Elements64.binary st w b x)) ∧
    (∀ b, Window64 (BVal.bool b).enc (fun st w => Elements64.boolean st w b)) ∧
    (∀ p o, Window64 (BVal.regex p o).enc (fun st w => Elements64.regex st w p o)) ∧
    (∀ ns id, Window64 (BVal.dbpointer ns id).enc (fun st w => Elements64.dbpointer st w ns id)) ∧
    (∀ c fs, Window64 (BVal.codeScope c fs).enc (fun st w => Elements64.codeWithScope st w c (encDoc fs))) ∧
    (∀ i, Window64 (BVal.int32 i).enc (fun st w => Elements64.int32 st w i)) ∧
    (∀ t i, Window64 (BVal.timestamp t i).enc (fun st w => Elements64.timestamp st w t i)) ∧
    (∀ i, Window64 (BVal.int64 i).enc (fun st w => Elements64.int64 st w i)) ∧
    (∀ h l, Window64 (BVal.decimal h l).enc (fun st w => Elements64.decimal128 st w h l)) :=
  ⟨fun t => window64_of (byte_atomic t).good (byte_agree t), fun s => window64_of (cstring_atomic s).good (cstring_agree s),
    fun x => window64_of (double_atomic x).good (double_agree x), fun s => window64_of (string_good s) (string_agree s),
    fun b => window64_of (byteSlice_atomic b).good (byteSlice_agree b), fun b x => window64_of (binary_atomic b x).good (binary_agree b x),
    fun b => window64_of (boolean_atomic b).good (boolean_agree b), fun p o => window64_of (regex_good p o) (regex_agree p o),
    fun n i => window64_of (dbpointer_good n i) (dbpointer_agree n i), fun c fs => window64_of (codeWithScope_good c fs) (codeWithScope_agree c fs),
    fun i => window64_of (int32_atomic i).good (int32_agree i), fun t i => window64_of (timestamp_good t i) (timestamp_agree t i),
    fun i => window64_of (int64_atomic i).good (int64_agree i), fun h l => window64_of (decimal128_good h l) (decimal128_agree h l)⟩

example : Elements64.string 1 [9, 9, 9, 9, 9, 9, 9, 9] [97] = .ok ⟨6, [9, 2, 0, 0, 0, 97, 0, 9], false⟩ := by decide +kernel
example : Elements64.string (2 ^ 64 - 1) [9, 9] [97] = .ok ⟨0, [9, 9], true⟩ := by decide +kernel
example : Elements64.string (2 ^ 64 - 6) [9, 9] [97] = .panic := by decide +kernel

/-- The `Element` methods: type byte, key, NUL, value. -/
theorem C94_elements_partial (k : Bytes) :
    (∀ x, Window64 (0x01 :: (k ++ 0 :: (BVal.double x).enc)) (Elements64.element 0x01 k fun st w => Elements64.double st w x)) ∧
    (∀ s, Window64 (0x02 :: (k ++ 0 :: (BVal.string s).enc)) (Elements64.element 0x02 k fun st w => Elements64.string st w s)) ∧
    (∀ b, Window64 (0x03 :: (k ++ 0 :: b)) (Elements64.element 0x03 k fun st w => Elements64.byteSlice st w b)) ∧
    (∀ b, Window64 (0x04 :: (k ++ 0 :: b)) (Elements64.element 0x04 k fun st w => Elements64.byteSlice st w b)) ∧
    (∀ b x, Window64 (0x05 :: (k ++ 0 :: (BVal.binary x b).enc)) (Elements64.element 0x05 k fun st w => Elements64.binary st w b x)) ∧
    (∀ id, Window64 (0x07 :: (k ++ 0 :: (BVal.oid id).enc)) (Elements64.element 0x07 k fun st w => Elements64.byteSlice st w id)) ∧
    (∀ b, Window64 (0x08 :: (k ++ 0 :: (BVal.bool b).enc)) (Elements64.element 0x08 k fun st w => Elements64.boolean st w b)) ∧
    (∀ i, Window64 (0x09 :: (k ++ 0 :: (BVal.datetime i).enc)) (Elements64.element 0x09 k fun st w => Elements64.int64 st w i)) ∧
    (∀ p o, Window64 (0x0B :: (k ++ 0 :: (BVal.regex p o).enc)) (Elements64.regexElement k p o)) ∧
    (∀ ns id, Window64 (0x0C :: (k ++ 0 :: (BVal.dbpointer ns id).enc)) (Elements64.element 0x0C k fun st w => Elements64.dbpointer st w ns id)) ∧
    (∀ s, Window64 (0x0D :: (k ++ 0 :: (BVal.js s).enc)) (Elements64.element 0x0D k fun st w => Elements64.string st w s)) ∧
    (∀ s, Window64 (0x0E :: (k ++ 0 :: (BVal.symbol s).enc)) (Elements64.element 0x0E k fun st w => Elements64.string st w s)) ∧
    (∀ c fs, Window64 (0x0F :: (k ++ 0 :: (BVal.codeScope c fs).enc)) (Elements64.element 0x0F k fun st w => Elements64.codeWithScope st w c (encDoc fs))) ∧
    (∀ i, Window64 (0x10 :: (k ++ 0 :: (BVal.int32 i).enc)) (Elements64.element 0x10 k fun st w => Elements64.int32 st w i)) ∧
    (∀ t i, Window64 (0x11 :: (k ++ 0 :: (BVal.timestamp t i).enc)) (Elements64.element 0x11 k fun st w => Elements64.timestamp st w t i)) ∧
    (∀ i, Window64 (0x12 :: (k ++ 0 :: (BVal.int64 i).enc)) (Elements64.element 0x12 k fun st w => Elements64.int64 st w i)) ∧
    (∀ h l, Window64 (0x13 :: (k ++ 0 :: (BVal.decimal h l).enc)) (Elements64.element 0x13 k fun st w => Elements64.decimal128 st w h l)) :=
  ⟨fun x => window64_of (element_good _ _ (double_atomic x).good) (element_agree _ _ (double_agree x)),
    fun s => window64_of (element_good _ _ (string_good s)) (element_agree _ _ (string_agree s)),
    fun b => window64_of (element_good _ _ (byteSlice_atomic b).good) (element_agree _ _ (byteSlice_agree b)),
    fun b => window64_of (element_good _ _ (byteSlice_atomic b).good) (element_agree _ _ (byteSlice_agree b)),
    fun b x => window64_of (element_good _ _ (binary_atomic b x).good) (element_agree _ _ (binary_agree b x)),
    fun b => window64_of (element_good _ _ (byteSlice_atomic b).good) (element_agree _ _ (byteSlice_agree b)),
    fun b => window64_of (element_good _ _ (boolean_atomic b).good) (element_agree _ _ (boolean_agree b)),
    fun i => window64_of (element_good _ _ (int64_atomic i).good) (element_agree _ _ (int64_agree i)),
    fun p o => window64_of (regexElement_good k p o) (regexElement_agree k p o),
    fun n i => window64_of (element_good _ _ (dbpointer_good n i)) (element_agree _ _ (dbpointer_agree n i)),
    fun s => window64_of (element_good _ _ (string_good s)) (element_agree _ _ (string_agree s)),
    fun s => window64_of (element_good _ _ (string_good s)) (element_agree _ _ (string_agree s)),
    fun c fs => window64_of (element_good _ _ (codeWithScope_good c fs)) (element_agree _ _ (codeWithScope_agree c fs)),
    fun i => window64_of (element_good _ _ (int32_atomic i).good) (element_agree _ _ (int32_agree i)),
    fun t i => window64_of (element_good _ _ (timestamp_good t i)) (element_agree _ _ (timestamp_agree t i)),
    fun i => window64_of (element_good _ _ (int64_atomic i).good) (element_agree _ _ (int64_agree i)),
    fun h l => window64_of (element_good _ _ (decimal128_good h l)) (element_agree _ _ (decimal128_agree h l))⟩

example : Elements64.element 0x10 [97] (fun st w => Elements64.int32 st w (-2)) 0 (List.replicate 8 9)
    = .ok ⟨7, [0x10, 97, 0, 254, 255, 255, 255, 9], false⟩ := by decide +kernel

/-- A position far past the end of the buffer makes an encoder panic instead of returning `ErrTooSmall`. -/
theorem C94_not_too_small : ¬ ∀ st w t, st < 2 ^ 64 → w.length < st + 1 → Elements64.byte st w t = .ok ⟨0, w, true⟩ := by
  intro h
  have := h (2 ^ 64 - 1) [1, 2, 3] 0 (by omega) (by decide)
  revert this
  decide +kernel

/-- `Byte.Encode` panics exactly at the positions from `2^63 - 1` on: nothing in between. -/
theorem C94_byte_panics (st : Nat) (w : Bytes) (t : UInt8) (hst : st < 2 ^ 64) (hw : w.length < 2 ^ 63 - 1) :
    Elements64.byte st w t = .panic ↔ 2 ^ 63 - 1 ≤ st := by
  constructor
  · intro h
    rcases (byte_agree t).same st w (by omega) (by simp; omega) with e | ⟨_, e⟩
    · exfalso
      rw [h] at e
      rcases Nat.lt_or_ge w.length (st + 1) with hl | hl
      · rw [(byte_atomic t).short st w (by simpa using hl)] at e; cases e
      · rw [(byte_atomic t).fits st w (by simpa using hl)] at e; cases e
    · simp at e; omega
  · intro h
    by_cases h2 : 2 ^ 63 ≤ st
    · exact (byte_agree t).panics st w (by omega) (by simp; omega) (by omega) (by simp; omega)
    · have : st = 2 ^ 63 - 1 := by omega
      subst this
      unfold Elements64.byte
      rw [if_neg (by simp [Elements64.up, i64]), setByte_panic (by omega)]; rfl

example : Elements64.byte (2 ^ 63 - 1) [1, 2] 0 = .panic ∧ Elements64.byte (2 ^ 63 - 2) [1, 2] 0 = .ok ⟨0, [1, 2], true⟩ := by decide +kernel

end Birch.Props
