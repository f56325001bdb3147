import Verif.Proofs.Construct

/-
C22: the encoders of package `elements` stay inside their window.
-/

namespace Birch.Props
open Birch Model Spec Proofs

/-- The buffer after writing `x` at `st`. -/
def wrote (w : Bytes) (st : Nat) (x : Bytes) : Bytes := w.take st ++ x ++ w.drop (st + x.length)

/-- `f` is an encoder of the bytes `e`.  If they fit behind `st`: reports `|e|`, writes exactly `e` there and
    nothing else.  If they do not fit: returns `ErrTooSmall`, reports the number `m` of bytes it wrote before noticing,
    which are the first `m` bytes of `e`, inside the buffer, and nothing else changed. -/
def Window (e : Bytes) (f : Nat → Bytes → Res Elements.Out) : Prop :=
  ∀ st w, (st + e.length ≤ w.length → f st w = .ok ⟨e.length, wrote w st e, false⟩) ∧
    (w.length < st + e.length → ∃ m, m ≤ e.length ∧ (m = 0 ∨ st + m ≤ w.length) ∧
      f st w = .ok ⟨m, wrote w st (e.take m), true⟩)

/-- As `Window`, and nothing is written when the bytes do not fit. -/
def AtomicWindow (e : Bytes) (f : Nat → Bytes → Res Elements.Out) : Prop :=
  ∀ st w, (st + e.length ≤ w.length → f st w = .ok ⟨e.length, wrote w st e, false⟩) ∧
    (w.length < st + e.length → f st w = .ok ⟨0, w, true⟩)

theorem window_of {e : Bytes} {f : Nat → Bytes → Res Elements.Out} (h : Good e f) : Window e f := fun st w =>
  ⟨h.fits st w, fun hw => by
    obtain ⟨m, hm, hs, e⟩ := h.short st w hw
    exact ⟨m, by omega, hs, e⟩⟩

theorem atomic_of {e : Bytes} {f : Nat → Bytes → Res Elements.Out} (h : Atomic e f) : AtomicWindow e f := fun st w =>
  ⟨h.fits st w, h.short st w⟩

/-- The encoders that check the whole size first write nothing on failure.
    Missing for C22: the composite encoders, see `C22_window` and `C22_composite_counterexample`. -/
theorem C22_atomic_partial :
    (∀ t, AtomicWindow [t] (fun st w => Elements.byte st w t)) ∧
    (∀ s, AtomicWindow (s ++ [0]) (fun st w => Elements.cstring st w s)) ∧
    (∀ b, AtomicWindow b (fun st w => Elements.document st w b)) ∧
    (∀ i, AtomicWindow (BVal.int32 i).enc (fun st w => Elements.int32 st w i)) ∧
    (∀ i, AtomicWindow (BVal.int64 i).enc (fun st w => Elements.int64 st w i)) ∧
    (∀ i, AtomicWindow (BVal.datetime i).enc (fun st w => Elements.datetime st w i)) ∧
    (∀ x, AtomicWindow (BVal.double x).enc (fun st w => Elements.double st w x)) ∧
    (∀ b, AtomicWindow (BVal.bool b).enc (fun st w => Elements.boolean st w b)) ∧
    (∀ id, AtomicWindow (BVal.oid id).enc (fun st w => Elements.objectID st w id)) ∧
    (∀ b x, AtomicWindow (BVal.binary x b).enc (fun st w => Elements.binary st w b x)) :=
  ⟨fun t => atomic_of (byte_atomic t), fun s => atomic_of (cstring_atomic s), fun b => atomic_of (byteSlice_atomic b),
    fun i => atomic_of (int32_atomic i), fun i => atomic_of (int64_atomic i), fun i => atomic_of (int64_atomic i),
    fun x => atomic_of (double_atomic x), fun b => atomic_of (boolean_atomic b), fun id => atomic_of (byteSlice_atomic id),
    fun b x => atomic_of (binary_atomic b x)⟩

example : Elements.binary 1 [9, 9, 9, 9, 9, 9, 9, 9] [7] 0 = .ok ⟨6, [9, 1, 0, 0, 0, 0, 7, 9], false⟩ := by decide

/-- The composite value encoders stay inside the window and report what they wrote. -/
theorem C22_window :
    (∀ s, Window (BVal.string s).enc (fun st w => Elements.string st w s)) ∧
    (∀ p o, Window (BVal.regex p o).enc (fun st w => Elements.regex st w p o)) ∧
    (∀ ns id, Window (BVal.dbpointer ns id).enc (fun st w => Elements.dbpointer st w ns id)) ∧
    (∀ t i, Window (BVal.timestamp t i).enc (fun st w => Elements.timestamp st w t i)) ∧
    (∀ h l, Window (BVal.decimal h l).enc (fun st w => Elements.decimal128 st w h l)) ∧
    (∀ c fs, Window (BVal.codeScope c fs).enc (fun st w => Elements.codeWithScope st w c (encDoc fs))) :=
  ⟨fun s => window_of (string_good s), fun p o => window_of (regex_good p o), fun n i => window_of (dbpointer_good n i),
    fun t i => window_of (timestamp_good t i), fun h l => window_of (decimal128_good h l),
    fun c fs => window_of (codeWithScope_good c fs)⟩

example : Elements.timestamp 1 [9, 9, 9, 9, 9, 9, 9, 9, 9, 9] 1 2 = .ok ⟨8, [9, 2, 0, 0, 0, 1, 0, 0, 0, 9], false⟩ := by decide

/-- So do the `Element` methods: type byte, key, NUL, value. -/
theorem C22_element_window (k : Bytes) :
    (∀ x, Window (0x01 :: (k ++ 0 :: (BVal.double x).enc)) (Elements.element 0x01 k fun st w => Elements.double st w x)) ∧
    (∀ s, Window (0x02 :: (k ++ 0 :: (BVal.string s).enc)) (Elements.element 0x02 k fun st w => Elements.string st w s)) ∧
    (∀ b, Window (0x03 :: (k ++ 0 :: b)) (Elements.element 0x03 k fun st w => Elements.document st w b)) ∧
    (∀ b, Window (0x04 :: (k ++ 0 :: b)) (Elements.element 0x04 k fun st w => Elements.document st w b)) ∧
    (∀ b x, Window (0x05 :: (k ++ 0 :: (BVal.binary x b).enc)) (Elements.element 0x05 k fun st w => Elements.binary st w b x)) ∧
    (∀ id, Window (0x07 :: (k ++ 0 :: (BVal.oid id).enc)) (Elements.element 0x07 k fun st w => Elements.objectID st w id)) ∧
    (∀ b, Window (0x08 :: (k ++ 0 :: (BVal.bool b).enc)) (Elements.element 0x08 k fun st w => Elements.boolean st w b)) ∧
    (∀ i, Window (0x09 :: (k ++ 0 :: (BVal.datetime i).enc)) (Elements.element 0x09 k fun st w => Elements.datetime st w i)) ∧
    (∀ p o, Window (0x0B :: (k ++ 0 :: (BVal.regex p o).enc)) (Elements.regexElement k p o)) ∧
    (∀ ns id, Window (0x0C :: (k ++ 0 :: (BVal.dbpointer ns id).enc)) (Elements.element 0x0C k fun st w => Elements.dbpointer st w ns id)) ∧
    (∀ s, Window (0x0D :: (k ++ 0 :: (BVal.js s).enc)) (Elements.element 0x0D k fun st w => Elements.string st w s)) ∧
    (∀ s, Window (0x0E :: (k ++ 0 :: (BVal.symbol s).enc)) (Elements.element 0x0E k fun st w => Elements.string st w s)) ∧
    (∀ c fs, Window (0x0F :: (k ++ 0 :: (BVal.codeScope c fs).enc)) (Elements.element 0x0F k fun st w => Elements.codeWithScope st w c (encDoc fs))) ∧
    (∀ i, Window (0x10 :: (k ++ 0 :: (BVal.int32 i).enc)) (Elements.element 0x10 k fun st w => Elements.int32 st w i)) ∧
    (∀ t i, Window (0x11 :: (k ++ 0 :: (BVal.timestamp t i).enc)) (Elements.element 0x11 k fun st w => Elements.timestamp st w t i)) ∧
    (∀ i, Window (0x12 :: (k ++ 0 :: (BVal.int64 i).enc)) (Elements.element 0x12 k fun st w => Elements.int64 st w i)) ∧
    (∀ h l, Window (0x13 :: (k ++ 0 :: (BVal.decimal h l).enc)) (Elements.element 0x13 k fun st w => Elements.decimal128 st w h l)) :=
  ⟨fun x => window_of (element_good _ _ (double_atomic x).good), fun s => window_of (element_good _ _ (string_good s)),
    fun b => window_of (element_good _ _ (byteSlice_atomic b).good), fun b => window_of (element_good _ _ (byteSlice_atomic b).good),
    fun b x => window_of (element_good _ _ (binary_atomic b x).good), fun b => window_of (element_good _ _ (byteSlice_atomic b).good),
    fun b => window_of (element_good _ _ (boolean_atomic b).good), fun i => window_of (element_good _ _ (int64_atomic i).good),
    fun p o => window_of (regexElement_good k p o), fun n i => window_of (element_good _ _ (dbpointer_good n i)),
    fun s => window_of (element_good _ _ (string_good s)), fun s => window_of (element_good _ _ (string_good s)),
    fun c fs => window_of (element_good _ _ (codeWithScope_good c fs)), fun i => window_of (element_good _ _ (int32_atomic i).good),
    fun t i => window_of (element_good _ _ (timestamp_good t i)), fun i => window_of (element_good _ _ (int64_atomic i).good),
    fun h l => window_of (element_good _ _ (decimal128_good h l))⟩

example : Elements.element 0x10 [97] (fun st w => Elements.int32 st w (-2)) 0 (List.replicate 8 9)
    = .ok ⟨7, [0x10, 97, 0, 254, 255, 255, 255, 9], false⟩ := by decide

/-- "Returns `ErrTooSmall` without writing" is false for the composite encoders:
    `String.Encode(0, make([]byte, 4), "")` writes the length field before failing. -/
theorem C22_composite_counterexample :
    ¬ AtomicWindow (BVal.string []).enc (fun st w => Elements.string st w []) := by
  intro h
  have := (h 0 [0, 0, 0, 0]).2 (by decide)
  revert this
  decide

end Birch.Props
