import Verif.Proofs.Totality
import Verif.Proofs.Fuel
import Verif.Proofs.Validated

/-
C10: reading arbitrary bytes.

The full claim "`ReadDocument` and `Reader.Validate` on arbitrary bytes return a result or an error, never panic,
never run forever, and what they accept can be read with the accessors without
panicking" is false; the counterexamples come first, the part that holds after them.
-/

namespace Birch.Props
open Birch Model Spec Proofs

/-! ### Counterexamples -/

/-- A string element (type 02, empty key) at position 4 whose length is -6: the loop comes back to position 4. -/
def loopBytes : Bytes := [11, 0, 0, 0, 0x02, 0, 0xFA, 0xFF, 0xFF, 0xFF, 0]

/-- 11 bytes on which `ReadDocument` never returns. -/
theorem C10_readDocument_diverges : Diverges (fun fuel => readDocument fuel loopBytes) := by
  have h : ∀ n, iterLoop n loopBytes 4 11 = .oof := by
    intro n
    induction n with
    | zero => rfl
    | succ n ih =>
      unfold iterLoop
      rw [if_neg (by decide), show idx loopBytes 4 = .ok 2 by decide, Res.bind_ok, if_neg (by decide),
        show readerKey loopBytes (u32 (4 + 1)) 11 = .ok 1 by decide, Res.bind_ok]
      dsimp only
      rw [show rawSize loopBytes 4 (u32 (u32 (4 + 1) + 1)) = .ok 4294967294 by decide, Res.bind_ok,
        show u32 (u32 (u32 (4 + 1) + 1) + 4294967294) = 4 by decide, ih]
      rfl
  intro n
  show (iterEnd loopBytes >>= fun e => iterLoop n loopBytes 4 e) = .oof
  rw [show iterEnd loopBytes = .ok 11 by decide +kernel, Res.bind_ok, h]

/-- and `Reader.Validate` neither -/
theorem C10_readerValidate_diverges : Diverges (fun fuel => readerValidate fuel loopBytes) := by
  have h : ∀ n, validateLoop n loopBytes 4 11 = .oof := by
    intro n
    induction n with
    | zero => rfl
    | succ n ih =>
      unfold validateLoop
      rw [if_neg (by decide), show idx loopBytes 4 = .ok 2 by decide, Res.bind_ok, if_neg (by decide),
        show readerKey loopBytes (u32 (4 + 1)) 11 = .ok 1 by decide, Res.bind_ok]
      dsimp only
      rw [show rawSize loopBytes 4 (u32 (u32 (4 + 1) + 1)) = .ok 4294967294 by decide, Res.bind_ok,
        if_neg (by decide), show u32 (u32 (u32 (4 + 1) + 1) + 4294967294) = 4 by decide, ih]
  intro n
  show (readerEnd loopBytes >>= fun e => validateLoop n loopBytes 4 e) = .oof
  rw [show readerEnd loopBytes = .ok 11 by decide +kernel, Res.bind_ok, h]

/-- Five bytes with a negative document length on which `ReadDocument` panics. -/
theorem C10_readDocument_panics :
    Returns (fun fuel => readDocument fuel [0xFF, 0xFF, 0xFF, 0xFF, 0x0A]) .panic :=
  by
  refine readDocument_returns (n := 2) ?_ (by simp)
  unfold readDocument
  rw [show iterEnd [0xFF, 0xFF, 0xFF, 0xFF, 0x0A] = .ok 4294967295 by decide +kernel, Res.bind_ok]
  unfold iterLoop
  rw [if_neg (by decide), show idx [0xFF, 0xFF, 0xFF, 0xFF, 0x0A] 4 = .ok 0x0A by decide, Res.bind_ok, if_neg (by decide),
    show readerKey [0xFF, 0xFF, 0xFF, 0xFF, 0x0A] (u32 (4 + 1)) 4294967295 = .panic by decide +kernel]
  rfl

/-- An embedded document of declared length 2^31-1 on which `Reader.Validate` panics. -/
theorem C10_readerValidate_panics :
    Returns (fun fuel => readerValidate fuel [11, 0, 0, 0, 0x03, 0, 0xFF, 0xFF, 0xFF, 0x7F, 0]) .panic :=
  readerValidate_returns (n := 2) (by decide) (by simp)

/-- a document with one string element of length 0 -/
def emptyString : Bytes := [11, 0, 0, 0, 0x02, 0, 0, 0, 0, 0, 0]

/-- A string element of length 0 is accepted by both, and `StringValue` of that element then panics. -/
theorem C10_accepted_string_panics : ∃ b v, Returns (fun fuel => readerValidate fuel b) (.ok b.length) ∧
    Returns (fun fuel => readDocument fuel b) (.ok [v]) ∧ type v = .ok 0x02 ∧ stringValue v = .panic :=
  by
  refine ⟨emptyString, .raw 4 6 emptyString, readerValidate_returns (n := 3) (by decide +kernel) (by simp),
    readDocument_returns (n := 3) ?_ (by simp), by decide, by decide⟩
  unfold readDocument
  rw [show iterEnd emptyString = .ok 11 by decide +kernel, Res.bind_ok]
  unfold iterLoop
  rw [if_neg (by decide), show idx emptyString 4 = .ok 2 by decide, Res.bind_ok, if_neg (by decide),
    show readerKey emptyString (u32 (4 + 1)) 11 = .ok 1 by decide, Res.bind_ok]
  dsimp only
  rw [show rawSize emptyString 4 (u32 (u32 (4 + 1) + 1)) = .ok 4 by decide, Res.bind_ok,
    show u32 (u32 (u32 (4 + 1) + 1) + 4) = 10 by decide]
  unfold iterLoop
  rw [if_neg (by decide), show idx emptyString 10 = .ok 0 by decide, Res.bind_ok, if_pos (by decide)]
  rfl

/-! ### What holds -/

/-- the declared length of a document is not negative -/
def LengthNotNegative (b : Bytes) : Prop := ∀ n, lenAt b = some n → n < 2147483648

/-- `ReadDocument` does not panic on any input whose leading length field is not negative.
    Missing for C10: termination (`C10_readDocument_diverges`), negative lengths (`C10_readDocument_panics`). -/
theorem C10_readDocument_no_panic_partial (b : Bytes) (hl : b.length < 2147483648) (hn : LengthNotNegative b) (fuel : Nat) :
    readDocument fuel b ≠ .panic := by
  unfold readDocument
  rcases iterEnd_safe hn with ⟨e, h, hle⟩ | ⟨e, h⟩
  · rw [h, Res.bind_ok]; exact iterLoop_noPanic hle hl fuel 4
  · rw [h]; simp

example : LengthNotNegative loopBytes := by
  intro n hn
  simp [loopBytes, lenAt] at hn
  omega

/-- On every tame input (no oversized or negative length field behind anything that looks like an element header)
    `ReadDocument` returns, with a document or an error.
    Missing for C10: inputs with such length fields, on which it may run forever. -/
theorem C10_readDocument_total_partial (b : Bytes) (hl : b.length < 2147483648) (hn : LengthNotNegative b) (ht : Tame b) :
    (∃ d, Returns (fun fuel => readDocument fuel b) (.ok d)) ∨ (∃ e, Returns (fun fuel => readDocument fuel b) (.err e)) := by
  have h1 := C10_readDocument_no_panic_partial b hl hn (b.length + 1)
  have h2 : readDocument (b.length + 1) b ≠ .oof := by
    unfold readDocument
    rcases iterEnd_safe hn with ⟨e, h, hle⟩ | ⟨e, h⟩
    · rw [h, Res.bind_ok]; exact iterLoop_finishes ht hle hl _ 4 (by omega)
    · rw [h]; simp
  cases h : readDocument (b.length + 1) b with
  | ok d => exact .inl ⟨d, readDocument_returns h (by simp)⟩
  | err e => exact .inr ⟨e, readDocument_returns h (by simp)⟩
  | panic => exact absurd h h1
  | oof => exact absurd h h2

/-- `Reader.Validate` on tame inputs. -/
theorem C10_readerValidate_total_partial (b : Bytes) (hl : b.length < 2147483648) (ht : Tame b) :
    (∃ n, Returns (fun fuel => readerValidate fuel b) (.ok n)) ∨ (∃ e, Returns (fun fuel => readerValidate fuel b) (.err e)) := by
  have h : Safe (readerValidate (b.length + 1) b) := by
    unfold readerValidate
    exact readerEnd_safe.bind fun e he => validateLoop_safe _ b 4 e ht (readerEnd_le hl he) hl (by omega)
  rcases h with ⟨n, h⟩ | ⟨e, h⟩
  · exact .inl ⟨n, readerValidate_returns h (by simp)⟩
  · exact .inr ⟨e, readerValidate_returns h (by simp)⟩

/-- a malformed but tame input: truncated in the middle of a string inside an embedded document -/
example : Tame [20, 0, 0, 0, 0x03, 97, 0, 60, 0, 0, 0, 0x02, 98, 0, 90, 0, 0, 0, 104, 105] ∧
    LengthNotNegative [20, 0, 0, 0, 0x03, 97, 0, 60, 0, 0, 0, 0x02, 98, 0, 90, 0, 0, 0, 104, 105] :=
  ⟨tame_of_small (by decide) (by decide), by intro n hn; simp [lenAt] at hn; omega⟩

/-! ### C52 -/

/-- Whatever bytes `Reader.Validate` accepts, `ReadDocument` reads; every element it yields has a key and a type; and
    every embedded document or array it yields is again accepted by `Reader.Validate` (so the same holds at every
    depth). -/
theorem C52_validated_is_readable (b : Bytes) (n : Nat) (hl : b.length < 2147483648)
    (h : Returns (fun fuel => readerValidate fuel b) (.ok n)) :
    ∃ d, Returns (fun fuel => readDocument fuel b) (.ok d) ∧
      ∀ v ∈ d, (∃ k, key v = .ok k) ∧ ∃ t, type v = .ok t ∧
        (t = 0x03 → ∃ sub m, Returns (fun fuel => readerDocument fuel v) (.ok sub) ∧
          Returns (fun fuel => readerValidate fuel sub) (.ok m)) ∧
        (t = 0x04 → ∃ sub m, Returns (fun fuel => readerArray fuel v) (.ok sub) ∧
          Returns (fun fuel => readerValidate fuel sub) (.ok m)) := by
  obtain ⟨f, hf⟩ := h
  obtain ⟨vs, h1, h2⟩ := readerValidate_ok hl (hf f (Nat.le_refl _))
  refine ⟨vs, readDocument_returns h1 (by simp), ?_⟩
  intro v hv
  obtain ⟨p, off, t, k, rfl, ho, ht, hk, hs⟩ := h2 v hv
  have hne : b ≠ [] := by rintro rfl; simp [idx] at ht
  refine ⟨⟨k, hk⟩, t, ?_, ?_, ?_⟩
  · unfold type; exact (if_neg (show ¬ (off = 0 ∨ b = []) by simp [ho, hne])).trans ht
  · rintro rfl
    obtain ⟨sub, m, f, h3, h4⟩ := hs (.inl rfl)
    refine ⟨sub, m, ⟨0, fun _ _ => ?_⟩, readerValidate_returns h4 (by simp)⟩
    have he : expect 0x03 (.raw p off b) = .ok () :=
      (if_neg (show ¬ (off = 0 ∨ b = []) by simp [ho, hne])).trans (by simp only [Value.data, Value.start]; rw [ht]; rfl)
    simp only [readerDocument]
    rw [he]
    exact h3
  · rintro rfl
    obtain ⟨sub, m, f, h3, h4⟩ := hs (.inr rfl)
    refine ⟨sub, m, ⟨0, fun _ _ => ?_⟩, readerValidate_returns h4 (by simp)⟩
    have he : expect 0x04 (.raw p off b) = .ok () :=
      (if_neg (show ¬ (off = 0 ∨ b = []) by simp [ho, hne])).trans (by simp only [Value.data, Value.start]; rw [ht]; rfl)
    simp only [readerArray]
    rw [he]
    exact h3

/-- an accepted document with an embedded document -/
example := C52_validated_is_readable [15, 0, 0, 0, 0x03, 97, 0, 7, 0, 0, 0, 0x0A, 0, 0, 0] 15 (by decide)
  (readerValidate_returns (n := 9) (by decide +kernel) (by simp))

end Birch.Props
