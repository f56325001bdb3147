import Verif.Proofs.ReadAccess
import Verif.Proofs.Fuel

/-
C73: the accessors on the elements that `ReadDocument` yields for arbitrary bytes.

The full claim "on every element that `ReadDocument` yields, and `Reader.Validate` has accepted, the accessor of its type returns a
value" is false for the types with a length field inside; the counterexamples come first.  What holds: the accessors of the types
of fixed size always return, and for the others the exact condition is given.  (`C09_no_error` is here too.)
-/

namespace Birch.Props
open Birch Model Spec Proofs Proofs.ReadAccess

/-! ### C09: panics, but no errors -/

/-- No accessor returns an error, on any value whatever: it returns a value or it panics.  (`.oof` is the model's fuel, not an answer.) -/
theorem C09_no_error (v : Value) (fuel : Nat) (e : Err) :
    double v ≠ .err e ∧ stringValue v ≠ .err e ∧ javaScript v ≠ .err e ∧ symbol v ≠ .err e ∧ readerDocument fuel v ≠ .err e ∧ readerArray fuel v ≠ .err e ∧
    mutableDocument fuel v ≠ .err e ∧ mutableArray fuel v ≠ .err e ∧ binary v ≠ .err e ∧ objectID v ≠ .err e ∧ boolean v ≠ .err e ∧
    dateTime v ≠ .err e ∧ regex v ≠ .err e ∧ dbPointer v ≠ .err e ∧ readerCodeWithScope fuel v ≠ .err e ∧ mutableCodeWithScope fuel v ≠ .err e ∧
    int32 v ≠ .err e ∧ timestamp v ≠ .err e ∧ int64 v ≠ .err e ∧ decimal128 v ≠ .err e ∧ int v ≠ .err e :=
  ⟨(NoErr.double v).no e, (NoErr.stringValue v).no e, (NoErr.javaScript v).no e, (NoErr.symbol v).no e, (NoErr.readerDocument fuel v).no e,
   (NoErr.readerArray fuel v).no e, (NoErr.mutableDocument fuel v).no e, (NoErr.mutableArray fuel v).no e, (NoErr.binary v).no e,
   (NoErr.objectID v).no e, (NoErr.boolean v).no e, (NoErr.dateTime v).no e, (NoErr.regex v).no e, (NoErr.dbPointer v).no e,
   (NoErr.readerCodeWithScope fuel v).no e, (NoErr.mutableCodeWithScope fuel v).no e, (NoErr.int32 v).no e, (NoErr.timestamp v).no e,
   (NoErr.int64 v).no e, (NoErr.decimal128 v).no e, (NoErr.int v).no e⟩

/-- a binary of length -1, a string that runs past the end, and an embedded document of length 9 in 5 bytes: panics -/
example : binary (.raw 0 2 [0x05, 0, 255, 255, 255, 255, 0]) = .panic ∧ stringValue (.raw 0 2 [0x02, 0, 9, 0, 0, 0, 65]) = .panic ∧
    readerDocument 0 (.raw 0 2 [0x03, 0, 9, 0, 0, 0, 0]) = .panic := by decide

/-! ### C73: counterexamples -/

/-- a binary of length -1 (subtype 0) -/
def negativeBinary : Bytes := [12, 0, 0, 0, 0x05, 0, 0xFF, 0xFF, 0xFF, 0xFF, 0, 0]
/-- a binary of the old subtype 2 whose inner length is 9 -/
def oldBinary : Bytes := [16, 0, 0, 0, 0x05, 0, 4, 0, 0, 0, 2, 9, 0, 0, 0, 0]
/-- a database pointer whose string has length 0 -/
def emptyPointer : Bytes := [23, 0, 0, 0, 0x0C, 0, 0, 0, 0, 0, 1, 2, 3, 4, 5, 6, 7, 8, 9, 10, 11, 12, 0]
/-- code with scope whose code has length 0 -/
def emptyCode : Bytes := [15, 0, 0, 0, 0x0F, 0, 8, 0, 0, 0, 0, 0, 0, 0, 0]

/-- reading a document with one element -/
private theorem read_one {b : Bytes} {e n m : Nat} {t : UInt8} (h1 : iterEnd b = .ok e) (h2 : 4 < e) (h3 : idx b 4 = .ok t) (h4 : t ≠ 0)
    (h5 : readerKey b 5 e = .ok n) (h6 : rawSize b 4 (u32 (5 + n)) = .ok m) (h7 : u32 (u32 (5 + n) + m) < e) (h8 : idx b (u32 (u32 (5 + n) + m)) = .ok 0) :
    Returns (fun fuel => readDocument fuel b) (.ok [.raw 4 (u32 (5 + n)) b]) := by
  refine readDocument_returns (n := 2) ?_ (by simp)
  unfold readDocument
  rw [h1, Res.bind_ok]
  unfold iterLoop
  rw [if_neg (by omega), h3, Res.bind_ok, if_neg h4, show u32 (4 + 1) = 5 by decide, h5, Res.bind_ok]
  simp only
  rw [h6, Res.bind_ok]
  unfold iterLoop
  rw [if_neg (by omega), h8, Res.bind_ok, if_pos rfl]
  rfl

/-- Documents that `Reader.Validate` accepts and `ReadDocument` reads, on whose element the accessor of its type panics. -/
theorem C73_accepted_panics : ∀ b ∈ [negativeBinary, oldBinary, emptyPointer, emptyCode], ∃ v n t, Returns (fun fuel => readerValidate fuel b) (.ok n) ∧
    Returns (fun fuel => readDocument fuel b) (.ok [v]) ∧ type v = .ok t ∧
    (t = 0x05 ∧ binary v = .panic ∨ t = 0x0C ∧ dbPointer v = .panic ∨ t = 0x0F ∧ ∀ fuel, readerCodeWithScope fuel v = .panic ∧ mutableCodeWithScope fuel v = .panic) := by
  intro b hb
  simp only [List.mem_cons, List.not_mem_nil, or_false] at hb
  rcases hb with rfl | rfl | rfl | rfl
  · exact ⟨.raw 4 6 negativeBinary, 11, 5, readerValidate_returns (n := 3) (by decide +kernel) (by simp), read_one (e := 12) (n := 1) (m := 4) (t := 5) (by decide +kernel) (by decide) (by decide) (by decide) (by decide) (by decide) (by decide) (by decide), by decide, .inl ⟨rfl, by decide⟩⟩
  · exact ⟨.raw 4 6 oldBinary, 16, 5, readerValidate_returns (n := 3) (by decide +kernel) (by simp), read_one (e := 16) (n := 1) (m := 9) (t := 5) (by decide +kernel) (by decide) (by decide) (by decide) (by decide) (by decide) (by decide) (by decide), by decide, .inl ⟨rfl, by decide⟩⟩
  · exact ⟨.raw 4 6 emptyPointer, 23, 0x0C, readerValidate_returns (n := 3) (by decide +kernel) (by simp), read_one (e := 23) (n := 1) (m := 16) (t := 12) (by decide +kernel) (by decide) (by decide) (by decide) (by decide) (by decide) (by decide) (by decide), by decide,
      .inr (.inl ⟨rfl, by decide⟩)⟩
  · exact ⟨.raw 4 6 emptyCode, 15, 0x0F, readerValidate_returns (n := 3) (by decide +kernel) (by simp), read_one (e := 15) (n := 1) (m := 8) (t := 15) (by decide +kernel) (by decide) (by decide) (by decide) (by decide) (by decide) (by decide) (by decide), by decide,
      .inr (.inr ⟨rfl, fun fuel => ⟨by
        show (expect 0x0F _ >>= fun _ => getCode _ >>= _) = _
        rw [show expect 0x0F (.raw 4 6 emptyCode) = .ok () by decide, Res.bind_ok, show getCode (.raw 4 6 emptyCode) = .panic by decide]; rfl, by
        show (expect 0x0F _ >>= fun _ => slice _ _ _ >>= fun x => rdU32 x >>= fun _ => getCode _ >>= _) = _
        rw [show expect 0x0F (.raw 4 6 emptyCode) = .ok () by decide, Res.bind_ok, show getCode (.raw 4 6 emptyCode) = .panic by decide]; rfl⟩⟩)⟩

/-! ### C73: what holds -/

/-- The accessor of a type of fixed size, and `Regex`, returns a value on every element that `ReadDocument` yields, whatever the bytes. -/
theorem C73_fixed (b : Bytes) (hl : b.length < 2147483647) (fuel : Nat) (d : Doc) (h : readDocument fuel b = .ok d) (v : Value) (hv : v ∈ d) (t : UInt8)
    (ht : type v = .ok t) :
    (t = 0x01 → ∃ r, double v = .ok r) ∧ (t = 0x07 → ∃ r, objectID v = .ok r) ∧ (t = 0x08 → ∃ r, boolean v = .ok r) ∧
    (t = 0x09 → ∃ r, dateTime v = .ok r) ∧ (t = 0x0B → ∃ r, regex v = .ok r) ∧ (t = 0x10 → ∃ r, int32 v = .ok r) ∧
    (t = 0x11 → ∃ r, timestamp v = .ok r) ∧ (t = 0x12 → ∃ r, int64 v = .ok r) ∧ (t = 0x13 → ∃ r, decimal128 v = .ok r) := by
  obtain ⟨t', ht', hE⟩ := readDocument_elem (by omega) h v hv
  obtain ⟨p, off, m, rfl, h0, h1, h2, h3⟩ := hE.raw
  rw [ht] at ht'; cases ht'
  obtain ⟨a1, a2, a3, a4, a5, a6, a7, a8⟩ := fixed_ok hl h0 h1 h2 h3
  exact ⟨a1, a2, a3, a4, by rintro rfl; exact regex_ok h0 h1 h2 h3, a5, a6, a7, a8⟩

/-- On the elements with lengths inside the accessor returns exactly if the lengths fit in the bytes, and otherwise panics.
    Missing for C73: `Reader.Validate` and `ReadDocument` let lengths pass that do not fit (`C73_accepted_panics`). -/
theorem C73_lengths_partial (b : Bytes) (hl : b.length < 2147483647) (fuel : Nat) (d : Doc) (h : readDocument fuel b = .ok d) (v : Value) (hv : v ∈ d) (t : UInt8)
    (ht : type v = .ok t) (fuel' : Nat) :
    (t = 0x02 → Exactly (stringValue v) (StringFits b v.offset)) ∧ (t = 0x0D → Exactly (javaScript v) (StringFits b v.offset)) ∧
    (t = 0x0E → Exactly (symbol v) (StringFits b v.offset)) ∧ (t = 0x03 → Exactly (readerDocument fuel' v) (DocumentFits b v.offset)) ∧
    (t = 0x04 → Exactly (readerArray fuel' v) (DocumentFits b v.offset)) ∧ (t = 0x05 → Exactly (binary v) (BinaryFits b v.offset)) ∧
    (t = 0x0C → Exactly (dbPointer v) (PointerFits b v.offset)) ∧ (t = 0x0F → Exactly (readerCodeWithScope fuel' v) (CodeFits b v.offset)) := by
  obtain ⟨t', ht', hE⟩ := readDocument_elem (by omega) h v hv
  obtain ⟨p, off, m, rfl, h0, h1, h2, h3⟩ := hE.raw
  rw [ht] at ht'; cases ht'
  refine ⟨?_, ?_, ?_, ?_, ?_, ?_, ?_, ?_⟩ <;> rintro rfl
  · unfold stringValue; rw [expect_ok h0 h1 h2, Res.bind_ok]; exact text_exactly (by decide) hl h0 h1 h2 h3
  · unfold javaScript; rw [expect_ok h0 h1 h2, Res.bind_ok]; exact text_exactly (by decide) hl h0 h1 h2 h3
  · unfold symbol; rw [expect_ok h0 h1 h2, Res.bind_ok]; exact text_exactly (by decide) hl h0 h1 h2 h3
  · unfold readerDocument; rw [expect_ok h0 h1 h2, Res.bind_ok]; exact getReader_exactly fuel' (by decide) hl h0 h1 h2 h3
  · unfold readerArray; rw [expect_ok h0 h1 h2, Res.bind_ok]; exact getReader_exactly fuel' (by decide) hl h0 h1 h2 h3
  · exact binary_exactly hl h0 h1 h2 h3
  · exact dbPointer_exactly hl h0 h1 h2 h3
  · exact readerCode_exactly fuel' hl h0 h1 h2 h3

/-- a binary that ends exactly at the end of the document fits, one that is a byte longer does not -/
example : BinaryFits [13, 0, 0, 0, 0x05, 0, 1, 0, 0, 0, 0, 7, 0] 6 ∧ ¬ StringFits emptyPointer 6 ∧ ¬ BinaryFits oldBinary 6 := by
  refine ⟨?_, ?_, ?_⟩
  · unfold BinaryFits; rw [if_neg (by decide)]; exact ⟨1, by decide, by decide, by decide⟩
  · rintro ⟨n, hn, h1, _⟩; rw [show int32At emptyPointer 6 = some 0 by decide] at hn; cases hn; omega
  · unfold BinaryFits; rw [if_pos (by decide)]
    rintro ⟨n, hn, _, h1⟩; rw [show int32At oldBinary 11 = some 9 by decide] at hn; cases hn; simp [oldBinary] at h1

/-- an int32 in a document with other bytes after it -/
example : ∃ v, type v = .ok 0x10 ∧ Returns (fun fuel => readDocument fuel [11, 0, 0, 0, 0x10, 0, 1, 2, 3, 4, 0, 99, 98]) (.ok [v]) :=
  ⟨_, by decide, read_one (e := 11) (n := 1) (m := 4) (t := 0x10) (by decide +kernel) (by decide) (by decide) (by decide) (by decide) (by decide) (by decide) (by decide)⟩

end Birch.Props
