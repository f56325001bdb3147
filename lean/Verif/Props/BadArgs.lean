import Verif.Proofs.BadArgs
import Verif.Proofs.BadArgsExact
import Verif.Props.Bson
import Verif.Spec.Ascii

/-
C95: documents built by the constructors from keys and regular expressions that contain NUL bytes, and from undefined binary subtypes.
-/

namespace Birch.Props
open Birch Model Spec Proofs

/-- What is marshalled: of every element the type, the key and the value as built, cut off after as many bytes as the type,
    the key up to its first NUL and the value take.  There is no error, and no panic, however many NULs the keys have. -/
theorem C95_marshal (fs : Fields) (hs : fs.Scalar) (hw : fs.Stored) (hl : fs.bytes < 2147483000) :
    ∃ d, buildDoc fs = .ok d ∧ Returns (fun fuel => docMarshal fuel d) (.ok (wrapDoc fs.emitted)) := by
  have key : ∀ fuel, fs.bytes < fuel → ∃ d, buildDoc fs = .ok d ∧ docMarshal fuel d = .ok (wrapDoc fs.emitted) := by
    intro fuel hf
    obtain ⟨d, es, h1, h2, h3, h4⟩ := buildDoc_scalar (fuel := fuel) fs hs hw hl hf
    refine ⟨d, h1, ?_⟩
    rw [docMarshal_emits h2 (by rw [h3]; omega), h3]
  obtain ⟨d, h1, _⟩ := key _ (Nat.lt_succ_self _)
  refine ⟨d, h1, fs.bytes + 1, fun m hm => ?_⟩
  obtain ⟨d', h1', h2⟩ := key m (by omega)
  rw [h1] at h1'
  cases h1'
  exact h2

/-- `EC.Int32("a\x00b", 1)` followed by `EC.Regex("r", "x\x00y", "i")` -/
private def cutArgs : Fields := .cons [97, 0, 98] (.int32 1) (.cons [114] (.regex [120, 0, 121] [105]) .nil)

/-- the first is read as `{"a": 0x00010062}`, the second as the pattern `x` with the options `y` -/
example : ∃ d, buildDoc cutArgs = .ok d ∧ Returns (fun fuel => docMarshal fuel d)
    (.ok (encDoc (.cons [97] (.int32 0x00010062) (.cons [114] (.regex [120] [121]) .nil)))) :=
  C95_marshal cutArgs (by simp [cutArgs, Fields.Scalar, BVal.Scalar]) (by
    refine ⟨⟨by decide, by decide⟩, ⟨?_, ?_⟩, trivial⟩ <;> · simp only [NulFree]; decide) (by decide)

/-- Without a NUL in any key or regular expression, what is marshalled is the document that was given.
    The rest of the claim, that arguments with a NUL give an error, is false: see `C95_not_as_given`. -/
theorem C95_kept_partial (fs : Fields) (hs : fs.Scalar) (wf : fs.WF) (hl : fs.bytes < 2147483000) :
    ∃ d, buildDoc fs = .ok d ∧ Returns (fun fuel => docMarshal fuel d) (.ok (encDoc fs)) := by
  have hst : ∀ t : BVal, t.WF → t.stored = t := by
    intro t h
    cases t with
    | regex p o =>
      simp only [BVal.stored]
      rw [beforeNul_append h.1 [], List.append_assoc, List.append_assoc, ← List.append_assoc p, List.drop_left' (by simp), beforeNul_append h.2 []]
    | _ => rfl
  have hbn : ∀ k, NulFree k → beforeNul k = k := by
    intro k hk
    rcases beforeNul_split k with ⟨_, h⟩ | ⟨b, h, _⟩
    · exact h
    · exact absurd rfl (hk 0 (by rw [h]; simp))
  have hem : ∀ fs : Fields, fs.WF → fs.Stored ∧ fs.emitted = fs.enc := by
    intro fs
    let rec go : ∀ fs : Fields, fs.WF → fs.Stored ∧ fs.emitted = fs.enc
      | .nil, _ => ⟨trivial, rfl⟩
      | .cons k t rest, h => by
        obtain ⟨h1, h2⟩ := go rest h.2.2
        refine ⟨⟨by rw [hst t h.2.1]; exact h.2.1, h1⟩, ?_⟩
        simp only [Fields.emitted, Fields.enc, h2, emitted]
        rw [hst t h.2.1, hbn k h.1, List.take_of_length_le (by simp; omega)]
    exact go fs
  have := C95_marshal fs hs (hem fs wf).1 hl
  rw [(hem fs wf).2] at this
  exact this

example : ∃ d, buildDoc (.cons [97] (.int32 1) (.cons [114] (.regex [120] [105]) .nil)) = .ok d ∧ Returns (fun fuel => docMarshal fuel d)
    (.ok (encDoc (.cons [97] (.int32 1) (.cons [114] (.regex [120] [105]) .nil)))) :=
  C95_kept_partial _ (by simp [Fields.Scalar, BVal.Scalar]) (by simp [Fields.WF, BVal.WF, NulFree]) (by decide)

/-- Without a NUL in keys and regular expressions, and only then: with one, the bytes that are returned, without an error, are never those of the document that was given. -/
theorem C95_exact (fs : Fields) (hs : fs.Scalar) (hw : fs.Stored) (hl : fs.bytes < 2147483000) :
    ∃ d bs, buildDoc fs = .ok d ∧ Returns (fun fuel => docMarshal fuel d) (.ok bs) ∧ (bs = encDoc fs ↔ fs.WF) := by
  obtain ⟨d, h1, h2⟩ := C95_marshal fs hs hw hl
  exact ⟨d, _, h1, h2, emitted_iff fs hw⟩

/-- the key `a NUL b` -/
example : ∃ d bs, buildDoc (.cons [97, 0, 98] (.int32 1) .nil) = .ok d ∧ Returns (fun fuel => docMarshal fuel d) (.ok bs) ∧ bs ≠ encDoc (.cons [97, 0, 98] (.int32 1) .nil) := by
  obtain ⟨d, bs, h1, h2, h3⟩ := C95_exact (.cons [97, 0, 98] (.int32 1) .nil) ⟨trivial, trivial⟩ ⟨by simp [BVal.stored, BVal.WF], trivial⟩ (by decide)
  exact ⟨d, bs, h1, h2, fun e => (h3.mp e).1 0 (by simp) rfl⟩

/-- An element whose key is `a NUL b` is read with the key `a`, and its value is made of the bytes of `b`, the NUL after the key
    and as much of the value that was given as is left. -/
theorem C95_key_becomes_value (a b : Bytes) (t t' : BVal) (ha : NulFree a) (hs : t.Scalar) (hw : t.stored.WF) (htag : t'.tag = t.tag)
    (ht : t'.enc = (b ++ [0] ++ t.enc).take t.stored.enc.length) (hl : a.length + b.length + t.enc.length < 2147482000) :
    ∃ d, buildDoc (.cons (a ++ [0] ++ b) t .nil) = .ok d ∧ Returns (fun fuel => docMarshal fuel d) (.ok (encDoc (.cons a t' .nil))) := by
  have := C95_marshal (.cons (a ++ [0] ++ b) t .nil) ⟨hs, trivial⟩ ⟨hw, trivial⟩ (by simp [Fields.bytes]; omega)
  have e : (Fields.cons (a ++ [0] ++ b) t .nil).emitted = (Fields.cons a t' .nil).enc := by
    simp only [Fields.emitted, Fields.enc, emitted, ht, htag, List.append_nil]
    rw [show a ++ [0] ++ b = a ++ 0 :: b by simp, beforeNul_append ha b,
      show [t.tag] ++ (a ++ 0 :: b) ++ [0] ++ t.enc = ([t.tag] ++ a ++ [0]) ++ (b ++ [0] ++ t.enc) by simp,
      List.take_append, List.take_of_length_le (l := [t.tag] ++ a ++ [0]) (by simp; omega)]
    congr 2
    simp; omega
  rw [e] at this
  exact this

/-- `EC.Int32("a\x00bcd", n)` is read as `{"a": 0x00646362}`, whatever the number -/
example (n : Int) (h0 : -2147483648 ≤ n) (h1 : n < 2147483648) : ∃ d, buildDoc (.cons ([97] ++ [0] ++ [98, 99, 100]) (.int32 n) .nil) = .ok d ∧
    Returns (fun fuel => docMarshal fuel d) (.ok (encDoc (.cons [97] (.int32 0x00646362) .nil))) :=
  C95_key_becomes_value [97] [98, 99, 100] (.int32 n) (.int32 0x00646362) (by simp [NulFree]) trivial ⟨h0, h1⟩ rfl
    (by simp [BVal.enc, BVal.stored]; decide) (by simp [BVal.enc])

/-- Any fields can be brought into a document through the key of a single string element: for the key `a NUL 01000000 00 fields` and a string that is
    as long as the encoded fields, the marshalled bytes are those of `{a: "", fields...}`.  The string itself is in none of them. -/
theorem C95_fields_from_key (a s : Bytes) (fs : Fields) (ha : NulFree a) (h : s.length = fs.enc.length) (hl : a.length + s.length < 1073740000) :
    ∃ d, buildDoc (.cons (a ++ [0] ++ (encString [] ++ fs.enc)) (.string s) .nil) = .ok d ∧
      Returns (fun fuel => docMarshal fuel d) (.ok (encDoc (.cons a (.string []) fs))) := by
  have := C95_marshal (.cons (a ++ [0] ++ (encString [] ++ fs.enc)) (.string s) .nil) ⟨trivial, trivial⟩ ⟨trivial, trivial⟩
    (by simp [Fields.bytes, BVal.enc, encString_length]; omega)
  have e : (Fields.cons (a ++ [0] ++ (encString [] ++ fs.enc)) (.string s) .nil).emitted = (Fields.cons a (.string []) fs).enc := by
    simp only [Fields.emitted, Fields.enc, emitted, List.append_nil, BVal.tag, BVal.stored, BVal.enc]
    rw [show a ++ [0] ++ (encString [] ++ fs.enc) = a ++ 0 :: (encString [] ++ fs.enc) by simp, beforeNul_append ha,
      show [2] ++ (a ++ 0 :: (encString [] ++ fs.enc)) ++ [0] ++ encString s = ([2] ++ a ++ [0] ++ encString [] ++ fs.enc) ++ ([0] ++ encString s) by simp,
      List.take_left' (by simp [encString_length, h]; omega)]
  rw [e] at this
  exact this

/-- a user name taken as a key can make anybody an administrator -/
example : ∃ d, buildDoc (.cons ([117] ++ [0] ++ (encString [] ++ (Fields.cons (ascii "admin") (.bool true) .nil).enc)) (.string (ascii "12345678")) .nil) = .ok d ∧
    Returns (fun fuel => docMarshal fuel d) (.ok (encDoc (.cons [117] (.string []) (.cons (ascii "admin") (.bool true) .nil)))) :=
  C95_fields_from_key [117] (ascii "12345678") (.cons (ascii "admin") (.bool true) .nil) (by simp [NulFree]) (by decide) (by decide)

/-- The claim for all arguments, elements or an error, is false: bytes are returned, they are those of a document with two fields, one was given. -/
theorem C95_not_as_given : ¬ ∀ (fs : Fields) (d : Doc) (bs : Bytes), fs.Scalar → buildDoc fs = .ok d →
    Returns (fun fuel => docMarshal fuel d) (.ok bs) → bs = encDoc fs := by
  intro h
  obtain ⟨d, h1, h2⟩ := C95_fields_from_key [117] (ascii "12345678") (.cons (ascii "admin") (.bool true) .nil) (by simp [NulFree]) (by decide) (by decide)
  have hs : (Fields.cons ([117] ++ [0] ++ (encString [] ++ (Fields.cons (ascii "admin") (.bool true) .nil).enc)) (.string (ascii "12345678")) .nil).Scalar := ⟨trivial, trivial⟩
  have := h _ d _ hs h1 h2
  revert this
  decide

/-- A regular expression with a NUL in the pattern loses its options: the rest of the pattern, up to the next NUL, takes their place. -/
theorem C95_regex_options_lost (k a b o : Bytes) (hk : NulFree k) (ha : NulFree a) (hb : NulFree b)
    (hl : k.length + a.length + b.length + o.length < 2147482000) :
    ∃ d, buildDoc (.cons k (.regex (a ++ [0] ++ b) o) .nil) = .ok d ∧
      Returns (fun fuel => docMarshal fuel d) (.ok (encDoc (.cons k (.regex a b) .nil))) := by
  have e0 : (BVal.regex (a ++ [0] ++ b) o).stored = .regex a b := by
    simp only [BVal.stored]
    have e1 : beforeNul (a ++ [0] ++ b ++ [0]) = a := by
      have := beforeNul_append ha (b ++ [0]); simpa using this
    have e2 : (a ++ [0] ++ b ++ [0] ++ o ++ [0]).drop (a.length + 1) = b ++ 0 :: (o ++ [0]) := by
      rw [show a ++ [0] ++ b ++ [0] ++ o ++ [0] = (a ++ [0]) ++ (b ++ 0 :: (o ++ [0])) by simp, List.drop_left' (by simp)]
    rw [e1, e2, beforeNul_append hb]
  have := C95_marshal (.cons k (.regex (a ++ [0] ++ b) o) .nil) ⟨trivial, trivial⟩ ⟨by rw [e0]; exact ⟨ha, hb⟩, trivial⟩
    (by simp [Fields.bytes, BVal.enc]; omega)
  have hbk : beforeNul k = k := by
    rcases beforeNul_split k with ⟨_, h⟩ | ⟨b, h, _⟩
    · exact h
    · exact absurd rfl (hk 0 (by rw [h]; simp))
  have e : (Fields.cons k (.regex (a ++ [0] ++ b) o) .nil).emitted = (Fields.cons k (.regex a b) .nil).enc := by
    simp only [Fields.emitted, Fields.enc, emitted, List.append_nil, e0, hbk, BVal.tag, BVal.enc]
    rw [show [11] ++ k ++ [0] ++ (a ++ [0] ++ b ++ [0] ++ o ++ [0]) = ([11] ++ k ++ [0] ++ (a ++ [0] ++ b ++ [0])) ++ (o ++ [0]) by simp,
      List.take_left' (by simp; omega)]
  rw [e] at this
  exact this

example : ∃ d, buildDoc (.cons [114] (.regex ([120] ++ [0] ++ [109]) [105]) .nil) = .ok d ∧
    Returns (fun fuel => docMarshal fuel d) (.ok (encDoc (.cons [114] (.regex [120] [109]) .nil))) :=
  C95_regex_options_lost [114] [120] [109] [105] (by simp [NulFree]) (by simp [NulFree]) (by simp [NulFree]) (by decide)

/-- A binary value with one of the subtypes 6 to 0x7F is built without complaint, but no document containing it can be marshalled:
    the error says that the subtype is invalid. -/
theorem C95_subtype_refused (fs gs : Fields) (k b : Bytes) (st : UInt8) (e : Doc) (h1 : 5 < st) (h2 : st < 0x80) (hs : fs.Scalar) (hw : fs.Stored)
    (hg : buildDoc gs = .ok e) (hl : fs.bytes + k.length + b.length < 2147482000) :
    ∃ d, buildDoc (fs.append (.cons k (.binary st b) gs)) = .ok d ∧ Returns (fun fuel => docMarshal fuel d) (.err .invalidBinarySubtype) := by
  have hne : st ≠ 2 := by rintro rfl; exact absurd h1 (by decide)
  have hlen : (BVal.binary st b).enc.length = b.length + 5 := by simp [BVal.enc, hne]; omega
  have key : ∀ fuel, fs.bytes < fuel → ∃ d, buildDoc (fs.append (.cons k (.binary st b) gs)) = .ok d ∧ docMarshal fuel d = .err .invalidBinarySubtype := by
    intro fuel hf
    obtain ⟨d, es, d1, d2, d3, d4⟩ := buildDoc_scalar (fuel := fuel) fs hs hw (by omega) hf
    have hb := buildVal_scalar k (.binary st b) trivial (by omega)
    refine ⟨_, buildDoc_append fs _ d _ d1 (by simp only [buildDoc]; rw [hb, hg]; rfl), ?_⟩
    unfold docMarshal docValidate
    rw [elemsValidate_emits d2 5 _ (by rw [d3]; omega)]
    unfold elemsValidate
    simp only [Value.data, Value.start, Value.offset, valueValidate, Bool.false_eq_true, if_false]
    rw [elemKeyLen_cut k _ _ (by simp [hlen]; omega)]
    simp only [Res.bind_ok]
    rw [show (BVal.binary st b).tag = 5 from rfl, rawValidate_subtype k b st h1 h2 (by omega)]
    rfl
  obtain ⟨d, h3, _⟩ := key _ (Nat.lt_succ_self _)
  refine ⟨d, h3, fs.bytes + 1, fun m hm => ?_⟩
  obtain ⟨d', h3', h4⟩ := key m (by omega)
  rw [h3] at h3'
  cases h3'
  exact h4

example : ∃ d, buildDoc (Fields.append (.cons [97] (.int32 1) .nil) (.cons [98] (.binary 6 [1, 2]) (.cons [99] .null .nil))) = .ok d ∧
    Returns (fun fuel => docMarshal fuel d) (.err .invalidBinarySubtype) :=
  C95_subtype_refused (.cons [97] (.int32 1) .nil) (.cons [99] .null .nil) [98] [1, 2] 6 [.raw 0 3 [10, 99, 0]] (by decide) (by decide)
    ⟨trivial, trivial⟩ ⟨⟨by decide, by decide⟩, trivial⟩ rfl (by decide)

end Birch.Props
