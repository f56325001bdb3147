import Verif.Proofs.Text
import Verif.Proofs.Fuel
import Verif.Proofs.DecimalPrint
import Verif.Props.GoValues
import Verif.Props.ReadAccess

/-
C100: the texts of documents, readers and arrays (the `String` methods).
-/

namespace Birch.Props
open Birch Model Spec Proofs Proofs.Text Model.Text

/-- a simple way of quoting, for examples: a backslash before quotation marks and backslashes -/
def textQuote (s : Bytes) : Bytes := 0x22 :: body s
where
  body : Bytes → Bytes
    | [] => [0x22]
    | c :: r => if c = 0x22 ∨ c = 0x5C then 0x5C :: c :: body r else c :: body r

theorem textQuote_quotes : Spec.Text.Quotes textQuote := by
  have key : ∀ s t x y : Bytes, textQuote.body s ++ x = textQuote.body t ++ y → s = t ∧ x = y := by
    intro s
    induction s with
    | nil =>
      intro t x y h
      cases t with
      | nil => simpa [textQuote.body] using h
      | cons c r =>
        exfalso
        unfold textQuote.body at h
        by_cases hc : c = 0x22 ∨ c = 0x5C
        · rw [if_pos hc] at h; simp at h
        · rw [if_neg hc] at h
          simp only [List.cons_append, List.cons.injEq] at h
          exact hc (.inl h.1.symm)
    | cons c r ih =>
      intro t x y h
      cases t with
      | nil =>
        exfalso
        unfold textQuote.body at h
        by_cases hc : c = 0x22 ∨ c = 0x5C
        · rw [if_pos hc] at h; simp at h
        · rw [if_neg hc] at h
          simp only [List.cons_append, List.cons.injEq] at h
          exact hc (.inl h.1)
      | cons c' r' =>
        unfold textQuote.body at h
        by_cases hc : c = 0x22 ∨ c = 0x5C <;> by_cases hc' : c' = 0x22 ∨ c' = 0x5C
        · rw [if_pos hc, if_pos hc'] at h
          simp only [List.cons_append, List.cons.injEq, true_and] at h
          obtain ⟨h1, h2⟩ := ih _ _ _ h.2
          exact ⟨by rw [h.1, h1], h2⟩
        · rw [if_pos hc, if_neg hc'] at h
          simp only [List.cons_append, List.cons.injEq] at h
          exact absurd (.inr h.1.symm) hc'
        · rw [if_neg hc, if_pos hc'] at h
          simp only [List.cons_append, List.cons.injEq] at h
          exact absurd (.inr h.1) hc
        · rw [if_neg hc, if_neg hc'] at h
          simp only [List.cons_append, List.cons.injEq] at h
          obtain ⟨h1, h2⟩ := ih _ _ _ h.2
          exact ⟨by rw [h.1, h1], h2⟩
  intro s t x y h
  unfold textQuote at h
  simp only [List.cons_append, List.cons.injEq, true_and] at h
  exact key s t x y h

/-- texts of other packages, for examples -/
def textFmt : Fmt := ⟨fun _ => ascii "1.5", fun _ => ascii "1970-01-01 00:00:00 +0000 UTC", textQuote, ascii "boom"⟩

/-- {"a": -5, "b": "x\"y", "c": {"e": true, "d": null}} -/
def textSample : Fields :=
  .cons [97] (.int32 (-5)) (.cons [98] (.string [120, 34, 121])
    (.cons [99] (.doc (.cons [101] (.bool true) (.cons [100] .null .nil))) .nil))

theorem textSample_wf : textSample.WF := by simp [textSample, Fields.WF, BVal.WF, NulFree]

theorem textSample_noDecimal : textSample.NoDecimal := by simp [textSample, BVal.NoDecimal, Fields.NoDecimal]

/-- it reads bson.Document{bson.Element{[32-bit integer]"a": -5}, bson.Element{[string]"b": "x\"y"}, bson.Element{[embedded document]"c": map[d:<nil> e:true]}} -/
theorem textSample_text : Spec.Text.document "bson.Document" textFmt textSample =
    ascii "bson.Document{bson.Element{[32-bit integer]\"a\": -5}, bson.Element{[string]\"b\": \"x\\\"y\"}, bson.Element{[embedded document]\"c\": map[d:<nil> e:true]}}" := by
  have h1 : ∀ a b : Bytes × Bytes, Spec.Text.before a.1 b.1 = false → [a, b].mergeSort (fun a b => Spec.Text.before a.1 b.1) = [b, a] := by
    intro a b h
    simp [List.mergeSort, h]
  have h2 : Spec.Text.value textFmt (.doc (.cons [101] (.bool true) (.cons [100] .null .nil))) = ascii "map[d:<nil> e:true]" := by
    have h3 : Spec.Text.innerFields textFmt Spec.Text.plain (.cons [101] (.bool true) (.cons [100] .null .nil)) = [([101], ascii "true"), ([100], ascii "<nil>")] := by
      decide +kernel
    simp only [Spec.Text.value, Spec.Text.inner]
    rw [h3, h1 _ _ (by decide)]
    decide +kernel
  simp only [textSample, Spec.Text.document, Spec.Text.elements, Spec.Text.element, h2]
  decide +kernel

/-! ### what is printed -/

/-- `Document.String` prints every element, in order, with its type, its key and its value.
    Missing: decimals, which are printed with their halves exchanged (`C100_decimal`). -/
theorem C100_document_partial (F : Fmt) (d : Doc) (fs : Fields) (h : RepFields d fs) (hd : fs.NoDecimal) (hl : (encDoc fs).length < 2147483648) :
    Returns (fun fuel => docString F fuel d) (.ok (Spec.Text.document "bson.Document" F fs)) := by
  simp only [encDoc, wrapDoc_length] at hl
  exact ⟨fs.enc.length + 1, fun m hm => docString_rep F h hd (by omega) (by omega)⟩

example : ∃ d, RepFields d textSample ∧ Returns (fun fuel => docString textFmt fuel d)
    (.ok (ascii "bson.Document{bson.Element{[32-bit integer]\"a\": -5}, bson.Element{[string]\"b\": \"x\\\"y\"}, bson.Element{[embedded document]\"c\": map[d:<nil> e:true]}}")) := by
  obtain ⟨d, _, h⟩ := buildDoc_rep textSample textSample_wf (by decide +kernel)
  have := C100_document_partial textFmt d _ h textSample_noDecimal (by decide +kernel)
  rw [textSample_text] at this
  exact ⟨d, h, this⟩

/-- The number printed for a decimal is the one whose halves are those of the decimal, exchanged. -/
theorem C100_decimal (F : Fmt) (d : Doc) (k : Bytes) (neg : Bool) (c : Nat) (e : Int) (hc : Spec.Decimal.Representable c e)
    (h : RepFields d (.cons k (.decimal (Spec.Decimal.encode neg c e).l.toNat (Spec.Decimal.encode neg c e).h.toNat) .nil)) :
    Returns (fun fuel => docString F fuel d) (.ok (ascii "bson.Document{bson.Element{[128-bit decimal]\"" ++ k ++ ascii "\": " ++ Spec.Decimal.text neg c e ++ ascii "}}")) := by
  match d, h with
  | [v], h =>
    obtain ⟨n, hn⟩ := C63_decimal_swapped v k _ _ h.1
    refine ⟨n, fun m hm => ?_⟩
    have hi := hn m hm
    show docString F m [v] = _
    have hi : Value.interface m v = .ok (.decimal (Spec.Decimal.encode neg c e).h.toNat (Spec.Decimal.encode neg c e).l.toNat) := hi
    unfold docString loop loop elemString
    rw [hi, type_rep h.1, key_rep h.1]
    simp only [Res.bind_ok, quoted, arg, text, UInt64.ofNat_toNat]
    rw [Proofs.Decimal.string_encode hc]
    simp [method, BVal.tag, typeName, ascii]
  | [], h => simp [RepFields] at h
  | _ :: _ :: _, h => simp [RepFields] at h

/-- the decimal with the halves 0 and 0x3040000000000000, exchanged, is shown as 0 -/
example : ∃ d, RepFields d (.cons [97] (.decimal 0 0x3040000000000000) .nil) ∧
    Returns (fun fuel => docString textFmt fuel d) (.ok (ascii "bson.Document{bson.Element{[128-bit decimal]\"a\": 0}}")) := by
  obtain ⟨d, _, h⟩ := buildDoc_rep (.cons [97] (.decimal 0 0x3040000000000000) .nil) (by simp [Fields.WF, BVal.WF, NulFree]) (by decide +kernel)
  refine ⟨d, h, ?_⟩
  have e : Spec.Decimal.encode false 0 0 = ⟨0x3040000000000000, 0⟩ := by decide +kernel
  have := C100_decimal textFmt d [97] false 0 0 ⟨by decide, by decide, by decide⟩ (by rw [e]; exact h)
  have e2 : Spec.Decimal.text false 0 0 = ascii "0" := by decide +kernel
  rw [e2] at this
  have e3 : ascii "bson.Document{bson.Element{[128-bit decimal]\"" ++ [97] ++ ascii "\": " ++ ascii "0" ++ ascii "}}" =
      ascii "bson.Document{bson.Element{[128-bit decimal]\"a\": 0}}" := by decide +kernel
  rw [e3] at this
  exact this

/-- `Array.String` prints its values, in order, with the verb `%s`.
    Missing: that they are printed as in documents, see `C100_array_numbers`; and decimals. -/
theorem C100_array_partial (F : Fmt) (d : Doc) (vs : Vals) (h : RepVals d vs) (hd : vs.NoDecimal) (hl : (BVal.array vs).enc.length < 2147483648) :
    Returns (fun fuel => arrString F fuel d) (.ok (Spec.Text.array F vs)) := by
  simp only [BVal.enc, wrapDoc_length] at hl
  exact ⟨(vs.encFrom 0).length + 1, fun m hm => arrString_rep F h hd (by omega) (by omega)⟩

/-- ["x", 5, {}], as bson.Array[x, %!s(int32=5), map[]] -/
example : ∃ d, RepVals d (.cons (.string [120]) (.cons (.int32 5) (.cons (.doc .nil) .nil))) ∧
    Returns (fun fuel => arrString textFmt fuel d) (.ok (ascii "bson.Array[x, %!s(int32=5), map[]]")) := by
  obtain ⟨v, _, hv⟩ := buildVal_rep [107] (.array (.cons (.string [120]) (.cons (.int32 5) (.cons (.doc .nil) .nil)))) (by simp [NulFree]) (by simp [Vals.WF, BVal.WF, Fields.WF])
    (by decide +kernel)
  obtain ⟨d, _, h⟩ := mutableArray_rep (fuel := 999) hv (by decide +kernel) (by decide +kernel)
  have := C100_array_partial textFmt d _ h (by simp [Vals.NoDecimal, BVal.NoDecimal, Fields.NoDecimal]) (by decide +kernel)
  have e : Spec.Text.array textFmt (.cons (.string [120]) (.cons (.int32 5) (.cons (.doc .nil) .nil))) = ascii "bson.Array[x, %!s(int32=5), map[]]" := by
    have e1 : Spec.Text.item textFmt (.doc .nil) = ascii "map[]" := by
      simp only [Spec.Text.item, Spec.Text.inner, Spec.Text.innerFields, List.mergeSort_nil]
      decide +kernel
    simp only [Spec.Text.array, Spec.Text.items, e1]
    decide +kernel
  rw [e] at this
  exact ⟨d, h, this⟩

/-! ### readers -/

/-- The text of a reader is that of the document, whatever follows the document. -/
theorem C100_reader_partial (F : Fmt) (fs : Fields) (wf : fs.WF) (hd : fs.NoDecimal) (post : Bytes) (hl : (encDoc fs ++ post).length < 2147483648) :
    Returns (fun fuel => readerString F fuel (encDoc fs ++ post)) (.ok (Spec.Text.document "bson.Reader" F fs)) := by
  have e : encDoc fs ++ post = le32 (fs.enc.length + 5) ++ (fs.enc ++ 0 :: post) := by simp [encDoc, wrapDoc]
  rw [e] at hl ⊢
  have hl' := hl
  simp only [List.length_append, le32_length, List.length_cons] at hl
  obtain ⟨d, h1, h2, h3⟩ := Proofs.ReaderWalk.range_enc fs wf (le32 (fs.enc.length + 5)) (0 :: post) (fs.enc.length + 5) (by simp; omega) hl'
  have he := Proofs.ReaderWalk.readerEnd_le32 (L := fs.enc.length + 5) (body := fs.enc ++ 0 :: post) (by simp; omega) (by simp; omega) (by simp; omega)
  refine ⟨fs.enc.length + 1, fun m hm => ?_⟩
  obtain ⟨n, rfl⟩ : ∃ n, m = n + 1 + d.length := ⟨m - d.length - 1, by omega⟩
  have h4 := h3 (n + 1)
  have h5 := (Proofs.ReaderWalk.range_end n (le32 (fs.enc.length + 5) ++ (fs.enc ++ 0 :: post)) ((le32 (fs.enc.length + 5)).length + fs.enc.length) (fs.enc.length + 5)).2.1
    (by simp; omega) (Proofs.ReaderWalk.zero_at _ rfl)
  rw [h5] at h4
  simp only [List.append_nil] at h4
  show readerString F (n + 1 + d.length) _ = _
  unfold readerString
  rw [he]
  simp only
  rw [le32_length] at h4
  rw [readerLoop_range _ _ _ _ _ 0 _ _ h4 (by simp) (by simp),
    loop_eq (prints_elements F (N := fs.enc.length + 1) (fun v k t hr hd ht => printElem_ok (elemString_rep F hr hd (by omega) (by omega))) h1 hd (by omega))]
  simp [Spec.Text.document, ascii]

example : Returns (fun fuel => readerString textFmt fuel (encDoc textSample ++ [1, 2, 3]))
    (.ok (Spec.Text.document "bson.Reader" textFmt textSample)) :=
  C100_reader_partial textFmt textSample textSample_wf textSample_noDecimal [1, 2, 3] (by decide +kernel)

/-- Nothing is printed of a document of which the last bytes are missing, and nothing says so. -/
theorem C100_cut (F : Fmt) (fs : Fields) (p q : Bytes) (he : encDoc fs = p ++ q) (hq : q ≠ []) (hl : (encDoc fs).length < 2147483648) (fuel : Nat) :
    readerString F fuel p = .ok (ascii "bson.Reader{}") := by
  have hlen : p.length + q.length = fs.enc.length + 5 := by rw [← List.length_append, ← he]; simp [encDoc, wrapDoc_length]
  have hq' : 0 < q.length := List.length_pos_iff.mpr hq
  simp only [encDoc, wrapDoc_length] at hl
  have key : ∃ e, readerEnd p = .err e := by
    unfold readerEnd
    by_cases h5 : p.length < 5
    · exact ⟨_, if_pos h5⟩
    · rw [if_neg h5]
      have hp : p = le32 (fs.enc.length + 5) ++ p.drop 4 := by
        have := congrArg (List.take 4) he
        rw [List.take_append_of_le_length (by omega)] at this
        simp only [encDoc, wrapDoc] at this
        rw [List.append_assoc, List.take_append_of_le_length (by simp), List.take_of_length_le (by simp)] at this
        rw [this, List.take_append_drop]
      have hr : readi32 p = .ok ((fs.enc.length + 5 : Nat) : Int) := by
        rw [hp]
        exact readi32_le32_nat (by omega) _
      rw [hr, Res.bind_ok, if_pos (by left; omega)]
      exact ⟨_, rfl⟩
  obtain ⟨e, hk⟩ := key
  unfold readerString
  rw [hk]
  rfl

example (fuel : Nat) : readerString textFmt fuel (encDoc textSample).dropLast = .ok (ascii "bson.Reader{}") :=
  C100_cut textFmt textSample _ [0] (by decide +kernel) (by simp) (by decide +kernel) fuel

/-- Before a field of an unknown type, the fields are printed as if the document ended there. -/
theorem C100_unknown_partial (F : Fmt) (fs : Fields) (wf : fs.WF) (hd : fs.NoDecimal) (t : UInt8) (h0 : t ≠ 0) (ht : ∀ u : BVal, u.tag ≠ t) (k rest : Bytes) (hk : NulFree k) (n : Nat)
    (hn : n = fs.enc.length + k.length + rest.length + 6) (hl : n < 2147483648) :
    Returns (fun fuel => readerString F fuel (le32 n ++ (fs.enc ++ t :: (k ++ 0 :: rest)))) (.ok (Spec.Text.document "bson.Reader" F fs)) ∧
      Returns (fun fuel => readDocument fuel (le32 n ++ (fs.enc ++ t :: (k ++ 0 :: rest)))) (.err .invalidElement) := by
  have hb : (le32 n ++ (fs.enc ++ t :: (k ++ 0 :: rest))).length = n := by simp; omega
  obtain ⟨d, h1, h2, h3⟩ := Proofs.ReaderWalk.range_enc fs wf (le32 n) (t :: (k ++ 0 :: rest)) n (by simp; omega) (by omega)
  have he := Proofs.ReaderWalk.readerEnd_le32 (L := n) (body := fs.enc ++ t :: (k ++ 0 :: rest)) (by simp; omega) (by simp; omega) (by simp; omega)
  have hbad : iterNext (le32 n ++ (fs.enc ++ t :: (k ++ 0 :: rest))) (4 + fs.enc.length) n = .err .invalidElement := by
    have e1 : le32 n ++ (fs.enc ++ t :: (k ++ 0 :: rest)) = (le32 n ++ fs.enc) ++ t :: (k ++ 0 :: rest) := by simp
    have e2 : 4 + fs.enc.length = (le32 n ++ fs.enc).length := by simp
    have s2 : readerKey ((le32 n ++ fs.enc) ++ t :: (k ++ 0 :: rest)) ((le32 n ++ fs.enc).length + 1) n = .ok (k.length + 1) := by
      have := Proofs.ReaderWalk.readerKey_enc' hk ((le32 n ++ fs.enc) ++ [t]) rest n (by simp; omega)
      simpa [Nat.add_assoc] using this
    have s3 : ∀ off, rawSize ((le32 n ++ fs.enc) ++ t :: (k ++ 0 :: rest)) (le32 n ++ fs.enc).length off = .err .invalidElement := by
      intro off
      unfold rawSize
      rw [if_neg (by simp), idx_append]
      simp only [Res.bind_ok]
      have g := fun u => ht u
      rw [if_neg, if_neg, if_neg, if_neg, if_neg, if_neg, if_neg, if_neg, if_neg, if_neg, if_neg, if_neg, if_neg, if_neg]
      all_goals (intro hc)
      all_goals first
        | (rcases hc with hc | hc | hc | hc <;> subst hc <;> first | exact g .undefined rfl | exact g .null rfl | exact g .minKey rfl | exact g .maxKey rfl)
        | (rcases hc with hc | hc | hc <;> subst hc <;> first | exact g (.string []) rfl | exact g (.js []) rfl | exact g (.symbol []) rfl)
        | (rcases hc with hc | hc <;> subst hc <;> first | exact g (.doc .nil) rfl | exact g (.array .nil) rfl | exact g (.timestamp 0 0) rfl | exact g (.int64 0) rfl)
        | (subst hc; first | exact g (.double 0) rfl | exact g (.binary 0 []) rfl | exact g (.oid []) rfl | exact g (.bool true) rfl | exact g (.datetime 0) rfl
                           | exact g (.regex [] []) rfl | exact g (.dbpointer [] []) rfl | exact g (.codeScope [] .nil) rfl | exact g (.int32 0) rfl | exact g (.decimal 0 0) rfl)
    rw [e1, e2]
    unfold iterNext
    rw [if_neg (by simp; omega), idx_append]
    simp only [Res.bind_ok]
    rw [if_neg h0, u32_small (n := (le32 n ++ fs.enc).length + 1) (by simp; omega), s2]
    simp only [Res.bind_ok]
    rw [s3]
    rfl
  have hr : ∀ m, ReaderWalk.range (m + 1) ⟨le32 n ++ (fs.enc ++ t :: (k ++ 0 :: rest)), 4 + fs.enc.length, n⟩ none = ([], .err .invalidElement) := by
    intro m
    unfold ReaderWalk.range
    simp only
    rw [hbad]
  have h4 : ∀ m, ReaderWalk.range (m + 1 + d.length) ⟨le32 n ++ (fs.enc ++ t :: (k ++ 0 :: rest)), 4, n⟩ none = (d, .err .invalidElement) := by
    intro m
    have := h3 (m + 1)
    rw [le32_length, hr] at this
    simpa using this
  constructor
  · refine ⟨fs.enc.length + 1, fun m hm => ?_⟩
    obtain ⟨m, rfl⟩ : ∃ m', m = m' + 1 + d.length := ⟨m - d.length - 1, by omega⟩
    show readerString F (m + 1 + d.length) _ = _
    unfold readerString
    rw [he]
    simp only
    rw [readerLoop_range _ _ _ _ _ 0 _ _ (h4 m) (by simp) (by simp),
      loop_eq (prints_elements F (N := fs.enc.length + 1) (fun v k t hr hd ht => printElem_ok (elemString_rep F hr hd (by omega) (by omega))) h1 hd (by omega))]
    simp [Spec.Text.document, ascii]
  · refine ⟨fs.enc.length + 1, fun m hm => ?_⟩
    obtain ⟨m, rfl⟩ : ∃ m', m = m' + 1 + d.length := ⟨m - d.length - 1, by omega⟩
    show readDocument (m + 1 + d.length) _ = _
    unfold readDocument
    rw [readerEnd_iterEnd he, Res.bind_ok, Proofs.ReaderWalk.read_range, h4]
    rfl

example : Returns (fun fuel => readerString textFmt fuel (le32 13 ++ ((Fields.cons [97] .null .nil).enc ++ 0x55 :: ([98] ++ 0 :: [1, 2, 3]))))
    (.ok (Spec.Text.document "bson.Reader" textFmt (.cons [97] .null .nil))) :=
  (C100_unknown_partial textFmt (.cons [97] .null .nil) (by simp [Fields.WF, BVal.WF, NulFree]) (by simp [BVal.NoDecimal, Fields.NoDecimal]) 0x55 (by decide)
    (by intro u; cases u <;> simp [BVal.tag]) [98] [1, 2, 3] (by simp [NulFree]) 13 (by decide) (by decide)).1

/-- A reader never panics when it is printed, whatever its bytes: panics in the text of an element are caught by fmt.  (`.oof` stands for running forever.) -/
theorem C100_reader_safe (F : Fmt) (fuel : Nat) (r : Bytes) (hl : r.length < 2147483648) :
    (∃ t, readerString F fuel r = .ok t) ∨ readerString F fuel r = .oof := by
  unfold readerString
  cases hr : readerEnd r with
  | ok e =>
    have he : e ≤ r.length := readerEnd_le hl hr
    simp only
    rcases readerLoop_noPanic (printElem_noPanic F fuel) he hl fuel 4 0 with ⟨t, h⟩ | h
    · rw [h]; exact .inl ⟨_, rfl⟩
    · rw [h]; exact .inr rfl
  | err e => exact .inl ⟨_, rfl⟩
  | panic =>
    exfalso
    unfold readerEnd at hr
    split at hr
    · cases hr
    · obtain ⟨z, _, _, _, h4, _⟩ := ReadAccess.int32At_some (b := r) (i := 0) (by omega)
      rw [List.drop_zero] at h4
      rw [h4, Res.bind_ok] at hr
      split at hr <;> cases hr
  | oof => exact .inr rfl

/-- bytes that `ReadDocument` accepts, although the accessors panic on them (C73) -/
example : (∃ t, readerString textFmt 50 emptyCode = .ok t) ∨ readerString textFmt 50 emptyCode = .oof :=
  C100_reader_safe textFmt 50 emptyCode (by decide)

/-- `Document.String` does panic, on a document that `ReadDocument` has read: the text of a reader of the same bytes only shows the panic. -/
theorem C100_panics (F : Fmt) : ∃ v, Returns (fun fuel => readDocument fuel emptyPointer) (.ok [v]) ∧ (∀ fuel, docString F (fuel + 1) [v] = .panic) ∧
    Returns (fun fuel => readerString F fuel emptyPointer) (.ok (ascii "bson.Reader{%!s(PANIC=String method: " ++ F.panicked ++ ascii ")}")) := by
  have h0 : Returns (fun fuel => readDocument fuel emptyPointer) (.ok [.raw 4 6 emptyPointer]) := by
    refine readDocument_returns (n := 2) ?_ (by simp)
    unfold readDocument
    rw [show iterEnd emptyPointer = .ok 23 by decide +kernel, Res.bind_ok]
    unfold iterLoop
    rw [if_neg (by decide), show idx emptyPointer 4 = .ok 0x0C by decide, Res.bind_ok, if_neg (by decide), show u32 (4 + 1) = 5 by decide,
      show readerKey emptyPointer 5 23 = .ok 1 by decide, Res.bind_ok]
    simp only
    rw [show rawSize emptyPointer 4 (u32 (5 + 1)) = .ok 16 by decide, Res.bind_ok]
    unfold iterLoop
    rw [if_neg (by decide), show idx emptyPointer (u32 (u32 (5 + 1) + 16)) = .ok 0 by decide, Res.bind_ok, if_pos rfl]
    rfl
  have hi : ∀ fuel, Value.interface (fuel + 1) (.raw 4 6 emptyPointer) = .panic := by
    intro fuel
    unfold Value.interface
    rw [show type (.raw 4 6 emptyPointer) = .ok 0x0C by decide]
    simp [show dbPointer (.raw 4 6 emptyPointer) = .panic by decide]
  have hs : ∀ fuel, elemString F (fuel + 1) (.raw 4 6 emptyPointer) = .panic := by
    intro fuel
    unfold elemString
    rw [hi]
    rfl
  refine ⟨_, h0, fun fuel => ?_, 2, fun m hm => ?_⟩
  · unfold docString loop
    rw [hs]
    rfl
  · obtain ⟨m, rfl⟩ : ∃ j, m = j + 2 := ⟨m - 2, by omega⟩
    show readerString F (m + 2) emptyPointer = _
    unfold readerString
    rw [show readerEnd emptyPointer = .ok 23 by decide +kernel]
    simp only
    unfold readerLoop
    rw [show iterNext emptyPointer 4 23 = .ok (some (.raw 4 6 emptyPointer, 22)) from rfl]
    simp only
    unfold readerLoop
    rw [show iterNext emptyPointer 22 23 = .ok none from rfl]
    have : printElem F (m + 2) (.raw 4 6 emptyPointer) = .ok (caught F .s) := by
      unfold printElem; rw [hs]
    rw [this]
    simp [caught, ascii]

/-! ### telling documents apart -/

theorem legible_noDecimal : ∀ fs : Fields, Spec.Text.LegibleFields fs → fs.NoDecimal
  | .nil, _ => trivial
  | .cons k t fs, h => ⟨by cases t <;> first | trivial | exact h.2.1.elim, legible_noDecimal fs h.2.2⟩

/-- Different documents have different texts, if their values are legible at the top, and no key has a quotation mark.
    Missing: other documents, see `C100_forged`, `C100_order`, `C100_types`. -/
theorem C100_told_apart_partial (F : Fmt) (hq : Spec.Text.Quotes F.quote) (d e : Doc) (fs gs : Fields) (hd : RepFields d fs) (he : RepFields e gs) (wf : fs.WF) (wg : gs.WF)
    (hf : Spec.Text.LegibleFields fs) (hg : Spec.Text.LegibleFields gs) (lf : (encDoc fs).length < 2147483648) (lg : (encDoc gs).length < 2147483648)
    (t : Bytes) (h1 : Returns (fun fuel => docString F fuel d) (.ok t)) (h2 : Returns (fun fuel => docString F fuel e) (.ok t)) : fs = gs := by
  have e1 := Returns.unique h1 (C100_document_partial F d fs hd (legible_noDecimal fs hf) lf)
  have e2 := Returns.unique h2 (C100_document_partial F e gs he (legible_noDecimal gs hg) lg)
  cases e1
  have e3 := Res.ok.inj e2
  unfold Spec.Text.document at e3
  rw [List.append_assoc, List.append_assoc] at e3
  exact separated_inj hq hf hg wf wg (by
    have := List.append_cancel_left (List.append_cancel_left (by simpa only [List.append_assoc] using e3))
    exact this)

/-- {"a": 1} and {"a": 1 as int64}, whose texts cannot be the same -/
example (d e : Doc) (hd : RepFields d (.cons [97] (.int32 1) .nil)) (he : RepFields e (.cons [97] (.int64 1) .nil)) (t : Bytes)
    (h1 : Returns (fun fuel => docString textFmt fuel d) (.ok t)) : ¬ Returns (fun fuel => docString textFmt fuel e) (.ok t) := by
  intro h2
  have := C100_told_apart_partial textFmt textQuote_quotes d e _ _ hd he (by simp [Fields.WF, BVal.WF, NulFree]) (by simp [Fields.WF, BVal.WF, NulFree])
    (by simp [Spec.Text.LegibleFields, Spec.Text.Legible]) (by simp [Spec.Text.LegibleFields, Spec.Text.Legible]) (by decide +kernel) (by decide +kernel) t h1 h2
  simp at this

/-- the texts of two documents are the same -/
def SameText (F : Fmt) (fs gs : Fields) : Prop := ∀ d e, RepFields d fs → RepFields e gs →
  ∃ t, Returns (fun fuel => docString F fuel d) (.ok t) ∧ Returns (fun fuel => docString F fuel e) (.ok t)

theorem sameText_of {F : Fmt} {fs gs : Fields} (h : Spec.Text.elements F fs = Spec.Text.elements F gs ∨ Spec.Text.document "bson.Document" F fs = Spec.Text.document "bson.Document" F gs)
    (hf : fs.NoDecimal) (hg : gs.NoDecimal) (lf : (encDoc fs).length < 2147483648) (lg : (encDoc gs).length < 2147483648) : SameText F fs gs := by
  intro d e hd he
  refine ⟨_, C100_document_partial F d fs hd hf lf, ?_⟩
  have : Spec.Text.document "bson.Document" F fs = Spec.Text.document "bson.Document" F gs := by
    rcases h with h | h
    · unfold Spec.Text.document; rw [h]
    · exact h
  rw [this]
  exact C100_document_partial F e gs he hg lg

/-- the key that looks like an element with the key `k` and the value `t`, and the beginning of another one of the same type with the key `l` -/
def forgedKey (F : Fmt) (k l : Bytes) (t : BVal) : Bytes :=
  k ++ ascii "\": " ++ Spec.Text.value F t ++ ascii "}, bson.Element{[" ++ Spec.Text.kind t ++ ascii "]\"" ++ l

/-- Keys are printed as they are: a document with one element can look like one with two. -/
theorem C100_forged (F : Fmt) (k l : Bytes) (t u : BVal) (htu : Spec.Text.kind t = Spec.Text.kind u) (ht : t.NoDecimal) (hu : u.NoDecimal)
    (h1 : (encDoc (.cons k t (.cons l u .nil))).length < 2147483648) (h2 : (encDoc (.cons (forgedKey F k l t) u .nil)).length < 2147483648) :
    SameText F (.cons k t (.cons l u .nil)) (.cons (forgedKey F k l t) u .nil) := by
  refine sameText_of (.inr ?_) ⟨ht, hu, trivial⟩ ⟨hu, trivial⟩ h1 h2
  unfold Spec.Text.document
  congr 2
  simp [Spec.Text.elements, Spec.Text.separated, Spec.Text.element, forgedKey, htu, ascii]

/-- {"a": 1, "b": 2} and {"a\": 1}, bson.Element{[32-bit integer]\"b": 2} -/
example : SameText textFmt (.cons [97] (.int32 1) (.cons [98] (.int32 2) .nil)) (.cons (forgedKey textFmt [97] [98] (.int32 1)) (.int32 2) .nil) ∧
    (Fields.cons (forgedKey textFmt [97] [98] (.int32 1)) (.int32 2) .nil).WF :=
  ⟨C100_forged textFmt [97] [98] (.int32 1) (.int32 2) rfl trivial trivial (by decide +kernel) (by decide +kernel), by
    have : NulFree (forgedKey textFmt [97] [98] (.int32 1)) := by
      have : forgedKey textFmt [97] [98] (.int32 1) = ascii "a\": 1}, bson.Element{[32-bit integer]\"b" := by decide +kernel
      rw [this]; simp [NulFree, ascii]
    simp [Fields.WF, BVal.WF, this]⟩

/-- The order of the fields of a nested document is not printed. -/
theorem C100_order (F : Fmt) (k : Bytes) (fs gs : Fields) (hp : fs.toList.Perm gs.toList) (hn : fs.keys.Nodup) (hf : fs.NoDecimal) (hg : gs.NoDecimal)
    (h1 : (encDoc (.cons k (.doc fs) .nil)).length < 2147483648) (h2 : (encDoc (.cons k (.doc gs) .nil)).length < 2147483648) :
    SameText F (.cons k (.doc fs) .nil) (.cons k (.doc gs) .nil) := by
  refine sameText_of (.inl ?_) ⟨hf, trivial⟩ ⟨hg, trivial⟩ h1 h2
  simp only [Spec.Text.elements, Spec.Text.element, Spec.Text.kind, Spec.Text.value]
  rw [inner_perm F Spec.Text.plain hp hn]

example : SameText textFmt (.cons [99] (.doc (.cons [97] (.int32 1) (.cons [98] .null .nil))) .nil) (.cons [99] (.doc (.cons [98] .null (.cons [97] (.int32 1) .nil))) .nil) :=
  C100_order textFmt [99] _ _ (by simp [Fields.toList]; exact List.Perm.swap _ _ _) (by simp [Fields.keys]) (by simp [Fields.NoDecimal, BVal.NoDecimal])
    (by simp [Fields.NoDecimal, BVal.NoDecimal]) (by decide +kernel) (by decide +kernel)

/-- Nor are the types of values in nested documents, fields before others with the same key, the subtypes of binaries, and what is not quoted. -/
theorem C100_types (F : Fmt) (k l : Bytes) (i : Int) (t u : BVal) (ht : t.NoDecimal) (hu : u.NoDecimal) (s1 s2 : UInt8) (b : Bytes)
    (hl : k.length + 2 * l.length + t.enc.length + u.enc.length + b.length + (Spec.Text.number i).length < 2147483600) :
    SameText F (.cons k (.doc (.cons l (.int32 i) .nil)) .nil) (.cons k (.doc (.cons l (.int64 i) .nil)) .nil) ∧
    SameText F (.cons k (.doc (.cons l (.int32 i) .nil)) .nil) (.cons k (.doc (.cons l (.string (Spec.Text.number i)) .nil)) .nil) ∧
    SameText F (.cons k (.doc (.cons l t (.cons l u .nil))) .nil) (.cons k (.doc (.cons l u .nil)) .nil) ∧
    SameText F (.cons k (.binary s1 b) .nil) (.cons k (.binary s2 b) .nil) := by
  refine ⟨sameText_of (.inl ?_) ?_ ?_ ?_ ?_, sameText_of (.inl ?_) ?_ ?_ ?_ ?_, sameText_of (.inl ?_) ?_ ?_ ?_ ?_, sameText_of (.inl ?_) ?_ ?_ ?_ ?_⟩
  all_goals first
    | (simp [encDoc, wrapDoc, BVal.enc, Fields.enc, encString, le32, le64]; omega)
    | (simp [encDoc, wrapDoc, BVal.enc, Fields.enc, le32]; split <;> simp <;> omega)
    | (simp [Fields.NoDecimal, BVal.NoDecimal, ht, hu]; done)
    | (simp [Spec.Text.elements, Spec.Text.element, Spec.Text.kind, Spec.Text.value, Spec.Text.inner, Spec.Text.innerFields, Spec.Text.plain, Fields.keys]; done)

example : SameText textFmt (.cons [99] (.doc (.cons [97] (.int32 (-7)) .nil)) .nil) (.cons [99] (.doc (.cons [97] (.string (ascii "-7")) .nil)) .nil) :=
  (C100_types textFmt [99] [97] (-7) .null .null trivial trivial 0 0 [] (by decide +kernel)).2.1

/-- Strings in arrays are not quoted: two of them look like one. -/
theorem C100_array_forged (F : Fmt) (a b : Bytes) (hl : a.length + b.length < 2147483600) (d e : Doc) (hd : RepVals d (.cons (.string a) (.cons (.string b) .nil)))
    (he : RepVals e (.cons (.string (a ++ ascii ", " ++ b)) .nil)) :
    ∃ t, Returns (fun fuel => arrString F fuel d) (.ok t) ∧ Returns (fun fuel => arrString F fuel e) (.ok t) := by
  refine ⟨_, C100_array_partial F d _ hd ⟨trivial, trivial, trivial⟩ ?_, ?_⟩
  · have k0 : (decimalKey 0).length = 1 := by decide +kernel
    have k1 : (decimalKey 1).length = 1 := by decide +kernel
    simp [Vals.encFrom, BVal.enc, encString, wrapDoc, le32]; omega
  · have := C100_array_partial F e _ he ⟨trivial, trivial⟩ (by
      have k0 : (decimalKey 0).length = 1 := by decide +kernel
      simp [Vals.encFrom, BVal.enc, encString, wrapDoc, le32, ascii]; omega)
    have h : Spec.Text.array F (.cons (.string a) (.cons (.string b) .nil)) = Spec.Text.array F (.cons (.string (a ++ ascii ", " ++ b)) .nil) := by
      simp [Spec.Text.array, Spec.Text.items, Spec.Text.item, Spec.Text.inner, Spec.Text.separated]
    rw [h]; exact this

example : ∃ d e, RepVals d (.cons (.string [97]) (.cons (.string [98]) .nil)) ∧ RepVals e (.cons (.string (ascii "a, b")) .nil) ∧
    ∃ t, Returns (fun fuel => arrString textFmt fuel d) (.ok t) ∧ Returns (fun fuel => arrString textFmt fuel e) (.ok t) := by
  obtain ⟨v, _, hv⟩ := buildVal_rep [107] (.array (.cons (.string [97]) (.cons (.string [98]) .nil))) (by simp [NulFree]) (by simp [Vals.WF, BVal.WF]) (by decide +kernel)
  obtain ⟨d, _, h⟩ := mutableArray_rep (fuel := 999) hv (by decide +kernel) (by decide +kernel)
  obtain ⟨w, _, hw⟩ := buildVal_rep [107] (.array (.cons (.string (ascii "a, b")) .nil)) (by simp [NulFree]) (by simp [Vals.WF, BVal.WF]) (by decide +kernel)
  obtain ⟨e, _, h'⟩ := mutableArray_rep (fuel := 999) hw (by decide +kernel) (by decide +kernel)
  exact ⟨d, e, h, h', C100_array_forged textFmt [97] [98] (by decide) d e h h'⟩

/-- Numbers, booleans and nothing in arrays are printed with the complaint of fmt that `%s` is not for them. -/
theorem C100_array_numbers (F : Fmt) (d : Doc) (vs : Vals) (h : RepVals d vs) (hd : vs.NoDecimal) (hl : (wrapDoc (vs.encFrom 0)).length < 2147483648) (t : BVal) (ht : t ∈ vs.toList) :
    ∃ s, Returns (fun fuel => arrString F fuel d) (.ok s) ∧
    (∀ i, t = .int32 i → ascii "%!s(int32=" ++ Spec.Text.number i ++ ascii ")" <:+: s) ∧
    (∀ i, t = .int64 i → ascii "%!s(int64=" ++ Spec.Text.number i ++ ascii ")" <:+: s) ∧
    (t = .bool true → ascii "%!s(bool=true)" <:+: s) ∧ (t = .bool false → ascii "%!s(bool=false)" <:+: s) ∧
    (t = .null → ascii "%!s(<nil>)" <:+: s) := by
  refine ⟨_, C100_array_partial F d vs h hd hl, ?_⟩
  have hi := item_infix F ht
  refine ⟨?_, ?_, ?_, ?_, ?_⟩
  · rintro i rfl; simpa [Spec.Text.item, Spec.Text.inner, Spec.Text.broken, ascii] using hi
  · rintro i rfl; simpa [Spec.Text.item, Spec.Text.inner, Spec.Text.broken, ascii] using hi
  · rintro rfl; exact hi
  · rintro rfl; exact hi
  · rintro rfl; exact hi

example : ∃ d s, Returns (fun fuel => arrString textFmt fuel d) (.ok s) ∧ ascii "%!s(int32=5)" <:+: s := by
  obtain ⟨v, _, hv⟩ := buildVal_rep [107] (.array (.cons (.string [120]) (.cons (.int32 5) .nil))) (by simp [NulFree]) (by simp [Vals.WF, BVal.WF]) (by decide +kernel)
  obtain ⟨d, _, h⟩ := mutableArray_rep (fuel := 999) hv (by decide +kernel) (by decide +kernel)
  obtain ⟨s, h1, h2, _⟩ := C100_array_numbers textFmt d _ h (by simp [Vals.NoDecimal, BVal.NoDecimal]) (by decide +kernel) (.int32 5) (by simp [Vals.toList])
  exact ⟨d, s, h1, h2 5 rfl⟩

end Birch.Props
