import Verif.Proofs.Access
import Verif.Proofs.Fuel
import Verif.Proofs.Frame
import Verif.Proofs.Decode

/-
C01-C07: the BSON encoding round trips.

Every statement is about documents of less than 2^31 bytes: the format's length
fields are int32.
-/

namespace Birch.Props
open Birch Model Spec Proofs

/-- A document with every value type and nested documents, arrays and scopes, used to show
    that the hypotheses below can be met. -/
def sample : Fields :=
  .cons [97] (.double 4607182418800017408) <|
  .cons [98] (.string [104, 105]) <|
  .cons [99] (.doc (.cons [120] (.int32 (-5)) (.cons [121] (.array (.cons .null (.cons (.bool true) .nil))) .nil))) <|
  .cons [100] (.array (.cons (.int64 (-1)) (.cons (.doc .nil) (.cons (.string []) .nil)))) <|
  .cons [101] (.binary 2 [1, 2, 3]) <|
  .cons [] .undefined <|
  .cons [102] (.oid [1, 2, 3, 4, 5, 6, 7, 8, 9, 10, 11, 12]) <|
  .cons [103] (.datetime (-1)) <|
  .cons [104] (.regex [97, 42] [105]) <|
  .cons [105] (.dbpointer [110] [1, 2, 3, 4, 5, 6, 7, 8, 9, 10, 11, 12]) <|
  .cons [106] (.js [49]) <|
  .cons [107] (.symbol [50]) <|
  .cons [108] (.codeScope [51] (.cons [122] .minKey .nil)) <|
  .cons [109] (.timestamp 7 9) <|
  .cons [97] .maxKey .nil

theorem sample_wf : sample.WF := by
  simp [sample, Fields.WF, BVal.WF, Vals.WF, NulFree]

theorem sample_size : (encDoc sample).length < 2147483648 := by decide +kernel

/-! ### C01 -/

/-- For every ordered list of keys and values, assembling the document from the constructors
    succeeds and `MarshalBSON` returns exactly the bytes of the BSON grammar. -/
theorem C01_marshal_canonical (fs : Fields) (wf : fs.WF) (hl : (encDoc fs).length < 2147483648) :
    ∃ d, buildDoc fs = .ok d ∧ Returns (fun fuel => docMarshal fuel d) (.ok (encDoc fs)) := by
  have hl' := hl
  simp only [encDoc, wrapDoc_length] at hl'
  obtain ⟨d, hd, hr⟩ := buildDoc_rep fs wf (by omega)
  exact ⟨d, hd, returns_of _ fun m hm => docMarshal_rep m hr hl hm⟩

example := C01_marshal_canonical sample sample_wf sample_size

/-- The same for any in-memory document representing `fs`, whatever mix of constructed, raw and
    parsed values it consists of. -/
theorem C01_marshal_represented (d : Doc) (fs : Fields) (h : RepFields d fs) (hl : (encDoc fs).length < 2147483648) :
    Returns (fun fuel => docMarshal fuel d) (.ok (encDoc fs)) :=
  returns_of _ fun m hm => docMarshal_rep m h hl hm

example : ∃ d, RepFields d sample := by
  obtain ⟨d, _, h⟩ := buildDoc_rep sample sample_wf (by decide +kernel)
  exact ⟨d, h⟩

/-- single elements: `Element.MarshalBSON` -/
theorem C01_marshal_element (k : Bytes) (t : BVal) (hk : NulFree k) (wf : t.WF)
    (hl : k.length + 2 + t.enc.length < 2147483648) :
    ∃ v, buildVal k t = .ok v ∧ Returns (fun fuel => elemMarshal fuel v) (.ok ([t.tag] ++ k ++ [0] ++ t.enc)) := by
  obtain ⟨v, hv, hr⟩ := buildVal_rep k t hk wf hl
  exact ⟨v, hv, returns_of _ fun m hm => by rw [elemMarshal_rep m hr (by omega) hm]; simp⟩

example := C01_marshal_element [97] (.codeScope [51] (.cons [122] .minKey .nil)) (by simp [NulFree])
  (by simp [BVal.WF, Fields.WF, NulFree]) (by decide)

/-- The hypothesis `NulFree` is needed: a key containing NUL is accepted and silently cut short, `EC.Null("a\x00")` is
    marshalled as `{"a": null}`. -/
theorem C01_nul_key_truncated : ∃ v, buildVal [97, 0] .null = .ok v ∧
    Returns (fun fuel => docMarshal fuel [v]) (.ok (encDoc (.cons [97] .null .nil))) :=
  ⟨.raw 0 4 [0x0A, 97, 0, 0], rfl, 0, fun fuel _ => by
    have h1 : elemKeyLen [0x0A, 97, 0, 0] 0 4 = .ok 2 := by decide
    have h2 : rawValidate fuel [0x0A, 97, 0, 0] 0 4 = .ok 0 := by simp [rawValidate, idx, rawSize]
    have h3 : docValidate fuel [.raw 0 4 [0x0A, 97, 0, 0]] = .ok 8 := by
      simp [docValidate, elemsValidate, Value.data, Value.start, Value.offset, h1, valueValidate, h2]; decide
    simp only [docMarshal, h3, Res.bind_ok, docWrite, frameWrite, elemsWrite, elemWrite, elemValidate, valueValidate, h2,
      Value.data, Value.start, Value.offset, h1]
    decide⟩

/-! ### C02 -/

/-- Reading the marshalled bytes back through the accessors gives the same keys and values in order
    at every depth, except that the two 64 bit halves of each decimal come back exchanged. -/
theorem C02_read_back (fs : Fields) (wf : fs.WF) (hl : (encDoc fs).length < 2147483648) :
    ∃ d, Returns (fun fuel => readDocument fuel (encDoc fs)) (.ok d) ∧
      Returns (fun fuel => obsDoc fuel d) (.ok fs.swapDec) := by
  obtain ⟨d, h0, hr⟩ := readDocument_enc ((encDoc fs).length + 1) fs wf [] (by omega) (by simpa using hl)
  rw [List.append_nil] at h0
  exact ⟨d, readDocument_returns h0 (by simp), returns_of _ fun m hm => obsDoc_rep m hr hl hm⟩

/-- Round trip for documents without decimals.
    Missing for C02: decimals, see `C02_decimal_counterexample`. -/
theorem C02_read_back_partial (fs : Fields) (wf : fs.WF) (hl : (encDoc fs).length < 2147483648) (hn : fs.NoDecimal) :
    ∃ d b d', buildDoc fs = .ok d ∧ Returns (fun fuel => docMarshal fuel d) (.ok b) ∧
      Returns (fun fuel => readDocument fuel b) (.ok d') ∧ Returns (fun fuel => obsDoc fuel d') (.ok fs) := by
  obtain ⟨d, h1, h2⟩ := C01_marshal_canonical fs wf hl
  obtain ⟨d', h3, h4⟩ := C02_read_back fs wf hl
  rw [Fields.swapDec_eq fs hn] at h4
  exact ⟨d, _, d', h1, h2, h3, h4⟩

example := C02_read_back_partial sample sample_wf sample_size
  (by simp [sample, Fields.NoDecimal, BVal.NoDecimal, Vals.NoDecimal])

/-- The full statement is false: `{"": Decimal128{h: 1, l: 2}}` reads back as `Decimal128{h: 2, l: 1}`. -/
theorem C02_decimal_counterexample : ∃ fs : Fields, fs.WF ∧ (encDoc fs).length < 2147483648 ∧
    ∃ d, Returns (fun fuel => readDocument fuel (encDoc fs)) (.ok d) ∧
      ¬ Returns (fun fuel => obsDoc fuel d) (.ok fs) := by
  refine ⟨.cons [] (.decimal 1 2) .nil, by simp [Fields.WF, BVal.WF, NulFree], by decide +kernel, ?_⟩
  obtain ⟨d, h1, h2⟩ := C02_read_back (.cons [] (.decimal 1 2) .nil) (by simp [Fields.WF, BVal.WF, NulFree]) (by decide +kernel)
  refine ⟨d, h1, fun h => ?_⟩
  have := Returns.unique h h2
  simp [Fields.swapDec, BVal.swapDec] at this

/-! ### C03 -/

mutual
/-- `v'` is `v` after some of the nested documents, arrays and scopes in it (at any depth) have been
    opened through `MutableDocument`, `MutableArray` or `MutableJavaScriptWithScope`. -/
inductive Opened : Value → Value → Prop
  | same (v : Value) : Opened v v
  | open_ {v v' : Value} : Returns (fun fuel => openValue fuel v) (.ok v') → Opened v v'
  | inside {s o : Nat} {data : Bytes} {d d' : List Value} : OpenedDoc d d' →
      Opened (.withDoc s o data d) (.withDoc s o data d')
  | trans {v v' v'' : Value} : Opened v v' → Opened v' v'' → Opened v v''
inductive OpenedDoc : List Value → List Value → Prop
  | nil : OpenedDoc [] []
  | cons {v v' : Value} {d d' : List Value} : Opened v v' → OpenedDoc d d' → OpenedDoc (v :: d) (v' :: d')
end

mutual
theorem opened_rep : ∀ {v v' : Value}, Opened v v' → ∀ {k : Bytes} {t : BVal}, Rep v k t → t.enc.length < 2147483648 → Rep v' k t
  | _, _, .same v, _, _, h, _ => h
  | v, v', .open_ ho, k, t, h, hl => by
    obtain ⟨n, hn⟩ := ho
    exact openValue_rep (fuel := n + t.enc.length + 1) h hl (by omega) (hn _ (by omega))
  | _, _, .inside (s := s) (o := o) (data := data) (d := d) (d' := d') hd, k, t, h, hl => by
    simp only [Rep] at h ⊢
    obtain ⟨hk, hdl, pre, post, e1, e2, e3, h⟩ := h
    refine ⟨hk, hdl, pre, post, e1, e2, e3, ?_⟩
    cases t with
    | doc fs => exact openedDoc_rep hd h (by simp only [BVal.enc, wrapDoc_length] at hl; omega)
    | array vs => exact openedVals_rep hd 0 h (by simp only [BVal.enc, wrapDoc_length] at hl; omega)
    | codeScope c fs =>
      exact ⟨h.1, openedDoc_rep hd h.2 (by
        simp only [BVal.enc, List.length_append, wrapDoc_length] at hl; omega)⟩
    | _ => exact h.elim
  | _, _, .trans h1 h2, _, _, h, hl => opened_rep h2 (opened_rep h1 h hl) hl
theorem openedDoc_rep : ∀ {d d' : List Value}, OpenedDoc d d' → ∀ {fs : Fields}, RepFields d fs → fs.enc.length < 2147483648 → RepFields d' fs
  | _, _, .nil, _, h, _ => h
  | _, _, .cons _ _, .nil, h, _ => by simp [RepFields] at h
  | _, _, .cons hv hd, .cons k t fs, h, hl => by
    rw [fieldsEnc_length] at hl
    simp only [RepFields] at h ⊢
    exact ⟨opened_rep hv h.1 (by omega), openedDoc_rep hd h.2 (by omega)⟩
theorem openedVals_rep : ∀ {d d' : List Value}, OpenedDoc d d' → ∀ {vs : Vals} (i : Nat), RepVals d vs → (vs.encFrom i).length < 2147483648 → RepVals d' vs
  | _, _, .nil, _, _, h, _ => h
  | _, _, .cons _ _, .nil, _, h, _ => by simp [RepVals] at h
  | _, _, .cons hv hd, .cons t vs, i, h, hl => by
    rw [encFrom_length] at hl
    simp only [RepVals] at h ⊢
    obtain ⟨⟨k, h1⟩, h2⟩ := h
    exact ⟨⟨k, opened_rep hv h1 (by omega)⟩, openedVals_rep hd (i + 1) h2 (by omega)⟩
end

/-- For canonical bytes, reading, opening any nested values, and marshalling again
    gives the same bytes. -/
theorem C03_read_marshal (fs : Fields) (wf : fs.WF) (hl : (encDoc fs).length < 2147483648) :
    ∃ d, Returns (fun fuel => readDocument fuel (encDoc fs)) (.ok d) ∧
      ∀ d', OpenedDoc d d' → Returns (fun fuel => docMarshal fuel d') (.ok (encDoc fs)) := by
  obtain ⟨d, h0, hr⟩ := readDocument_enc ((encDoc fs).length + 1) fs wf [] (by omega) (by simpa using hl)
  rw [List.append_nil] at h0
  refine ⟨d, readDocument_returns h0 (by simp), fun d' ho => ?_⟩
  exact C01_marshal_represented d' fs (openedDoc_rep ho hr (by simp only [encDoc, wrapDoc_length] at hl; omega)) hl

/-- Every nested document, array or scope of a document that was read can be opened. -/
theorem C03_open_succeeds (v : Value) (k : Bytes) (t : BVal) (h : Rep v k t) (hl : t.enc.length < 2147483648)
    (ht : t.tag = 0x03 ∨ t.tag = 0x04 ∨ t.tag = 0x0F) :
    ∃ s o data d, Returns (fun fuel => openValue fuel v) (.ok (.withDoc s o data d)) :=
  ⟨_, _, _, openValue_returns h hl ht⟩

example := fun v k h => C03_open_succeeds v k (.doc sample) h (by have := sample_size; simpa [BVal.enc, encDoc] using this) (by simp [BVal.tag])

example := C03_read_marshal sample sample_wf sample_size

/-! ### C04 -/

/-- When marshalling a document succeeds, `Validate` succeeds with the number of bytes produced, and the
    first four bytes are that number.  No assumption on the document. -/
theorem C04_size_header_length (d : Doc) (b : Bytes) (h : Returns (fun fuel => docMarshal fuel d) (.ok b)) :
    Returns (fun fuel => docValidate fuel d) (.ok b.length) ∧ b.take 4 = le32 b.length := by
  obtain ⟨n, hn⟩ := h
  refine ⟨⟨n, fun m hm => (docMarshal_size (hn m hm)).1⟩, (docMarshal_size (hn n (Nat.le_refl n))).2⟩

/-- the same for arrays -/
theorem C04_size_header_length_array (d : Doc) (b : Bytes) (h : Returns (fun fuel => arrMarshal fuel d) (.ok b)) :
    Returns (fun fuel => arrValidate fuel d) (.ok b.length) ∧ b.take 4 = le32 b.length := by
  obtain ⟨n, hn⟩ := h
  refine ⟨⟨n, fun m hm => (arrMarshal_size (hn m hm)).1⟩, (arrMarshal_size (hn n (Nat.le_refl n))).2⟩

example : ∃ d b, Returns (fun fuel => docMarshal fuel d) (.ok b) ∧ b.length = 216 := by
  obtain ⟨d, _, h⟩ := C01_marshal_canonical sample sample_wf sample_size
  exact ⟨d, _, h, by decide +kernel⟩

/-! ### C05 -/

/-- If the bytes of one document are followed by anything and the whole starts with another document, the
    two documents and the remainders are the same.  (`p = q = []`: the encoding is injective; `q = []`: no
    document is a proper prefix of another.) -/
theorem C05_uniquely_decodable (fs gs : Fields) (p q : Bytes) (wf : fs.WF) (wg : gs.WF)
    (hf : (encDoc fs).length < 2147483648) (hg : (encDoc gs).length < 2147483648)
    (h : encDoc fs ++ p = encDoc gs ++ q) : fs = gs ∧ p = q :=
  encDoc_prefix wf wg hf hg h

example : ∃ fs gs : Fields, fs.WF ∧ gs.WF ∧ encDoc fs ++ [1] = encDoc gs ++ [1] :=
  ⟨sample, sample, sample_wf, sample_wf, rfl⟩

/-- Concatenated documents split in exactly one way. -/
theorem C05_concatenation (l m : List Fields) (hl : ∀ f ∈ l, f.WF ∧ (encDoc f).length < 2147483648)
    (hm : ∀ f ∈ m, f.WF ∧ (encDoc f).length < 2147483648) (h : l.flatMap encDoc = m.flatMap encDoc) : l = m := by
  induction l generalizing m with
  | nil =>
    cases m with
    | nil => rfl
    | cons g m =>
      have := congrArg List.length h
      simp [encDoc, wrapDoc_length] at this
      omega
  | cons f l ih =>
    cases m with
    | nil =>
      have := congrArg List.length h
      simp [encDoc, wrapDoc_length] at this
    | cons g m =>
      simp only [List.flatMap_cons] at h
      obtain ⟨rfl, h'⟩ := encDoc_prefix (hl f (by simp)).1 (hm g (by simp)).1 (hl f (by simp)).2 (hm g (by simp)).2 h
      rw [ih m (fun f hf => hl f (by simp [hf])) (fun f hf => hm f (by simp [hf])) h']

example : ∀ f ∈ [sample, .nil, sample], f.WF ∧ (encDoc f).length < 2147483648 := by
  intro f hf
  simp at hf
  rcases hf with rfl | rfl | rfl
  · exact ⟨sample_wf, sample_size⟩
  · exact ⟨by simp [Fields.WF], by decide⟩
  · exact ⟨sample_wf, sample_size⟩

/-! ### C06 -/

/-- `Reader.Validate` on canonical bytes with anything behind them returns the document's size. -/
theorem C06_reader_validate (fs : Fields) (wf : fs.WF) (post : Bytes) (hl : (encDoc fs ++ post).length < 2147483648) :
    Returns (fun fuel => readerValidate fuel (encDoc fs ++ post)) (.ok (encDoc fs).length) :=
  readerValidate_returns (readerValidate_encDoc ((encDoc fs).length + 1) fs wf post (by omega) hl) (by simp)

example := C06_reader_validate sample sample_wf [1, 2, 3] (by decide +kernel)

/-! ### C07 -/

/-- The elements `"i": v_i, "i+1": v_(i+1), ...` in decimal. -/
def positional : Nat → List BVal → List (Bytes × BVal)
  | _, [] => []
  | i, t :: ts => (decimalKey i, t) :: positional (i + 1) ts

/-- An array whose values were constructed with any keys is marshalled as the document
    `"0": v_0, "1": v_1, ...`, and reading those bytes as a document gives the values in order. -/
theorem C07_positional_keys (kvs : List (Bytes × BVal)) (wf : ∀ p ∈ kvs, NulFree p.1 ∧ p.2.WF)
    (hk : ∀ p ∈ kvs, p.1.length + 2 + p.2.enc.length < 2147483648)
    (hl : (encDoc (.ofList (positional 0 (kvs.map (·.2))))).length < 2147483648) :
    ∃ d d', buildDoc (.ofList kvs) = .ok d ∧
      Returns (fun fuel => arrMarshal fuel d) (.ok (encDoc (.ofList (positional 0 (kvs.map (·.2)))))) ∧
      Returns (fun fuel => readDocument fuel (encDoc (.ofList (positional 0 (kvs.map (·.2)))))) (.ok d') ∧
      Returns (fun fuel => obsDoc fuel d') (.ok (Fields.ofList (positional 0 (kvs.map (·.2)))).swapDec) := by
  obtain ⟨d, hd, hr⟩ := buildDoc_keyed kvs wf hk
  have e : ∀ (kvs : List (Bytes × BVal)) (i : Nat), (Fields.ofList (positional i (kvs.map (·.2)))).enc = (Vals.ofList (kvs.map (·.2))).encFrom i := by
    intro kvs
    induction kvs with
    | nil => intro i; rfl
    | cons p kvs ih => intro i; simp [positional, Fields.ofList, Vals.ofList, Fields.enc, Vals.encFrom, ih]
  have e0 : encDoc (.ofList (positional 0 (kvs.map (·.2)))) = wrapDoc ((Vals.ofList (kvs.map (·.2))).encFrom 0) := by
    simp [encDoc, e]
  have w : ∀ (kvs : List (Bytes × BVal)) (i : Nat), (∀ p ∈ kvs, NulFree p.1 ∧ p.2.WF) → (Fields.ofList (positional i (kvs.map (·.2)))).WF := by
    intro kvs
    induction kvs with
    | nil => intro i _; trivial
    | cons p kvs ih =>
      intro i h
      exact ⟨decimalKey_nulFree i, (h p (by simp)).2, ih (i + 1) fun q hq => h q (by simp [hq])⟩
  obtain ⟨d', h1, h2⟩ := C02_read_back _ (w kvs 0 wf) hl
  refine ⟨d, d', hd, ?_, h1, h2⟩
  rw [e0] at hl ⊢
  exact returns_of _ fun m hm => arrMarshal_rep m hr hl hm

example := C07_positional_keys [([120], .int32 7), ([], .string [97]), ([49], .doc sample)]
  (by simp only [List.mem_cons, List.not_mem_nil, or_false]
      rintro p (rfl | rfl | rfl)
      · simp [NulFree, BVal.WF]
      · simp [NulFree, BVal.WF]
      · exact ⟨by simp [NulFree], sample_wf⟩)
  (by simp only [List.mem_cons, List.not_mem_nil, or_false]
      rintro p (rfl | rfl | rfl) <;> decide +kernel) (by decide +kernel)

end Birch.Props
