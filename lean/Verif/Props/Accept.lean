import Verif.Proofs.AcceptCopy
import Verif.Proofs.AcceptUnique
import Verif.Proofs.AcceptCanon
import Verif.Proofs.Access
import Verif.Props.Totality

/-
C102: exactly which bytes `ReadDocument` and `Reader.Validate` take for a document, and what marshalling makes
of such a document.  The grammar is in `Spec/Accept`; it mentions no function of the model.
-/

namespace Birch.Props
open Birch Model Spec Proofs

/-- A document with an early end (two bytes behind its final zero, counted by the declared length), two bytes after
    it, a string without NUL, and an embedded "document" that is not one. -/
def looseDoc : Bytes :=
  [28, 0, 0, 0, 0x02, 97, 0, 2, 0, 0, 0, 104, 105, 0x03, 98, 0, 6, 0, 0, 0, 7, 7, 0x0A, 99, 0, 0, 55, 55, 66]

def looseItems : List Item := [(0x02, [97], [2, 0, 0, 0, 104, 105]), (0x03, [98], [6, 0, 0, 0, 7, 7]), (0x0A, [99], [])]

theorem looseDoc_accepted : Accepted looseDoc looseItems 26 := by
  refine ⟨28, looseDoc.drop 4, [55, 55, 66], rfl, ?_, by decide, by decide, by decide⟩
  exact .item (k := [97]) (by simp [NulFree]) (.text 2 [104, 105] (by simp))
    (.item (k := [98]) (by simp [NulFree]) (.embedded 3 [7, 7] (by simp) (by simp))
      (.item (k := [99]) (by simp [NulFree]) (.empty 0x0A (by simp)) (.stop _)))

theorem looseDoc_tame : Tame looseDoc := tame_of_small (by decide) (by decide)

/-- Whatever follows the grammar is read, and the elements returned lie on the elements of the grammar. -/
theorem C102_reads (b : Bytes) (es : List Item) (m : Nat) (hl : b.length < 2147483648) (h : Accepted b es m) :
    ∃ d, Returns (fun fuel => readDocument fuel b) (.ok d) ∧ Shown b d es := by
  obtain ⟨d, h1, h2⟩ := readDocument_accepted h hl
  exact ⟨d, readDocument_returns h1 (by simp), h2⟩

example := C102_reads looseDoc looseItems 26 (by decide) looseDoc_accepted

/-- Nothing else is read: on inputs without oversized or negative lengths a document comes back only for bytes that
    follow the grammar. -/
theorem C102_only (b : Bytes) (d : Doc) (ht : Tame b) (hl : b.length < 2147483648) (hn : LengthNotNegative b)
    (h : Returns (fun fuel => readDocument fuel b) (.ok d)) : ∃ es m, Accepted b es m ∧ Shown b d es := by
  obtain ⟨f, hf⟩ := h
  exact readDocument_sound ht hl hn (hf f (Nat.le_refl _))

example : ∃ d, ∃ es m, Accepted looseDoc es m ∧ Shown looseDoc d es := by
  obtain ⟨d, h, _⟩ := C102_reads looseDoc looseItems 26 (by decide) looseDoc_accepted
  exact ⟨d, C102_only looseDoc d looseDoc_tame (by decide) (by intro n hn; simp [looseDoc, lenAt] at hn; omega) h⟩

/-- The canonical encoding of a document, whatever follows it, is in the grammar at every depth, with the elements of the document. -/
theorem C102_canonical (fs : Fields) (wf : fs.WF) (rest : Bytes) :
    Accepted (encDoc fs ++ rest) (fs.toList.map fun kv => (kv.2.tag, kv.1, kv.2.enc)) (encDoc fs).length ∧ Deep (encDoc fs) :=
  ⟨accepted_wrap (items_enc rest fs wf), .intro (accepted_wrap' (items_enc [] fs wf)) (deep_fields fs wf)⟩

example := C102_canonical (.cons [97] (.doc (.cons [98] (.int32 7) .nil)) (.cons [99] (.array (.cons .null .nil)) .nil))
  (by simp [Fields.WF, BVal.WF, Vals.WF, NulFree]) [1, 2]

/-- The bytes determine the elements and the end of the document: there is never a choice of what to read. -/
theorem C102_unique (b : Bytes) (es es' : List Item) (m m' : Nat) (hl : b.length < 2147483648) (h : Accepted b es m) (h' : Accepted b es' m') :
    es = es' ∧ m = m' := accepted_unique hl h h'

example (es : List Item) (m : Nat) (h : Accepted looseDoc es m) : es = looseItems ∧ m = 26 :=
  C102_unique looseDoc es looseItems m 26 (by decide) h looseDoc_accepted

/-- `Reader.Validate` succeeds exactly on the bytes that follow the grammar at every depth of documents and arrays, and
    returns the position behind the final zero. -/
theorem C102_validates (b : Bytes) (m : Nat) (ht : Tame b) (hl : b.length < 2147483648) :
    Returns (fun fuel => readerValidate fuel b) (.ok m) ↔
      ∃ es, Accepted b es m ∧ ∀ e ∈ es, e.1 = 0x03 ∨ e.1 = 0x04 → Deep e.2.2 := by
  constructor
  · rintro ⟨f, hf⟩
    exact readerValidate_sound ht hl (hf f (Nat.le_refl _))
  · rintro ⟨es, ha, hd⟩
    exact ⟨b.length + 1, fun n hn => deep_sub ha hl hd (by omega)⟩

/-- the embedded bytes of `looseDoc` are no document, so `Reader.Validate` refuses what `ReadDocument` takes -/
theorem looseDoc_refused : ¬ ∃ m, Returns (fun fuel => readerValidate fuel looseDoc) (.ok m) := by
  rintro ⟨m, h⟩
  have h' := readerValidate_returns (show readerValidate 10 looseDoc = .err .invalidKey by decide +kernel) (by simp)
  cases Returns.unique h h'

example := (C102_validates looseDoc 26 looseDoc_tame (by decide)).mpr

/-- The declared length may be larger than the document: `Reader.Validate` then returns less than the
    declared length, and `ReadDocument` gives the same elements, whatever the bytes behind the final zero. -/
theorem C102_slack (fs : Fields) (wf : fs.WF) (slack after : Bytes)
    (hl : fs.enc.length + 5 + slack.length + after.length < 2147483648) :
    Returns (fun fuel => readerValidate fuel (le32 (fs.enc.length + 5 + slack.length) ++ (fs.enc ++ 0 :: (slack ++ after)))) (.ok (fs.enc.length + 5)) ∧
    ∃ d, Returns (fun fuel => readDocument fuel (le32 (fs.enc.length + 5 + slack.length) ++ (fs.enc ++ 0 :: (slack ++ after)))) (.ok d) ∧
      RepFields d fs := by
  have h1 := readerEnd_le32 (n := fs.enc.length + 5 + slack.length) (body := fs.enc ++ 0 :: (slack ++ after)) (by simp) (by simp; omega) (by simp; omega)
  have h2 := iterEnd_le32 (n := fs.enc.length + 5 + slack.length) (body := fs.enc ++ 0 :: (slack ++ after)) (by simp) (by simp; omega) (by simp; omega)
  have h3 := validateLoop_enc (fs.enc.length + 1) fs wf (le32 (fs.enc.length + 5 + slack.length)) (slack ++ after) (fs.enc.length + 5 + slack.length)
    (by omega) (by simp; omega) (by simp; omega) (by simp; omega)
  obtain ⟨d, h4, h5⟩ := iterLoop_enc (fs.enc.length + 1) fs wf (le32 (fs.enc.length + 5 + slack.length)) (slack ++ after) (fs.enc.length + 5 + slack.length)
    (by omega) (by simp; omega) (by simp; omega) (by simp; omega)
  refine ⟨readerValidate_returns (n := fs.enc.length + 1) ?_ (by simp), d, readDocument_returns (n := fs.enc.length + 1) ?_ (by simp), h5⟩
  · unfold readerValidate
    rw [h1, Res.bind_ok]
    rw [le32_length] at h3
    rw [h3]; congr 1; omega
  · unfold readDocument
    rw [h2, Res.bind_ok]
    exact h4

example := C102_slack (.cons [97] (.int32 7) .nil) (by simp [Fields.WF, BVal.WF, NulFree]) [1, 2, 3] [4] (by decide)

/-- Marshalling a document that was read (from an input without oversized lengths; a code with scope has at least the 4 bytes of its
    length): it succeeds exactly if every string and every code has length 0 or ends in a NUL and every embedded document, array and scope passes
    `Reader.Validate`; the result has a new length, the elements as they were - embedded documents, arrays and scopes
    cut off behind their final zero, codes with scope with a new length -, and a final zero. -/
theorem C102_marshals (b x : Bytes) (d : Doc) (es : List Item) (m : Nat) (ht : Tame b) (hc : CodeLengths b) (hl : b.length < 2147483648)
    (ha : Accepted b es m) (hs : Shown b d es) (h15 : ∀ e ∈ es, e.1 = 0x0F → 4 ≤ e.2.2.length) :
    Returns (fun fuel => docMarshal fuel d) (.ok x) ↔ ∃ c, Copied es c ∧ x = wrapDoc c := by
  constructor
  · rintro ⟨f, hf⟩
    have h := hf (f + b.length + 1) (by omega)
    obtain ⟨c, hcp⟩ := copied_of_marshal ha hs h15 ht hc hl h
    have h' := docMarshal_copied (fuel := f + b.length + 1) ha hs h15 hl (by omega) hcp
    simp only at h
    rw [h'] at h
    exact ⟨c, hcp, (Res.ok.inj h).symm⟩
  · rintro ⟨c, hc, rfl⟩
    exact ⟨b.length + 1, fun n hn => docMarshal_copied ha hs h15 hl (by omega) hc⟩

/-- `{a: {}, b: ""}` where the embedded document declares two bytes more than it has and the string has length 0 -/
def slackDoc : Bytes := [22, 0, 0, 0, 0x03, 97, 0, 7, 0, 0, 0, 0, 9, 9, 0x02, 98, 0, 0, 0, 0, 0, 0]

theorem slackDoc_accepted : Accepted slackDoc [(0x03, [97], [7, 0, 0, 0, 0, 9, 9]), (0x02, [98], [0, 0, 0, 0])] 22 := by
  refine ⟨22, slackDoc.drop 4, [], rfl, ?_, by decide, by decide, by decide⟩
  exact .item (k := [97]) (by simp [NulFree]) (.embedded 3 [0, 9, 9] (by simp) (by simp))
    (.item (k := [98]) (by simp [NulFree]) (.text 2 [] (by simp)) (.stop _))

theorem slackDoc_copied : Copied [(0x03, [97], [7, 0, 0, 0, 0, 9, 9]), (0x02, [98], [0, 0, 0, 0])]
    [0x03, 97, 0, 7, 0, 0, 0, 0, 0x02, 98, 0, 0, 0, 0, 0] :=
  .cons (k := [97]) (.embedded 3 [7, 0, 0, 0, 0, 9, 9] [] 5 (by simp)
      ⟨7, [0, 9, 9], [9, 9], rfl, .stop _, by decide, by decide, by decide⟩ (by simp))
    (.cons (k := [98]) (.text 2 [] (by simp) (by simp)) .nil)

example : ∃ d, Returns (fun fuel => readDocument fuel slackDoc) (.ok d) ∧
    Returns (fun fuel => docMarshal fuel d) (.ok (wrapDoc [0x03, 97, 0, 7, 0, 0, 0, 0, 0x02, 98, 0, 0, 0, 0, 0])) := by
  obtain ⟨d, h1, h2⟩ := C102_reads slackDoc _ 22 (by decide) slackDoc_accepted
  exact ⟨d, h1, (C102_marshals slackDoc _ d _ 22 (tame_of_small (by decide) (by decide)) (codeLengths_of_small (by decide) (by decide)) (by decide) slackDoc_accepted h2 (by simp)).mpr
    ⟨_, slackDoc_copied, rfl⟩⟩

/-- `{a: code with scope}`, with two bytes between the end of the scope and the end that the length of the whole declares -/
def slackCode : Bytes := [26, 0, 0, 0, 0x0F, 97, 0, 17, 0, 0, 0, 2, 0, 0, 0, 120, 0, 5, 0, 0, 0, 0, 9, 9, 0, 55]

theorem slackCode_accepted : Accepted slackCode [(0x0F, [97], [17, 0, 0, 0, 2, 0, 0, 0, 120, 0, 5, 0, 0, 0, 0, 9, 9])] 25 := by
  refine ⟨26, slackCode.drop 4, [55], rfl, ?_, by decide, by decide, by decide⟩
  exact .item (k := [97]) (by simp [NulFree]) (.code [2, 0, 0, 0, 120, 0, 5, 0, 0, 0, 0, 9, 9]) (.stop _)

example : ∃ d, Returns (fun fuel => readDocument fuel slackCode) (.ok d) ∧
    Returns (fun fuel => docMarshal fuel d) (.ok (wrapDoc [0x0F, 97, 0, 15, 0, 0, 0, 2, 0, 0, 0, 120, 0, 5, 0, 0, 0, 0])) := by
  obtain ⟨d, h1, h2⟩ := C102_reads slackCode _ 25 (by decide) slackCode_accepted
  exact ⟨d, h1, (C102_marshals slackCode _ d _ 25 (tame_of_small (by decide) (by decide)) (codeLengths_of_small (by decide) (by decide)) (by decide)
    slackCode_accepted h2 (by simp)).mpr
    ⟨_, .cons (k := [97]) (.code [120, 0] [0, 9, 9] 5 [] 5 (by simp) ⟨5, [0, 9, 9], [9, 9], rfl, .stop _, by decide, by decide, by decide⟩ (by decide) (by simp)) .nil, rfl⟩⟩

/-- Bytes between the end of the scope and the end of a code with scope are ignored by `ReadDocument` and dropped by marshalling,
    which also corrects the length: the result is the canonical encoding. -/
theorem C102_code_repaired (k c : Bytes) (hk : NulFree k) (fs : Fields) (wf : fs.WF) (slack : Bytes)
    (hl : k.length + c.length + fs.enc.length + slack.length + 100 < 2147483648) :
    ∃ d, Returns (fun fuel => readDocument fuel (wrapDoc (0x0F :: (k ++ 0 ::
          (le32 (c.length + fs.enc.length + slack.length + 14) ++ (encString c ++ (encDoc fs ++ slack))))))) (.ok d) ∧
      Returns (fun fuel => docMarshal fuel d) (.ok (encDoc (.cons k (.codeScope c fs) .nil))) := by
  obtain ⟨v, hv⟩ : ∃ v, v = le32 (c.length + fs.enc.length + slack.length + 14) ++ (encString c ++ (encDoc fs ++ slack)) := ⟨_, rfl⟩
  have hvl : v.length = c.length + fs.enc.length + slack.length + 14 := by rw [hv]; simp [encString, encDoc, wrapDoc]; omega
  rw [← hv]
  have hlo : Loose 0x0F v := by
    have := Loose.code (encString c ++ (encDoc fs ++ slack))
    rwa [show (encString c ++ (encDoc fs ++ slack)).length + 4 = c.length + fs.enc.length + slack.length + 14 by simp [encString, encDoc, wrapDoc]; omega, ← hv] at this
  have ha : Accepted (wrapDoc (0x0F :: (k ++ 0 :: v))) [(0x0F, k, v)] (wrapDoc (0x0F :: (k ++ 0 :: v))).length := by
    refine accepted_wrap' ?_
    have := Items.item hk hlo (.stop [])
    simpa using this
  have hbl : (wrapDoc (0x0F :: (k ++ 0 :: v))).length < 2147483648 := by simp; omega
  obtain ⟨d, hd, hsh⟩ := C102_reads _ _ _ hbl ha
  refine ⟨d, hd, (wrapDoc (0x0F :: (k ++ 0 :: v))).length + 1, fun f hf => ?_⟩
  have hkept := Kept.code (c ++ [0]) (fs.enc ++ 0 :: slack) (fs.enc.length + 5) (itemsOf fs) (fs.enc.length + 5) (by simp)
    (by
      have := accepted_wrap (items_enc slack fs wf)
      rw [show (wrapDoc fs.enc).length = fs.enc.length + 5 by simp] at this
      simpa [wrapDoc] using this) (by simp) (deep_fields fs wf)
  have e1 : le32 ((c ++ [0]).length + (fs.enc ++ 0 :: slack).length + 12) ++
      (le32 (c ++ [0]).length ++ ((c ++ [0]) ++ (le32 (fs.enc.length + 5) ++ (fs.enc ++ 0 :: slack)))) = v := by
    rw [hv]; simp [encString, encDoc, wrapDoc]; congr 1; omega
  have e2 : (le32 (fs.enc.length + 5) ++ (fs.enc ++ 0 :: slack)).take (fs.enc.length + 5) = wrapDoc fs.enc := by
    have : le32 (fs.enc.length + 5) ++ (fs.enc ++ 0 :: slack) = wrapDoc fs.enc ++ slack := by simp [wrapDoc]
    rw [this, List.take_left' (by simp)]
  rw [e1, e2] at hkept
  have := docMarshal_copied ha hsh (by simp; omega) hbl (by omega : _ < f) (.cons (k := k) hkept .nil)
  refine this.trans ?_
  congr 1
  unfold encDoc
  congr 1
  simp [Fields.enc, BVal.enc, BVal.tag, encString, wrapDoc]
  congr 1; omega

example := C102_code_repaired [97] [120] (by simp [NulFree]) (.cons [98] (.int32 7) .nil) (by simp [Fields.WF, BVal.WF, NulFree]) [9, 9] (by decide)

/-- Not every document that passes `Reader.Validate` survives reading and marshalling: with bytes behind the final zero of
    an embedded document, marshalling succeeds, but cuts these bytes off without changing the length the embedded document
    declares.  `ReadDocument` refuses the result. -/
theorem C102_truncates (k : Bytes) (hk : NulFree k) (fs : Fields) (wf : fs.WF) (slack : Bytes) (h0 : slack ≠ [])
    (hl : k.length + fs.enc.length + slack.length + 100 < 2147483648) :
    Returns (fun fuel => readerValidate fuel (wrapDoc (0x03 :: (k ++ 0 :: (le32 (fs.enc.length + 5 + slack.length) ++ (fs.enc ++ 0 :: slack))))))
      (.ok (wrapDoc (0x03 :: (k ++ 0 :: (le32 (fs.enc.length + 5 + slack.length) ++ (fs.enc ++ 0 :: slack))))).length) ∧
    ∃ d e, Returns (fun fuel => readDocument fuel (wrapDoc (0x03 :: (k ++ 0 :: (le32 (fs.enc.length + 5 + slack.length) ++ (fs.enc ++ 0 :: slack)))))) (.ok d) ∧
      Returns (fun fuel => docMarshal fuel d) (.ok (wrapDoc (0x03 :: (k ++ 0 :: (le32 (fs.enc.length + 5 + slack.length) ++ (fs.enc ++ [0])))))) ∧
      Returns (fun fuel => readDocument fuel (wrapDoc (0x03 :: (k ++ 0 :: (le32 (fs.enc.length + 5 + slack.length) ++ (fs.enc ++ [0])))))) (.err e) := by
  obtain ⟨⟨f0, hv⟩, _⟩ := C102_slack fs wf slack [] (by simp; omega)
  simp only [List.append_nil] at hv
  have hsl : 0 < slack.length := List.length_pos_iff.mpr h0
  have hlo : Loose 3 (le32 (fs.enc.length + 5 + slack.length) ++ (fs.enc ++ 0 :: slack)) := by
    have := Loose.embedded 3 (fs.enc ++ 0 :: slack) (.inl rfl) (by simp)
    rwa [show (fs.enc ++ 0 :: slack).length + 4 = fs.enc.length + 5 + slack.length by simp; omega] at this
  obtain ⟨inner, hin⟩ : ∃ x, x = le32 (fs.enc.length + 5 + slack.length) ++ (fs.enc ++ 0 :: slack) := ⟨_, rfl⟩
  have hil : inner.length = fs.enc.length + 5 + slack.length := by rw [hin]; simp; omega
  rw [← hin] at hv hlo ⊢
  have ha : Accepted (wrapDoc (0x03 :: (k ++ 0 :: inner))) [(3, k, inner)] (wrapDoc (0x03 :: (k ++ 0 :: inner))).length := by
    refine ⟨(wrapDoc (0x03 :: (k ++ 0 :: inner))).length, 0x03 :: (k ++ 0 :: (inner ++ [0])), [], ?_, .item hk hlo (.stop _), ?_, ?_, ?_⟩
    · simp [wrapDoc]; congr 1; omega
    · simp
    · simp
    · simp
  have hsub : ∀ f, inner.length < f → readerValidate f inner = .ok (fs.enc.length + 5) := by
    intro f hf
    have h1 := validateLoop_enc f fs wf (le32 (fs.enc.length + 5 + slack.length)) slack (fs.enc.length + 5 + slack.length)
      (by omega) (by simp; omega) (by simp; omega) (by simp; omega)
    rw [← hin, le32_length] at h1
    have h2 := readerEnd_le32 (n := fs.enc.length + 5 + slack.length) (body := fs.enc ++ 0 :: slack) (by simp) (by simp; omega) (by simp; omega)
    rw [← hin] at h2
    unfold readerValidate
    rw [h2, Res.bind_ok, h1]; congr 1; omega
  have hbl : (wrapDoc (0x03 :: (k ++ 0 :: inner))).length < 2147483648 := by simp; omega
  obtain ⟨d, hd, hsh⟩ := C102_reads _ _ _ hbl ha
  have hmar : ∀ f, (wrapDoc (0x03 :: (k ++ 0 :: inner))).length < f →
      docMarshal f d = .ok (wrapDoc (0x03 :: (k ++ 0 :: (le32 (fs.enc.length + 5 + slack.length) ++ (fs.enc ++ [0]))))) := by
    intro f hf
    have hem : EmitsAll f d [0x03 :: (k ++ 0 :: (le32 (fs.enc.length + 5 + slack.length) ++ (fs.enc ++ [0])))] := by
      cases hsh with
      | @cons pre _ _ post _ _ _ eb hnil =>
        cases hnil
        refine .cons ?_ .nil
        have es : inner = le32 ((fs.enc ++ 0 :: slack).length + 4) ++ (fs.enc ++ 0 :: slack) := by
          rw [hin]; congr 2; simp; omega
        have hv' := hsub f (by simp at hf; omega)
        have el : fs.enc.length + 5 = (le32 (fs.enc.length + 5 + slack.length) ++ (fs.enc ++ [0])).length := by simp; omega
        rw [el] at hv'
        rw [es] at hv'
        exact emits_slack hk pre post (fs.enc ++ 0 :: slack) _ slack (by simp) (by rw [← es, hin]; simp) hv' (eb.trans (by rw [es])) hbl
    have := docMarshal_emits hem (by simp; omega)
    simpa using this
  obtain ⟨e, he⟩ := slack_refused k hk fs.enc slack.length hsl (by omega)
  exact ⟨⟨(wrapDoc (0x03 :: (k ++ 0 :: inner))).length + 1, fun n hn => readerValidate_accepted ha hbl
    (by intro e he _ f hf; rw [List.mem_singleton.mp he] at hf ⊢; exact ⟨_, hsub f hf⟩) (by omega)⟩,
    d, e, hd, ⟨_, fun n hn => hmar n hn⟩, readDocument_returns he (by simp)⟩

example := C102_truncates [97] (by simp [NulFree]) (.cons [98] (.int32 7) .nil) (by simp [Fields.WF, BVal.WF, NulFree]) [1] (by simp) (by decide)

/-- A string (or JavaScript, or symbol) that does not end in a NUL passes `Reader.Validate` and `ReadDocument`, and then can not be
    marshalled. -/
theorem C102_unterminated (t : UInt8) (ht : t = 0x02 ∨ t = 0x0D ∨ t = 0x0E) (k : Bytes) (hk : NulFree k) (s : Bytes) (c : UInt8) (hc : c ≠ 0)
    (hl : k.length + s.length + 100 < 2147483648) :
    Returns (fun fuel => readerValidate fuel (wrapDoc (t :: (k ++ 0 :: (le32 (s.length + 1) ++ (s ++ [c]))))))
      (.ok (wrapDoc (t :: (k ++ 0 :: (le32 (s.length + 1) ++ (s ++ [c]))))).length) ∧
    ∃ d, Returns (fun fuel => readDocument fuel (wrapDoc (t :: (k ++ 0 :: (le32 (s.length + 1) ++ (s ++ [c])))))) (.ok d) ∧
      Returns (fun fuel => docMarshal fuel d) (.err .invalidString) := by
  obtain ⟨v, hv⟩ : ∃ v, v = le32 (s.length + 1) ++ (s ++ [c]) := ⟨_, rfl⟩
  have hvl : v.length = s.length + 5 := by rw [hv]; simp; omega
  have ev : v = le32 (s ++ [c]).length ++ (s ++ [c]) := by rw [hv]; simp
  have hlo : Loose t v := by rw [ev]; exact .text t (s ++ [c]) ht
  rw [← hv]
  have ha : Accepted (wrapDoc (t :: (k ++ 0 :: v))) [(t, k, v)] (wrapDoc (t :: (k ++ 0 :: v))).length := by
    refine ⟨(wrapDoc (t :: (k ++ 0 :: v))).length, t :: (k ++ 0 :: (v ++ [0])), [], ?_, .item hk hlo (.stop _), ?_, ?_, ?_⟩
    · simp [wrapDoc]; congr 1; omega
    · simp
    · simp
    · simp
  have hbl : (wrapDoc (t :: (k ++ 0 :: v))).length < 2147483648 := by simp; omega
  obtain ⟨d, hd, hsh⟩ := C102_reads _ _ _ hbl ha
  have h34 : ¬ (t = 3 ∨ t = 4) := by rcases ht with rfl | rfl | rfl <;> decide
  refine ⟨⟨(wrapDoc (t :: (k ++ 0 :: v))).length + 1, fun n hn => readerValidate_accepted ha hbl
    (by intro e he h; rw [List.mem_singleton.mp he] at h; exact absurd h h34) (by omega)⟩, d, hd, 0, fun f _ => ?_⟩
  cases hsh with
  | @cons pre _ _ post _ _ _ eb hnil =>
    cases hnil
    have hbl' := hbl
    rw [eb] at hbl'
    have h1 := elemKeyLen_rep hk pre (v ++ post) t hbl'
    simp only [List.length_append, List.length_cons] at hbl'
    have h2 := rawValidate_text ht (s ++ [c]) (pre ++ t :: (k ++ [0])) post (start := pre.length) (by simp) (by simp; omega) f
    rw [← ev, if_neg (by simp [hc])] at h2
    rw [show (pre ++ t :: (k ++ [0])) ++ (v ++ post) = pre ++ t :: (k ++ 0 :: (v ++ post)) by simp,
      show (pre ++ t :: (k ++ [0])).length = pre.length + k.length + 2 by simp; omega] at h2
    rw [← eb] at h1 h2
    simp only [docMarshal, docValidate]
    unfold elemsValidate
    simp only [Value.data, Value.start, Value.offset, valueValidate, Bool.false_eq_true, if_false]
    rw [h1]
    simp only [Res.bind_ok]
    rw [h2]
    rfl

example := C102_unterminated 2 (by simp) [97] (by simp [NulFree]) [104] 105 (by decide) (by decide)

end Birch.Props
