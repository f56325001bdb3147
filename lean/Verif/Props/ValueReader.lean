import Verif.Proofs.ValueReader
import Verif.Proofs.Fuel
import Verif.Model.Programs
import Verif.Props.Search
import Verif.Spec.Ascii

/- C96: the readers of values. -/

namespace Birch.Props
open Birch Model Spec Proofs

attribute [local irreducible] i32 u32 u32i u64i i64

/-! ### C96 -/

/-- The reader of a document is its encoding, whether it has been opened or not. -/
theorem C96_document (v : Value) (k : Bytes) (fs : Fields) (h : Rep v k (.doc fs)) (hl : (encDoc fs).length < 2147483648) :
    Returns (fun n => reader n v) (.ok (encDoc fs)) := by
  refine ⟨(encDoc fs).length + 1, fun n hn => ?_⟩
  have := readerDocument_rep (fuel := n) h hl (by omega)
  unfold readerDocument at this
  rw [expect_ok h (by rfl)] at this
  show reader n v = _
  rw [reader_rep h]
  exact this

example : ∃ v, Rep v [97] (.doc nested) ∧ Returns (fun n => reader n v) (.ok (encDoc nested)) := by
  obtain ⟨v, _, h⟩ := buildVal_rep [97] (.doc nested) (by simp [NulFree]) nested_wf (by decide +kernel)
  exact ⟨v, h, C96_document v _ _ h (by decide +kernel)⟩

/-- The reader of an array that is still in its bytes is its encoding.

    Missing from C96: arrays that have been opened or constructed (`C96_array_opened`), and values of other types (`C96_unopened`). -/
theorem C96_array_partial (s o : Nat) (data k : Bytes) (vs : Vals) (h : Rep (.raw s o data) k (.array vs)) (n : Nat) :
    reader n (.raw s o data) = .ok (BVal.array vs).enc ∧ readerArray n (.raw s o data) = .ok (BVal.array vs).enc := by
  have := readerArray_raw (fuel := n) h
  refine ⟨?_, this⟩
  unfold readerArray at this
  rw [expect_ok h (by rfl)] at this
  rw [reader_rep h]
  exact this

example : ∃ s o data, Rep (.raw s o data) [107] (.array (.cons .null .nil)) := by
  refine ⟨0, 3, [0x04, 107, 0, 8, 0, 0, 0, 0x0A, 48, 0, 0], ?_⟩
  simp only [Rep]
  exact ⟨by simp [NulFree], by simp [BVal.WF, Vals.WF], by decide, [], [], by decide, rfl, rfl⟩

/-- The reader of an array that has been opened or constructed is a document with the values under the keys they happen to carry: the encoding of the array exactly if
    these are "0", "1", ... -/
theorem C96_array_opened (s o : Nat) (data k : Bytes) (d : Doc) (vs : Vals) (ks : List Bytes) (h : Rep (.withDoc s o data d) k (.array vs))
    (hk : d.map key = ks.map .ok) (hl : (encDoc (keyed ks vs)).length < 2147483648) :
    Returns (fun n => reader n (.withDoc s o data d)) (.ok (encDoc (keyed ks vs))) ∧
    Returns (fun n => readerArray n (.withDoc s o data d)) (.ok (encDoc (keyed ks vs))) ∧
    (encDoc (keyed ks vs) = (BVal.array vs).enc ↔ ks = positions ks.length) := by
  have hd : RepVals d vs := by
    simp only [Rep] at h
    obtain ⟨_, _, _, _, _, _, _, h⟩ := h
    exact h
  have hr := repVals_keyed hd hk
  have hm : ∀ n, (encDoc (keyed ks vs)).length < n → getReader n (.withDoc s o data d) = .ok (encDoc (keyed ks vs)) := by
    intro n hn
    simp only [getReader]
    rw [docMarshal_rep n hr hl hn]; rfl
  refine ⟨⟨(encDoc (keyed ks vs)).length + 1, fun n hn => ?_⟩, ⟨(encDoc (keyed ks vs)).length + 1, fun n hn => ?_⟩, ?_⟩
  · show reader n _ = _
    rw [reader_rep h]; exact hm n (by omega)
  · show readerArray n _ = _
    unfold readerArray
    rw [expect_ok h (by rfl)]; exact hm n (by omega)
  · rw [array_enc, positions, List.range_eq_range', ← keyed_eq_iff hd hk]
    constructor
    · intro e
      exact encDoc_inj (repFields_wf hr) (toFields_wf 0 vs (repVals_wf hd)) hl e
    · intro e; rw [e]

/-- one value with the key "5" -/
example : ∃ s o data d, Rep (.withDoc s o data d) [107] (.array (.cons .null .nil)) ∧ d.map key = [[53]].map .ok ∧
    (encDoc (keyed [[53]] (.cons .null .nil))).length < 2147483648 := by
  refine ⟨0, 3, [4, 107, 0], [.raw 0 3 [0x0A, 53, 0]], ?_, rfl, by decide +kernel⟩
  simp only [Rep]
  refine ⟨by simp [NulFree], by decide, [], [], rfl, rfl, rfl, ?_⟩
  simp only [RepVals, and_true]
  exact ⟨[53], rep_raw0 (k := [53]) (t := .null) (by simp [NulFree]) trivial (by decide)⟩

/-- So an array with values from the constructors, which have empty keys, is not read as an array: its reader is another document than its encoding, in which no
    position is found. -/
theorem C96_constructed (k : Bytes) (vs : Vals) (hk : NulFree k) (wf : vs.WF) (hl : k.length + 2 + (BVal.array vs).enc.length < 2147483648) (hne : vs ≠ .nil) :
    ∃ v b, buildVal k (.array vs) = .ok v ∧ Returns (fun n => readerArray n v) (.ok b) ∧ b ≠ (BVal.array vs).enc ∧
      ∀ i : Nat, ∃ e, Returns (fun n => recursiveLookup n b [decimalKey i]) (.err e) := by
  have hw : k.length + 2 + ((vs.encFrom 0).length + 5) < 2147483648 := by simpa [BVal.enc, wrapDoc_length] using hl
  obtain ⟨d, hd, keys, rd⟩ := buildArr_keys vs 0 wf (by omega)
  have hb : buildVal k (.array vs) = .ok (.withDoc 0 (k.length + 2) (4 :: (k ++ [0])) d) := by
    simp only [buildVal, hd, Res.bind_ok]
    unfold EC.array
    rw [header_ok _ k (by omega), u32_small (by omega), show 1 + k.length + 1 = k.length + 2 by omega]
    rfl
  have hrep : Rep (.withDoc 0 (k.length + 2) (4 :: (k ++ [0])) d) k (.array vs) := by
    simp only [Rep]
    exact ⟨hk, by simp; omega, [], [], by simp [BVal.tag], rfl, by simp, rd⟩
  have hlen := keyed_empty_length (d.map fun _ => ([] : Bytes)) vs 0 (by simp)
  have hl1 : (encDoc (keyed (d.map fun _ => ([] : Bytes)) vs)).length < 2147483648 := by
    simp only [encDoc, wrapDoc_length]; omega
  obtain ⟨_, h2, h3⟩ := C96_array_opened 0 _ _ k d vs (d.map fun _ => ([] : Bytes)) hrep (by rw [keys, List.map_map]; rfl) hl1
  refine ⟨_, _, hb, h2, fun e => ?_, fun i => ?_⟩
  · have hp := h3.mp e
    cases d with
    | nil => cases vs with
      | nil => exact hne rfl
      | cons _ _ => simp [RepVals] at rd
    | cons v d =>
      simp only [List.map_cons, List.length_cons, positions, List.range_succ_eq_map, List.cons.injEq] at hp
      exact absurd hp.1 (by decide)
  · have hfirst : (keyed (d.map fun _ => ([] : Bytes)) vs).firstNamed (decimalKey i) = none :=
      keyed_none _ vs fun k' hk' => by
        obtain ⟨_, _, rfl⟩ := List.mem_map.mp hk'
        exact fun e => decimalKey_ne_nil i e.symm
    obtain ⟨e, he, _⟩ := (C16_reader _ (repFields_wf (repVals_keyed rd (by rw [keys, List.map_map]; rfl))) [decimalKey i] hl1).2 (by
      rintro ⟨k', t, _, hf⟩
      simp only [BVal.follow, BVal.part, hfirst, Option.bind_none] at hf
      cases hf)
    exact ⟨e, he⟩

example := C96_constructed [97] (.cons (.int32 5) (.cons .null .nil)) (by simp [NulFree]) (by simp [Vals.WF, BVal.WF]) (by decide +kernel) (by simp)

/-- An array that was read, opened, and had a value deleted keeps the old keys: its reader has the values behind the gap under their old positions, and nothing at the gap. -/
theorem C96_deleted (s o : Nat) (data k : Bytes) (vs : Vals) (h : Rep (.raw s o data) k (.array vs)) (i : Nat) (hi : ∃ t, vs.get? i = some t) :
    ∃ N d, (∀ n, N ≤ n → mutableArray n (.raw s o data) = .ok d) ∧ i < d.length ∧
      ∃ b, Returns (fun n => readerArray n (.withDoc s o data (d.eraseIdx i))) (.ok b) ∧
        (∃ e, Returns (fun n => recursiveLookup n b [decimalKey i]) (.err e)) ∧
        ∀ j t, j ≠ i → vs.get? j = some t → ∃ v, Returns (fun n => recursiveLookup n b [decimalKey j]) (.ok v) ∧ Rep v (decimalKey j) t := by
  have hrep := h
  simp only [Rep] at hrep
  obtain ⟨hk, wf, hl, pre, post, e, hs, ho⟩ := hrep
  have hle : (BVal.array vs).enc.length < 2147483648 := by rw [e] at hl; simp at hl; omega
  obtain ⟨d, hd, rd⟩ := mutableArray_raw (fuel := (BVal.array vs).enc.length + 1) h (by omega)
  have r1 := erase_fields rd i
  obtain ⟨t, hi⟩ := hi
  have hsz : (encDoc (eraseField i (toFields 0 vs))).length ≤ (BVal.array vs).enc.length := by
    rw [array_enc]; simp only [encDoc, wrapDoc_length]
    have := eraseField_length i (toFields 0 vs)
    omega
  have hrep : Rep (.withDoc s o data (d.eraseIdx i)) k (.array (eraseVal i vs)) := by
    simp only [Rep]
    exact ⟨hk, hl, pre, (BVal.array vs).enc ++ post, e, hs, ho, erase_vals rd i⟩
  refine ⟨(BVal.array vs).enc.length + 1, d, fun n hn => ?_, get_lt rd hi, encDoc (eraseField i (toFields 0 vs)), ⟨(BVal.array vs).enc.length + 1, fun n hn => ?_⟩, ?_, ?_⟩
  · rw [mutableArray_mono hn (by rw [hd]; intro h; cases h), hd]
  · show readerArray n _ = _
    unfold readerArray
    rw [expect_ok hrep (by rfl)]
    simp only [Res.bind_ok, getReader]
    rw [docMarshal_rep n r1 (by omega) (by omega)]; rfl
  · obtain ⟨e, he, _⟩ := (C16_reader _ (repFields_wf r1) [decimalKey i] (by omega)).2 (by
      rintro ⟨k', t, _, hf⟩
      simp only [BVal.follow, BVal.part, eraseField_named, Nat.zero_add, if_true, Option.bind_none] at hf
      cases hf)
    exact ⟨e, he⟩
  · intro j t hj ht
    refine (C16_reader _ (repFields_wf r1) [decimalKey j] (by omega)).1 (decimalKey j) t ⟨rfl, ?_⟩
    simp only [BVal.follow, BVal.part, eraseField_named, Nat.zero_add, if_neg hj, firstNamed_toFields, canonical_iff.2 rfl]
    simp [ht]

/-- an array of two, the first deleted -/
example : ∃ s o data, Rep (.raw s o data) [107] (.array (.cons .null (.cons (.bool true) .nil))) ∧ ∃ t, (Vals.cons .null (.cons (.bool true) .nil)).get? 0 = some t :=
  ⟨0, 3, _, rep_raw0 (k := [107]) (t := .array (.cons .null (.cons (.bool true) .nil))) (by simp [NulFree]) (by simp [BVal.WF, Vals.WF]) (by decide +kernel), _, rfl⟩

/-- `Reader` of any value that has not been opened, whatever its type: it takes the four bytes at the value for a length, and returns that many bytes if there are so many, up
    to the end of the bytes the value is in, also beyond the value. -/
theorem C96_unopened (s o : Nat) (data : Bytes) (ho : 0 < o) (hd : o ≤ data.length) (hl : data.length < 2147483648) (n : Nat) :
    ((data.drop o).length < 4 → reader n (.raw s o data) = .panic) ∧
    ∀ (z : Int) rest, -2147483648 ≤ z → z < 2147483648 → data.drop o = le32 (twos32 z) ++ rest →
      reader n (.raw s o data) = if 0 ≤ z ∧ z ≤ (data.drop o).length then .ok ((data.drop o).take z.toNat) else .panic := by
  have hr : reader n (.raw s o data) = rawReader data o := by
    unfold reader
    rw [if_neg]
    · rfl
    · rintro (h | h)
      · exact absurd h (by show o ≠ 0; omega)
      · change data = [] at h; subst h; simp at hd; omega
  have ht : ∀ z : Int, twos32 z = u32i z := fun z => by unfold twos32 u32i; rfl
  simp only [hr, ht]
  exact rawReader_any hl hd

/-- a null in front of a number with an empty key: the reader of it is made of the bytes of its neighbour -/
example : reader 0 (.raw 4 7 (encDoc (.cons [97] .null (.cons [] (.double 0) .nil)))) = .ok [1] :=
  ((C96_unopened 4 7 (encDoc (.cons [97] .null (.cons [] (.double 0) .nil))) (by decide) (by decide +kernel) (by decide +kernel) 0).2 1 [0, 0, 0, 0, 0, 0, 0]
    (by decide) (by decide) (by decide +kernel)).trans (by decide +kernel)

/-- The claim that `Reader` panics only for values that are not initialised or corrupt is false: it does for every value from the constructors that has less than four
    bytes, and for numbers of four bytes unless they are from 0 to 4. -/
theorem C96_panics (k : Bytes) (t : BVal) (wf : t.WF) (hl : k.length + 2 + t.enc.length < 2147483648) (n : Nat)
    (ht : t = .null ∨ t = .undefined ∨ t = .minKey ∨ t = .maxKey ∨ (∃ b, t = .bool b) ∨ ∃ i, t = .int32 i ∧ ¬ (0 ≤ i ∧ i ≤ 4)) :
    ∃ v, buildVal k t = .ok v ∧ reader n v = .panic := by
  refine ⟨.raw 0 (k.length + 2) (t.tag :: (k ++ 0 :: t.enc)), ?_, ?_⟩
  · rcases ht with rfl | rfl | rfl | rfl | ⟨b, rfl⟩ | ⟨i, rfl, hi⟩
    · exact header_only _ k (by omega)
    · exact header_only _ k (by omega)
    · exact header_only _ k (by omega)
    · exact header_only _ k (by omega)
    · exact mkElem_good (element_good 8 k (boolean_atomic b).good) (by show (_ : Nat) = _; simp [BVal.enc]; omega) hl
    · exact mkElem_good (element_good 16 k (int32_atomic i).good) (by show (_ : Nat) = _; simp [BVal.enc]; omega) hl
  have hdrop : (t.tag :: (k ++ 0 :: t.enc)).drop (k.length + 2) = t.enc := by
    rw [show t.tag :: (k ++ 0 :: t.enc) = (t.tag :: (k ++ [0])) ++ t.enc by simp]
    exact List.drop_left' (by simp)
  obtain ⟨h1, h2⟩ := C96_unopened 0 (k.length + 2) (t.tag :: (k ++ 0 :: t.enc)) (by omega) (by simp) (by simp; omega) n
  rw [hdrop] at h1 h2
  rcases ht with rfl | rfl | rfl | rfl | ⟨b, rfl⟩ | ⟨i, rfl, hi⟩
  · exact h1 (by decide)
  · exact h1 (by decide)
  · exact h1 (by decide)
  · exact h1 (by decide)
  · exact h1 (by simp [BVal.enc])
  · simp only [BVal.WF] at wf
    rw [h2 i [] (by omega) (by omega) (by simp [BVal.enc]), if_neg]
    simpa [BVal.enc] using hi

example := C96_panics [97] (.int32 5) (by simp [BVal.WF]) (by decide) 7 (.inr (.inr (.inr (.inr (.inr ⟨5, rfl, by decide⟩)))))

/-- The reader of a string, of code or of a symbol lacks the last four bytes of the value. -/
theorem C96_texts (s o : Nat) (data k str : Bytes) (t : BVal) (ht : t = .string str ∨ t = .js str ∨ t = .symbol str) (h : Rep (.raw s o data) k t) (n : Nat) :
    reader n (.raw s o data) = .ok (t.enc.take (t.enc.length - 4)) := by
  have he : t.enc = encString str := by rcases ht with rfl | rfl | rfl <;> rfl
  simp only [Rep] at h
  obtain ⟨hk, wf, hl, pre, post, hdata, rfl, rfl⟩ := h
  have hlen : data.length = pre.length + (k.length + (str.length + 5 + post.length + 1) + 1) := by rw [hdata, he]; simp [encString_length]
  have hdrop : data.drop (pre.length + k.length + 2) = t.enc ++ post := by
    rw [hdata, show pre ++ t.tag :: (k ++ 0 :: (t.enc ++ post)) = (pre ++ t.tag :: (k ++ [0])) ++ (t.enc ++ post) by simp]
    exact List.drop_left' (by simp; omega)
  obtain ⟨_, h2⟩ := C96_unopened pre.length (pre.length + k.length + 2) data (by omega) (by omega) hl n
  rw [hdrop, he] at h2
  have := h2 ((str.length + 1 : Nat) : Int) (str ++ [0] ++ post) (by omega) (by omega) (by rw [twos32_nat (n := str.length + 1) rfl]; simp [encString])
  rw [this, if_pos (by simp [encString_length]; omega), he, encString_length, List.take_append_of_le_length (by simp [encString_length])]
  congr 2

example : reader 0 (.raw 0 2 (0x02 :: 0 :: encString (ascii "hello"))) = .ok ([6, 0, 0, 0] ++ ascii "he") :=
  (C96_texts 0 2 _ [] (ascii "hello") (.string (ascii "hello")) (.inl rfl)
    (rep_raw0 (k := []) (t := .string (ascii "hello")) (by simp [NulFree]) trivial (by decide +kernel)) 0).trans (by decide +kernel)

/-- The reader of code with scope is the whole value as long as it has not been opened, and the scope alone afterwards. -/
theorem C96_code (v : Value) (k c : Bytes) (fs : Fields) (h : Rep v k (.codeScope c fs)) (hl : (encDoc fs).length < 2147483648) :
    (∀ s o data, v = .raw s o data → ∀ n, reader n v = .ok (BVal.codeScope c fs).enc) ∧
    (∀ s o data d, v = .withDoc s o data d → Returns (fun n => reader n v) (.ok (encDoc fs))) := by
  constructor
  · rintro s o data rfl n
    have hn : (BVal.codeScope c fs).enc.length = c.length + fs.enc.length + 14 := by simp [BVal.enc]; omega
    simp only [Rep] at h
    obtain ⟨hk, wf, hl, pre, post, hdata, rfl, rfl⟩ := h
    have hlen : data.length = pre.length + (k.length + (c.length + fs.enc.length + 14 + post.length + 1) + 1) := by rw [hdata]; simp [hn]
    have hdrop : data.drop (pre.length + k.length + 2) = (BVal.codeScope c fs).enc ++ post := by
      rw [hdata, show pre ++ (BVal.codeScope c fs).tag :: (k ++ 0 :: ((BVal.codeScope c fs).enc ++ post)) =
        (pre ++ (BVal.codeScope c fs).tag :: (k ++ [0])) ++ ((BVal.codeScope c fs).enc ++ post) by simp]
      exact List.drop_left' (by simp; omega)
    obtain ⟨_, h2⟩ := C96_unopened pre.length (pre.length + k.length + 2) data (by omega) (by omega) hl n
    rw [hdrop] at h2
    have := h2 ((c.length + fs.enc.length + 14 : Nat) : Int) (encString c ++ wrapDoc fs.enc ++ post) (by omega) (by omega) (by
      rw [twos32_nat (n := c.length + fs.enc.length + 14) rfl]; simp [BVal.enc, encString_length]; congr 1; omega)
    rw [this, if_pos (by simp [hn]; omega), List.take_left' (by rw [hn]; omega)]
  · rintro s o data d rfl
    have hd : RepFields d fs := by
      have h' := h
      simp only [Rep] at h'
      exact h'.2.2.choose_spec.choose_spec.2.2.2.2
    refine ⟨(encDoc fs).length + 1, fun n hn => ?_⟩
    show reader n _ = _
    rw [reader_rep h]
    simp only [getReader]
    rw [docMarshal_rep n hd hl (by omega)]; rfl

/-- code with an empty scope, opened -/
example : ∃ s o data d, Rep (.withDoc s o data d) [107] (.codeScope [120] .nil) := by
  refine ⟨0, 3, 0x0F :: ([107] ++ 0 :: ([0, 0, 0, 0] ++ (encString [120] ++ []))), [], ?_⟩
  simp only [Rep]
  exact ⟨by simp [NulFree], by decide, [], _, rfl, rfl, rfl, ⟨_, _, rfl, rfl⟩, trivial⟩

end Birch.Props
