import Verif.Proofs.Stream
import Verif.Proofs.Returns
import Verif.Props.Bson

/- C11: reading documents from a stream. -/

namespace Birch.Props
open Birch Model Model.Stream Spec Proofs

theorem readFrom_enc (fs : Fields) (hl : (encDoc fs).length < 2147483648) (s : Source) (rest : Bytes)
    (h : s.left = encDoc fs ++ rest) : ∃ s', s'.left = rest ∧
      ∀ n, readFrom n s = ⟨(encDoc fs).length, readDocument n (encDoc fs), s'⟩ := by
  have e : encDoc fs = le32 (fs.enc.length + 5) ++ (fs.enc ++ [0]) := by simp [encDoc, wrapDoc]
  have hn : (encDoc fs).length = fs.enc.length + 5 := by simp [encDoc]
  obtain ⟨s1, h1, h2⟩ := readFull_enough (b := le32 (fs.enc.length + 5)) (rest := (fs.enc ++ [0]) ++ rest) (s := s)
    (by rw [h, e, List.append_assoc])
  obtain ⟨s2, h3, h4⟩ := readFull_enough (b := fs.enc ++ [0]) (rest := rest) h2
  refine ⟨s2, h4, fun n => ?_⟩
  unfold readFrom
  rw [show readFull 4 s = _ from h1]
  simp only []
  rw [readi32_le32_nat' (by omega)]
  simp only []
  rw [if_neg (by simp; omega)]
  rw [show (((fs.enc.length + 5 : Nat) : Int)).toNat - 4 = (fs.enc ++ [0]).length by simp; omega, h3]
  simp only [e, List.length_append]

/-- what reading a stream with `ReadFrom` again and again must give: each document in turn with its exact size as the
    count, then `io.EOF` with count 0 -/
def ReadsAll (read : Nat → Source → ReadResult Doc) : List Fields → Source → Prop
  | [], s => ∃ s', ∀ n, (read n s) = ⟨0, .err .eof, s'⟩
  | fs :: rest, s => ∃ s', (∀ n, (read n s).total = (encDoc fs).length ∧ (read n s).rest = s') ∧
      (∃ d, Returns (fun n => (read n s).result) (.ok d) ∧ RepFields d fs) ∧ ReadsAll read rest s'

/-- `ReadFrom` on a stream that starts with a canonical document, for every way of splitting the stream into reads:
    the document is returned, the count is its size, and exactly the following bytes are left in the stream. -/
theorem C11_readFrom (fs : Fields) (wf : fs.WF) (hl : (encDoc fs).length < 2147483648) (s : Source) (rest : Bytes)
    (h : s.left = encDoc fs ++ rest) :
    ∃ d s', RepFields d fs ∧ s'.left = rest ∧
      (∀ n, (readFrom n s).total = (encDoc fs).length ∧ (readFrom n s).rest = s') ∧
      Returns (fun n => (readFrom n s).result) (.ok d) ∧
      Returns (fun n => (dceReadFrom n s).1) (.ok d) ∧ Returns (fun n => (dcReadFrom n s).1) (.ok (some d)) ∧
      ∀ n, (dceReadFrom n s).2 = s' ∧ (dcReadFrom n s).2 = s' := by
  obtain ⟨s', h1, h2⟩ := readFrom_enc fs hl s rest h
  have h3 := readDocument_enc ((encDoc fs).length + 1) fs wf [] (by omega) (by simpa using hl)
  rw [List.append_nil] at h3
  obtain ⟨d, h4, h5⟩ := h3
  obtain ⟨m, h6⟩ := readDocument_returns h4 (by simp)
  refine ⟨d, s', h5, h1, fun n => by rw [h2]; exact ⟨rfl, rfl⟩, ⟨m, fun n hn => by simp only [h2]; exact h6 n hn⟩,
    ⟨m, fun n hn => by simp only [dceReadFrom, h2]; exact h6 n hn⟩, ⟨m, fun n hn => ?_⟩, fun n => ?_⟩
  · have := h6 n hn
    simp only [] at this
    simp only [dcReadFrom, dceReadFrom, h2, this]
  · refine ⟨by simp only [dceReadFrom, h2], ?_⟩
    simp only [dcReadFrom, dceReadFrom, h2]
    split <;> rename_i e <;> exact (Prod.mk.inj e).2.symm

/-- a stream split in the middle of the length and of the document -/
example : (Source.mk [[8, 0], [], [0, 0, 10, 97], [0, 0, 7], [8]] true).left = encDoc (.cons [97] .null .nil) ++ [7, 8] := by
  decide +kernel

/-- Reading a stream of canonical documents again and again yields them in order and then `io.EOF`. -/
theorem C11_sequence (fss : List Fields) (wf : ∀ fs ∈ fss, fs.WF ∧ (encDoc fs).length < 2147483648) (s : Source)
    (h : s.left = (fss.map encDoc).flatten) : ReadsAll readFrom fss s := by
  induction fss generalizing s with
  | nil =>
    obtain ⟨s', h1, _⟩ := readFull_short (n := 4) (s := s) (by rw [h]; simp)
    refine ⟨s', fun n => ?_⟩
    simp only [List.map_nil, List.flatten_nil] at h
    rw [h] at h1
    unfold readFrom
    rw [h1]
    rfl
  | cons fs fss ih =>
    obtain ⟨wf1, hl⟩ := wf fs (by simp)
    obtain ⟨d, s', h1, h2, h3, h4, _⟩ := C11_readFrom fs wf1 hl s ((fss.map encDoc).flatten) (by rw [h]; simp)
    exact ⟨s', h3, ⟨d, h4, h1⟩, ih (fun f hf => wf f (by simp [hf])) s' h2⟩

example : ReadsAll readFrom [sample, .nil, sample] ⟨[encDoc sample, encDoc .nil ++ encDoc sample], false⟩ :=
  C11_sequence _ (by
    intro fs hfs
    simp only [List.mem_cons, List.not_mem_nil, or_false] at hfs
    rcases hfs with rfl | rfl | rfl
    · exact ⟨sample_wf, sample_size⟩
    · exact ⟨trivial, by decide⟩
    · exact ⟨sample_wf, sample_size⟩) _ (by simp [Source.left])

/-- A stream that ends inside a document: `io.ErrUnexpectedEOF`, or `io.EOF` when nothing (of the document, or after its length)
    arrived, and the count is the number of bytes that did arrive. -/
theorem C11_truncated (fs : Fields) (hl : (encDoc fs).length < 2147483648) (s : Source) (rest : Bytes)
    (h : encDoc fs = s.left ++ rest) (hr : rest ≠ []) (n : Nat) :
    (readFrom n s).total = s.left.length ∧
    (readFrom n s).result = .err (if s.left.length = 0 ∨ s.left.length = 4 then .eof else .unexpectedEOF) := by
  have hrl : 0 < rest.length := List.length_pos_iff.2 hr
  have hn : (encDoc fs).length = fs.enc.length + 5 := by simp [encDoc]
  have hll := congrArg List.length h
  rw [hn, List.length_append] at hll
  unfold readFrom
  by_cases h4 : s.left.length < 4
  · obtain ⟨s', h1, _⟩ := readFull_short h4
    rw [h1]
    refine ⟨rfl, ?_⟩
    by_cases h0 : s.left = []
    · simp [h0]
    · have : s.left.length ≠ 0 := fun h => h0 (List.length_eq_zero_iff.1 h)
      rw [if_neg h0, if_neg (by omega)]
  · have ht : s.left.take 4 = le32 (fs.enc.length + 5) := by
      have : (encDoc fs).take 4 = le32 (fs.enc.length + 5) := by
        simp only [encDoc, wrapDoc, List.append_assoc]
        exact List.take_left' rfl
      rw [h, List.take_append_of_le_length (by omega)] at this
      exact this
    obtain ⟨s1, h1, h2⟩ := readFull_enough (b := le32 (fs.enc.length + 5)) (rest := s.left.drop 4) (s := s)
      (by rw [← ht, List.take_append_drop])
    rw [show readFull 4 s = _ from h1]
    simp only []
    rw [readi32_le32_nat' (by omega)]
    simp only []
    rw [if_neg (by simp; omega)]
    obtain ⟨s2, h3, _⟩ := readFull_short (n := fs.enc.length + 1) (s := s1) (by rw [h2]; simp; omega)
    rw [show (((fs.enc.length + 5 : Nat) : Int)).toNat - 4 = fs.enc.length + 1 by omega, h3]
    refine ⟨by simp only [h2, List.length_drop]; simp; omega, ?_⟩
    simp only [h2]
    by_cases h5 : s.left.drop 4 = []
    · have : s.left.length = 4 := by rw [List.drop_eq_nil_iff] at h5; omega
      rw [if_pos h5, if_pos (Or.inr this)]
    · rw [List.drop_eq_nil_iff] at h5
      rw [if_neg (by rw [List.drop_eq_nil_iff]; exact h5), if_neg (by omega)]

example : encDoc (.cons [97] .null .nil) = (Source.mk [[8, 0], [0, 0, 10, 97]] false).left ++ [0, 0] := by decide +kernel

/-- At the end of a stream that ends inside a document `DCE.ReadFrom` gives the error; `DC.ReadFrom` panics, but returns nil, as at the end of the documents, if nothing came
    or just the length. -/
theorem C11_constructors_truncated (fs : Fields) (hl : (encDoc fs).length < 2147483648) (s : Source) (rest : Bytes)
    (h : encDoc fs = s.left ++ rest) (hr : rest ≠ []) (n : Nat) :
    (dceReadFrom n s).1 = .err (if s.left.length = 0 ∨ s.left.length = 4 then .eof else .unexpectedEOF) ∧
    (dcReadFrom n s).1 = if s.left.length = 0 ∨ s.left.length = 4 then .ok none else .panic := by
  have h1 := (C11_truncated fs hl s rest h hr n).2
  refine ⟨by simp only [dceReadFrom]; exact h1, ?_⟩
  simp only [dcReadFrom, dceReadFrom, h1]
  by_cases h0 : s.left.length = 0 ∨ s.left.length = 4
  · rw [if_pos h0, if_pos h0]
  · rw [if_neg h0, if_neg h0]

/-- only the length of the document arrives -/
example : (dcReadFrom 100 ⟨[[8, 0], [0, 0]], false⟩).1 = .ok none :=
  (C11_constructors_truncated (.cons [97] .null .nil) (by decide) ⟨[[8, 0], [0, 0]], false⟩ [10, 97, 0, 0] (by decide) (by simp) 100).2

/-- `NewFromIOReader` returns exactly the bytes of the document and leaves the rest in the stream. -/
theorem C11_newFromIOReader (fs : Fields) (hl : (encDoc fs).length < 2147483648) (s : Source) (rest : Bytes)
    (h : s.left = encDoc fs ++ rest) : ∃ s', newFromIOReader s = (.ok (encDoc fs), s') ∧ s'.left = rest := by
  have e : encDoc fs = le32 (fs.enc.length + 5) ++ (fs.enc ++ [0]) := by simp [encDoc, wrapDoc]
  have hn : (encDoc fs).length = fs.enc.length + 5 := by simp [encDoc]
  obtain ⟨s1, h1, h2⟩ := readFull_enough (b := le32 (fs.enc.length + 5)) (rest := (fs.enc ++ [0]) ++ rest) (s := s)
    (by rw [h, e, List.append_assoc])
  obtain ⟨s2, h3, h4⟩ := readFull_enough (b := fs.enc ++ [0]) (rest := rest) h2
  refine ⟨s2, ?_, h4⟩
  unfold newFromIOReader
  rw [show readFull 4 s = _ from h1]
  simp only []
  rw [if_neg (by simp), readi32_le32_nat' (by omega)]
  simp only []
  rw [if_neg (by omega), if_neg (by simp; omega)]
  rw [show (((fs.enc.length + 5 : Nat) : Int)).toNat - 4 = (fs.enc ++ [0]).length by simp; omega, h3]
  simp only []
  rw [if_neg (fun h => h (by congr 1; simp; omega)), e]

example : (Source.mk [[8, 0], [], [0, 0, 10, 97], [0, 0, 7], [8]] false).left = encDoc (.cons [97] .null .nil) ++ [7, 8] := by
  decide +kernel

/-- A stream whose first four bytes are a length of 0 to 3 makes both readers panic instead of returning an error. -/
theorem C11_short_length_panics (m : Nat) (hm : m < 4) (s : Source) (rest : Bytes) (h : s.left = le32 m ++ rest) :
    (newFromIOReader s).1 = .panic ∧ ∀ n, (readFrom n s).result = .panic := by
  obtain ⟨s1, h1, h2⟩ := readFull_enough h
  constructor
  · unfold newFromIOReader
    rw [show readFull 4 s = _ from h1]
    simp only []
    rw [if_neg (by simp), readi32_le32_nat' (by omega)]
    simp only []
    rw [if_neg (by omega), if_pos (by omega)]
  · intro n
    unfold readFrom
    rw [show readFull 4 s = _ from h1]
    simp only []
    rw [readi32_le32_nat' (by omega)]
    simp only []
    rw [if_pos (by omega)]

example : (Source.mk [[3, 0], [0, 0]] false).left = le32 3 ++ [] := by decide

end Birch.Props
