import Verif.Proofs.ReaderWalk
import Verif.Props.Totality
import Verif.Props.DocMaps

/-
C91 (`Reader.ElementAt` and `Reader.Iterator`).
`fuel` bounds the number of turns of the loops of the model.
-/

namespace Birch.Props
open Birch Model Spec Proofs
open Birch.Model.ReaderWalk Birch.Spec.ReaderWalk

theorem readerEnd_given {b : Bytes} {n : Nat} (h5 : 5 ≤ b.length) (hl : b.length < 2147483648) (hn : lenAt b = some n) (hle : n ≤ b.length) : readerEnd b = .ok n := by
  match b, h5 with
  | a0 :: a1 :: a2 :: a3 :: rest, h5 =>
    simp only [lenAt, Option.some.injEq] at hn
    have hr : readi32 (a0 :: a1 :: a2 :: a3 :: rest) = .ok (n : Int) := by
      unfold readi32 rdU32
      simp only [Res.bind_ok]
      rw [hn, i32_small (by omega) (by omega)]
      rfl
    unfold readerEnd
    rw [if_neg (by omega), hr]
    simp only [Res.bind_ok]
    rw [if_neg (by omega), u32i_nat (by omega)]

/-- On any bytes with a sensible length field, the loop over `Iterator`, `ElementAt` and `ReadDocument` see the same elements and end the same way: `ElementAt` gives the
    element with the number, and past the last one it gives the error at which the loop ends, or the error for a number that is out of bounds. -/
theorem C91_same (fuel : Nat) (b : Bytes) (h5 : 5 ≤ b.length) (hl : b.length < 2147483648) {n : Nat} (hn : lenAt b = some n) (hle : n ≤ b.length) :
    ∃ w, iterator b = .ok w ∧ (∀ i, elementAt fuel b i = nth (range fuel w none).1 (range fuel w none).2 i) ∧
      readDocument fuel b = ((range fuel w none).2 >>= fun _ => .ok (range fuel w none).1) := by
  have h := readerEnd_given h5 hl hn hle
  refine ⟨⟨b, 4, n⟩, ?_, fun i => ?_, ?_⟩
  · unfold iterator; rw [readerEnd_iterEnd h]; rfl
  · unfold elementAt; rw [h]; exact Proofs.ReaderWalk.at_range _ _ _ _ _
  · unfold readDocument; rw [readerEnd_iterEnd h]; exact Proofs.ReaderWalk.read_range _ _ _ _

/-- a null and then a string that is longer than the document -/
example : let b : Bytes := [15, 0, 0, 0, 10, 97, 0, 2, 98, 0, 200, 0, 0, 0, 0]
    5 ≤ b.length ∧ lenAt b = some 15 ∧ 15 ≤ b.length ∧
      (match elementAt 9 b 0 with | .ok (.raw s o _) => s == 4 && o == 7 | _ => false) = true ∧ (match elementAt 9 b 1, elementAt 9 b 2 with | .err _, .err _ => true | _, _ => false) = true := by
  decide +kernel

/-- `ElementAt` finds the element if all elements up to it are valid, whatever comes after it: only those are looked at. -/
theorem C91_element_at (fs : Fields) (wf : fs.WF) (post : Bytes) (L : Nat) (hlo : fs.enc.length + 4 ≤ L) (hhi : L ≤ 4 + fs.enc.length + post.length)
    (hl : 4 + fs.enc.length + post.length < 2147483648) (i : Nat) (k : Bytes) (t : BVal) (hi : fs.toList[i]? = some (k, t)) :
    ∃ v, Returns (fun fuel => elementAt fuel (le32 L ++ (fs.enc ++ post)) i) (.ok v) ∧ Rep v k t := by
  obtain ⟨d, h1, h2, h3⟩ := Proofs.ReaderWalk.range_enc fs wf (le32 L) post L (by simp; omega) (by simp; omega)
  have hpos : 2 ≤ fs.enc.length := by
    cases fs with
    | nil => simp [Fields.toList] at hi
    | cons k t rest => rw [fieldsEnc_length]; omega
  have he := Proofs.ReaderWalk.readerEnd_le32 (L := L) (body := fs.enc ++ post) (by simp; omega) (by simp; omega) (by simp; omega)
  obtain ⟨v, hv, hr⟩ := Proofs.ReaderWalk.rep_at h1 hi
  refine ⟨v, ⟨d.length, fun m hm => ?_⟩, hr⟩
  obtain ⟨m, rfl⟩ : ∃ m', m = m' + d.length := ⟨m - d.length, by omega⟩
  show (readerEnd (le32 L ++ (fs.enc ++ post)) >>= _) = _
  rw [he, Res.bind_ok, Proofs.ReaderWalk.at_range]
  have := h3 m
  simp only [le32_length] at this
  rw [this]
  have hlt : i < d.length := (List.getElem?_eq_some_iff.mp hv).1
  simp only [nth]
  rw [List.getElem?_append_left hlt, hv]

/-- the second of three elements, and bytes after them that are no elements -/
example : mapSample.WF ∧ mapSample.enc.length + 4 ≤ 26 ∧ 26 ≤ 4 + mapSample.enc.length + ([255, 255, 255, 255, 255] : Bytes).length ∧
    mapSample.toList[1]? = some ([98], .string [120]) := ⟨mapSample_wf, by decide +kernel, by decide +kernel, rfl⟩

/-- Past the last element of a document `ElementAt` says that the number is out of bounds, whatever follows the document. -/
theorem C91_out_of_bounds (fs : Fields) (wf : fs.WF) (post : Bytes) (hl : (encDoc fs ++ post).length < 2147483648) (i : Nat) (hi : fs.toList.length ≤ i) :
    Returns (fun fuel => elementAt fuel (encDoc fs ++ post) i) (.err .outOfBounds) := by
  have e : encDoc fs ++ post = le32 (fs.enc.length + 5) ++ (fs.enc ++ 0 :: post) := by simp [encDoc, wrapDoc]
  rw [e] at hl ⊢
  have hl' := hl
  simp only [List.length_append, le32_length, List.length_cons] at hl
  obtain ⟨d, h1, h2, h3⟩ := Proofs.ReaderWalk.range_enc fs wf (le32 (fs.enc.length + 5)) (0 :: post) (fs.enc.length + 5) (by simp; omega) hl'
  refine ⟨d.length + 1, fun m hm => ?_⟩
  obtain ⟨m, rfl⟩ : ∃ m', m = m' + 1 + d.length := ⟨m - d.length - 1, by omega⟩
  show (readerEnd (le32 (fs.enc.length + 5) ++ (fs.enc ++ 0 :: post)) >>= _) = _
  rw [Proofs.ReaderWalk.readerEnd_le32 (by simp; omega) (by simp; omega) (by simp; omega), Res.bind_ok, Proofs.ReaderWalk.at_range]
  have := h3 (m + 1)
  simp only [le32_length] at this
  rw [this, (Proofs.ReaderWalk.range_end m _ _ _).2.1 (by omega) (Proofs.ReaderWalk.zero_at _ (by simp))]
  simp only [nth, List.append_nil]
  rw [List.getElem?_eq_none (by rw [Proofs.repFields_len h1]; exact hi)]

example : mapSample.toList.length ≤ 3 := by decide

/-- If the document says that it ends before the zero byte, `ElementAt` past the last element fails with another error. -/
theorem C91_unterminated (fs : Fields) (wf : fs.WF) (hne : fs ≠ .nil) (post : Bytes) (hl : 4 + fs.enc.length + post.length < 2147483648) (i : Nat) (hi : fs.toList.length ≤ i) :
    Returns (fun fuel => elementAt fuel (le32 (fs.enc.length + 4) ++ (fs.enc ++ post)) i) (.err .invalidReadOnlyDocument) := by
  have hpos : 2 ≤ fs.enc.length := by
    cases fs with
    | nil => exact absurd rfl hne
    | cons k t rest => rw [fieldsEnc_length]; omega
  obtain ⟨d, h1, h2, h3⟩ := Proofs.ReaderWalk.range_enc fs wf (le32 (fs.enc.length + 4)) post (fs.enc.length + 4) (by simp; omega) (by simp; omega)
  refine ⟨d.length + 1, fun m hm => ?_⟩
  obtain ⟨m, rfl⟩ : ∃ m', m = m' + 1 + d.length := ⟨m - d.length - 1, by omega⟩
  show (readerEnd (le32 (fs.enc.length + 4) ++ (fs.enc ++ post)) >>= _) = _
  rw [Proofs.ReaderWalk.readerEnd_le32 (by simp; omega) (by simp; omega) (by simp; omega), Res.bind_ok, Proofs.ReaderWalk.at_range]
  have := h3 (m + 1)
  simp only [le32_length] at this
  rw [this, (Proofs.ReaderWalk.range_end m _ _ _).1 (by omega)]
  simp only [nth, List.append_nil]
  rw [List.getElem?_eq_none (by rw [Proofs.repFields_len h1]; exact hi)]

example : mapSample ≠ .nil := by simp [mapSample]

/-- `ElementAt` gives an element or an error for all bytes: it never panics, and it returns even where reading all elements does not, as it takes at most one turn more
    than the number says. -/
theorem C91_returns (b : Bytes) (hl : b.length < 2147483648) (i : Nat) :
    (∃ v, Returns (fun fuel => elementAt fuel b i) (.ok v)) ∨ ∃ e, Returns (fun fuel => elementAt fuel b i) (.err e) := by
  have h := readerEnd_safe (r := b)
  cases hr : readerEnd b with
  | ok e =>
    have he := readerEnd_le hl hr
    have hh := Proofs.ReaderWalk.at_returns he hl i 4
    have hx : ∀ fuel, i < fuel → elementAt fuel b i = elementAtLoop (i + 1) b 4 e i := fun fuel hf => by
      show (readerEnd b >>= _) = _
      rw [hr]
      exact (hh fuel hf).2
    rcases (hh (i + 1) (by omega)).1 with ⟨v, hv⟩ | ⟨e', hv⟩
    · exact .inl ⟨v, i + 1, fun m hm => by simp only; rw [hx m (by omega), hv]⟩
    · exact .inr ⟨e', i + 1, fun m hm => by simp only; rw [hx m (by omega), hv]⟩
  | err e => exact .inr ⟨e, 0, fun m _ => by show (readerEnd b >>= _) = _; rw [hr]; rfl⟩
  | panic => rw [hr] at h; rcases h with ⟨_, h⟩ | ⟨_, h⟩ <;> cases h
  | oof => rw [hr] at h; rcases h with ⟨_, h⟩ | ⟨_, h⟩ <;> cases h

example : loopBytes.length < 2147483648 ∧ Diverges (fun fuel => readDocument fuel loopBytes) := ⟨by decide, C10_readDocument_diverges⟩

/-- There are eleven bytes in which `ElementAt` finds an element for every number. -/
theorem C91_endless (i : Nat) : Returns (fun fuel => elementAt fuel loopBytes i) (.ok (.raw 4 6 loopBytes)) := by
  have hn : iterNext loopBytes 4 11 = .ok (some (.raw 4 6 loopBytes, 4)) := by
    unfold iterNext
    rw [if_neg (by decide), show idx loopBytes 4 = .ok 2 by decide, Res.bind_ok, if_neg (by decide),
      show readerKey loopBytes (u32 (4 + 1)) 11 = .ok 1 by decide, Res.bind_ok]
    dsimp only
    rw [show rawSize loopBytes 4 (u32 (u32 (4 + 1) + 1)) = .ok 4294967294 by decide, Res.bind_ok]
    rfl
  have h : ∀ i fuel, i < fuel → elementAtLoop fuel loopBytes 4 11 i = .ok (.raw 4 6 loopBytes) := by
    intro i
    induction i with
    | zero =>
      intro fuel hf
      obtain ⟨f, rfl⟩ : ∃ f, fuel = f + 1 := ⟨fuel - 1, by omega⟩
      unfold elementAtLoop
      rw [hn]; rfl
    | succ i ih =>
      intro fuel hf
      obtain ⟨f, rfl⟩ : ∃ f, fuel = f + 1 := ⟨fuel - 1, by omega⟩
      unfold elementAtLoop
      rw [hn]
      exact ih f (by omega)
  refine ⟨i + 1, fun m hm => ?_⟩
  show (readerEnd loopBytes >>= _) = _
  rw [show readerEnd loopBytes = .ok 11 by decide +kernel, Res.bind_ok]
  exact h i m (by omega)

/-- All loops over what one call of `Iterator` returned go on where the one before was left: together they get the elements that `ReadDocument` reads, each of them once.
    In particular a second loop after one that ran to the end gets nothing. -/
theorem C91_loops (fuel : Nat) (b : Bytes) (d : Doc) (h : readDocument fuel b = .ok d) (stops : List (Option Nat)) :
    ∃ w w', iterator b = .ok w ∧ ranges fuel w stops = (segments d stops, .ok w') := by
  unfold readDocument at h
  obtain ⟨e, h1, h2⟩ := Res.bind_eq_ok.mp h
  obtain ⟨w', h3⟩ := Proofs.ReaderWalk.ranges_read fuel b e stops 4 d h2
  exact ⟨⟨b, 4, e⟩, w', by unfold iterator; rw [h1]; rfl, h3⟩

/-- of three elements, a loop that is left at the first, one that runs to the end, and a third -/
example : (∃ d, readDocument 100 (encDoc mapSample) = .ok d) ∧ segments [10, 11, 12] [some 0, none, none] = [[10], [11, 12], []] := by
  refine ⟨?_, rfl⟩
  obtain ⟨d, h, _⟩ := readDocument_enc 100 mapSample mapSample_wf [] (by decide +kernel) (by decide +kernel)
  exact ⟨d, by simpa using h⟩

/-- If bytes are too few or the length field is larger than there are bytes, each loop gets just the error. -/
theorem C91_refused (fuel : Nat) (b : Bytes) (h : b.length < 5 ∨ ∃ n, lenAt b = some n ∧ n < 2147483648 ∧ b.length < n) :
    ∃ e, iterator b = .err e ∧ readDocument fuel b = .err e ∧ ∀ i, elementAt fuel b i = .err e := by
  suffices ∃ e, iterEnd b = .err e ∧ readerEnd b = .err e by
    obtain ⟨e, h1, h2⟩ := this
    refine ⟨e, ?_, ?_, fun i => ?_⟩
    · unfold iterator; rw [h1]; rfl
    · unfold readDocument; rw [h1]; rfl
    · unfold elementAt; rw [h2]; rfl
  unfold iterEnd readerEnd
  by_cases h5 : b.length < 5
  · exact ⟨_, if_pos h5, if_pos h5⟩
  obtain ⟨n, hn, hs, hlt⟩ := h.resolve_left h5
  rw [if_neg h5, if_neg h5]
  match b, h5 with
  | a0 :: a1 :: a2 :: a3 :: rest, h5 =>
    simp only [lenAt, Option.some.injEq] at hn
    have hr : readi32 (a0 :: a1 :: a2 :: a3 :: rest) = .ok (n : Int) := by
      unfold readi32 rdU32
      simp only [Res.bind_ok]
      rw [hn, i32_small (by omega) (by omega)]
      rfl
    rw [hr]
    simp only [Res.bind_ok]
    exact ⟨_, if_pos (by omega), if_pos (by left; omega)⟩

example : lenAt [6, 0, 0, 0, 0] = some 6 ∧ ([6, 0, 0, 0, 0] : Bytes).length < 6 := by decide

/-- A negative length is an error for `ElementAt` but not for `Iterator`, which then does not know where the bytes end: the loop gets the elements, and it panics if there is no
    zero byte after them. -/
theorem C91_negative (fs : Fields) (wf : fs.WF) (hne : fs ≠ .nil) (post : Bytes) (L : Nat) (h1 : 2147483648 ≤ L) (h2 : L < 4294967296)
    (hl : 4 + fs.enc.length + post.length < 2147483648) :
    (∀ fuel i, elementAt fuel (le32 L ++ (fs.enc ++ post)) i = .err .invalidLength) ∧
    ∃ w d, iterator (le32 L ++ (fs.enc ++ post)) = .ok w ∧ RepFields d fs ∧ ∀ fuel, fs.enc.length < fuel →
      (post = [] → range fuel w none = (d, .panic)) ∧ (post.head? = some 0 → ∃ w', range fuel w none = (d, .ok w')) := by
  have hpos : 2 ≤ fs.enc.length := by
    cases fs with
    | nil => exact absurd rfl hne
    | cons k t rest => rw [fieldsEnc_length]; omega
  obtain ⟨e1, e2⟩ := Proofs.ReaderWalk.iterEnd_negative (body := fs.enc ++ post) (by simp; omega) h1 h2
  refine ⟨fun fuel i => by unfold elementAt; rw [e2]; rfl, ?_⟩
  obtain ⟨d, r1, r2, r3⟩ := Proofs.ReaderWalk.range_enc fs wf (le32 L) post L (by simp; omega) (by simp; omega)
  refine ⟨⟨le32 L ++ (fs.enc ++ post), 4, L⟩, d, by unfold iterator; rw [e1]; rfl, r1, fun fuel hf => ?_⟩
  obtain ⟨m, rfl⟩ : ∃ m', fuel = m' + 1 + d.length := ⟨fuel - d.length - 1, by omega⟩
  have := r3 (m + 1)
  simp only [le32_length] at this
  rw [this]
  refine ⟨fun hp => ?_, fun hp => ?_⟩
  · subst hp
    rw [(Proofs.ReaderWalk.range_end m _ _ _).2.2 (by omega) (by simp)]
    simp
  · obtain ⟨tl, rfl⟩ : ∃ tl, post = 0 :: tl := by
      cases post with
      | nil => simp at hp
      | cons x tl => simp at hp; exact ⟨tl, by rw [hp]⟩
    refine ⟨⟨le32 L ++ (fs.enc ++ 0 :: tl), 4 + fs.enc.length, L⟩, ?_⟩
    rw [(Proofs.ReaderWalk.range_end m _ _ _).2.1 (by omega) (Proofs.ReaderWalk.zero_at _ (by simp))]
    simp

example : (2147483648 : Nat) ≤ 4294967295 ∧ mapSample.WF ∧ mapSample ≠ .nil := ⟨by decide, mapSample_wf, by simp [mapSample]⟩

end Birch.Props
