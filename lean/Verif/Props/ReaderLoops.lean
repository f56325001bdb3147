import Verif.Model.ReaderLoops
import Verif.Spec.ReaderWalk
import Verif.Spec.Ascii
import Verif.Spec.ReaderLoops
import Verif.Proofs.ReaderLoops
import Verif.Props.ReaderWalk
/-!
# C97  Loops over a `Reader` iterator after an error

A program calls `Reader.Iterator` once and runs several loops over what it returned, one after the other.  Where a loop gets an error, the iterator stays where `Next` was
when it found the error, and it keeps the error.  So a later loop goes on behind the error and may get elements; but it never ends without an error, and if its body leaves
the loop, the function of the iterator calls the body again, which is a panic of the Go runtime.
-/
namespace Birch.Props
open Birch Birch.Model Birch.Spec Birch.Spec.ReaderWalk Birch.Proofs
open Birch.Model.ReaderLoops (It Ending)

/-- As long as there is no error, no loop gets one, and leaving a loop does no harm: the loops get the elements that `ReadDocument` reads, each of them once. -/
theorem C97_valid (fuel : Nat) (b : Bytes) (d : Doc) (h : readDocument fuel b = .ok d) (stops : List (Option Nat)) :
    ∃ it, ReaderLoops.iterator b = .ok it ∧ ReaderLoops.loops fuel it stops = (segments d stops).map (·, .done) := by
  unfold readDocument at h
  obtain ⟨e, h1, h2⟩ := Res.bind_eq_ok.mp h
  refine ⟨⟨b, 4, e, none⟩, by unfold ReaderLoops.iterator; rw [h1]; rfl, ?_⟩
  suffices ∀ (stops : List (Option Nat)) (pos : Nat) (d : Doc), iterLoop fuel b pos e = .ok d →
      ReaderLoops.loops fuel ⟨b, pos, e, none⟩ stops = (segments d stops).map (·, .done) from this stops 4 d h2
  intro stops
  induction stops with
  | nil => intro pos d _; rfl
  | cons stop stops ih =>
    intro pos d hd
    obtain ⟨p, r1, r2⟩ := Birch.Proofs.ReaderWalk.range_read fuel b pos e d stop hd
    have r3 := Birch.Proofs.ReaderLoops.range_walk fuel ⟨b, pos, e, none⟩ stop rfl
    simp only [Birch.Proofs.ReaderLoops.walk] at r3
    rw [r1] at r3
    simp only at r3
    unfold ReaderLoops.loops
    rw [r3]
    simp only
    rw [ih p _ r2]
    cases stop <;> simp [segments]

example : ∃ d, readDocument 100 (encDoc mapSample) = .ok d := by
  obtain ⟨d, h, _⟩ := readDocument_enc 100 mapSample mapSample_wf [] (by decide +kernel) (by decide +kernel)
  exact ⟨d, by simpa using h⟩

/-- the elements `a: true`, a boolean with the value 7, `b: false`, `c: null` -/
def loopBroken : Bytes := [20, 0, 0, 0, 8, 97, 0, 1, 8, 120, 0, 7, 8, 98, 0, 0, 10, 99, 0, 0]

/-- A program that looks for an element in a second loop and leaves the loop when it has found it panics, as the body is called again; the same program with a new call of
    `Iterator` for the second loop gets an error instead. -/
theorem C97_left_panics : ∃ it, ReaderLoops.iterator loopBroken = .ok it ∧
    (ReaderLoops.loops 100 it [none, some 0]).map (·.2) = [.error .invalidBooleanType, .calledAgain] ∧
    (ReaderLoops.loops 100 it [none, none]).map (fun x => (x.1.length, x.2)) = [(1, .error .invalidBooleanType), (2, .error .invalidBooleanType)] ∧
    readDocument 100 loopBroken = .err .invalidBooleanType := by
  refine ⟨⟨loopBroken, 4, 20, none⟩, ?_, by decide +kernel, by decide +kernel, ?_⟩
  · unfold ReaderLoops.iterator
    rw [show iterEnd loopBroken = .ok 20 by decide +kernel]
    rfl
  · have h : (match readDocument 100 loopBroken with | .err e => some e | _ => none) = some Err.invalidBooleanType := by decide +kernel
    cases hr : readDocument 100 loopBroken with
    | err e => rw [hr] at h; cases h; rfl
    | _ => rw [hr] at h; cases h

/-- If `ReadDocument` fails, a loop that runs to the end ends with the same error, and then no later loop ends without an error, however many there are and wherever they
    are left. -/
theorem C97_stays (fuel : Nat) (b : Bytes) (e : Err) (h : readDocument fuel b = .err e) (it : It) (hi : ReaderLoops.iterator b = .ok it) (stops : List (Option Nat)) :
    ∃ d later, ReaderLoops.loops fuel it (none :: stops) = (d, .error e) :: later ∧ ∀ x ∈ later, x.2 ≠ .done := by
  unfold ReaderLoops.iterator at hi
  unfold readDocument at h
  obtain ⟨n, h1, h2⟩ := Res.bind_eq_ok.mp hi
  cases h2
  rw [h1] at h
  simp only [Res.bind_ok] at h
  rw [Birch.Proofs.ReaderWalk.read_range] at h
  have r3 := Birch.Proofs.ReaderLoops.range_walk fuel ⟨b, 4, n, none⟩ none rfl
  simp only [Birch.Proofs.ReaderLoops.walk] at r3
  rcases hx : ReaderWalk.range fuel ⟨b, 4, n⟩ none with ⟨d, y⟩
  rw [hx] at h r3
  cases y with
  | ok w => cases h
  | panic => cases h
  | oof => cases h
  | err e' =>
    cases h
    obtain ⟨p, r3⟩ := r3
    refine ⟨d, ReaderLoops.loops fuel ⟨b, p, n, some e⟩ stops, by rw [ReaderLoops.loops]; simp only [r3], ?_⟩
    suffices ∀ (stops : List (Option Nat)) (it : It), it.err.isSome → ∀ x ∈ ReaderLoops.loops fuel it stops, x.2 ≠ .done from this stops _ rfl
    intro stops
    induction stops with
    | nil => intro it _ x hx; cases hx
    | cons stop stops ih =>
      intro it hit x hx
      obtain ⟨s1, s2⟩ := Birch.Proofs.ReaderLoops.range_stale fuel it stop hit
      unfold ReaderLoops.loops at hx
      rcases hr : ReaderLoops.range fuel it stop with ⟨vs, en, it'⟩
      rw [hr] at hx s1 s2
      cases en with
      | done => exact absurd rfl s1
      | error e =>
        rcases List.mem_cons.mp hx with rfl | hx
        · simp
        · exact ih it' s2 x hx
      | _ => simp only [List.mem_singleton] at hx; subst hx; simp

example : ∃ it, ReaderLoops.iterator loopBroken = .ok it ∧ readDocument 100 loopBroken = .err .invalidBooleanType :=
  let ⟨it, h1, _, _, h4⟩ := C97_left_panics; ⟨it, h1, h4⟩

/-- A loop that follows an error and is left at an element that it gets panics: its body is called again.  If it would be left at an element that it does not get, it runs to
    its end and gets an error. -/
theorem C97_left (fuel : Nat) (b : Bytes) (e : Err) (h : readDocument fuel b = .err e) (it : It) (hi : ReaderLoops.iterator b = .ok it)
    (d vs : List Value) (en : Ending) (hl : ReaderLoops.loops fuel it [none, none] = [(d, .error e), (vs, en)]) (n : Nat) :
    ReaderLoops.loops fuel it [none, some n] = [(d, .error e), if n < vs.length then (vs.take (n + 1), .calledAgain) else (vs, en)] := by
  unfold ReaderLoops.iterator at hi
  unfold readDocument at h
  obtain ⟨m, h1, h2⟩ := Res.bind_eq_ok.mp hi
  cases h2
  rw [h1] at h
  simp only [Res.bind_ok] at h
  rw [Birch.Proofs.ReaderWalk.read_range] at h
  have r3 := Birch.Proofs.ReaderLoops.range_walk fuel ⟨b, 4, m, none⟩ none rfl
  simp only [Birch.Proofs.ReaderLoops.walk] at r3
  rcases hx : ReaderWalk.range fuel ⟨b, 4, m⟩ none with ⟨d', y⟩
  rw [hx] at h r3
  cases y with
  | ok w => cases h
  | panic => cases h
  | oof => cases h
  | err e' =>
    cases h
    obtain ⟨p, r3⟩ := r3
    have one : ∀ (it : It) (stop : Option Nat), ReaderLoops.loops fuel it [stop] = [((ReaderLoops.range fuel it stop).1, (ReaderLoops.range fuel it stop).2.1)] := by
      intro it stop
      unfold ReaderLoops.loops
      rcases hr : ReaderLoops.range fuel it stop with ⟨vs, en, it'⟩
      cases en <;> rfl
    have two : ∀ stop, ReaderLoops.loops fuel ⟨b, 4, m, none⟩ [none, stop] = (d', .error e) :: ReaderLoops.loops fuel ⟨b, p, m, some e⟩ [stop] := by
      intro stop
      conv => lhs; unfold ReaderLoops.loops
      rw [r3]
    rw [two, one] at hl
    rw [two, one]
    simp only [List.cons.injEq, Prod.mk.injEq, and_true] at hl
    obtain ⟨rfl, hv, he⟩ := hl
    have hb := Birch.Proofs.ReaderLoops.range_break fuel ⟨b, p, m, some e⟩ n rfl
    rw [hv] at hb
    by_cases hn : n < vs.length
    · obtain ⟨b1, b2⟩ := hb.1 hn
      rw [if_pos hn, b1, b2]
    · rw [if_neg hn, hb.2 (by omega), hv, he]

/-- the second loop gets two elements -/
example : ∃ it, ReaderLoops.iterator loopBroken = .ok it ∧ readDocument 100 loopBroken = .err .invalidBooleanType ∧
    (ReaderLoops.loops 100 it [none, none]).map (fun x => (x.1.length, x.2)) = [(1, .error .invalidBooleanType), (2, .error .invalidBooleanType)] :=
  let ⟨it, h1, _, h3, h4⟩ := C97_left_panics; ⟨it, h1, h4, h3⟩

/-- A boolean that is neither 0 nor 1 is skipped by the second loop: the first loop gets the elements before it and the error, the second one those behind it and the same
    error once more, though there is no other error in the bytes; all others get the error only. -/
theorem C97_boolean (fs gs : Fields) (wf : fs.WF) (wg : gs.WF) (k : Bytes) (hk : NulFree k) (v : UInt8) (h0 : v ≠ 0) (h1 : v ≠ 1) (n : Nat)
    (hn : n = fs.enc.length + k.length + gs.enc.length + 8) (hl : n < 2147483648) :
    ∃ it d f, ReaderLoops.iterator (le32 n ++ (fs.enc ++ 8 :: (k ++ 0 :: v :: (gs.enc ++ [0])))) = .ok it ∧ RepFields d fs ∧ RepFields f gs ∧ ∀ fuel, n < fuel → ∀ others : Nat,
      ReaderLoops.loops fuel it (none :: none :: List.replicate others none) =
        (d, .error .invalidBooleanType) :: (f, .error .invalidBooleanType) :: List.replicate others ([], .error .invalidBooleanType) := by
  have hb : (le32 n ++ (fs.enc ++ 8 :: (k ++ 0 :: v :: (gs.enc ++ [0])))).length = n := by simp; omega
  have hit : ReaderLoops.iterator (le32 n ++ (fs.enc ++ 8 :: (k ++ 0 :: v :: (gs.enc ++ [0])))) =
      .ok ⟨le32 n ++ (fs.enc ++ 8 :: (k ++ 0 :: v :: (gs.enc ++ [0]))), 4, n, none⟩ := by
    unfold ReaderLoops.iterator iterEnd
    rw [if_neg (by omega), readi32_le32_nat (by omega)]
    simp only [Res.bind_ok]
    rw [if_neg (by omega), u32i_nat (by omega)]
    rfl
  obtain ⟨d, d1, d2, d3⟩ := Birch.Proofs.ReaderLoops.range_enc fs wf (le32 n) (8 :: (k ++ 0 :: v :: (gs.enc ++ [0]))) n (by simp; omega) (by omega)
  obtain ⟨f, f1, f2, f3⟩ := Birch.Proofs.ReaderLoops.range_enc gs wg (le32 n ++ (fs.enc ++ 8 :: (k ++ 0 :: [v]))) [0] n (by simp; omega) (by simp; omega)
  refine ⟨_, d, f, hit, d1, f1, fun fuel hf others => ?_⟩
  have a1 := d3 none (fuel - d.length)
  have hb2 := Birch.Proofs.ReaderLoops.next_boolean hk h0 h1 (le32 n ++ fs.enc) (gs.enc ++ [0]) n none (by simp; omega) (by simp; omega)
  simp only [List.append_assoc, List.length_append, le32_length] at hb2
  rw [show fuel - d.length + d.length = fuel by omega, show fuel - d.length = fuel - d.length - 1 + 1 by omega] at a1
  simp only [le32_length] at a1
  rw [Birch.Proofs.ReaderLoops.range_stop hb2] at a1
  have a2 := f3 (some .invalidBooleanType) (fuel - f.length)
  rw [show fuel - f.length + f.length = fuel by omega, show fuel - f.length = fuel - f.length - 1 + 1 by omega] at a2
  simp only [List.append_assoc, List.cons_append, List.nil_append, List.length_append, List.length_cons, List.length_nil, le32_length] at a2
  have z : ∀ er, ReaderLoops.next ⟨le32 n ++ (fs.enc ++ 8 :: (k ++ 0 :: v :: (gs.enc ++ [0]))), 4 + fs.enc.length + k.length + 3 + gs.enc.length, n, er⟩ =
      .ok (⟨le32 n ++ (fs.enc ++ 8 :: (k ++ 0 :: v :: (gs.enc ++ [0]))), 4 + fs.enc.length + k.length + 3 + gs.enc.length, n, er⟩, none) := fun er => by
    refine Birch.Proofs.ReaderLoops.next_zero (by omega) ?_
    have := Birch.Proofs.ReaderWalk.zero_at (a := le32 n ++ (fs.enc ++ 8 :: (k ++ 0 :: [v]))) (b := gs.enc) (n := 4 + fs.enc.length + k.length + 3 + gs.enc.length) [] (by simp; omega)
    simpa using this
  have e1 : 4 + (fs.enc.length + (k.length + (0 + 1 + 1) + 1)) = 4 + fs.enc.length + k.length + 3 := by omega
  rw [e1, Birch.Proofs.ReaderLoops.range_stop (z _)] at a2
  have rest : ∀ others, ReaderLoops.loops fuel ⟨le32 n ++ (fs.enc ++ 8 :: (k ++ 0 :: v :: (gs.enc ++ [0]))), 4 + fs.enc.length + k.length + 3 + gs.enc.length, n, some .invalidBooleanType⟩
      (List.replicate others none) = List.replicate others ([], .error .invalidBooleanType) := by
    intro others
    induction others with
    | zero => rfl
    | succ o ih =>
      rw [List.replicate_succ, List.replicate_succ]
      obtain ⟨g, rfl⟩ : ∃ g, fuel = g + 1 := ⟨fuel - 1, by omega⟩
      unfold ReaderLoops.loops
      rw [Birch.Proofs.ReaderLoops.range_stop (z _)]
      simp only [ReaderLoops.close]
      rw [ih]
  unfold ReaderLoops.loops
  rw [a1]
  simp only [ReaderLoops.close, List.append_nil]
  unfold ReaderLoops.loops
  rw [a2]
  simp only [ReaderLoops.close, List.append_nil]
  rw [rest]

example : mapSample.WF ∧ (7 : UInt8) ≠ 0 ∧ (7 : UInt8) ≠ 1 ∧ NulFree (ascii "ok") := ⟨mapSample_wf, by decide, by decide, by unfold NulFree; decide⟩

/-- Behind a binary of an unknown subtype the second loop reads the bytes of the binary as elements: if they are encoded fields, whatever they are, it gets them as elements
    of the document. -/
theorem C97_binary (fs gs : Fields) (wf : fs.WF) (wg : gs.WF) (k post : Bytes) (hk : NulFree k) (st : UInt8) (h0 : 5 < st) (h1 : st < 128) (n : Nat)
    (hn : n = fs.enc.length + k.length + gs.enc.length + post.length + 12) (hl : n < 2147483648) :
    ∃ it d f, ReaderLoops.iterator (le32 n ++ (fs.enc ++ 5 :: (k ++ 0 :: (le32 (gs.enc.length + 1) ++ st :: (gs.enc ++ 0 :: post))))) = .ok it ∧
      RepFields d fs ∧ RepFields f gs ∧ ∀ fuel, n < fuel →
      ReaderLoops.loops fuel it [none, none] = [(d, .error .invalidBinarySubtype), (f, .error .invalidBinarySubtype)] := by
  have hb : (le32 n ++ (fs.enc ++ 5 :: (k ++ 0 :: (le32 (gs.enc.length + 1) ++ st :: (gs.enc ++ 0 :: post))))).length = n := by simp; omega
  have hit : ReaderLoops.iterator (le32 n ++ (fs.enc ++ 5 :: (k ++ 0 :: (le32 (gs.enc.length + 1) ++ st :: (gs.enc ++ 0 :: post))))) =
      .ok ⟨le32 n ++ (fs.enc ++ 5 :: (k ++ 0 :: (le32 (gs.enc.length + 1) ++ st :: (gs.enc ++ 0 :: post)))), 4, n, none⟩ := by
    unfold ReaderLoops.iterator iterEnd
    rw [if_neg (by omega), readi32_le32_nat (by omega)]
    simp only [Res.bind_ok]
    rw [if_neg (by omega), u32i_nat (by omega)]
    rfl
  obtain ⟨d, d1, d2, d3⟩ := Birch.Proofs.ReaderLoops.range_enc fs wf (le32 n) (5 :: (k ++ 0 :: (le32 (gs.enc.length + 1) ++ st :: (gs.enc ++ 0 :: post)))) n (by simp; omega) (by omega)
  obtain ⟨f, f1, f2, f3⟩ := Birch.Proofs.ReaderLoops.range_enc gs wg (le32 n ++ (fs.enc ++ 5 :: (k ++ 0 :: (le32 (gs.enc.length + 1) ++ [st])))) (0 :: post) n (by simp; omega) (by simp; omega)
  refine ⟨_, d, f, hit, d1, f1, fun fuel hf => ?_⟩
  have a1 := d3 none (fuel - d.length)
  have hb2 := Birch.Proofs.ReaderLoops.next_binary hk h0 h1 (gs.enc.length + 1) (le32 n ++ fs.enc) (gs.enc ++ 0 :: post) n none (by simp; omega) (by simp; omega)
  simp only [List.append_assoc, List.length_append, le32_length] at hb2
  rw [show fuel - d.length + d.length = fuel by omega, show fuel - d.length = fuel - d.length - 1 + 1 by omega] at a1
  simp only [le32_length] at a1
  rw [Birch.Proofs.ReaderLoops.range_stop hb2] at a1
  have a2 := f3 (some .invalidBinarySubtype) (fuel - f.length)
  rw [show fuel - f.length + f.length = fuel by omega, show fuel - f.length = fuel - f.length - 1 + 1 by omega] at a2
  simp only [List.append_assoc, List.cons_append, List.nil_append, List.length_append, List.length_cons, List.length_nil, le32_length] at a2
  have z : ∀ er, ReaderLoops.next ⟨le32 n ++ (fs.enc ++ 5 :: (k ++ 0 :: (le32 (gs.enc.length + 1) ++ st :: (gs.enc ++ 0 :: post)))), 4 + fs.enc.length + k.length + 7 + gs.enc.length, n, er⟩ =
      .ok (⟨le32 n ++ (fs.enc ++ 5 :: (k ++ 0 :: (le32 (gs.enc.length + 1) ++ st :: (gs.enc ++ 0 :: post)))), 4 + fs.enc.length + k.length + 7 + gs.enc.length, n, er⟩, none) := fun er => by
    refine Birch.Proofs.ReaderLoops.next_zero (by omega) ?_
    have := Birch.Proofs.ReaderWalk.zero_at (a := le32 n ++ (fs.enc ++ 5 :: (k ++ 0 :: (le32 (gs.enc.length + 1) ++ [st])))) (b := gs.enc) (n := 4 + fs.enc.length + k.length + 7 + gs.enc.length) post (by simp; omega)
    simpa using this
  have e1 : 4 + (fs.enc.length + (k.length + (4 + (0 + 1) + 1) + 1)) = 4 + fs.enc.length + k.length + 7 := by omega
  rw [e1, Birch.Proofs.ReaderLoops.range_stop (z _)] at a2
  unfold ReaderLoops.loops
  rw [a1]
  simp only [ReaderLoops.close, List.append_nil]
  unfold ReaderLoops.loops
  rw [a2]
  simp only [ReaderLoops.close, List.append_nil]
  rfl

/-- the bytes of the binary are the elements of a document -/
example : mapSample.WF ∧ mapSample.toList.length = 3 ∧ (5 : UInt8) < 6 ∧ (6 : UInt8) < 128 := ⟨mapSample_wf, by decide, by decide, by decide⟩

/-- So it is with every bad value: if the first loop stops at the field `k`, the second one goes on behind the bytes of its value that are skipped, which is mostly inside the
    value, and gets what it takes for elements there, with the old error at the end. -/
theorem C97_behind (fs gs : Fields) (wf : fs.WF) (wg : gs.WF) (t : UInt8) (ht : t ≠ 0) (k rest post : Bytes) (hk : NulFree k)
    (hr : rest.drop (Spec.ReaderLoops.skipped t rest) = gs.enc ++ 0 :: post) (n : Nat) (hn : n = fs.enc.length + k.length + rest.length + 6) (hl : n < 2147483648) :
    ∃ it f, ReaderLoops.iterator (le32 n ++ (fs.enc ++ t :: (k ++ 0 :: rest))) = .ok it ∧ RepFields f gs ∧ ∀ fuel d e, n < fuel →
      ReaderLoops.loops fuel it [none] = [(d, .error e)] → d.length = fs.toList.length →
      ReaderLoops.loops fuel it [none, none] = [(d, .error e), (f, .error e)] := by
  have hb : (le32 n ++ (fs.enc ++ t :: (k ++ 0 :: rest))).length = n := by simp; omega
  have hit : ReaderLoops.iterator (le32 n ++ (fs.enc ++ t :: (k ++ 0 :: rest))) = .ok ⟨le32 n ++ (fs.enc ++ t :: (k ++ 0 :: rest)), 4, n, none⟩ := by
    unfold ReaderLoops.iterator iterEnd
    rw [if_neg (by omega), readi32_le32_nat (by omega)]
    simp only [Res.bind_ok]
    rw [if_neg (by omega), u32i_nat (by omega)]
    rfl
  have hrest : rest = rest.take (Spec.ReaderLoops.skipped t rest) ++ (gs.enc ++ 0 :: post) := by rw [← hr, List.take_append_drop]
  have hsk : (rest.take (Spec.ReaderLoops.skipped t rest)).length = Spec.ReaderLoops.skipped t rest := by
    rw [List.length_take]
    have : (rest.drop (Spec.ReaderLoops.skipped t rest)).length ≠ 0 := by rw [hr]; simp
    rw [List.length_drop] at this
    omega
  have hrl : rest.length = Spec.ReaderLoops.skipped t rest + (gs.enc.length + (post.length + 1)) := by
    conv => lhs; rw [hrest]
    rw [List.length_append, hsk]; simp
  obtain ⟨d', d1, d2, d3⟩ := Birch.Proofs.ReaderLoops.range_enc fs wf (le32 n) (t :: (k ++ 0 :: rest)) n (by simp; omega) (by omega)
  obtain ⟨f, f1, f2, f3⟩ := Birch.Proofs.ReaderLoops.range_enc gs wg (le32 n ++ (fs.enc ++ t :: (k ++ 0 :: rest.take (Spec.ReaderLoops.skipped t rest)))) (0 :: post) n
    (by simp only [List.length_append, List.length_cons, hsk, le32_length]; omega) (by simp only [List.length_append, List.length_cons, hsk, le32_length]; omega)
  have hdata : (le32 n ++ (fs.enc ++ t :: (k ++ 0 :: rest.take (Spec.ReaderLoops.skipped t rest)))) ++ (gs.enc ++ 0 :: post) = le32 n ++ (fs.enc ++ t :: (k ++ 0 :: rest)) := by
    conv => rhs; rw [hrest]
    simp
  have hpos : (le32 n ++ (fs.enc ++ t :: (k ++ 0 :: rest.take (Spec.ReaderLoops.skipped t rest)))).length = 4 + fs.enc.length + k.length + 2 + Spec.ReaderLoops.skipped t rest := by
    simp only [List.length_append, List.length_cons, hsk, le32_length]; omega
  rw [hpos, hdata] at f3
  refine ⟨_, f, hit, f1, fun fuel d e hf h1 hd => ?_⟩
  have a1 := d3 none (fuel - d'.length)
  rw [show fuel - d'.length + d'.length = fuel by omega, show fuel - d'.length = fuel - d'.length - 1 + 1 by omega] at a1
  simp only [le32_length] at a1
  have hone : ReaderLoops.loops fuel ⟨le32 n ++ (fs.enc ++ t :: (k ++ 0 :: rest)), 4, n, none⟩ [none] =
      [((ReaderLoops.range fuel ⟨le32 n ++ (fs.enc ++ t :: (k ++ 0 :: rest)), 4, n, none⟩ none).1, (ReaderLoops.range fuel ⟨le32 n ++ (fs.enc ++ t :: (k ++ 0 :: rest)), 4, n, none⟩ none).2.1)] := by
    unfold ReaderLoops.loops
    rcases hr : ReaderLoops.range fuel ⟨le32 n ++ (fs.enc ++ t :: (k ++ 0 :: rest)), 4, n, none⟩ none with ⟨vs, en, it'⟩
    cases en <;> rfl
  rw [hone, a1] at h1
  simp only [List.cons.injEq, Prod.mk.injEq, and_true] at h1
  obtain ⟨h1, h2⟩ := h1
  have hnil : (ReaderLoops.range (fuel - d'.length - 1 + 1) ⟨le32 n ++ (fs.enc ++ t :: (k ++ 0 :: rest)), 4 + fs.enc.length, n, none⟩ none).1 = [] := by
    have := congrArg List.length h1
    rw [List.length_append, hd] at this
    have hl' := repFields_len d1
    exact List.length_eq_zero_iff.mp (by omega)
  rw [hnil, List.append_nil] at h1
  subst h1
  have hnext : ∃ it', ReaderLoops.next ⟨le32 n ++ (fs.enc ++ t :: (k ++ 0 :: rest)), 4 + fs.enc.length, n, none⟩ = .ok (it', none) := by
    unfold ReaderLoops.range at hnil h2
    cases hx : ReaderLoops.next ⟨le32 n ++ (fs.enc ++ t :: (k ++ 0 :: rest)), 4 + fs.enc.length, n, none⟩ with
    | ok x =>
      obtain ⟨it', v⟩ := x
      cases v with
      | none => exact ⟨it', rfl⟩
      | some v => rw [hx] at hnil; simp at hnil
    | _ => rw [hx] at h2; simp at h2
  obtain ⟨it', hnext⟩ := hnext
  have hbad := Birch.Proofs.ReaderLoops.next_bad hk ht (le32 n ++ fs.enc) rest n none it' (by simp; omega) (by simp; omega)
    (by simpa only [List.append_assoc, List.length_append, le32_length] using hnext)
  obtain ⟨e', rfl⟩ := hbad
  rw [Birch.Proofs.ReaderLoops.range_stop hnext] at h2 a1
  simp only [ReaderLoops.close, Ending.error.injEq] at h2
  subst h2
  simp only [List.append_assoc, List.length_append, le32_length] at a1
  have a2 := f3 (some e') (fuel - f.length)
  rw [show fuel - f.length + f.length = fuel by omega, show fuel - f.length = fuel - f.length - 1 + 1 by omega] at a2
  have z : ReaderLoops.next ⟨le32 n ++ (fs.enc ++ t :: (k ++ 0 :: rest)), 4 + fs.enc.length + k.length + 2 + Spec.ReaderLoops.skipped t rest + gs.enc.length, n, some e'⟩ =
      .ok (⟨le32 n ++ (fs.enc ++ t :: (k ++ 0 :: rest)), 4 + fs.enc.length + k.length + 2 + Spec.ReaderLoops.skipped t rest + gs.enc.length, n, some e'⟩, none) := by
    refine Birch.Proofs.ReaderLoops.next_zero (by omega) ?_
    have := Birch.Proofs.ReaderWalk.zero_at (a := le32 n ++ (fs.enc ++ t :: (k ++ 0 :: rest.take (Spec.ReaderLoops.skipped t rest)))) (b := gs.enc)
      (n := 4 + fs.enc.length + k.length + 2 + Spec.ReaderLoops.skipped t rest + gs.enc.length) post (by rw [hpos])
    rw [hdata] at this
    exact this
  rw [Birch.Proofs.ReaderLoops.range_stop z] at a2
  unfold ReaderLoops.loops
  rw [a1]
  simp only [ReaderLoops.close, List.append_nil]
  unfold ReaderLoops.loops
  rw [a2]
  simp only [ReaderLoops.close, List.append_nil]
  rfl

/-- a string that says to have 255 bytes: the second loop finds `a: true` in its text -/
example : ∃ it f, ReaderLoops.iterator (le32 16 ++ (Fields.nil.enc ++ 2 :: ([115] ++ 0 :: ([255, 0, 0, 0] ++ ((Fields.cons [97] (.bool true) .nil).enc ++ [0]))))) = .ok it ∧
    RepFields f (.cons [97] (.bool true) .nil) ∧ ∀ fuel d e, 16 < fuel → ReaderLoops.loops fuel it [none] = [(d, .error e)] → d.length = 0 →
      ReaderLoops.loops fuel it [none, none] = [(d, .error e), (f, .error e)] :=
  C97_behind .nil (.cons [97] (.bool true) .nil) trivial ⟨by unfold NulFree; decide, trivial, trivial⟩ 2 (by decide) [115] _ [] (by unfold NulFree; decide) (by decide) 16 (by decide) (by decide)
example : (match ReaderLoops.iterator ([16, 0, 0, 0, 2, 115, 0, 255, 0, 0, 0, 8, 97, 0, 1, 0] : Bytes) with
    | .ok it => (ReaderLoops.loops 100 it [none, none]).map fun x => (x.1.length, x.2)
    | _ => []) = [(0, .error .tooSmall), (1, .error .tooSmall)] := by decide +kernel

/-- Where the bytes end inside a key, the first loop gets another error than all later ones, which get nothing else. -/
theorem C97_key (fs : Fields) (wf : fs.WF) (t : UInt8) (ht : t ≠ 0) (k : Bytes) (hk : NulFree k) (n : Nat)
    (hn : n = fs.enc.length + k.length + 5) (hl : n < 2147483648) :
    ∃ it d, ReaderLoops.iterator (le32 n ++ (fs.enc ++ t :: k)) = .ok it ∧ RepFields d fs ∧ ∀ fuel, n < fuel → ∀ stops,
      ReaderLoops.loops fuel it (none :: stops) = (d, .error .invalidKey) :: stops.map fun _ => ([], .error .invalidReadOnlyDocument) := by
  have hb : (le32 n ++ (fs.enc ++ t :: k)).length = n := by simp; omega
  have hit : ReaderLoops.iterator (le32 n ++ (fs.enc ++ t :: k)) = .ok ⟨le32 n ++ (fs.enc ++ t :: k), 4, n, none⟩ := by
    unfold ReaderLoops.iterator iterEnd
    rw [if_neg (by omega), readi32_le32_nat (by omega)]
    simp only [Res.bind_ok]
    rw [if_neg (by omega), u32i_nat (by omega)]
    rfl
  obtain ⟨d, d1, d2, d3⟩ := Birch.Proofs.ReaderLoops.range_enc fs wf (le32 n) (t :: k) n (by simp; omega) (by omega)
  refine ⟨_, d, hit, d1, fun fuel hf stops => ?_⟩
  have a1 := d3 none (fuel - d.length)
  have hb2 := Birch.Proofs.ReaderLoops.next_key hk ht (le32 n ++ fs.enc) [] none (by simp; omega)
  simp only [List.append_assoc, List.length_append, le32_length, List.append_nil] at hb2
  rw [show fuel - d.length + d.length = fuel by omega, show fuel - d.length = fuel - d.length - 1 + 1 by omega] at a1
  have e1 : 4 + fs.enc.length + k.length + 1 = n := by omega
  simp only [le32_length] at a1
  rw [e1] at hb2
  rw [Birch.Proofs.ReaderLoops.range_stop hb2] at a1
  have rest : ∀ er (stops : List (Option Nat)), ReaderLoops.loops fuel ⟨le32 n ++ (fs.enc ++ t :: k), n, n, er⟩ stops = stops.map fun _ => ([], .error .invalidReadOnlyDocument) := by
    intro er stops
    induction stops generalizing er with
    | nil => rfl
    | cons stop stops ih =>
      obtain ⟨g, rfl⟩ : ∃ g, fuel = g + 1 := ⟨fuel - 1, by omega⟩
      unfold ReaderLoops.loops
      rw [Birch.Proofs.ReaderLoops.range_stop (Birch.Proofs.ReaderLoops.next_past (Nat.le_refl _))]
      simp only [ReaderLoops.close]
      rw [ih]
      rfl
  unfold ReaderLoops.loops
  rw [a1]
  simp only [ReaderLoops.close, List.append_nil]
  rw [rest]

example : mapSample.WF ∧ (16 : UInt8) ≠ 0 ∧ NulFree (ascii "count") := ⟨mapSample_wf, by decide, by unfold NulFree; decide⟩

end Birch.Props
