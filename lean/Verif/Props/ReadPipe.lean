import Verif.Proofs.ReadPipe

/- C74: reading FTDC data with goroutines. -/

namespace Birch.Props
open Birch Model Model.Ftdc Model.ReadPipe Spec.ReadPipe Proofs.ReadPipe

variable {unzip : Bytes → Option Bytes} {fuel : Nat}

private theorem inv_of {src : Stream.Source} {ls : List (Label Chunk)} {s : State (Nat × Stream.Source) Doc Chunk (Option Doc)}
    (st : Steps (Sys.ftdc unzip fuel) (new (fuel, src) none) ls s) :
    Inv (Sys.ftdc unzip fuel) (readDiagnostic fuel src).2 (readAll unzip fuel src).1 (readChunks unzip fuel none (readDiagnostic fuel src).1).2 (yields ls) (¬ Whole ls) s := by
  have h := inv_steps (inv_new (m := none) (docs_ftdc unzip fuel fuel src)) st
  rw [chunks_ftdc] at h
  exact h.congr (by simp) (by simp)

/-- a file with one chunk of one sample, and the start of another document -/
private def exFile : Stream.Source :=
  ⟨[[50, 0, 0, 0, 16, 116, 121, 112, 101, 0, 1, 0, 0, 0, 5, 100, 97, 116, 97, 0, 24, 0, 0, 0, 0, 0, 0, 0, 0, 12, 0, 0, 0,
    16, 97, 0, 5, 0, 0, 0, 0, 1, 0, 0, 0, 0, 0, 0, 0, 0], [9, 0, 0, 0, 1]], false⟩

private theorem exFile_read : (readDiagnostic 100 exFile).2 = .err .unexpectedEOF ∧ (readAll some 100 exFile).1.length = 1 ∧ (readAll some 100 exFile).2 = .err .unexpectedEOF ∧
    (readChunks some 100 none (readDiagnostic 100 exFile).1).2 = .ok () := by decide +kernel

private theorem exFile_run : ∃ ls s, Steps (Sys.ftdc some 100) (new (100, exFile) none) ls s ∧ Whole ls ∧ Over s ∧ s.crashed = false ∧ (yields ls).length = 1 := by
  obtain ⟨h1, h2, h3, h4⟩ := exFile_read
  obtain ⟨ls, t, h5, h6, h7, h8, h9, h10, h11⟩ := late (m := none) (docs_ftdc some 100 100 exFile) (by rw [h1]; simp) (by rw [h1]; simp) (by rw [chunks_ftdc, h4]; simp)
    (by rw [chunks_ftdc, h4]; simp)
  obtain ⟨ms, u, h12, h13⟩ := finish (size_ftdc some 100) (by rw [h1]; simp) (by rw [h4]; simp) (by rw [h1]; simp) (by rw [h4]; simp) _ (Nat.le_refl _) (inv_of h5) h11
  obtain ⟨hw, hy⟩ := returned_steps h12 h8
  refine ⟨_, u, Steps.trans h5 h12, Whole.append h7 hw, h13, no_crash (inv_of h5) (by rw [h1]; simp) (by rw [h4]; simp) h12 h11, ?_⟩
  rw [yields_append, hy, h6, chunks_ftdc, List.append_nil]
  exact h2

/-- Under every interleaving of the goroutines the loop gets the chunks that are read one after the other from the same bytes, in the same order, and no other.  If it is not
    left early, it ends with the last of them. -/
theorem C74_order (src : Stream.Source) (ls : List (Label Chunk)) (s : State (Nat × Stream.Source) Doc Chunk (Option Doc))
    (st : Steps (Sys.ftdc unzip fuel) (new (fuel, src) none) ls s) :
    yields ls <+: (readAll unzip fuel src).1 ∧ (Whole ls → s.consumer = .returned → yields ls = (readAll unzip fuel src).1) := by
  have hi := inv_of st
  exact ⟨hi.pre, fun hw hc => (hi.fin (.inr hc) (fun h => h hw)).1⟩

example : ∃ ls s, Steps (Sys.ftdc some 100) (new (100, exFile) none) ls s ∧ Whole ls ∧ s.consumer = .returned ∧ (yields ls).length = 1 := by
  obtain ⟨ls, s, h1, h2, h3, _, h4⟩ := exFile_run
  exact ⟨ls, s, h1, h2, h3.1, h4⟩

/-- When the loop was not left early and both goroutines have ended, `Close` returns nil if the bytes were read without an error, and otherwise (also) the error with which
    reading them one after the other ends. -/
theorem C74_errors (src : Stream.Source) (ls : List (Label Chunk)) (s t : State (Nat × Stream.Source) Doc Chunk (Option Doc))
    (st : Steps (Sys.ftdc unzip fuel) (new (fuel, src) none) ls s) (hw : Whole ls) (ho : Over s) (es : List Fault) (hc : Step (Sys.ftdc unzip fuel) s (.close es) t) :
    ((readAll unzip fuel src).2 = .ok () → es = []) ∧ ∀ e, (readAll unzip fuel src).2 = .err e → .error e ∈ es := by
  have hi := inv_of st
  have he : s.catcher = es := by cases hc; rfl
  subst he
  obtain ⟨hk, hq, hs⟩ := ho
  obtain ⟨_, h2, h3⟩ := hi.fin (.inr hk) fun h => h hw
  rw [hq] at h2
  rw [hs] at h3
  have hall : (readAll unzip fuel src).2 = match (readChunks unzip fuel none (readDiagnostic fuel src).1).2 with
    | .ok () => (readDiagnostic fuel src).2
    | e => e := rfl
  refine ⟨fun h => ?_, fun e h => ?_⟩
  · rw [hall] at h
    have e2 : (readChunks unzip fuel none (readDiagnostic fuel src).1).2 = .ok () := by
      rcases h2 with h2 | ⟨x, h2, _⟩
      · exact h2
      · rw [h2] at h; cases h
    rw [e2] at h
    simp only at h
    refine List.eq_nil_iff_forall_not_mem.2 fun f hf => ?_
    rcases hi.just f hf with ⟨_, hn⟩ | ⟨x, _, hx | hx⟩
    · exact hn hw
    · rw [h] at hx; cases hx
    · rw [e2] at hx; cases hx
  · rw [hall] at h
    rcases h2 with h2 | ⟨x, h2, hx⟩
    · rw [h2] at h
      rcases h3 h2 with h3 | ⟨x, h3, hx⟩
      · rw [h3] at h; cases h
      · rw [h3] at h; cases h; exact hx
    · rw [h2] at h; cases h; exact hx

/-- the damaged file -/
example : ∃ ls s, Steps (Sys.ftdc some 100) (new (100, exFile) none) ls s ∧ Whole ls ∧ Over s ∧ ∃ es, .error .unexpectedEOF ∈ es ∧ Step (Sys.ftdc some 100) s (.close es) s := by
  obtain ⟨ls, s, h1, h2, h3, h4, _⟩ := exFile_run
  exact ⟨ls, s, h1, h2, h3, _, (C74_errors exFile ls s s h1 h2 h3 s.catcher (.close h4)).2 _ exFile_read.2.2.1, .close h4⟩

/-- Whenever `Close` is called, it returns no error that did not occur: one of reading the bytes, one of a chunk, or, after the loop was left early, that of the context. -/
theorem C74_real (src : Stream.Source) (ls : List (Label Chunk)) (s t : State (Nat × Stream.Source) Doc Chunk (Option Doc))
    (st : Steps (Sys.ftdc unzip fuel) (new (fuel, src) none) ls s) (es : List Fault) (hc : Step (Sys.ftdc unzip fuel) s (.close es) t) :
    ∀ f ∈ es, (f = .canceled ∧ .stop ∈ ls) ∨
      ∃ e, f = .error e ∧ ((readDiagnostic fuel src).2 = .err e ∨ (readChunks unzip fuel none (readDiagnostic fuel src).1).2 = .err e) := by
  have he : s.catcher = es := by cases hc; rfl
  subst he
  intro f hf
  rcases (inv_of st).just f hf with ⟨h, hn⟩ | h
  · exact .inl ⟨h, Classical.byContradiction fun hc => hn fun l hl he => hc (he ▸ hl)⟩
  · exact .inr h

example : ∃ ls s, Steps (Sys.ftdc some 100) (new (100, exFile) none) ls s ∧ ∃ f es, f ∈ es ∧ Step (Sys.ftdc some 100) s (.close es) s ∧ f = .error .unexpectedEOF := by
  obtain ⟨ls, s, h1, h2, h3, h4, _⟩ := exFile_run
  exact ⟨ls, s, h1, _, _, (C74_errors exFile ls s s h1 h2 h3 s.catcher (.close h4)).2 _ exFile_read.2.2.1, .close h4, rfl⟩

/-- Nothing goes on for ever, whatever the schedule: there are at most `5 * fuel + 10` steps besides calls of `Close`.  As long as the loop or one of the goroutines has not
    ended, one of them can go on: no deadlock, and no goroutine is left behind, however the loop ends. -/
theorem C74_ends (src : Stream.Source) (ls : List (Label Chunk)) (s : State (Nat × Stream.Source) Doc Chunk (Option Doc))
    (st : Steps (Sys.ftdc unzip fuel) (new (fuel, src) none) ls s) :
    work ls ≤ 5 * fuel + 10 ∧
    ((readDiagnostic fuel src).2 ≠ .oof → (readChunks unzip fuel none (readDiagnostic fuel src).1).2 ≠ .oof → s.crashed = false →
      (∀ l t, Step (Sys.ftdc unzip fuel) s l t → l = .collect ∨ ∃ es, l = .close es) → Over s) := by
  refine ⟨?_, fun h1 h2 hc hn => ?_⟩
  · have := left_steps (size := Prod.fst) (size_ftdc unzip fuel) st
    simp only [left, new, rWork, pWork, cWork, if_true] at this
    omega
  · refine Classical.byContradiction fun ho => ?_
    obtain ⟨l, t, h, hw, hl⟩ := progress (inv_of st) h1 h2 hc ho
    rcases hn l t h with rfl | ⟨es, rfl⟩
    · exact hl rfl
    · cases hw

example : ∃ ls s, Steps (Sys.ftdc some 100) (new (100, exFile) none) ls s ∧ s.crashed = false ∧ Over s ∧ work ls ≤ 510 := by
  obtain ⟨ls, s, h1, h2, h3, h4, _⟩ := exFile_run
  exact ⟨ls, s, h1, h4, h3, (C74_ends exFile ls s h1).1⟩

private theorem readAll_parts {src : Stream.Source} (h2 : (readAll unzip fuel src).2 ≠ .oof ∧ (readAll unzip fuel src).2 ≠ .panic) :
    (readChunks unzip fuel none (readDiagnostic fuel src).1).2 ≠ .oof ∧ (readChunks unzip fuel none (readDiagnostic fuel src).1).2 ≠ .panic := by
  have hall : (readAll unzip fuel src).2 = match (readChunks unzip fuel none (readDiagnostic fuel src).1).2 with
    | .ok () => (readDiagnostic fuel src).2
    | e => e := rfl
  rw [hall] at h2
  refine ⟨fun h => ?_, fun h => ?_⟩
  · rw [h] at h2; exact h2.1 rfl
  · rw [h] at h2; exact h2.2 rfl

/-- The errors may come after the end of the loop: for all bytes, also damaged ones, there is a schedule in which the loop gets all chunks and returns, and `Close`, called
    then, returns nil. -/
theorem C74_late (src : Stream.Source) (h1 : (readDiagnostic fuel src).2 ≠ .oof ∧ (readDiagnostic fuel src).2 ≠ .panic)
    (h2 : (readAll unzip fuel src).2 ≠ .oof ∧ (readAll unzip fuel src).2 ≠ .panic) :
    ∃ ls s t, Steps (Sys.ftdc unzip fuel) (new (fuel, src) none) ls s ∧ Whole ls ∧ yields ls = (readAll unzip fuel src).1 ∧ s.consumer = .returned ∧
      Step (Sys.ftdc unzip fuel) s (.close []) t := by
  have h3 := readAll_parts h2
  obtain ⟨ls, t, h5, h6, h7, h8, h9, h10, h11⟩ := late (m := none) (docs_ftdc unzip fuel fuel src) h1.1 h1.2 (by rw [chunks_ftdc]; exact h3.1)
    (by rw [chunks_ftdc]; exact h3.2)
  exact ⟨ls, t, t, h5, h7, by rw [h6, chunks_ftdc]; rfl, h8, by rw [← h9]; exact .close h11⟩

/-- a damaged file -/
example : ∃ ls s t, Steps (Sys.ftdc some 100) (new (100, exFile) none) ls s ∧ Whole ls ∧ (yields ls).length = 1 ∧ s.consumer = .returned ∧
    Step (Sys.ftdc some 100) s (.close []) t ∧ (readAll some 100 exFile).2 = .err .unexpectedEOF := by
  obtain ⟨h1, h2, h3, h4⟩ := exFile_read
  obtain ⟨ls, s, t, h5, h6, h7, h8, h9⟩ := C74_late (unzip := some) (fuel := 100) exFile (by rw [h1]; simp) (by rw [h3]; simp)
  exact ⟨ls, s, t, h5, h6, by rw [h7, h2], h8, h9, h3⟩

/-- With `ReadMetrics`, `ReadStructuredMetrics`, `ReadMatrix` and `ReadSeries`, which take over what `Close` returns at the end of the loop, the error may be lost for good: in
    such a schedule everything has ended, all chunks were read, and their own `Close` returns nil from now on. -/
theorem C74_lost (src : Stream.Source) (h1 : (readDiagnostic fuel src).2 ≠ .oof ∧ (readDiagnostic fuel src).2 ≠ .panic)
    (h2 : (readAll unzip fuel src).2 ≠ .oof ∧ (readAll unzip fuel src).2 ≠ .panic) :
    ∃ ls s, Steps (Sys.ftdc unzip fuel) (new (fuel, src) none) ls s ∧ Whole ls ∧ yields ls = (readAll unzip fuel src).1 ∧ Over s ∧ s.outer = some [] ∧
      (∀ ms t, Steps (Sys.ftdc unzip fuel) s ms t → t.outer = some []) ∧ ∀ e, (readAll unzip fuel src).2 = .err e → .error e ∈ s.catcher := by
  have h3 := readAll_parts h2
  obtain ⟨ls, t, h5, h6, h7, h8, h9, h10, h11⟩ := late (m := none) (docs_ftdc unzip fuel fuel src) h1.1 h1.2 (by rw [chunks_ftdc]; exact h3.1)
    (by rw [chunks_ftdc]; exact h3.2)
  have hcol : Steps (Sys.ftdc unzip fuel) t [.collect] { t with outer := some t.catcher } := .step (.collect h11 h8 h10) .refl
  obtain ⟨ms, u, h12, h13⟩ := finish (size_ftdc unzip fuel) h1.1 h3.1 h1.2 h3.2 _ (Nat.le_refl _) (inv_of (Steps.trans h5 hcol)) h11
  have hou : u.outer = some [] := outer_steps h12 (by rw [h9])
  obtain ⟨hw, hy⟩ := returned_steps h12 h8
  have hall := Steps.trans (Steps.trans h5 hcol) h12
  have hwall : Whole (ls ++ [.collect] ++ ms) := Whole.append (Whole.append h7 (by simp [Whole])) hw
  refine ⟨_, u, hall, hwall, ?_, h13, hou, fun ms t h => outer_steps h hou, ?_⟩
  · rw [yields_append, yields_append, hy, h6, chunks_ftdc]
    simp [yields, readAll]
  · have hcr := no_crash (inv_of (Steps.trans h5 hcol)) h1.2 h3.2 h12 h11
    exact (C74_errors src _ u u hall hwall h13 u.catcher (.close hcr)).2

/-- a damaged file -/
example : ∃ ls s, Steps (Sys.ftdc some 100) (new (100, exFile) none) ls s ∧ (yields ls).length = 1 ∧ Over s ∧ s.outer = some [] ∧ s.catcher ≠ [] := by
  obtain ⟨h1, h2, h3, h4⟩ := exFile_read
  obtain ⟨ls, s, h5, h6, h7, h8, h9, h10, h11⟩ := C74_lost (unzip := some) (fuel := 100) exFile (by rw [h1]; simp) (by rw [h3]; simp)
  exact ⟨ls, s, h5, by rw [h7, h2], h8, h9, fun h => by have := h11 _ h3; rw [h] at this; cases this⟩

/-- When the loop is left early, `Close` may return the error of the context, although nothing went wrong: after every chunk there is such a schedule. -/
theorem C74_break (src : Stream.Source) (ls : List (Label Chunk)) (c : Chunk) (s : State (Nat × Stream.Source) Doc Chunk (Option Doc))
    (st : Steps (Sys.ftdc unzip fuel) (new (fuel, src) none) (ls ++ [.yield c]) s) :
    ∃ es t, Steps (Sys.ftdc unzip fuel) s [.stop, .consumer, .parser, .parser, .parser, .close es] t ∧ .canceled ∈ es := by
  obtain ⟨u, h⟩ := Steps.snoc st
  cases h with
  | yield hx hq hc =>
    exact ⟨_, _, .step (.enough hx rfl) (.step (.cancel hx rfl) (.step (.parseDone hx rfl rfl) (.step (.parseClose hx rfl) (.step (.parsePush hx rfl) (.step (.close hx) .refl))))),
      by simp⟩

example : ∃ ls c s, Steps (Sys.ftdc some 100) (new (100, exFile) none) (ls ++ [.yield c]) s := by
  have hd : ∃ d r, (Sys.ftdc some 100).read (100, exFile) = .ok (d, r) ∧ ∃ m c, (Sys.ftdc some 100).parse none d = .ok (m, some c) := by
    have h : (match (Sys.ftdc some 100).read (100, exFile) with
      | .ok (d, _) => (match (Sys.ftdc some 100).parse none d with
        | .ok (_, some _) => true
        | _ => false)
      | _ => false) = true := by decide +kernel
    cases hr : (Sys.ftdc some 100).read (100, exFile) with
    | ok v =>
      obtain ⟨d, r⟩ := v
      rw [hr] at h
      simp only at h
      cases hp : (Sys.ftdc some 100).parse none d with
      | ok w =>
        obtain ⟨m, _ | c⟩ := w
        · rw [hp] at h; cases h
        · exact ⟨d, r, rfl, m, c, hp⟩
      | _ => rw [hp] at h; cases h
    | _ => rw [hr] at h; cases h
  obtain ⟨d, r, h1, m, c, h2⟩ := hd
  exact ⟨[.reader, .parser, .parser], c, _, .step (.read rfl rfl h1) (.step (.handOver rfl rfl rfl) (.step (.parseSome rfl rfl h2) (.step (.yield rfl rfl rfl) .refl)))⟩

end Birch.Props
