import Verif.Proofs.JsonStream

/-
C85: what `CollectJSONStream` makes of the lines of a source.
-/

namespace Birch.Props
open Birch Model.JsonStream Spec.JsonStream Proofs.JsonStream

variable {α : Type} {S : Sys α}

/-- Options are accepted exactly if there is one source, and only a file is followed. -/
theorem C85_validate (input file follow : Bool) : validate input file follow = true ↔ input ≠ file ∧ (follow = true → file = true) := by
  cases input <;> cases file <;> cases follow <;> decide

example : validate false true true = true ∧ validate true false true = false ∧ validate true true false = false := ⟨rfl, rfl, rfl⟩

/-! ### lines -/

/-- The lines of a source whose lines are shorter than 65536 bytes are the lines that were joined, with or without a newline at the end. -/
theorem C85_scan (ls : List Bytes) (h : ∀ l ∈ ls, Line l) : scanLines (joined ls) = ls ∧ ∀ r, Line r → r ≠ [] → scanLines (joined ls ++ r) = ls ++ [r] :=
  ⟨scanLines_joined ls h, fun _ hr hne => scanLines_last ls h hr hne⟩

private def exLines : List Bytes := ["{}".toUTF8.toList, [], "{\"a\":1}".toUTF8.toList]

private theorem exLines_ok : ∀ l ∈ exLines, Line l := by unfold Line; decide +kernel

example : scanLines (joined exLines) = exLines := (C85_scan exLines exLines_ok).1
example : scanLines (joined exLines ++ [91, 93]) = exLines ++ [[91, 93]] := (C85_scan exLines exLines_ok).2 _ (by unfold Line; decide +kernel) (by simp)

/-- A line of 65536 bytes or more ends the input: neither it nor what follows is read, as if the source ended before it. -/
theorem C85_long (ls : List Bytes) (h : ∀ l ∈ ls, Line l) (long : Bytes) (hl : 65536 ≤ long.length) (hn : (10 : UInt8) ∉ long) (rest : Bytes) :
    scanLines (joined ls ++ (long ++ rest)) = scanLines (joined ls) := by
  rw [scanLines_joined ls h]
  refine scanLines_long ls h ?_ (by simp; omega)
  rw [List.take_append_of_le_length hl]
  exact fun hm => hn (List.mem_of_mem_take hm)

example : scanLines (joined exLines ++ (List.replicate 65536 32 ++ joined exLines)) = scanLines (joined exLines) :=
  C85_long exLines exLines_ok _ (by rw [List.length_replicate]; exact Nat.le_refl _) (fun h => absurd (List.mem_replicate.mp h).2 (by decide)) _

/-! ### executions -/

/-- If the result is nil, and no line panics, then each line is a sample; and with a reader, or if the context was not cancelled, the files hold the samples of all lines in
    their order. -/
theorem C85_complete_partial (c : Bytes) (hp : ∀ l ∈ scanLines c, S.parse l ≠ none) {s : State α} {n k : Nat} (h : Steps S (new S c) n k s) (hr : s.returned = some none) :
    AllOk S.parse (scanLines c) ∧ (S.mode = .reader ∨ s.cancelled = false → s.files.flatten = parsed S.parse (scanLines c)) := nil_kept hp h hr

/-- At any time the files hold samples of the lines before the first that is none, each at most once and in their order, and no file is empty. -/
theorem C85_only (c : Bytes) {s : State α} {n k : Nat} (h : Steps S (new S c) n k s) : s.files.flatten.Sublist (parsed S.parse (scanLines c)) ∧ ∀ f ∈ s.files, f ≠ [] := by
  have hi := inv_of h
  obtain ⟨done, rest, ha, hok, hsub, _⟩ := hi.samples
  refine ⟨?_, hi.filled⟩
  rw [ha, parsed_append hok]
  refine List.Sublist.trans ?_ (List.sublist_append_left _ _)
  exact (List.sublist_append_left _ _).trans ((List.sublist_append_left _ _).trans hsub)

/-- Apart from those of the flush timer, the number of steps is bounded by the number of lines. -/
theorem C85_bounded (c : Bytes) {s : State α} {n k : Nat} (h : Steps S (new S c) n k s) : n ≤ 2 * (scanLines c).length + 8 := by
  have := steps_measure h
  have := measure_new (S := S) c
  omega

/-- An execution that goes as far as it can has a result, or the program has crashed. -/
theorem C85_ends (c : Bytes) {s : State α} {n k : Nat} (h : Steps S (new S c) n k s) (hi : Idle S s) : s.crashed = true ∨ s.returned ≠ none := idle_returned (inv_of h) hi

/-- If each line is a sample, nothing fails and the context is not cancelled, an execution that goes as far as it can returns nil, and the files hold all samples. -/
theorem C85_all (c : Bytes) (hok : AllOk S.parse (scanLines c)) (ho : S.openErr = none) (hc : S.closeErr = none) (hf : S.fails = false) {s : State α} {n k : Nat}
    (h : Steps S (new S c) n k s) (hi : Idle S s) (hn : s.cancelled = false) : s.returned = some none ∧ s.files.flatten = parsed S.parse (scanLines c) := by
  have hcalm := calm_of ho hc hf hok h
  have hr : s.returned = some none := by
    rcases C85_ends c h hi with h' | h'
    · rw [hcalm.1] at h'; simp at h'
    · exact (hcalm.2.1 hn).resolve_left h'
  refine ⟨hr, (nil_kept (fun l hl => ?_) h hr).2 (.inr hn)⟩
  obtain ⟨d, hd⟩ := hok l hl
  simp [hd]

/-- If a line is an error other than the end of a file, then without the flush timer nothing is written: the samples of the lines before it are lost. -/
theorem C85_error_lost (c : Bytes) (pre post : List Bytes) (bad : Bytes) (e : Err) (hc : scanLines c = pre ++ bad :: post) (hpre : AllOk S.parse pre)
    (hb : S.parse bad = some (.error e)) (he : e ≠ .eof) (ho : S.openErr ≠ some .eof) {s : State α} {n : Nat} (h : Steps S (new S c) n 0 s) : s.files = [] :=
  error_lost hc hpre hb he ho h

/-- After a cancellation all samples can be lost, though all were collected. -/
theorem C85_cancel_lost (c : Bytes) (hok : AllOk S.parse (scanLines c)) (ho : S.openErr = none) :
    ∃ n s, Steps S (new S c) n 0 s ∧ s.lines = [] ∧ s.returned = some (some .other) ∧ s.pending = parsed S.parse (scanLines c) ∧ s.files = [] := by
  obtain ⟨n, hn⟩ := opens ho c
  obtain ⟨m, hm⟩ := reads_lines (scanLines c) [] { new S c with source := .scanning } hok rfl rfl rfl (by simp [new])
  exact ⟨_, _, steps_trans (steps_trans hn hm) (.step (.cancel rfl rfl) (.step (.abort rfl rfl rfl) .refl)), rfl, rfl, by simp [new], rfl⟩

/-- With a file and a cancelled context the result can be nil though no sample was kept. -/
theorem C85_skipped (c : Bytes) (hm : S.mode = .file) (hok : AllOk S.parse (scanLines c)) (ho : S.openErr = none) (hcl : S.closeErr = none) :
    ∃ n s, Steps S (new S c) n 0 s ∧ s.returned = some none ∧ s.files = [] := by
  obtain ⟨n, hn⟩ := opens ho c
  obtain ⟨m, hs⟩ := skips_lines hm (scanLines c) { new S c with source := .scanning, cancelled := true } hok rfl rfl rfl (by simp [new])
  have h1 := steps_trans hn (.step (.cancel rfl rfl) hs)
  refine ⟨_, _, steps_trans h1 (.step (.eof rfl rfl rfl) (.step (.closeFile (p := false) rfl (by simp [Sys.leave, hm]) (by simp [new]))
    (.step (.finish (e := none) (q := []) rfl rfl (.inl (by simp [new, hcl])) (.inl rfl)) .refl))), rfl, ?_⟩
  simp [State.written, new]

/-- A reader's goroutine can be left behind: after a cancellation it waits to send its first sample, and it never goes on. -/
theorem C85_leak (c : Bytes) (hm : S.mode = .reader) (l : Bytes) (ls : List Bytes) (hl : scanLines c = l :: ls) (d : α) (hd : S.parse l = some (.ok d)) :
    ∃ n s, Steps S (new S c) n 0 s ∧ s.returned = some (some .other) ∧ s.cancelled = true ∧ ∀ m k t, Steps S s m k t → t.source = .sending d := by
  have h1 : Step S false (new S c) { new S c with lines := ls, source := .sending d } := .scan rfl (by simp [new, hm]) hl hd
  refine ⟨_, _, .step h1 (.step (.cancel rfl rfl) (.step (.abort rfl rfl rfl) .refl)), rfl, rfl, fun m k t ht => ?_⟩
  refine (steps_inv (P := fun t => t.source = .sending d ∧ t.returned ≠ none) (fun b s t hst ⟨hs, hr⟩ => ?_) ht ⟨rfl, by simp⟩).1
  cases hst <;> simp_all

/-- A line that panics crashes the program: whatever an execution does, if it goes as far as it can, then the program has crashed, or the goroutine waits to send an earlier
    sample. -/
theorem C85_crash (c : Bytes) (pre post : List Bytes) (bad : Bytes) (hc : scanLines c = pre ++ bad :: post) (hpre : AllOk S.parse pre) (hb : S.parse bad = none)
    (ho : S.openErr = none) {s : State α} {n k : Nat} (h : Steps S (new S c) n k s) (hi : Idle S s) : s.crashed = true ∨ ∃ d, s.source = .sending d :=
  doomed_idle hc hpre hb ho h hi

/-- With a reader a line that panics can also give nil, if the result is given before the program crashes; the lines from there on are lost. -/
theorem C85_panic_nil (c : Bytes) (pre post : List Bytes) (bad : Bytes) (hm : S.mode = .reader) (ho : S.openErr = none) (hc : scanLines c = pre ++ bad :: post)
    (hpre : AllOk S.parse pre) (hb : S.parse bad = none) :
    ∃ n s, Steps S (new S c) n 0 s ∧ s.returned = some none ∧ s.crashed = false ∧ s.files.flatten = parsed S.parse pre := by
  obtain ⟨n, hn⟩ := opens ho c
  obtain ⟨m, hs⟩ := reads_lines pre (bad :: post) { new S c with source := .scanning } hpre rfl rfl rfl (by simpa [new] using hc)
  refine ⟨_, _, steps_trans (steps_trans hn hs) (.step (.panic rfl rfl rfl hb) (.step (.closeErrs (p := true) rfl (by simp [Sys.leave, hm]))
    (.step (.finish (e := none) (q := []) rfl rfl (.inr ⟨rfl, rfl, rfl, rfl⟩) (.inl rfl)) .refl))), rfl, rfl, ?_⟩
  rw [written_flatten]
  simp [new]

/-! ### examples: samples are numbers; "x" is an error and "!" panics -/

private def exParse (l : Bytes) : Option (Except Err Nat) :=
  if l = [33] then none else if l = [120] then some (.error .other) else some (.ok l.length)

private def exSys (m : Mode) : Sys Nat := ⟨m, exParse, none, none, false⟩

private def exGood : Bytes := joined ["ab".toUTF8.toList, "abc".toUTF8.toList]
private def exBad : Bytes := joined ["ab".toUTF8.toList, "x".toUTF8.toList, "abc".toUTF8.toList]
private def exPanic : Bytes := joined ["ab".toUTF8.toList, "!".toUTF8.toList]

private theorem exGood_lines : scanLines exGood = [[97, 98], [97, 98, 99]] := by decide +kernel
private theorem exBad_lines : scanLines exBad = [[97, 98], [120], [97, 98, 99]] := by decide +kernel
private theorem exPanic_lines : scanLines exPanic = [[97, 98], [33]] := by decide +kernel

private theorem exGood_ok : AllOk exParse (scanLines exGood) := by
  rw [exGood_lines]; intro l hl; simp at hl; rcases hl with rfl | rfl <;> exact ⟨_, rfl⟩

private theorem exPre_ok : AllOk exParse [[97, 98]] := by intro l hl; simp at hl; subst hl; exact ⟨_, rfl⟩

/-- an execution that reads both lines, flushes with the timer in between, and ends -/
private theorem exRun : ∃ s, Steps (exSys .file) (new (exSys .file) exGood) 9 1 s ∧ s.returned = some none ∧ s.files = [[2], [3]] ∧ s.cancelled = false ∧ Idle (exSys .file) s := by
  have hl : (new (exSys .file) exGood).lines = [[97, 98], [97, 98, 99]] := exGood_lines
  have h1 := Step.open (S := exSys .file) (s := new (exSys .file) exGood) rfl rfl rfl
  refine ⟨_, .step h1 (.step (.scan (d := 2) rfl rfl hl rfl) (.step (.take rfl rfl rfl) (.tick (.tick rfl rfl)
    (.step (.scan (d := 3) rfl rfl rfl rfl) (.step (.take rfl rfl rfl) (.step (.eof rfl rfl rfl) (.step (.closeFile (p := false) rfl rfl (by decide))
      (.step (.closeErrs (p := false) rfl rfl) (.step (.finish (e := none) (q := []) rfl rfl (.inl rfl) (.inl rfl)) .refl))))))))), rfl, rfl, rfl, ?_⟩
  intro t ht
  generalize hs : (⟨_, _, _, _, _, _, _, _, _⟩ : State Nat) = s at ht
  cases ht <;> subst hs <;> simp_all [new, exSys]

example : ∃ s : State Nat, s.files.flatten = parsed exParse (scanLines exGood) ∧ s.files = [[2], [3]] := by
  obtain ⟨s, h, hr, hf, hn, _⟩ := exRun
  refine ⟨s, (C85_complete_partial exGood (fun l hl => ?_) h hr).2 (.inr hn), hf⟩
  obtain ⟨d, hd⟩ := exGood_ok l hl
  intro e
  rw [show (exSys .file).parse = exParse from rfl, hd] at e
  simp at e
example : ∃ s : State Nat, (s.files.flatten.Sublist (parsed exParse (scanLines exGood)) ∧ ∀ f ∈ s.files, f ≠ []) ∧ s.files = [[2], [3]] :=
  let ⟨s, h, _, hf, _⟩ := exRun; ⟨s, C85_only exGood h, hf⟩
example : 9 ≤ 2 * (scanLines exGood).length + 8 := let ⟨_, h, _⟩ := exRun; C85_bounded exGood h
example : ∃ s : State Nat, s.crashed = true ∨ s.returned ≠ none := let ⟨s, h, _, _, _, hi⟩ := exRun; ⟨s, C85_ends exGood h hi⟩
example : ∃ s : State Nat, s.returned = some none ∧ s.files.flatten = parsed exParse (scanLines exGood) :=
  let ⟨s, h, _, _, hn, hi⟩ := exRun; ⟨s, C85_all exGood exGood_ok rfl rfl rfl h hi hn⟩

example {s : State Nat} {n : Nat} (h : Steps (exSys .reader) (new (exSys .reader) exBad) n 0 s) : s.files = [] :=
  C85_error_lost exBad [[97, 98]] [[97, 98, 99]] [120] .other exBad_lines exPre_ok rfl (by simp) (by simp [exSys]) h
example : ∃ n s, Steps (exSys .reader) (new (exSys .reader) exGood) n 0 s ∧ s.lines = [] ∧ s.returned = some (some .other) ∧
    s.pending = parsed exParse (scanLines exGood) ∧ s.files = [] := C85_cancel_lost exGood exGood_ok rfl
example : ∃ n s, Steps (exSys .file) (new (exSys .file) exGood) n 0 s ∧ s.returned = some none ∧ s.files = [] := C85_skipped exGood rfl exGood_ok rfl rfl
example : ∃ n s, Steps (exSys .reader) (new (exSys .reader) exGood) n 0 s ∧ s.returned = some (some .other) ∧ s.cancelled = true ∧
    ∀ m k t, Steps (exSys .reader) s m k t → t.source = .sending 2 := C85_leak exGood rfl _ _ exGood_lines 2 rfl
example {s : State Nat} {n k : Nat} (h : Steps (exSys .file) (new (exSys .file) exPanic) n k s) (hi : Idle (exSys .file) s) : s.crashed = true ∨ ∃ d, s.source = .sending d :=
  C85_crash exPanic [[97, 98]] [] [33] exPanic_lines exPre_ok rfl rfl h hi
example : ∃ n s, Steps (exSys .reader) (new (exSys .reader) exPanic) n 0 s ∧ s.returned = some none ∧ s.crashed = false ∧ s.files.flatten = [2] :=
  C85_panic_nil exPanic [[97, 98]] [] [33] rfl rfl exPanic_lines exPre_ok rfl

/-! ### following -/

/-- Only the lines that the file has at the first write are handed over; what is written later is never read. -/
theorem C85_follow (handler : Bytes → Option Err) (contents : Bytes) (evs : List Event) (h : ∀ l ∈ scanLines contents, handler l = none) :
    (follow handler Scanner.new (.write contents :: evs)).1 = scanLines contents := by
  obtain ⟨b, hb⟩ := loop_ends contents (contents.length + 2) Scanner.new (by simp [Scanner.new]) (by simp [Scanner.new])
  rw [follow]
  dsimp only
  rw [show (Scanner.loop contents (contents.length + 2) Scanner.new).1 = scanLines contents from rfl, handleAll_ok handler _ h]
  dsimp only
  split
  · rfl
  · rw [follow_ended handler evs _ b hb]
    simp

/-- The first line that the handler refuses is the last it gets, and its error is returned at once. -/
theorem C85_follow_fails (handler : Bytes → Option Err) (contents : Bytes) (evs : List Event) (pre post : List Bytes) (l : Bytes) (e : Err)
    (hs : scanLines contents = pre ++ l :: post) (h : ∀ t ∈ pre, handler t = none) (hl : handler l = some e) :
    follow handler Scanner.new (.write contents :: evs) = (pre ++ [l], some (some e)) := by
  rw [follow]
  dsimp only
  rw [show (Scanner.loop contents (contents.length + 2) Scanner.new).1 = scanLines contents from rfl, hs, handleAll_fails handler hl post pre h]

/-- the second of three lines is refused -/
example : follow (fun l => if l = [98] then some .eof else none) Scanner.new [.write [97, 10, 98, 10, 99, 10], .done] = ([[97], [98]], some (some .eof)) :=
  C85_follow_fails _ _ _ [[97]] [[99]] [98] .eof (by decide +kernel) (by decide) (by decide)

/-- It ends at the first end of the context or error of the watcher after that, and as long as there is none it goes on; but with an error at once if a line is too long. -/
theorem C85_follow_ends (handler : Bytes → Option Err) (ls : List Bytes) (hls : ∀ l ∈ ls, Line l) (h : ∀ l ∈ ls, handler l = none) (evs : List Event) :
    (follow handler Scanner.new (.write (joined ls) :: evs)).2 = (firstEnd evs).map some ∧
    ∀ long rest, 65536 ≤ long.length → (10 : UInt8) ∉ long → follow handler Scanner.new (.write (joined ls ++ (long ++ rest)) :: evs) = (ls, some (some .other)) := by
  refine ⟨?_, fun long rest hl hn => ?_⟩
  · have hj := loop_joined ls hls
    rw [follow]
    dsimp only
    rw [show (Scanner.loop (joined ls) ((joined ls).length + 2) Scanner.new).1 = scanLines (joined ls) from rfl, scanLines_joined ls hls, handleAll_ok handler _ h]
    dsimp only
    rw [if_neg (by rw [hj]; simp)]
    exact follow_ends handler evs _ hj
  · have ht : (10 : UInt8) ∉ (long ++ rest).take 65536 := by
      rw [List.take_append_of_le_length hl]
      exact fun hm => hn (List.mem_of_mem_take hm)
    have hj := loop_long ls hls ht (by simp; omega)
    rw [follow]
    dsimp only
    rw [show (Scanner.loop (joined ls ++ (long ++ rest)) ((joined ls ++ (long ++ rest)).length + 2) Scanner.new).1 = scanLines (joined ls ++ (long ++ rest)) from rfl,
      scanLines_long ls hls ht (by simp; omega), handleAll_ok handler _ h]
    dsimp only
    rw [if_pos hj]

example : (follow (fun _ => none) Scanner.new [.write (joined exLines), .otherEvent, .watcherError .eof, .done]).2 = some (some .eof) :=
  (C85_follow_ends _ exLines exLines_ok (fun _ _ => rfl) _).1

/-- So if a file that is followed has complete lines at first and more is appended, none of that becomes a sample. -/
theorem C85_follow_lost (handler : Bytes → Option Err) (ls more : List Bytes) (hls : ∀ l ∈ ls, Line l) (h : ∀ l ∈ ls, handler l = none) :
    (follow handler Scanner.new [.write (joined ls), .write (joined (ls ++ more))]).1 = ls := by
  rw [C85_follow handler (joined ls) _ (by rw [scanLines_joined ls hls]; exact h), scanLines_joined ls hls]

example : (follow (fun _ => none) Scanner.new [.write (joined exLines), .write (joined (exLines ++ exLines))]).1 = exLines :=
  C85_follow_lost _ exLines exLines exLines_ok (fun _ _ => rfl)
example : (follow (fun _ => none) Scanner.new [.write exGood, .otherEvent, .write (exGood ++ exGood), .done]).1 = scanLines exGood :=
  C85_follow _ _ _ (fun _ _ => rfl)

end Birch.Props
