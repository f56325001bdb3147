import Verif.Spec.JsonStream

namespace Birch.Proofs.JsonStream
open Birch Model.JsonStream Spec.JsonStream

variable {α : Type} {S : Sys α}

/-! ### lines -/

theorem takeWhile_line {l r : Bytes} (hl : (10 : UInt8) ∉ l) : (l ++ 10 :: r).takeWhile (· ≠ 10) = l := by
  induction l with
  | nil => simp
  | cons c l ih =>
    simp only [List.mem_cons, not_or] at hl
    rw [List.cons_append, List.takeWhile_cons_of_pos (by simpa using fun h => hl.1 h.symm), ih hl.2]

theorem scan_line {pre l r : Bytes} (hl : Line l) : Scanner.scan (pre ++ (l ++ 10 :: r)) ⟨pre.length, none⟩ = (some l, ⟨(pre ++ (l ++ [10])).length, none⟩) := by
  obtain ⟨h1, h2, h3⟩ := hl
  have ht : ((l ++ 10 :: r).take 65536).takeWhile (· ≠ 10) = l := by
    rw [List.take_append, List.take_of_length_le (by omega)]
    obtain ⟨k, hk⟩ : ∃ k, 65536 - l.length = k + 1 := ⟨65536 - l.length - 1, by omega⟩
    rw [hk, List.take_succ_cons]
    exact takeWhile_line h1
  unfold Scanner.scan
  dsimp only
  rw [List.drop_left, ht, if_pos ⟨h2, by simp⟩]
  unfold dropCR
  rw [if_neg h3]
  simp
  omega

theorem joined_length (ls : List Bytes) : ls.length ≤ (joined ls).length := by
  induction ls with
  | nil => simp
  | cons l ls ih => simp [joined]; omega

theorem loop_lines (tail : Bytes) : ∀ (ls : List Bytes) (pre : Bytes) (n : Nat), (∀ l ∈ ls, Line l) → ls.length ≤ n →
    Scanner.loop (pre ++ (joined ls ++ tail)) n ⟨pre.length, none⟩ =
      (ls ++ (Scanner.loop (pre ++ (joined ls ++ tail)) (n - ls.length) ⟨(pre ++ joined ls).length, none⟩).1,
        (Scanner.loop (pre ++ (joined ls ++ tail)) (n - ls.length) ⟨(pre ++ joined ls).length, none⟩).2)
  | [], pre, n, _, _ => by simp [joined]
  | l :: ls, pre, n, h, hn => by
    obtain ⟨n, rfl⟩ : ∃ k, n = k + 1 := ⟨n - 1, by simp at hn; omega⟩
    have hs := scan_line (pre := pre) (r := joined ls ++ tail) (h l (by simp))
    have e : pre ++ (joined (l :: ls) ++ tail) = pre ++ (l ++ 10 :: (joined ls ++ tail)) := by simp [joined]
    rw [e]
    have ih := loop_lines tail ls (pre ++ (l ++ [10])) n (fun x hx => h x (by simp [hx])) (by simp at hn; omega)
    rw [show pre ++ (l ++ [10]) ++ (joined ls ++ tail) = pre ++ (l ++ 10 :: (joined ls ++ tail)) by simp] at ih
    rw [Scanner.loop, hs]
    dsimp only
    rw [ih]
    simp [joined]

theorem scan_nil {pre : Bytes} : Scanner.scan (pre ++ []) ⟨pre.length, none⟩ = (none, ⟨pre.length, some true⟩) := by
  simp [Scanner.scan]

theorem mem_takeWhile {l : Bytes} : ∀ {x : UInt8}, x ∈ l.takeWhile (· ≠ 10) → x ≠ 10 := by
  induction l with
  | nil => intro x h; simp at h
  | cons c l ih =>
    intro x h
    by_cases hc : c = 10
    · subst hc; simp at h
    · rw [List.takeWhile_cons_of_pos (by simpa using hc)] at h
      rcases List.mem_cons.mp h with rfl | h
      · exact hc
      · exact ih h

theorem takeWhile_all {l : Bytes} (h : (10 : UInt8) ∉ l) : l.takeWhile (· ≠ 10) = l := by
  induction l with
  | nil => rfl
  | cons c l ih =>
    simp only [List.mem_cons, not_or] at h
    rw [List.takeWhile_cons_of_pos (by simpa using fun e => h.1 e.symm), ih h.2]

theorem scan_long {pre r : Bytes} (h : (10 : UInt8) ∉ r.take 65536) (hl : 65536 ≤ r.length) :
    Scanner.scan (pre ++ r) ⟨pre.length, none⟩ = (none, ⟨pre.length, some false⟩) := by
  unfold Scanner.scan
  dsimp only
  rw [List.drop_left, takeWhile_all h, if_neg (by simp; omega), if_pos hl]

theorem scan_last {pre r : Bytes} (h : Line r) (hne : r ≠ []) : Scanner.scan (pre ++ r) ⟨pre.length, none⟩ = (some r, ⟨(pre ++ r).length, some true⟩) := by
  obtain ⟨h1, h2, h3⟩ := h
  unfold Scanner.scan
  dsimp only
  rw [List.drop_left, List.take_of_length_le (by omega), takeWhile_all h1, if_neg (by simp), if_neg (by omega), if_neg hne]
  unfold dropCR
  rw [if_neg h3]

theorem loop_ended (c : Bytes) (n : Nat) (s : Scanner) (b : Bool) (h : s.ended = some b) : s.loop c n = ([], s) := by
  cases n with
  | zero => rfl
  | succ n => simp [Scanner.loop, Scanner.scan, h]

theorem scanLines_joined (ls : List Bytes) (h : ∀ l ∈ ls, Line l) : scanLines (joined ls) = ls := by
  have := joined_length ls
  have hl := loop_lines [] ls [] ((joined ls).length + 2) h (by omega)
  simp only [List.nil_append, List.append_nil, List.length_nil] at hl
  unfold scanLines Scanner.new
  rw [hl]
  obtain ⟨k, hk⟩ : ∃ k, (joined ls).length + 2 - ls.length = k + 1 := ⟨(joined ls).length + 1 - ls.length, by omega⟩
  have hs := scan_nil (pre := joined ls)
  rw [List.append_nil] at hs
  rw [hk, Scanner.loop, hs]
  simp

theorem scanLines_last (ls : List Bytes) (h : ∀ l ∈ ls, Line l) {r : Bytes} (hr : Line r) (hne : r ≠ []) : scanLines (joined ls ++ r) = ls ++ [r] := by
  have := joined_length ls
  have hl := loop_lines r ls [] ((joined ls ++ r).length + 2) h (by simp; omega)
  simp only [List.nil_append, List.length_nil] at hl
  unfold scanLines Scanner.new
  rw [hl]
  obtain ⟨k, hk⟩ : ∃ k, (joined ls ++ r).length + 2 - ls.length = k + 1 := ⟨(joined ls ++ r).length + 1 - ls.length, by simp; omega⟩
  rw [hk, Scanner.loop, scan_last hr hne]
  dsimp only
  rw [loop_ended _ _ _ _ rfl]

theorem scanLines_long (ls : List Bytes) (h : ∀ l ∈ ls, Line l) {r : Bytes} (hr : (10 : UInt8) ∉ r.take 65536) (hl : 65536 ≤ r.length) : scanLines (joined ls ++ r) = ls := by
  have := joined_length ls
  have hl' := loop_lines r ls [] ((joined ls ++ r).length + 2) h (by simp; omega)
  simp only [List.nil_append, List.length_nil] at hl'
  unfold scanLines Scanner.new
  rw [hl']
  obtain ⟨k, hk⟩ : ∃ k, (joined ls ++ r).length + 2 - ls.length = k + 1 := ⟨(joined ls ++ r).length + 1 - ls.length, by simp; omega⟩
  rw [hk, Scanner.loop, scan_long hr hl]
  simp

theorem scan_cases (c : Bytes) (s : Scanner) (hp : s.pos ≤ c.length) (he : s.ended = none) :
    (∃ t, (s.scan c).1 = some t ∧ (s.scan c).2.ended = none ∧ s.pos < (s.scan c).2.pos ∧ (s.scan c).2.pos ≤ c.length) ∨
    (∃ b, (s.scan c).2.ended = some b) := by
  have hrest : (c.drop s.pos).length = c.length - s.pos := by simp
  unfold Scanner.scan
  rw [he]
  dsimp only
  split
  · refine Or.inl ⟨_, rfl, rfl, ?_, ?_⟩ <;> simp only <;> omega
  · right
    split
    · exact ⟨_, rfl⟩
    · split
      · exact ⟨_, rfl⟩
      · exact ⟨_, rfl⟩

/-- after the loop the scanner has ended -/
theorem loop_ends (c : Bytes) : ∀ (n : Nat) (s : Scanner), c.length + 2 ≤ n + s.pos → s.pos ≤ c.length → ∃ b, (s.loop c n).2.ended = some b
  | 0, s, h, h' => by omega
  | n + 1, s, h, h' => by
    cases he : s.ended with
    | some b => rw [loop_ended c _ s b he]; exact ⟨b, he⟩
    | none =>
      have hc := scan_cases c s h' he
      rw [Scanner.loop]
      generalize s.scan c = r at hc
      obtain ⟨o, s'⟩ := r
      dsimp only at hc
      rcases hc with ⟨t, rfl, _, h3, h4⟩ | ⟨b, hb⟩
      · exact loop_ends c n s' (by omega) h4
      · cases o with
        | none => exact ⟨b, hb⟩
        | some t => dsimp only; rw [loop_ended c n s' b hb]; exact ⟨b, hb⟩

/-! ### executions -/

theorem steps_inv {P : State α → Prop} (hs : ∀ b s t, Step S b s t → P s → P t) {s t : State α} {n k : Nat} (h : Steps S s n k t) : P s → P t := by
  induction h with
  | refl => exact id
  | step h _ ih => exact fun hp => ih (hs _ _ _ h hp)
  | tick h _ ih => exact fun hp => ih (hs _ _ _ h hp)

theorem steps_inv0 {P : State α → Prop} (hs : ∀ s t, Step S false s t → P s → P t) {s t : State α} {n k : Nat} (h : Steps S s n k t) : k = 0 → P s → P t := by
  induction h with
  | refl => exact fun _ => id
  | step h _ ih => exact fun hk hp => ih hk (hs _ _ h hp)
  | tick h _ ih => exact fun hk => by omega

theorem steps_trans {s t u : State α} {n k m j : Nat} (h : Steps S s n k t) (h' : Steps S t m j u) : Steps S s (n + m) (k + j) u := by
  induction h with
  | refl => simpa using h'
  | @step s t _ n k h _ ih => rw [show n + 1 + m = n + m + 1 by omega]; exact .step h (ih h')
  | @tick s t _ n k h _ ih => rw [show k + 1 + j = k + j + 1 by omega]; exact .tick h (ih h')

theorem parsed_append {parse : Bytes → Option (Except Err α)} {xs ys : List Bytes} (h : AllOk parse xs) : parsed parse (xs ++ ys) = parsed parse xs ++ parsed parse ys := by
  induction xs with
  | nil => rfl
  | cons x xs ih =>
    obtain ⟨d, hd⟩ := h x (by simp)
    simp only [List.cons_append, parsed, hd, ih (fun l hl => h l (by simp [hl]))]

theorem parsed_one {parse : Bytes → Option (Except Err α)} {l : Bytes} {d : α} (h : parse l = some (.ok d)) : parsed parse [l] = [d] := by
  simp [parsed, h]

theorem allOk_snoc {parse : Bytes → Option (Except Err α)} {xs : List Bytes} {l : Bytes} {d : α} (h : AllOk parse xs) (hl : parse l = some (.ok d)) : AllOk parse (xs ++ [l]) := by
  intro x hx
  rcases List.mem_append.mp hx with hx | hx
  · exact h x hx
  · simp at hx; subst hx; exact ⟨d, hl⟩

theorem written_flatten (s : State α) : s.written.flatten = s.files.flatten ++ s.pending := by
  unfold State.written
  split
  · simp_all
  · simp

theorem written_ne (s : State α) (h : ∀ f ∈ s.files, f ≠ []) : ∀ f ∈ s.written, f ≠ [] := by
  unfold State.written
  split
  · exact h
  · intro f hf
    rcases List.mem_append.mp hf with hf | hf
    · exact h f hf
    · simp at hf; subst hf; intro e; simp_all

/-- what is being sent -/
def sendingOf : Source α → List α
  | .sending d => [d]
  | _ => []

/-- before the end of the loop -/
def Early : Source α → Prop
  | .opening | .scanning | .sending _ => True
  | _ => False

theorem early_leave (p : Bool) : ¬ Early (S.leave p) := by unfold Sys.leave; cases S.mode <;> exact id
theorem sendingOf_leave (p : Bool) : sendingOf (S.leave p) = [] := by unfold Sys.leave; cases S.mode <;> rfl

/-- what holds in each state, whatever the lines are -/
structure Inv (S : Sys α) (all : List Bytes) (s : State α) : Prop where
  samples : ∃ done rest, all = done ++ rest ∧ AllOk S.parse done ∧ (s.files.flatten ++ s.pending ++ sendingOf s.source).Sublist (parsed S.parse done) ∧
    (Early s.source → rest = s.lines)
  filled : ∀ f ∈ s.files, f ≠ []
  early : Early s.source → s.errs = [] ∧ s.closed = false
  finishing : ∀ p, s.source = .finishing p → s.errs.length < 2
  ended : s.source = .ended → s.closed = true

theorem inv_new (c : Bytes) : Inv S (scanLines c) (new S c) := by
  refine ⟨⟨[], scanLines c, rfl, fun _ h => absurd h (by simp), ?_, fun _ => rfl⟩, fun _ h => absurd h (by simp [new]), fun _ => ⟨rfl, rfl⟩, fun _ h => ?_, fun h => ?_⟩
  · unfold new; cases S.mode <;> simp [sendingOf]
  · revert h; unfold new; cases S.mode <;> simp
  · revert h; unfold new; cases S.mode <;> simp

theorem inv_step {all : List Bytes} (b : Bool) (s t : State α) (h : Step S b s t) (hi : Inv S all s) : Inv S all t := by
  obtain ⟨⟨done, rest, ha, hok, hsub, hr⟩, hf, he, hfin, hend⟩ := hi
  cases h with
  | «open» h1 h2 h3 =>
    simp only [h2, Early, sendingOf, true_implies, List.append_nil] at *
    exact ⟨⟨done, rest, ha, hok, by simpa [sendingOf] using hsub, fun _ => hr⟩, hf, fun _ => he, by simp, by simp⟩
  | openFail h1 h2 h3 =>
    simp only [h2, Early, sendingOf, true_implies, List.append_nil] at *
    exact ⟨⟨done, rest, ha, hok, by simpa [sendingOf] using hsub, by simp [Early]⟩, hf, by simp [Early], by simp, by simp⟩
  | @scan _ l ls d h1 h2 h3 h4 =>
    simp only [h2, Early, sendingOf, true_implies, List.append_nil] at *
    refine ⟨⟨done ++ [l], ls, by simp [ha, hr, h3], allOk_snoc hok h4, ?_, fun _ => rfl⟩, hf, fun _ => he, by simp, by simp⟩
    rw [parsed_append hok, parsed_one h4]
    exact List.Sublist.append hsub (List.Sublist.refl _)
  | parseFail h1 h2 h3 h4 h5 =>
    simp only [h2, Early, sendingOf, true_implies, List.append_nil] at *
    refine ⟨⟨done, rest, ha, hok, by simpa [sendingOf_leave] using hsub, fun h => absurd h (early_leave _)⟩, hf, fun h => absurd h (early_leave _), ?_, ?_⟩
    · simp [he.1]
    · unfold Sys.leave; cases S.mode <;> simp
  | panic h1 h2 h3 h4 =>
    simp only [h2, Early, sendingOf, true_implies, List.append_nil] at *
    refine ⟨⟨done, rest, ha, hok, by simpa [sendingOf_leave] using hsub, fun h => absurd h (early_leave _)⟩, hf, fun h => absurd h (early_leave _), ?_, ?_⟩
    · simp [he.1]
    · unfold Sys.leave; cases S.mode <;> simp
  | eof h1 h2 h3 =>
    simp only [h2, Early, sendingOf, true_implies, List.append_nil] at *
    refine ⟨⟨done, rest, ha, hok, by simpa [sendingOf_leave] using hsub, fun h => absurd h (early_leave _)⟩, hf, fun h => absurd h (early_leave _), ?_, ?_⟩
    · simp [he.1]
    · unfold Sys.leave; cases S.mode <;> simp
  | skip h1 h2 h3 h4 =>
    simp only [h2, Early, sendingOf, true_implies] at *
    refine ⟨⟨done, rest, ha, hok, ?_, fun _ => hr⟩, hf, fun _ => he, by simp, by simp⟩
    simp only [sendingOf, List.append_nil]
    exact (List.sublist_append_left _ _).trans hsub
  | closeFile h1 h2 h3 =>
    simp only [h2, Early, sendingOf, List.append_nil] at *
    exact ⟨⟨done, rest, ha, hok, by simpa [sendingOf] using hsub, by simp [Early]⟩, hf, by simp [Early], by simp, by simp⟩
  | @closeErrs _ p h1 h2 =>
    simp only [h2, Early, sendingOf, List.append_nil] at *
    exact ⟨⟨done, rest, ha, hok, by cases p <;> simpa [sendingOf] using hsub, by cases p <;> simp [Early]⟩, hf, by cases p <;> simp [Early], by cases p <;> simp, by simp⟩
  | crash h1 h2 => exact ⟨⟨done, rest, ha, hok, hsub, hr⟩, hf, he, hfin, hend⟩
  | take h1 h2 h3 =>
    simp only [h3, Early, sendingOf, true_implies] at *
    exact ⟨⟨done, rest, ha, hok, by simpa [sendingOf] using hsub, fun _ => hr⟩, hf, fun _ => he, by simp, by simp⟩
  | takeFail h0 h1 h2 h3 =>
    simp only [h3, Early, sendingOf, true_implies] at *
    refine ⟨⟨done, rest, ha, hok, ?_, fun _ => hr⟩, hf, fun _ => he, by simp, by simp⟩
    simp only [sendingOf, List.append_nil]
    exact (List.sublist_append_left _ _).trans hsub
  | finish h1 h2 h3 h4 =>
    refine ⟨⟨done, rest, ha, hok, ?_, hr⟩, written_ne s hf, fun h => ?_, fun p h => ?_, hend⟩
    · simpa [written_flatten] using hsub
    · rcases h3 with h3 | ⟨h3, h5, h6, _⟩ <;> simp_all
    · have := hfin p h
      rcases h3 with h3 | ⟨h3, h5, h6, _⟩
      · simp [h3] at this; simp only; omega
      · simp [h5]
  | finishFail h0 h1 h2 h3 h4 =>
    refine ⟨⟨done, rest, ha, hok, hsub, hr⟩, hf, fun h => ?_, fun p h => ?_, hend⟩
    · rcases h3 with h3 | ⟨h3, h5, h6, _⟩ <;> simp_all
    · have := hfin p h
      rcases h3 with h3 | ⟨h3, h5, h6, _⟩
      · simp [h3] at this; simp only; omega
      · simp [h5]
  | fail h1 h2 h3 h4 =>
    refine ⟨⟨done, rest, ha, hok, hsub, hr⟩, hf, fun h => ?_, fun p h => ?_, hend⟩
    · simp_all
    · have := hfin p h
      simp [h3] at this; simp only; omega
  | abort h1 h2 h3 => exact ⟨⟨done, rest, ha, hok, hsub, hr⟩, hf, he, hfin, hend⟩
  | tick h1 h2 =>
    exact ⟨⟨done, rest, ha, hok, by simpa [written_flatten] using hsub, hr⟩, written_ne s hf, he, hfin, hend⟩
  | tickFail h0 h1 h2 => exact ⟨⟨done, rest, ha, hok, hsub, hr⟩, hf, he, hfin, hend⟩
  | cancel h1 h2 => exact ⟨⟨done, rest, ha, hok, hsub, hr⟩, hf, he, hfin, hend⟩

theorem inv_of {c : Bytes} {s : State α} {n k : Nat} (h : Steps S (new S c) n k s) : Inv S (scanLines c) s := steps_inv inv_step h (inv_new c)

/-! ### ends -/

/-- what can still happen in the source -/
def rank (s : State α) : Nat :=
  match s.source with
  | .opening => 2 * s.lines.length + 5
  | .scanning => 2 * s.lines.length + 4
  | .sending _ => 2 * s.lines.length + 5
  | .finishing _ => 3
  | .closing _ => 2
  | .recovering => 1
  | .ended => 0

/-- what can still happen -/
def measure (s : State α) : Nat := rank s + (if s.cancelled then 0 else 1) + (if s.returned = none then 1 else 0) + (if s.crashed then 0 else 1)

theorem rank_leave (s : State α) (h : s.source = S.leave p) : rank s ≤ 3 := by
  unfold rank; rw [h]; unfold Sys.leave; cases S.mode <;> simp

theorem measure_step (s t : State α) (b : Bool) (h : Step S b s t) : measure t ≤ measure s ∧ (b = false → measure t < measure s) := by
  cases h with
  | «open» h1 h2 h3 => simp [measure, rank, h2, h1]
  | openFail h1 h2 h3 => simp [measure, rank, h2, h1]
  | scan h1 h2 h3 h4 => simp [measure, rank, h2, h1, h3]; omega
  | parseFail h1 h2 h3 h4 h5 => cases hm : S.mode <;> simp [measure, rank, h2, h1, h3, Sys.leave, hm] <;> omega
  | panic h1 h2 h3 h4 => cases hm : S.mode <;> simp [measure, rank, h2, h1, h3, Sys.leave, hm] <;> omega
  | eof h1 h2 h3 => cases hm : S.mode <;> simp [measure, rank, h2, h1, h3, Sys.leave, hm]
  | skip h1 h2 h3 h4 => simp [measure, rank, h2, h1]
  | closeFile h1 h2 h3 => simp [measure, rank, h2, h1]
  | @closeErrs _ p h1 h2 => cases p <;> simp [measure, rank, h2, h1]
  | crash h1 h2 => simp [measure, rank, h2, h1]
  | take h1 h2 h3 => simp [measure, rank, h2, h1, h3]
  | takeFail h0 h1 h2 h3 => simp [measure, rank, h2, h1, h3]; omega
  | finish h1 h2 h3 h4 => simp [measure, rank, h2, h1]
  | finishFail h0 h1 h2 h3 h4 => simp [measure, rank, h2, h1]
  | fail h1 h2 h3 h4 => simp [measure, rank, h2, h1]
  | abort h1 h2 h3 => simp [measure, rank, h2, h1]
  | tick h1 h2 => simp [measure, rank, h2, h1]
  | tickFail h0 h1 h2 => simp [measure, rank, h2, h1]
  | cancel h1 h2 => simp [measure, rank, h2, h1]

theorem steps_measure {s t : State α} {n k : Nat} (h : Steps S s n k t) : n + measure t ≤ measure s := by
  induction h with
  | refl => omega
  | step h _ ih => have := (measure_step _ _ _ h).2 rfl; omega
  | tick h _ ih => have := (measure_step _ _ _ h).1; omega

theorem measure_new (c : Bytes) : measure (new S c) ≤ 2 * (scanLines c).length + 8 := by
  unfold measure rank new
  cases S.mode <;> simp

/-- a state from which nothing happens has a result, or it is a crash -/
theorem idle_returned {all : List Bytes} {s : State α} (hi : Inv S all s) (h : Idle S s) : s.crashed = true ∨ s.returned ≠ none := by
  by_cases hc : s.crashed = true
  · exact .inl hc
  right
  intro hr
  replace hc : s.crashed = false := by simpa using hc
  cases hs : s.source with
  | opening =>
    cases ho : S.openErr with
    | none => have := congrArg State.source (h _ (.open hc hs ho)); simp [hs] at this
    | some e => have := congrArg State.source (h _ (.openFail hc hs ho)); simp [hs] at this
  | scanning =>
    have he := (hi.early (by rw [hs]; trivial)).1
    have hl : ∀ p, S.leave p ≠ (Source.scanning : Source α) := by intro p; unfold Sys.leave; cases S.mode <;> simp
    cases hls : s.lines with
    | nil => have := congrArg State.source (h _ (.eof hc hs hls)); rw [hs] at this; exact hl _ this
    | cons l ls =>
      cases hp : S.parse l with
      | none => have := congrArg State.source (h _ (.panic hc hs hls hp)); rw [hs] at this; exact hl _ this
      | some r =>
        cases r with
        | error e => have := congrArg State.source (h _ (.parseFail hc hs hls hp (by simp [he]))); rw [hs] at this; exact hl _ this
        | ok d => have := congrArg State.source (h _ (.scan hc hs hls hp)); simp [hs] at this
  | sending d => have := congrArg State.source (h _ (.take hc hr hs)); simp [hs] at this
  | finishing p => have := congrArg State.source (h _ (.closeFile hc hs (hi.finishing p hs))); simp [hs] at this
  | closing p => have := congrArg State.source (h _ (.closeErrs hc hs)); cases p <;> simp [hs] at this
  | recovering => have := congrArg State.crashed (h _ (.crash hc hs)); simp [hc] at this
  | ended =>
    have hcl := hi.ended hs
    cases he : s.errs with
    | nil => have := congrArg State.returned (h _ (.finish hc hr (.inr ⟨he, rfl, hcl, rfl⟩) (.inl rfl))); simp [hr] at this
    | cons e q =>
      cases e with
      | none => have := congrArg State.returned (h _ (.finish hc hr (.inl he) (.inl rfl))); simp [hr] at this
      | some e =>
        by_cases hee : e = .eof
        · subst hee; have := congrArg State.returned (h _ (.finish hc hr (.inl he) (.inr rfl))); simp [hr] at this
        · have := congrArg State.returned (h _ (.fail hc hr he hee)); simp [hr] at this

/-! ### everything is kept -/

/-- what holds in each state if no line panics -/
structure Kept (S : Sys α) (all : List Bytes) (s : State α) : Prop where
  early : Early s.source → s.errs = [] ∧ s.closed = false ∧ s.returned ≠ some none ∧
    ∃ done, all = done ++ s.lines ∧ AllOk S.parse done ∧
      (s.returned = none → (S.mode = .reader ∨ s.cancelled = false) → s.files.flatten ++ s.pending ++ sendingOf s.source = parsed S.parse done)
  late : ¬ Early s.source →
    (AllOk S.parse all ∧ (s.returned = none ∨ s.returned = some none → (S.mode = .reader ∨ s.cancelled = false) → s.files.flatten ++ s.pending = parsed S.parse all) ∧
      (s.returned = some none → s.pending = [])) ∨
    (s.returned ≠ some none ∧ (s.returned = none → ∃ e q, s.errs = some e :: q))

theorem kept_new (c : Bytes) : Kept S (scanLines c) (new S c) := by
  have he : Early (new S c).source := by unfold new; cases S.mode <;> trivial
  have hs : sendingOf (new S c).source = [] := by unfold new; cases S.mode <;> rfl
  exact ⟨fun _ => ⟨rfl, rfl, by simp [new], [], rfl, fun _ h => absurd h (by simp), fun _ _ => by rw [hs]; rfl⟩, fun h => absurd he h⟩

theorem kept_step {all : List Bytes} (hp : ∀ l ∈ all, S.parse l ≠ none) (b : Bool) (s t : State α) (h : Step S b s t) (hi : Kept S all s) : Kept S all t := by
  obtain ⟨he, hl⟩ := hi
  cases h with
  | «open» h1 h2 h3 =>
    simp only [h2, Early, sendingOf, true_implies] at he
    obtain ⟨a, b, c, done, d, e, f⟩ := he
    exact ⟨fun _ => ⟨a, b, c, done, d, e, f⟩, fun h => absurd trivial h⟩
  | openFail h1 h2 h3 =>
    simp only [h2, Early, sendingOf, true_implies] at he
    obtain ⟨a, b, c, done, d, e, f⟩ := he
    exact ⟨fun h => absurd h id, fun _ => .inr ⟨c, fun _ => ⟨_, _, by rw [a]; rfl⟩⟩⟩
  | @scan _ l ls d' h1 h2 h3 h4 =>
    simp only [h2, Early, sendingOf, true_implies, List.append_nil] at he
    obtain ⟨a, b, c, done, d, e, f⟩ := he
    refine ⟨fun _ => ⟨a, b, c, done ++ [l], by simp [d, h3], allOk_snoc e h4, fun h h' => ?_⟩, fun h => absurd trivial h⟩
    rw [parsed_append e, parsed_one h4, ← f h h']
    rfl
  | parseFail h1 h2 h3 h4 h5 =>
    simp only [h2, Early, sendingOf, true_implies] at he
    obtain ⟨a, b, c, done, d, e, f⟩ := he
    exact ⟨fun h => absurd h (early_leave _), fun _ => .inr ⟨c, fun _ => ⟨_, _, by rw [a]; rfl⟩⟩⟩
  | @panic _ l ls h1 h2 h3 h4 =>
    simp only [h2, Early, sendingOf, true_implies] at he
    obtain ⟨a, b, c, done, d, e, f⟩ := he
    exact absurd h4 (hp l (by simp [d, h3]))
  | eof h1 h2 h3 =>
    simp only [h2, Early, sendingOf, true_implies, List.append_nil] at he
    obtain ⟨a, b, c, done, d, e, f⟩ := he
    rw [h3, List.append_nil] at d
    subst d
    exact ⟨fun h => absurd h (early_leave _), fun _ => .inl ⟨e, fun h h' => by
      rcases h with h | h
      · exact f h h'
      · exact absurd h c, fun h => absurd h c⟩⟩
  | skip h1 h2 h3 h4 =>
    simp only [h2, Early, sendingOf, true_implies] at he
    obtain ⟨a, b, c, done, d, e, f⟩ := he
    exact ⟨fun _ => ⟨a, b, c, done, d, e, fun _ h => by simp [h3, h4] at h⟩, fun h => absurd trivial h⟩
  | closeFile h1 h2 h3 =>
    simp only [h2, Early, not_false_eq_true, true_implies] at hl
    refine ⟨fun h => absurd h id, fun _ => ?_⟩
    rcases hl with hl | ⟨a, b⟩
    · exact .inl hl
    · refine .inr ⟨a, fun h => ?_⟩
      obtain ⟨e, q, hq⟩ := b h
      exact ⟨e, q ++ [S.closeErr], by simp [hq]⟩
  | @closeErrs _ p h1 h2 =>
    simp only [h2, Early, not_false_eq_true, true_implies] at hl
    exact ⟨fun h => absurd h (by cases p <;> exact id), fun _ => hl⟩
  | crash h1 h2 => exact ⟨he, hl⟩
  | take h1 h2 h3 =>
    simp only [h3, Early, sendingOf, true_implies] at he
    obtain ⟨a, b, c, done, d, e, f⟩ := he
    exact ⟨fun _ => ⟨a, b, c, done, d, e, fun h h' => by rw [← f h h']; simp [sendingOf]⟩, fun h => absurd trivial h⟩
  | takeFail h0 h1 h2 h3 =>
    simp only [h3, Early, sendingOf, true_implies] at he
    obtain ⟨a, b, c, done, d, e, f⟩ := he
    exact ⟨fun _ => ⟨a, b, by simp, done, d, e, fun h => by simp at h⟩, fun h => absurd trivial h⟩
  | @finish _ e q h1 h2 h3 h4 =>
    refine ⟨fun h => ?_, fun h => ?_⟩
    · obtain ⟨a, b, _⟩ := he h
      rcases h3 with h3 | ⟨_, _, h3, _⟩
      · rw [a] at h3; simp at h3
      · rw [b] at h3; simp at h3
    · rcases hl h with ⟨a, b, c⟩ | ⟨a, b⟩
      · exact .inl ⟨a, fun _ h' => by simp only [written_flatten, List.append_nil]; exact b (.inl h2) h', fun _ => rfl⟩
      · obtain ⟨e', q', hq⟩ := b h2
        right
        rcases h3 with h3 | ⟨h3, _⟩
        · rw [hq] at h3; simp only [List.cons.injEq] at h3; rw [← h3.1]; exact ⟨by simp, fun h => by simp at h⟩
        · rw [hq] at h3; simp at h3
  | finishFail h0 h1 h2 h3 h4 =>
    refine ⟨fun h => ?_, fun h => .inr ⟨by simp, fun h => by simp at h⟩⟩
    obtain ⟨a, b, _⟩ := he h
    rcases h3 with h3 | ⟨_, _, h3, _⟩
    · rw [a] at h3; simp at h3
    · rw [b] at h3; simp at h3
  | fail h1 h2 h3 h4 =>
    refine ⟨fun h => ?_, fun h => .inr ⟨by simp, fun h => by simp at h⟩⟩
    obtain ⟨a, b, _⟩ := he h
    rw [a] at h3; simp at h3
  | abort h1 h2 h3 =>
    refine ⟨fun h => ?_, fun h => .inr ⟨by simp, fun h => by simp at h⟩⟩
    obtain ⟨a, b, c, done, d, e, f⟩ := he h
    exact ⟨a, b, by simp, done, d, e, fun h => by simp at h⟩
  | tick h1 h2 =>
    refine ⟨fun h => ?_, fun h => ?_⟩
    · obtain ⟨a, b, c, done, d, e, f⟩ := he h
      exact ⟨a, b, c, done, d, e, fun h h' => by rw [← f h h']; simp [written_flatten]⟩
    · rcases hl h with ⟨a, b, c⟩ | h
      · exact .inl ⟨a, fun h h' => by simp only [written_flatten, List.append_nil]; exact b h h', fun _ => rfl⟩
      · exact .inr h
  | tickFail h0 h1 h2 =>
    refine ⟨fun h => ?_, fun h => .inr ⟨by simp, fun h => by simp at h⟩⟩
    obtain ⟨a, b, c, done, d, e, f⟩ := he h
    exact ⟨a, b, by simp, done, d, e, fun h => by simp at h⟩
  | cancel h1 h2 =>
    refine ⟨fun h => ?_, fun h => ?_⟩
    · obtain ⟨a, b, c, done, d, e, f⟩ := he h
      exact ⟨a, b, c, done, d, e, fun h _ => f h (.inr h2)⟩
    · rcases hl h with ⟨a, b, c⟩ | h
      · exact .inl ⟨a, fun h _ => b h (.inr h2), c⟩
      · exact .inr h

theorem kept_of {c : Bytes} (hp : ∀ l ∈ scanLines c, S.parse l ≠ none) {s : State α} {n k : Nat} (h : Steps S (new S c) n k s) : Kept S (scanLines c) s :=
  steps_inv (kept_step hp) h (kept_new c)

theorem nil_kept {c : Bytes} (hp : ∀ l ∈ scanLines c, S.parse l ≠ none) {s : State α} {n k : Nat} (h : Steps S (new S c) n k s) (hr : s.returned = some none) :
    AllOk S.parse (scanLines c) ∧ (S.mode = .reader ∨ s.cancelled = false → s.files.flatten = parsed S.parse (scanLines c)) := by
  have hk := kept_of hp h
  by_cases he : Early s.source
  · exact absurd hr (hk.early he).2.2.1
  · rcases hk.late he with ⟨a, b, c⟩ | ⟨a, _⟩
    · refine ⟨a, fun h' => ?_⟩
      have := b (.inr hr) h'
      rwa [c hr, List.append_nil] at this
    · exact absurd hr a

/-! ### no failures -/

/-- without failures: no errors -/
def Calm (all : List Bytes) (s : State α) : Prop :=
  s.crashed = false ∧ (s.cancelled = false → s.returned = none ∨ s.returned = some none) ∧ (∀ e ∈ s.errs, e = none) ∧ (∃ done, all = done ++ s.lines) ∧
    s.source ≠ .recovering ∧ s.source ≠ .finishing true ∧ s.source ≠ .closing true

theorem calm_step {all : List Bytes} (ho : S.openErr = none) (hc : S.closeErr = none) (hf : S.fails = false) (hp : AllOk S.parse all) (b : Bool) (s t : State α) (h : Step S b s t)
    (hi : Calm all s) : Calm all t := by
  obtain ⟨a, b, c, ⟨done, d⟩, e1, e2, e3⟩ := hi
  cases h with
  | «open» h1 h2 h3 => exact ⟨a, b, c, ⟨done, d⟩, by simp, by simp, by simp⟩
  | openFail h1 h2 h3 => rw [ho] at h3; simp at h3
  | @scan _ l ls d' h1 h2 h3 h4 => exact ⟨a, b, c, ⟨done ++ [l], by simp [d, h3]⟩, by simp, by simp, by simp⟩
  | @parseFail _ l ls e h1 h2 h3 h4 h5 => obtain ⟨x, hx⟩ := hp l (by simp [d, h3]); rw [hx] at h4; simp at h4
  | @panic _ l ls h1 h2 h3 h4 => obtain ⟨x, hx⟩ := hp l (by simp [d, h3]); rw [hx] at h4; simp at h4
  | eof h1 h2 h3 => refine ⟨a, b, c, ⟨done, d⟩, ?_⟩; unfold Sys.leave; cases S.mode <;> simp
  | skip h1 h2 h3 h4 => exact ⟨a, b, c, ⟨done, d⟩, by simp, by simp, by simp⟩
  | @closeFile _ p h1 h2 h3 =>
    cases p with
    | true => exact absurd h2 e2
    | false => exact ⟨a, b, fun e he => by simp [hc] at he; rcases he with he | he; exact c e he; exact he, ⟨done, d⟩, by simp, by simp, by simp⟩
  | @closeErrs _ p h1 h2 =>
    cases p with
    | true => exact absurd h2 e3
    | false => exact ⟨a, b, c, ⟨done, d⟩, by simp, by simp, by simp⟩
  | crash h1 h2 => exact absurd h2 e1
  | take h1 h2 h3 => exact ⟨a, b, c, ⟨done, d⟩, by simp, by simp, by simp⟩
  | takeFail h0 => rw [hf] at h0; simp at h0
  | @finish _ e q h1 h2 h3 h4 =>
    rcases h3 with h3 | ⟨h3, h5, h6, h7⟩
    · rw [h3] at c
      exact ⟨a, fun _ => .inr (by simp [c e (by simp)]), fun x hx => c x (by simp [hx]), ⟨done, d⟩, e1, e2, e3⟩
    · subst h5 h7
      exact ⟨a, fun _ => .inr rfl, by simp, ⟨done, d⟩, e1, e2, e3⟩
  | finishFail h0 => rw [hf] at h0; simp at h0
  | @fail _ e q h1 h2 h3 h4 => have := c (some e) (by simp [h3]); simp at this
  | abort h1 h2 h3 => exact ⟨a, fun h => by simp only at h; rw [h3] at h; simp at h, c, ⟨done, d⟩, e1, e2, e3⟩
  | tick h1 h2 => exact ⟨a, b, c, ⟨done, d⟩, e1, e2, e3⟩
  | tickFail h0 => rw [hf] at h0; simp at h0
  | cancel h1 h2 => exact ⟨a, fun h => by simp at h, c, ⟨done, d⟩, e1, e2, e3⟩

theorem calm_of {c : Bytes} (ho : S.openErr = none) (hc : S.closeErr = none) (hf : S.fails = false) (hp : AllOk S.parse (scanLines c)) {s : State α} {n k : Nat}
    (h : Steps S (new S c) n k s) : Calm (scanLines c) s := by
  refine steps_inv (calm_step ho hc hf hp) h ⟨rfl, fun _ => .inl rfl, by simp [new], ⟨[], rfl⟩, ?_⟩
  unfold new; cases S.mode <;> simp

/-! ### a line that is no sample -/

/-- before the first flush -/
def Lost (S : Sys α) (bad : Bytes) (post : List Bytes) (s : State α) : Prop :=
  s.files = [] ∧ (Early s.source → s.errs = [] ∧ s.closed = false ∧ ∃ mid, s.lines = mid ++ bad :: post ∧ AllOk S.parse mid) ∧
    (¬ Early s.source → s.returned = none → ∃ e q, s.errs = some e :: q ∧ e ≠ .eof)

theorem lost_step {bad : Bytes} {post : List Bytes} {e : Err} (hb : S.parse bad = some (.error e)) (he : e ≠ .eof) (ho : S.openErr ≠ some .eof) (s t : State α) (h : Step S false s t)
    (hi : Lost S bad post s) : Lost S bad post t := by
  obtain ⟨hf, hE, hL⟩ := hi
  cases h with
  | «open» h1 h2 h3 => simp only [h2, Early, true_implies] at hE; exact ⟨hf, fun _ => hE, fun h => absurd trivial h⟩
  | @openFail _ e' h1 h2 h3 =>
    simp only [h2, Early, true_implies] at hE
    exact ⟨hf, fun h => absurd h id, fun _ _ => ⟨e', [], by simp [hE.1], fun h => ho (by rw [h3, h])⟩⟩
  | @scan _ l ls d h1 h2 h3 h4 =>
    simp only [h2, Early, true_implies] at hE
    obtain ⟨a, b, mid, c, d⟩ := hE
    refine ⟨hf, fun _ => ⟨a, b, ?_⟩, fun h => absurd trivial h⟩
    cases mid with
    | nil => rw [h3] at c; simp only [List.nil_append, List.cons.injEq] at c; rw [c.1, hb] at h4; simp at h4
    | cons m mid => rw [h3] at c; simp only [List.cons_append, List.cons.injEq] at c; exact ⟨mid, c.2, fun x hx => d x (by simp [hx])⟩
  | @parseFail _ l ls e' h1 h2 h3 h4 h5 =>
    simp only [h2, Early, true_implies] at hE
    obtain ⟨a, b, mid, c, d⟩ := hE
    refine ⟨hf, fun h => absurd h (early_leave _), fun _ _ => ⟨e', [], by simp [a], ?_⟩⟩
    cases mid with
    | nil => rw [h3] at c; simp only [List.nil_append, List.cons.injEq] at c; rw [c.1, hb] at h4; simp at h4; rw [← h4]; exact he
    | cons m mid => rw [h3] at c; simp only [List.cons_append, List.cons.injEq] at c; obtain ⟨x, hx⟩ := d m (by simp); rw [c.1, hx] at h4; simp at h4
  | @panic _ l ls h1 h2 h3 h4 =>
    simp only [h2, Early, true_implies] at hE
    obtain ⟨a, b, mid, c, d⟩ := hE
    cases mid with
    | nil => rw [h3] at c; simp only [List.nil_append, List.cons.injEq] at c; rw [c.1, hb] at h4; simp at h4
    | cons m mid => rw [h3] at c; simp only [List.cons_append, List.cons.injEq] at c; obtain ⟨x, hx⟩ := d m (by simp); rw [c.1, hx] at h4; simp at h4
  | eof h1 h2 h3 =>
    simp only [h2, Early, true_implies] at hE
    obtain ⟨a, b, mid, c, d⟩ := hE
    rw [h3] at c; simp at c
  | skip h1 h2 h3 h4 => simp only [h2, Early, true_implies] at hE; exact ⟨hf, fun _ => hE, fun h => absurd trivial h⟩
  | closeFile h1 h2 h3 =>
    simp only [h2, Early, not_false_eq_true, true_implies] at hL
    refine ⟨hf, fun h => absurd h id, fun _ h => ?_⟩
    obtain ⟨x, q, hq, hx⟩ := hL h
    exact ⟨x, q ++ [S.closeErr], by simp [hq], hx⟩
  | @closeErrs _ p h1 h2 =>
    simp only [h2, Early, not_false_eq_true, true_implies] at hL
    exact ⟨hf, fun h => absurd h (by cases p <;> exact id), fun _ => hL⟩
  | crash h1 h2 => exact ⟨hf, hE, hL⟩
  | take h1 h2 h3 => simp only [h3, Early, true_implies] at hE; exact ⟨hf, fun _ => hE, fun h => absurd trivial h⟩
  | takeFail h0 h1 h2 h3 => simp only [h3, Early, true_implies] at hE; exact ⟨hf, fun _ => hE, fun h => absurd trivial h⟩
  | @finish _ e' q h1 h2 h3 h4 =>
    exfalso
    by_cases hE' : Early s.source
    · obtain ⟨a, b, _⟩ := hE hE'
      rcases h3 with h3 | ⟨_, _, h3, _⟩
      · rw [a] at h3; simp at h3
      · rw [b] at h3; simp at h3
    · obtain ⟨x, q', hq, hx⟩ := hL hE' h2
      rcases h3 with h3 | ⟨h3, _⟩
      · rw [hq] at h3; simp only [List.cons.injEq] at h3
        rcases h4 with h4 | h4
        · rw [h4] at h3; simp at h3
        · rw [h4] at h3; simp at h3; exact hx h3.1
      · rw [hq] at h3; simp at h3
  | finishFail h0 h1 h2 h3 h4 =>
    refine ⟨hf, fun h => ?_, fun _ h => by simp at h⟩
    obtain ⟨a, b, _⟩ := hE h
    rcases h3 with h3 | ⟨_, _, h3, _⟩
    · rw [a] at h3; simp at h3
    · rw [b] at h3; simp at h3
  | fail h1 h2 h3 h4 =>
    refine ⟨hf, fun h => ?_, fun _ h => by simp at h⟩
    obtain ⟨a, b, _⟩ := hE h
    rw [a] at h3; simp at h3
  | abort h1 h2 h3 => exact ⟨hf, hE, fun _ h => by simp at h⟩
  | cancel h1 h2 => exact ⟨hf, hE, hL⟩

theorem error_lost {c : Bytes} {pre post : List Bytes} {bad : Bytes} {e : Err} (hc : scanLines c = pre ++ bad :: post) (hpre : AllOk S.parse pre) (hb : S.parse bad = some (.error e))
    (he : e ≠ .eof) (ho : S.openErr ≠ some .eof) {s : State α} {n : Nat} (h : Steps S (new S c) n 0 s) : s.files = [] := by
  refine (steps_inv0 (lost_step (post := post) hb he ho) h rfl ?_).1
  have hE : Early (new S c).source := by unfold new; cases S.mode <;> trivial
  exact ⟨rfl, fun _ => ⟨rfl, rfl, pre, hc, hpre⟩, fun h => absurd hE h⟩

/-! ### a line that panics -/

/-- the panic is still to come, or it has come -/
def Doomed (S : Sys α) (bad : Bytes) (post : List Bytes) (s : State α) : Prop :=
  s.source = .finishing true ∨ s.source = .closing true ∨ s.source = .recovering ∨ (Early s.source ∧ ∃ mid, s.lines = mid ++ bad :: post ∧ AllOk S.parse mid)

theorem doomed_step {bad : Bytes} {post : List Bytes} (hb : S.parse bad = none) (ho : S.openErr = none) (b : Bool) (s t : State α) (h : Step S b s t)
    (hi : Doomed S bad post s) : Doomed S bad post t := by
  cases h with
  | «open» h1 h2 h3 => simp [Doomed, h2, Early] at *; exact hi
  | openFail h1 h2 h3 => rw [ho] at h3; simp at h3
  | @scan _ l ls d h1 h2 h3 h4 =>
    simp [Doomed, h2, Early] at hi ⊢
    obtain ⟨mid, c, d⟩ := hi
    cases mid with
    | nil => rw [h3] at c; simp only [List.nil_append, List.cons.injEq] at c; rw [c.1, hb] at h4; simp at h4
    | cons m mid => rw [h3] at c; simp only [List.cons_append, List.cons.injEq] at c; exact ⟨mid, c.2, fun x hx => d x (by simp [hx])⟩
  | @parseFail _ l ls e' h1 h2 h3 h4 h5 =>
    simp [Doomed, h2, Early] at hi
    obtain ⟨mid, c, d⟩ := hi
    cases mid with
    | nil => rw [h3] at c; simp only [List.nil_append, List.cons.injEq] at c; rw [c.1, hb] at h4; simp at h4
    | cons m mid => rw [h3] at c; simp only [List.cons_append, List.cons.injEq] at c; obtain ⟨x, hx⟩ := d m (by simp); rw [c.1, hx] at h4; simp at h4
  | panic h1 h2 h3 h4 => unfold Doomed Sys.leave; cases S.mode <;> simp
  | eof h1 h2 h3 =>
    simp [Doomed, h2, Early] at hi
    obtain ⟨mid, c, d⟩ := hi
    rw [h3] at c; simp at c
  | skip h1 h2 h3 h4 => simp [Doomed, h2, Early] at *; exact hi
  | closeFile h1 h2 h3 => simp [Doomed, h2, Early] at *; exact hi
  | closeErrs h1 h2 => simp [Doomed, h2, Early] at *; simp [hi]
  | crash h1 h2 => exact hi
  | take h1 h2 h3 => simp [Doomed, h3, Early] at *; exact hi
  | takeFail h0 h1 h2 h3 => simp [Doomed, h3, Early] at *; exact hi
  | finish => exact hi
  | finishFail => exact hi
  | fail => exact hi
  | abort => exact hi
  | tick => exact hi
  | tickFail => exact hi
  | cancel => exact hi

theorem doomed_idle {c : Bytes} {pre post : List Bytes} {bad : Bytes} (hc : scanLines c = pre ++ bad :: post) (hpre : AllOk S.parse pre) (hb : S.parse bad = none)
    (ho : S.openErr = none) {s : State α} {n k : Nat} (h : Steps S (new S c) n k s) (hid : Idle S s) : s.crashed = true ∨ ∃ d, s.source = .sending d := by
  have hE : Early (new S c).source := by unfold new; cases S.mode <;> trivial
  have hd : Doomed S bad post s := steps_inv (doomed_step hb ho) h (.inr (.inr (.inr ⟨hE, pre, hc, hpre⟩)))
  have hi := inv_of h
  by_cases hcr : s.crashed = true
  · exact .inl hcr
  right
  replace hcr : s.crashed = false := by simpa using hcr
  have hl : ∀ p, S.leave p ≠ (Source.scanning : Source α) := by intro p; unfold Sys.leave; cases S.mode <;> simp
  rcases hd with hs | hs | hs | ⟨hs', mid, hm, hok⟩
  · have := congrArg State.source (hid _ (.closeFile hcr hs (hi.finishing _ hs))); simp [hs] at this
  · have := congrArg State.source (hid _ (.closeErrs hcr hs)); simp [hs] at this
  · have := congrArg State.crashed (hid _ (.crash hcr hs)); simp [hcr] at this
  · cases hs : s.source with
    | opening => have := congrArg State.source (hid _ (.open hcr hs ho)); simp [hs] at this
    | scanning =>
      cases mid with
      | nil => have := congrArg State.source (hid _ (.panic hcr hs hm hb)); rw [hs] at this; exact absurd this (hl _)
      | cons m mid =>
        obtain ⟨d, hd⟩ := hok m (by simp)
        have := congrArg State.source (hid _ (.scan hcr hs hm hd)); simp [hs] at this
    | sending d => exact ⟨d, rfl⟩
    | _ => rw [hs] at hs'; exact absurd hs' id

/-! ### executions that exist -/

/-- the lines are read and taken -/
theorem reads_lines : ∀ (ls post : List Bytes) (s : State α), AllOk S.parse ls → s.crashed = false → s.returned = none → s.source = .scanning → s.lines = ls ++ post →
    ∃ n, Steps S s n 0 { s with lines := post, pending := s.pending ++ parsed S.parse ls }
  | [], post, s, _, _, _, _, hl => ⟨0, by
      have : ({ s with lines := post, pending := s.pending ++ parsed S.parse [] } : State α) = s := by
        cases s; simp only [List.nil_append] at hl; simp [parsed, hl]
      rw [this]; exact .refl⟩
  | l :: ls, post, s, ho, hc, hr, hs, hl => by
    obtain ⟨d, hd⟩ := ho l (by simp)
    obtain ⟨n, hn⟩ := reads_lines ls post { s with lines := ls ++ post, pending := s.pending ++ [d] } (fun x hx => ho x (by simp [hx])) hc hr hs rfl
    have h1 : Step S false s { s with lines := ls ++ post, source := .sending d } := .scan hc hs hl hd
    have h2 : Step S false { s with lines := ls ++ post, source := .sending d } { s with lines := ls ++ post, source := .scanning, pending := s.pending ++ [d] } := .take hc hr rfl
    refine ⟨n + 1 + 1, .step h1 (.step h2 ?_)⟩
    rw [← hs]
    simpa [parsed, hd] using hn

/-- the lines are read and given up -/
theorem skips_lines (hm : S.mode = .file) : ∀ (ls : List Bytes) (s : State α), AllOk S.parse ls → s.crashed = false → s.cancelled = true → s.source = .scanning → s.lines = ls →
    ∃ n, Steps S s n 0 { s with lines := [] }
  | [], s, _, _, _, _, hl => ⟨0, by
      have : ({ s with lines := [] } : State α) = s := by cases s; simp only at hl; simp [hl]
      rw [this]; exact .refl⟩
  | l :: ls, s, ho, hc, hr, hs, hl => by
    obtain ⟨d, hd⟩ := ho l (by simp)
    obtain ⟨n, hn⟩ := skips_lines hm ls { s with lines := ls } (fun x hx => ho x (by simp [hx])) hc hr hs rfl
    have h1 : Step S false s { s with lines := ls, source := .sending d } := .scan hc hs hl hd
    have h2 : Step S false { s with lines := ls, source := .sending d } { s with lines := ls, source := .scanning } := .skip hc rfl hm hr
    refine ⟨n + 1 + 1, .step h1 (.step h2 ?_)⟩
    rw [← hs]
    exact hn

/-- the source is opened -/
theorem opens (ho : S.openErr = none) (c : Bytes) : ∃ n, Steps S (new S c) n 0 { new S c with source := .scanning } := by
  cases hm : S.mode with
  | reader => exact ⟨0, by have : new S c = { new S c with source := .scanning } := by simp [new, hm]
                           rw [← this]; exact .refl⟩
  | file => exact ⟨1, .step (.open rfl (by simp [new, hm]) ho) .refl⟩

/-! ### following -/

theorem handleAll_ok (handler : Bytes → Option Err) : ∀ ts : List Bytes, (∀ t ∈ ts, handler t = none) → handleAll handler ts = (ts, none)
  | [], _ => rfl
  | t :: ts, h => by simp [handleAll, h t (by simp), handleAll_ok handler ts (fun x hx => h x (by simp [hx]))]

theorem handleAll_fails (handler : Bytes → Option Err) {l : Bytes} {e : Err} (hl : handler l = some e) (post : List Bytes) :
    ∀ pre : List Bytes, (∀ t ∈ pre, handler t = none) → handleAll handler (pre ++ l :: post) = (pre ++ [l], some e)
  | [], _ => by simp [handleAll, hl]
  | t :: ts, h => by simp [handleAll, h t (by simp), handleAll_fails handler hl post ts (fun x hx => h x (by simp [hx]))]

/-- after the end nothing is handed over -/
theorem follow_ended (handler : Bytes → Option Err) : ∀ (evs : List Event) (s : Scanner) (b : Bool), s.ended = some b → (follow handler s evs).1 = []
  | [], _, _, _ => by simp [follow]
  | .done :: _, _, _, _ => by simp [follow]
  | .watcherError _ :: _, _, _, _ => by simp [follow]
  | .otherEvent :: evs, s, b, h => by rw [follow]; exact follow_ended handler evs s b h
  | .write c :: evs, s, b, h => by
    rw [follow, loop_ended c _ s b h]
    simp only [handleAll]
    split
    · rfl
    · simp [follow_ended handler evs s b h]

/-- after the end of the file only events that end it matter -/
theorem follow_ends (handler : Bytes → Option Err) : ∀ (evs : List Event) (s : Scanner), s.ended = some true → (follow handler s evs).2 = (firstEnd evs).map some
  | [], _, _ => rfl
  | .done :: _, _, _ => rfl
  | .watcherError _ :: _, _, _ => rfl
  | .otherEvent :: evs, s, h => by rw [follow]; exact follow_ends handler evs s h
  | .write c :: evs, s, h => by
    rw [follow, loop_ended c _ s true h]
    simp only [handleAll]
    rw [if_neg (by rw [h]; simp)]
    exact follow_ends handler evs s h

theorem loop_joined (ls : List Bytes) (h : ∀ l ∈ ls, Line l) : (Scanner.new.loop (joined ls) ((joined ls).length + 2)).2.ended = some true := by
  have := joined_length ls
  have hl := loop_lines [] ls [] ((joined ls).length + 2) h (by omega)
  simp only [List.nil_append, List.append_nil, List.length_nil] at hl
  unfold Scanner.new
  rw [hl]
  obtain ⟨k, hk⟩ : ∃ k, (joined ls).length + 2 - ls.length = k + 1 := ⟨(joined ls).length + 1 - ls.length, by omega⟩
  have hs := scan_nil (pre := joined ls)
  rw [List.append_nil] at hs
  rw [hk, Scanner.loop, hs]

theorem loop_long (ls : List Bytes) (h : ∀ l ∈ ls, Line l) {r : Bytes} (hr : (10 : UInt8) ∉ r.take 65536) (hl : 65536 ≤ r.length) :
    (Scanner.new.loop (joined ls ++ r) ((joined ls ++ r).length + 2)).2.ended = some false := by
  have := joined_length ls
  have hl' := loop_lines r ls [] ((joined ls ++ r).length + 2) h (by simp; omega)
  simp only [List.nil_append, List.length_nil] at hl'
  unfold Scanner.new
  rw [hl']
  obtain ⟨k, hk⟩ : ∃ k, (joined ls ++ r).length + 2 - ls.length = k + 1 := ⟨(joined ls ++ r).length + 1 - ls.length, by simp; omega⟩
  rw [hk, Scanner.loop, scan_long hr hl]

end Birch.Proofs.JsonStream
