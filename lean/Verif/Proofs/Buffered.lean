import Verif.Spec.Concurrent

namespace Birch.Proofs.Buffered
open Birch Model Model.Buffered Spec.Concurrent
open _root_.Birch.Model.Interval (upd)

variable {σ α : Type} {add : σ → α → σ × Option Err} {size : Nat}

/-- the item that the goroutine has taken from the channel -/
def inHand : Worker α → List α
  | .adding x => [x]
  | .draining x => [x]
  | _ => []

structure Inv (size : Nat) (s : State σ α) : Prop where
  room : s.pipe.length ≤ size
  done : s.closed = true → s.ctxDone = true
  worker : match s.worker with
    | .selecting => s.closed = false
    | .adding _ => s.closed = false
    | .closing => s.closed = false ∧ s.ctxDone = true
    | .checking => s.closed = true
    | .ranging => s.closed = true
    | .draining _ => s.closed = true
    | .returned => s.closed = true ∧ s.pipe = []

theorem inv_new (c : σ) : Inv size (new c : State σ α) := ⟨Nat.zero_le _, by simp [new], rfl⟩

theorem inv_step {s t : State σ α} {l : Label σ α} (h : Inv size s) (st : Step add size s l t) : Inv size t := by
  obtain ⟨h1, h2, h3⟩ := h
  cases st with
  | call => exact ⟨h1, h2, h3⟩
  | send hc ho hr =>
    refine ⟨by simp only [List.length_append, List.length_cons, List.length_nil]; omega, h2, ?_⟩
    cases hw : s.worker <;> simp only [hw] at h3 ⊢ <;> first | exact h3 | (rw [ho] at h3; simp at h3)
  | handOver hc ho hp hw => exact ⟨h1, h2, ho⟩
  | panic => exact ⟨h1, h2, h3⟩
  | refuse => exact ⟨h1, h2, h3⟩
  | receive hw hp =>
    rw [hw] at h3
    refine ⟨?_, h2, h3⟩
    rw [hp] at h1; simp at h1; simp only; omega
  | add hw => rw [hw] at h3; exact ⟨h1, h2, h3⟩
  | notice hw hd => rw [hw] at h3; exact ⟨h1, h2, h3, hd⟩
  | close hw => rw [hw] at h3; exact ⟨h1, fun _ => h3.2, rfl⟩
  | check hw =>
    rw [hw] at h3
    refine ⟨h1, h2, ?_⟩
    by_cases hp : s.pipe.length = 0
    · simp only [hp, ne_eq, not_true, if_false]; exact ⟨h3, List.length_eq_zero_iff.mp hp⟩
    · simp only [ne_eq, hp, not_false_eq_true, if_true]; exact h3
  | next hw hp =>
    rw [hw] at h3
    refine ⟨?_, h2, h3⟩
    rw [hp] at h1; simp at h1; simp only; omega
  | drain hw => rw [hw] at h3; exact ⟨h1, h2, h3⟩
  | finish hw hp => rw [hw] at h3; exact ⟨h1, h2, h3, hp⟩
  | cancel =>
    refine ⟨h1, fun _ => rfl, ?_⟩
    cases hw : s.worker <;> simp only [hw] at h3 ⊢ <;> first | exact h3 | exact ⟨h3.1, trivial⟩
  | resolve => exact ⟨h1, h2, h3⟩

theorem inv_steps {s t : State σ α} {ls : List (Label σ α)} (h : Inv size s) (st : Steps add size s ls t) : Inv size t := by
  induction st with
  | refl => exact h
  | step st _ ih => exact ih (inv_step h st)

/-- one step: what is sent, what is added, what is under way -/
theorem fifo_step {s t : State σ α} {l : Label σ α} (st : Step add size s l t) :
    inHand s.worker ++ s.pipe ++ sent [l] = added [l] ++ (inHand t.worker ++ t.pipe) ∧ t.inner = (addAll add s.inner (added [l])).1 ∧
      t.catcher = s.catcher ++ (addAll add s.inner (added [l])).2 := by
  cases st with
  | call => simp [sent, added, addAll]
  | send => simp [sent, added, addAll]
  | handOver hc ho hp hw => simp [sent, added, addAll, hp, hw, inHand]
  | panic => simp [sent, added, addAll]
  | refuse => simp [sent, added, addAll]
  | receive hw hp => simp [sent, added, addAll, hp, hw, inHand]
  | add hw => simp [sent, added, addAll, hw, inHand]
  | notice hw => simp [sent, added, addAll, hw, inHand]
  | close hw => simp [sent, added, addAll, hw, inHand]
  | check hw =>
    by_cases hp : s.pipe.length = 0 <;> simp [sent, added, addAll, hw, hp, inHand]
  | next hw hp => simp [sent, added, addAll, hp, hw, inHand]
  | drain hw => simp [sent, added, addAll, hw, inHand]
  | finish hw hp => simp [sent, added, addAll, hw, inHand]
  | cancel => simp [sent, added, addAll]
  | resolve => simp [sent, added, addAll]

theorem sent_cons (l : Label σ α) (ls : List (Label σ α)) : sent (l :: ls) = sent [l] ++ sent ls := by cases l <;> simp [sent]

theorem added_cons (l : Label σ α) (ls : List (Label σ α)) : added (l :: ls) = added [l] ++ added ls := by cases l <;> simp [added]

theorem addAll_append (add : σ → α → σ × Option Err) : ∀ (c : σ) (xs ys : List α),
    addAll add c (xs ++ ys) = ((addAll add (addAll add c xs).1 ys).1, (addAll add c xs).2 ++ (addAll add (addAll add c xs).1 ys).2)
  | c, [], ys => by simp [addAll]
  | c, x :: xs, ys => by simp [addAll, addAll_append add (add c x).1 xs ys]

theorem fifo {s t : State σ α} {ls : List (Label σ α)} (st : Steps add size s ls t) :
    inHand s.worker ++ s.pipe ++ sent ls = added ls ++ (inHand t.worker ++ t.pipe) ∧ t.inner = (addAll add s.inner (added ls)).1 ∧
      t.catcher = s.catcher ++ (addAll add s.inner (added ls)).2 := by
  induction st with
  | refl => simp [sent, added, addAll]
  | @step s t u l ls st _ ih =>
    obtain ⟨h1, h2, h3⟩ := fifo_step st
    obtain ⟨i1, i2, i3⟩ := ih
    rw [sent_cons, added_cons, addAll_append]
    refine ⟨?_, by rw [i2, h2], by rw [i3, h3, ← h2, List.append_assoc]⟩
    rw [← List.append_assoc, h1, List.append_assoc, i1, List.append_assoc]

/-- the item with which the caller is in `Add` -/
def pending : Caller α → List α
  | .selecting x => [x]
  | _ => []

theorem calls_step {s t : State σ α} {l : Label σ α} (st : Step add size s l t) (i : Nat) :
    pending (s.callers i) ++ called i [l] = (outcomes i [l]).map Prod.fst ++ pending (t.callers i) := by
  have e : ∀ (j : Nat) (x : α) (c : Caller α), s.callers j = .selecting x → pending c = [] → ∀ o : Outcome,
      pending (s.callers i) = (if j = i then [(x, o)] else []).map Prod.fst ++ pending (upd s.callers j c i) := by
    intro j x c hc hp o
    by_cases hj : j = i
    · subst hj; rw [hc]; simp [upd, hp]; rfl
    · simp [hj, upd, Ne.symm hj]
  cases st with
  | @call j x hc =>
    by_cases hj : j = i
    · subst hj; simp [called, outcomes, hc, upd, pending]
    · simp [called, outcomes, hj, upd, Ne.symm hj]
  | @send j x hc => simpa [called, outcomes] using e j x .idle hc rfl .accepted
  | @handOver j x hc => simpa [called, outcomes] using e j x .idle hc rfl .accepted
  | @panic j x hc => simpa [called, outcomes] using e j x .panicked hc rfl .panicked
  | @refuse j x hc => simpa [called, outcomes] using e j x .idle hc rfl .refused
  | receive => simp [called, outcomes]
  | add => simp [called, outcomes]
  | notice => simp [called, outcomes]
  | close => simp [called, outcomes]
  | check => simp [called, outcomes]
  | next => simp [called, outcomes]
  | drain => simp [called, outcomes]
  | finish => simp [called, outcomes]
  | cancel => simp [called, outcomes]
  | resolve => simp [called, outcomes]

theorem called_cons (i : Nat) (l : Label σ α) (ls : List (Label σ α)) : called i (l :: ls) = called i [l] ++ called i ls := by
  cases l <;> simp [called] ; split <;> simp

theorem outcomes_cons (i : Nat) (l : Label σ α) (ls : List (Label σ α)) : outcomes i (l :: ls) = outcomes i [l] ++ outcomes i ls := by
  cases l <;> simp [outcomes] <;> split <;> simp

theorem calls {s t : State σ α} {ls : List (Label σ α)} (st : Steps add size s ls t) (i : Nat) :
    pending (s.callers i) ++ called i ls = (outcomes i ls).map Prod.fst ++ pending (t.callers i) := by
  induction st with
  | refl => simp [called, outcomes]
  | @step s t u l ls st _ ih =>
    rw [called_cons, outcomes_cons, ← List.append_assoc, calls_step st i, List.append_assoc, ih]
    simp

theorem steps_append {s t u : State σ α} {ls ms : List (Label σ α)} (h1 : Steps add size s ls t) (h2 : Steps add size t ms u) : Steps add size s (ls ++ ms) u := by
  induction h1 with
  | refl => exact h2
  | step st _ ih => exact .step st (ih h2)

theorem drains : ∀ (n : Nat) (s : State σ α), s.worker = .ranging → s.pipe.length = n → ∃ ls t, Steps add size s ls t ∧ (∀ l ∈ ls, IsWorker l) ∧ t.worker = .returned := by
  intro n
  induction n with
  | zero => intro s hw hp; exact ⟨[.worker], _, .step (.finish hw (List.length_eq_zero_iff.mp hp)) .refl, by simp [IsWorker], rfl⟩
  | succ n ih =>
    intro s hw hp
    match hq : s.pipe with
    | [] => rw [hq] at hp; cases hp
    | x :: r =>
      rw [hq] at hp
      have st1 : Step add size s .worker _ := .next hw hq
      obtain ⟨ls, t, h1, h2, h3⟩ := ih { { s with worker := .draining x, pipe := r } with worker := .ranging, inner := (add s.inner x).1, catcher := s.catcher ++ (add s.inner x).2.toList } rfl
        (by simpa using hp)
      exact ⟨.worker :: .added x :: ls, t, .step st1 (.step (.drain rfl) h1), by simpa [IsWorker] using h2, h3⟩

theorem stops {s : State σ α} (hd : s.ctxDone = true) :
    ∃ ls t, Steps add size s ls t ∧ (∀ l ∈ ls, IsWorker l) ∧ t.worker = .returned := by
  have k1 : ∀ s : State σ α, s.worker = .checking → ∃ ls t, Steps add size s ls t ∧ (∀ l ∈ ls, IsWorker l) ∧ t.worker = .returned := by
    intro s hw
    by_cases hp : s.pipe.length = 0
    · exact ⟨[.worker], _, .step (.check hw) .refl, by simp [IsWorker], by simp [hp]⟩
    · obtain ⟨ls, t, h1, h2, h3⟩ := drains (add := add) (size := size) _ { s with worker := if s.pipe.length ≠ 0 then .ranging else .returned } (by simp [hp]) rfl
      exact ⟨.worker :: ls, t, .step (.check hw) h1, by simpa [IsWorker] using h2, h3⟩
  have k2 : ∀ s : State σ α, s.worker = .closing → ∃ ls t, Steps add size s ls t ∧ (∀ l ∈ ls, IsWorker l) ∧ t.worker = .returned := by
    intro s hw
    obtain ⟨ls, t, h1, h2, h3⟩ := k1 { s with worker := .checking, closed := true } rfl
    exact ⟨.worker :: ls, t, .step (.close hw) h1, by simpa [IsWorker] using h2, h3⟩
  have k3 : ∀ s : State σ α, s.worker = .selecting → s.ctxDone = true → ∃ ls t, Steps add size s ls t ∧ (∀ l ∈ ls, IsWorker l) ∧ t.worker = .returned := by
    intro s hw hd
    obtain ⟨ls, t, h1, h2, h3⟩ := k2 { s with worker := .closing } rfl
    exact ⟨.worker :: ls, t, .step (.notice hw hd) h1, by simpa [IsWorker] using h2, h3⟩
  cases hw : s.worker with
  | selecting => exact k3 s hw hd
  | adding x =>
    obtain ⟨ls, t, h1, h2, h3⟩ := k3 { s with worker := .selecting, inner := (add s.inner x).1, catcher := s.catcher ++ (add s.inner x).2.toList } rfl hd
    exact ⟨.added x :: ls, t, .step (.add hw) h1, by simpa [IsWorker] using h2, h3⟩
  | closing => exact k2 s hw
  | checking => exact k1 s hw
  | ranging => exact drains _ s hw rfl
  | draining x =>
    obtain ⟨ls, t, h1, h2, h3⟩ := drains (add := add) (size := size) _ { s with worker := .ranging, inner := (add s.inner x).1, catcher := s.catcher ++ (add s.inner x).2.toList } rfl rfl
    exact ⟨.added x :: ls, t, .step (.drain hw) h1, by simpa [IsWorker] using h2, h3⟩
  | returned => exact ⟨[], s, .refl, by simp, hw⟩

/-- the number of steps that the goroutine has to do, apart from those for the items in the channel -/
def left : Worker α → Nat
  | .checking => 2
  | .ranging => 1
  | .draining _ => 2
  | .returned => 0
  | _ => 3

theorem bounded {s t : State σ α} {ls : List (Label σ α)} (hi : Inv size s) (hc : s.closed = true) (st : Steps add size s ls t) : workerSteps ls ≤ 2 * s.pipe.length + left s.worker := by
  induction st with
  | refl => simp [workerSteps]
  | @step s t u l ls st _ ih =>
    have hw := hi.worker
    have hn := inv_step hi st
    cases st with
    | call h => exact ih hn hc
    | send _ h => rw [hc] at h; cases h
    | handOver _ h => rw [hc] at h; cases h
    | panic h => exact ih hn hc
    | refuse h => exact ih hn hc
    | cancel => exact ih hn hc
    | resolve => exact ih hn hc
    | receive h => rw [h, hc] at hw; cases hw
    | add h => rw [h, hc] at hw; cases hw
    | notice h => rw [h, hc] at hw; cases hw
    | close h => rw [h, hc] at hw; cases hw.1
    | check h =>
      have := ih hn hc
      by_cases hp : s.pipe.length ≠ 0
      · simp only [h, workerSteps, if_pos hp] at this ⊢; simp only [left] at this ⊢; omega
      · simp only [h, workerSteps, if_neg hp] at this ⊢; simp only [left] at this ⊢; omega
    | next h hp =>
      have := ih hn hc
      simp only [h, hp, left, workerSteps, List.length_cons] at this ⊢
      omega
    | drain h =>
      have := ih hn hc
      simp only [h, left, workerSteps] at this ⊢
      omega
    | finish h hp =>
      have := ih hn hc
      simp only [h, hp, left, workerSteps, List.length_nil] at this ⊢
      omega

end Birch.Proofs.Buffered
