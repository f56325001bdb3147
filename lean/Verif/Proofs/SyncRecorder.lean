import Verif.Spec.SyncRecorder
import Verif.Proofs.Synchronized

namespace Birch.Proofs.SyncRecorder
open Birch Model Model.SyncRecorder Spec.SyncRecorder
open _root_.Birch.Model.Recorders (Call)
open _root_.Birch.Model.Interval (upd)
open _root_.Birch.Proofs.Synchronized (upd_same upd_ne)

variable {σ ρ : Type} {apply : Call → σ → σ × Option ρ → Prop}

theorem forward_eq (c : Call) : forward c = c := by cases c <;> rfl

structure Inv (s : State σ ρ) : Prop where
  holds : ∀ i, Holds (s.callers i) → s.holder = some i
  fresh : ∀ i c v, s.callers i = .loaded c v → v = s.inner

theorem inv_new (r : σ) : Inv (new r : State σ ρ) := ⟨by simp [new, Holds], by simp [new]⟩

/-- what a caller does changes only its own place -/
theorem holds_upd {s : State σ ρ} (h : ∀ i, Holds (s.callers i) → s.holder = some i) (i : Nat) (c : Caller σ ρ) (hc : Holds c → s.holder = some i) :
    ∀ j, Holds (upd s.callers i c j) → s.holder = some j := by
  intro j
  by_cases hj : j = i
  · subst hj; rw [upd_same]; exact hc
  · rw [upd_ne _ _ hj]; exact h j

theorem inv_step {s t : State σ ρ} {l : Label ρ} (h : Inv s) (st : Step apply s l t) : Inv t := by
  obtain ⟨h1, h2⟩ := h
  have others : ∀ {i : Nat} {c : Caller σ ρ} {w : σ}, s.holder = some i → (∀ c' v, c ≠ .loaded c' v) →
      ∀ j c' v, upd s.callers i c j = .loaded c' v → v = w := by
    intro i c w hh hc j c' v
    by_cases hj : j = i
    · subst hj; rw [upd_same]; intro e; exact absurd e (hc c' v)
    · rw [upd_ne _ _ hj]
      intro e
      have := h1 j (by rw [e]; trivial)
      rw [hh] at this
      exact absurd (Option.some.inj this).symm hj
  cases st with
  | @call i c hc =>
    refine ⟨holds_upd h1 i _ (by simp [Holds]), fun j c' v => ?_⟩
    by_cases hj : j = i
    · subst hj; simp [upd_same]
    · simp only [upd_ne _ _ hj]; exact h2 j c' v
  | @lock i c hc hh =>
    refine ⟨fun j => ?_, fun j c' v => ?_⟩ <;> by_cases hj : j = i
    · subst hj; simp
    · simp only [upd_ne _ _ hj]; intro a; have := h1 j a; rw [hh] at this; cases this
    · subst hj; simp [upd_same]
    · simp only [upd_ne _ _ hj]; exact h2 j c' v
  | @load i c hc =>
    refine ⟨holds_upd h1 i _ (fun _ => h1 i (by rw [hc]; trivial)), fun j c' v => ?_⟩
    by_cases hj : j = i
    · subst hj; simp only [upd_same, Caller.loaded.injEq]; rintro ⟨_, rfl⟩; rfl
    · simp only [upd_ne _ _ hj]; exact h2 j c' v
  | @store i c v w r hc ha =>
    have hh := h1 i (by rw [hc]; trivial)
    exact ⟨holds_upd h1 i _ fun _ => hh, others hh (by simp)⟩
  | @panic i c v w hc ha =>
    have hh := h1 i (by rw [hc]; trivial)
    exact ⟨holds_upd h1 i _ fun _ => hh, others hh (by simp)⟩
  | @unlock i c r hc =>
    have hh := h1 i (by rw [hc]; trivial)
    refine ⟨fun j => ?_, others hh (by simp)⟩
    by_cases hj : j = i
    · subst hj; simp [upd_same, Holds]
    · simp only [upd_ne _ _ hj]; intro a; have := h1 j a; rw [hh] at this; exact absurd (Option.some.inj this).symm hj

theorem inv_steps {s t : State σ ρ} {ls : List (Label ρ)} (h : Inv s) (st : Steps apply s ls t) : Inv t := by
  induction st with
  | refl => exact h
  | step st _ ih => exact ih (inv_step h st)

theorem sequential {s t : State σ ρ} {ls : List (Label ρ)} (h : Inv s) (st : Steps apply s ls t) : Sequential apply s.inner (effects ls) t.inner := by
  induction st with
  | refl => exact .nil
  | @step s t u l ls st _ ih =>
    have hi := ih (inv_step h st)
    cases st with
    | call => exact hi
    | lock => exact hi
    | load => exact hi
    | @store i c v w r hc ha =>
      obtain rfl := h.fresh i c v hc
      exact .cons ha hi
    | @panic i c v w hc ha =>
      obtain rfl := h.fresh i c v hc
      exact .cons ha hi
    | unlock => exact hi

/-- the labels of a caller from some point of a call on -/
def From (i : Nat) : Caller σ ρ → List (Label ρ) → Prop
  | .idle, l => Calls i l
  | .waiting c, l => Calls i (.call i c :: l)
  | .inside c, l => Calls i (.call i c :: l)
  | .loaded c _, l => Calls i (.call i c :: l)
  | .done c r, l => Calls i (.call i c :: .effect i c (some r) :: l)

theorem calls {s t : State σ ρ} {ls : List (Label ρ)} (st : Steps apply s ls t) (i : Nat) : From i (s.callers i) (ofCaller i ls) := by
  induction st with
  | @refl s =>
    cases h : s.callers i with
    | idle => exact .nil
    | waiting o => exact .called
    | inside o => exact .called
    | loaded o v => exact .called
    | done o r => exact .pending
  | @step s t u l ls st _ ih =>
    cases st with
    | @call j o hc =>
      by_cases hj : j = i
      · subst hj
        simp only [upd_same] at ih
        rw [hc]
        simp only [ofCaller, if_true]
        exact ih
      · simp only [upd_ne _ _ (Ne.symm hj)] at ih
        simp only [ofCaller, if_neg hj]
        exact ih
    | @lock j o hc =>
      by_cases hj : j = i
      · subst hj
        simp only [upd_same] at ih
        rw [hc]; exact ih
      · simp only [upd_ne _ _ (Ne.symm hj)] at ih; exact ih
    | @load j o hc =>
      by_cases hj : j = i
      · subst hj
        simp only [upd_same] at ih
        rw [hc]; exact ih
      · simp only [upd_ne _ _ (Ne.symm hj)] at ih; exact ih
    | @store j o v w r hc =>
      by_cases hj : j = i
      · subst hj
        simp only [upd_same] at ih
        rw [hc]; simp only [ofCaller, if_true, forward_eq]; exact ih
      · simp only [upd_ne _ _ (Ne.symm hj)] at ih; simp only [ofCaller, if_neg hj]; exact ih
    | @panic j o v w hc =>
      by_cases hj : j = i
      · subst hj
        simp only [upd_same] at ih
        rw [hc]; simp only [ofCaller, if_true, forward_eq]; exact .panicked ih
      · simp only [upd_ne _ _ (Ne.symm hj)] at ih; simp only [ofCaller, if_neg hj]; exact ih
    | @unlock j o r hc =>
      by_cases hj : j = i
      · subst hj
        simp only [upd_same] at ih
        rw [hc]; simp only [ofCaller, if_true]; exact .returned ih
      · simp only [upd_ne _ _ (Ne.symm hj)] at ih; simp only [ofCaller, if_neg hj]; exact ih

/-- who has the lock is in a call -/
def Held (s : State σ ρ) : Prop := ∀ i, s.holder = some i → Holds (s.callers i)

theorem held_step {s t : State σ ρ} {l : Label ρ} (h : Held s) (st : Step apply s l t) (hp : ∀ i c, l ≠ .effect i c none) : Held t := by
  have keep : ∀ (i : Nat) (c : Caller σ ρ), (Holds (s.callers i) → Holds c) → ∀ j, s.holder = some j → Holds (upd s.callers i c j) := by
    intro i c hc j hj
    by_cases e : j = i
    · subst e; rw [upd_same]; exact hc (h j hj)
    · rw [upd_ne _ _ e]; exact h j hj
  cases st with
  | @call i c hc => exact fun j hj => keep i _ (by rw [hc]; simp [Holds]) j hj
  | @lock i c hc hh => intro j hj; cases hj; simp only [upd_same]; trivial
  | @load i c hc => exact fun j hj => keep i (.loaded c s.inner) (fun _ => trivial) j hj
  | @store i c v w r hc ha => exact fun j hj => keep i (.done c r) (fun _ => trivial) j hj
  | @panic i c v w hc ha => exact absurd rfl (hp _ _)
  | @unlock i c r hc => intro j hj; cases hj

theorem held_steps {s t : State σ ρ} {ls : List (Label ρ)} (hi : Inv s) (h : Held s) (st : Steps apply s ls t) (hp : ¬ Panicked ls) : Held t := by
  induction st with
  | refl => exact h
  | @step s t u l ls st _ ih =>
    refine ih (inv_step hi st) (held_step h st ?_) ?_
    · rintro i c rfl; exact hp ⟨i, c, by simp⟩
    · rintro ⟨i, c, hm⟩; exact hp ⟨i, c, List.mem_cons_of_mem _ hm⟩

/-- the lock is held by nobody in a call -/
def Lost (s : State σ ρ) : Prop := s.holder ≠ none ∧ ∀ i, ¬ Holds (s.callers i)

theorem lost_step {s t : State σ ρ} {l : Label ρ} (h : Lost s) (st : Step apply s l t) : Lost t ∧ IsCall l := by
  obtain ⟨h1, h2⟩ := h
  cases st with
  | @call i c hc =>
    refine ⟨⟨h1, fun j => ?_⟩, trivial⟩
    by_cases hj : j = i
    · subst hj; simp [upd_same, Holds]
    · simp only [upd_ne _ _ hj]; exact h2 j
  | lock _ hh => exact absurd hh h1
  | @load i c hc => exact absurd (by rw [hc]; trivial) (h2 i)
  | @store i c v w r hc => exact absurd (by rw [hc]; trivial) (h2 i)
  | @panic i c v w hc => exact absurd (by rw [hc]; trivial) (h2 i)
  | @unlock i c r hc => exact absurd (by rw [hc]; trivial) (h2 i)

theorem lost_steps {s t : State σ ρ} {ls : List (Label ρ)} (h : Lost s) (st : Steps apply s ls t) : Lost t ∧ ∀ l ∈ ls, IsCall l := by
  induction st with
  | refl => exact ⟨h, by simp⟩
  | @step s t u l ls st _ ih =>
    obtain ⟨h1, h2⟩ := lost_step h st
    obtain ⟨h3, h4⟩ := ih h1
    refine ⟨h3, fun m hm => ?_⟩
    rcases List.mem_cons.mp hm with rfl | hm
    · exact h2
    · exact h4 m hm

theorem panic_lost {s t : State σ ρ} {i : Nat} {c : Call} (hi : Inv s) (st : Step apply s (.effect i c none) t) : Lost t := by
  cases st with
  | @panic _ c v w hc ha =>
    have hh := hi.holds i (by rw [hc]; trivial)
    refine ⟨by simp [hh], fun j => ?_⟩
    by_cases hj : j = i
    · subst hj; simp [upd_same, Holds]
    · simp only [upd_ne _ _ hj]
      intro a
      have := hi.holds j a
      rw [hh] at this
      exact hj (Option.some.inj this).symm

theorem panicked_lost {s t : State σ ρ} {ls : List (Label ρ)} (hi : Inv s) (st : Steps apply s ls t) (hp : Panicked ls) : Lost t := by
  induction st with
  | refl => obtain ⟨_, _, h⟩ := hp; cases h
  | @step s t u l ls st sts ih =>
    obtain ⟨i, c, hm⟩ := hp
    rcases List.mem_cons.mp hm with rfl | hm
    · exact (lost_steps (panic_lost hi st) sts).1
    · exact ih (inv_step hi st) ⟨i, c, hm⟩

theorem run_sequential {k : Recorders.Flavor} : ∀ {r r' : Recorders.Recorder} {es : List (Nat × Call × Option Unit)}, Sequential (performance k) r es r' →
    ∃ nows : List (Nat → Time), nows.length = es.length ∧ r' = Recorders.run k r ((es.map fun e => e.2.1).zip nows) := by
  intro r r' es h
  induction h with
  | nil => exact ⟨[], rfl, rfl⟩
  | cons ha _ ih =>
    obtain ⟨now, e⟩ := ha
    obtain ⟨nows, h1, h2⟩ := ih
    cases e
    exact ⟨now :: nows, by simp [h1], by simpa [Recorders.run] using h2⟩

theorem recorderCalls_append : ∀ (a b : List Act), recorderCalls (a ++ b) = recorderCalls a ++ recorderCalls b
  | [], b => rfl
  | .recorder c :: a, b => by simp [recorderCalls, recorderCalls_append a b]
  | .timer c :: a, b => by simp [recorderCalls, recorderCalls_append a b]

theorem timerCalls_append : ∀ (a b : List Act), timerCalls (a ++ b) = timerCalls a ++ timerCalls b
  | [], b => rfl
  | .recorder c :: a, b => by simp [timerCalls, timerCalls_append a b]
  | .timer c :: a, b => by simp [timerCalls, timerCalls_append a b]

end Birch.Proofs.SyncRecorder
