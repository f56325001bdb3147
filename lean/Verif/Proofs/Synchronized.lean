import Verif.Spec.Concurrent

namespace Birch.Proofs.Synchronized
open Birch Model Model.Synchronized Spec.Concurrent
open _root_.Birch.Model.Interval (upd)

variable {σ ω ρ : Type} {isRead : ω → Bool} {apply : ω → σ → σ × ρ}

structure Inv (isRead : ω → Bool) (s : State σ ω ρ) : Prop where
  write : ∀ i o, held (s.callers i) = some o → isRead o = false → s.writer = some i
  read : ∀ i o, held (s.callers i) = some o → isRead o = true → i ∈ s.readers
  excl : ∀ i, s.writer = some i → s.readers = []
  fresh : ∀ i o v, s.callers i = .loaded o v → v = s.inner

theorem inv_new (c : σ) : Inv isRead (new c : State σ ω ρ) := ⟨by simp [new, held], by simp [new, held], by simp [new], by simp [new]⟩

theorem upd_same {β : Type} (f : Nat → β) (i : Nat) (x : β) : upd f i x i = x := by simp [upd]
theorem upd_ne {β : Type} (f : Nat → β) {i j : Nat} (x : β) (h : j ≠ i) : upd f i x j = f j := by simp [upd, h]

theorem inv_step {s t : State σ ω ρ} {l : Label ω ρ} (h : Inv isRead s) (st : Step isRead apply s l t) : Inv isRead t := by
  obtain ⟨h1, h2, h3, h4⟩ := h
  cases st with
  | @call i o hc =>
    refine ⟨fun j o' => ?_, fun j o' => ?_, h3, fun j o' v => ?_⟩ <;> by_cases hj : j = i
    · subst hj; simp [upd_same, held]
    · simp only [upd_ne _ _ hj]; exact h1 j o'
    · subst hj; simp [upd_same, held]
    · simp only [upd_ne _ _ hj]; exact h2 j o'
    · subst hj; simp [upd_same]
    · simp only [upd_ne _ _ hj]; exact h4 j o' v
  | @lock i o hc hr hw hn =>
    refine ⟨fun j o' => ?_, fun j o' => ?_, fun _ _ => hn, fun j o' v => ?_⟩ <;> by_cases hj : j = i
    · subst hj; simp
    · simp only [upd_ne _ _ hj]; intro a b; have := h1 j o' a b; rw [hw] at this; cases this
    · subst hj; simp only [upd_same, held, Option.some.injEq]; rintro rfl h; rw [hr] at h; cases h
    · simp only [upd_ne _ _ hj]; exact h2 j o'
    · subst hj; simp [upd_same]
    · simp only [upd_ne _ _ hj]; exact h4 j o' v
  | @rlock i o hc hr hw =>
    refine ⟨fun j o' => ?_, fun j o' => ?_, fun k hk => ?_, fun j o' v => ?_⟩
    · by_cases hj : j = i
      · subst hj; simp only [upd_same, held, Option.some.injEq]; rintro rfl h; rw [hr] at h; cases h
      · simp only [upd_ne _ _ hj]; exact h1 j o'
    · by_cases hj : j = i
      · subst hj; simp
      · simp only [upd_ne _ _ hj]; intro a b; exact List.mem_cons_of_mem _ (h2 j o' a b)
    · simp only [hw] at hk; cases hk
    · by_cases hj : j = i
      · subst hj; simp [upd_same]
      · simp only [upd_ne _ _ hj]; exact h4 j o' v
  | @load i o hc =>
    refine ⟨fun j o' => ?_, fun j o' => ?_, h3, fun j o' v => ?_⟩ <;> by_cases hj : j = i
    · subst hj; simp only [upd_same]; intro a; exact h1 j o' (by rw [hc]; exact a)
    · simp only [upd_ne _ _ hj]; exact h1 j o'
    · subst hj; simp only [upd_same]; intro a; exact h2 j o' (by rw [hc]; exact a)
    · simp only [upd_ne _ _ hj]; exact h2 j o'
    · subst hj; simp only [upd_same, Caller.loaded.injEq]; rintro ⟨_, rfl⟩; rfl
    · simp only [upd_ne _ _ hj]; exact h4 j o' v
  | @store i o v hc hr =>
    have hw : s.writer = some i := h1 i o (by rw [hc]; rfl) hr
    refine ⟨fun j o' => ?_, fun j o' => ?_, h3, fun j o' v' => ?_⟩ <;> by_cases hj : j = i
    · subst hj; simp only [upd_same]; intro a; exact h1 j o' (by rw [hc]; exact a)
    · simp only [upd_ne _ _ hj]; exact h1 j o'
    · subst hj; simp only [upd_same]; intro a; exact h2 j o' (by rw [hc]; exact a)
    · simp only [upd_ne _ _ hj]; exact h2 j o'
    · subst hj; simp [upd_same]
    · simp only [upd_ne _ _ hj]
      intro a
      exfalso
      cases hb : isRead o' with
      | false => have := h1 j o' (by rw [a]; rfl) hb; rw [hw] at this; exact hj (Option.some.inj this).symm
      | true => have := h2 j o' (by rw [a]; rfl) hb; rw [h3 i hw] at this; cases this
  | @answer i o v hc hr =>
    refine ⟨fun j o' => ?_, fun j o' => ?_, h3, fun j o' v' => ?_⟩ <;> by_cases hj : j = i
    · subst hj; simp only [upd_same]; intro a; exact h1 j o' (by rw [hc]; exact a)
    · simp only [upd_ne _ _ hj]; exact h1 j o'
    · subst hj; simp only [upd_same]; intro a; exact h2 j o' (by rw [hc]; exact a)
    · simp only [upd_ne _ _ hj]; exact h2 j o'
    · subst hj; simp [upd_same]
    · simp only [upd_ne _ _ hj]; exact h4 j o' v'
  | @unlock i o r hc hr =>
    have hw : s.writer = some i := h1 i o (by rw [hc]; rfl) hr
    refine ⟨fun j o' => ?_, fun j o' => ?_, fun k hk => (by cases hk), fun j o' v => ?_⟩ <;> by_cases hj : j = i
    · subst hj; simp [upd_same, held]
    · simp only [upd_ne _ _ hj]; intro a b; have := h1 j o' a b; rw [hw] at this; exact absurd (Option.some.inj this).symm hj
    · subst hj; simp [upd_same, held]
    · simp only [upd_ne _ _ hj]; exact h2 j o'
    · subst hj; simp [upd_same]
    · simp only [upd_ne _ _ hj]; exact h4 j o' v
  | @runlock i o r hc hr =>
    refine ⟨fun j o' => ?_, fun j o' => ?_, fun k hk => (by simp only; rw [h3 k hk]; rfl), fun j o' v => ?_⟩ <;> by_cases hj : j = i
    · subst hj; simp [upd_same, held]
    · simp only [upd_ne _ _ hj]; exact h1 j o'
    · subst hj; simp [upd_same, held]
    · simp only [upd_ne _ _ hj]; intro a b; exact (List.mem_erase_of_ne hj).mpr (h2 j o' a b)
    · subst hj; simp [upd_same]
    · simp only [upd_ne _ _ hj]; exact h4 j o' v

theorem inv_steps {s t : State σ ω ρ} {ls : List (Label ω ρ)} (h : Inv isRead s) (st : Steps isRead apply s ls t) : Inv isRead t := by
  induction st with
  | refl => exact h
  | step st _ ih => exact ih (inv_step h st)

theorem steps_append {s t u : State σ ω ρ} {ls ms : List (Label ω ρ)} (h1 : Steps isRead apply s ls t) (h2 : Steps isRead apply t ms u) : Steps isRead apply s (ls ++ ms) u := by
  induction h1 with
  | refl => exact h2
  | step st _ ih => exact .step st (ih h2)

/-- who is said to have the lock has it -/
def Locked (s : State σ ω ρ) : Prop := (∀ i, s.writer = some i → ∃ o, held (s.callers i) = some o) ∧ (∀ i ∈ s.readers, ∃ o, held (s.callers i) = some o)

/-- a caller is a reader only once, and only while it reads -/
structure Once (isRead : ω → Bool) (s : State σ ω ρ) : Prop where
  nodup : s.readers.Nodup
  write : ∀ i, s.writer = some i → ∃ o, held (s.callers i) = some o ∧ isRead o = false
  read : ∀ i ∈ s.readers, ∃ o, held (s.callers i) = some o ∧ isRead o = true

theorem once_step {s t : State σ ω ρ} {l : Label ω ρ} (hi : Inv isRead s) (h : Once isRead s) (st : Step isRead apply s l t) : Once isRead t := by
  obtain ⟨h1, h2, h3⟩ := h
  have same : ∀ (i : Nat) (c : Caller σ ω ρ), held c = held (s.callers i) → ∀ j, held (upd s.callers i c j) = held (s.callers j) := by
    intro i c hc j
    by_cases hj : j = i
    · subst hj; simp only [upd_same]; exact hc
    · simp only [upd_ne _ _ hj]
  cases st with
  | @call i o hc =>
    have e := same i (.waiting o) (by rw [hc]; rfl)
    exact ⟨h1, fun j hj => by simp only [e]; exact h2 j hj, fun j hj => by simp only [e]; exact h3 j hj⟩
  | @load i o hc =>
    have e := same i (.loaded o s.inner) (by rw [hc]; rfl)
    exact ⟨h1, fun j hj => by simp only [e]; exact h2 j hj, fun j hj => by simp only [e]; exact h3 j hj⟩
  | @store i o v hc =>
    have e := same i (.done o (apply o v).2) (by rw [hc]; rfl)
    exact ⟨h1, fun j hj => by simp only [e]; exact h2 j hj, fun j hj => by simp only [e]; exact h3 j hj⟩
  | @answer i o v hc =>
    have e := same i (.done o (apply o v).2) (by rw [hc]; rfl)
    exact ⟨h1, fun j hj => by simp only [e]; exact h2 j hj, fun j hj => by simp only [e]; exact h3 j hj⟩
  | @lock i o hc hr hw hn =>
    refine ⟨h1, fun j hj => ?_, fun j hj => ?_⟩
    · cases hj; exact ⟨o, by simp only [upd_same]; rfl, hr⟩
    · simp only [hn] at hj; cases hj
  | @rlock i o hc hr hw =>
    have hni : i ∉ s.readers := fun hm => by obtain ⟨_, h, _⟩ := h3 i hm; rw [hc] at h; cases h
    refine ⟨List.nodup_cons.mpr ⟨hni, h1⟩, fun j hj => ?_, fun j hj => ?_⟩
    · simp only [hw] at hj; cases hj
    · by_cases hji : j = i
      · subst hji; exact ⟨o, by simp only [upd_same]; rfl, hr⟩
      · simp only [upd_ne _ _ hji]
        rcases List.mem_cons.mp hj with hj | hj
        · exact absurd hj hji
        · exact h3 j hj
  | @unlock i o r hc hr =>
    have hw := hi.write i o (by rw [hc]; rfl) hr
    refine ⟨h1, fun j hj => (by cases hj), fun j hj => ?_⟩
    simp only [hi.excl i hw] at hj; cases hj
  | @runlock i o r hc hr =>
    refine ⟨h1.erase i, fun j hj => ?_, fun j hj => ?_⟩
    · have hm := hi.read i o (by rw [hc]; rfl) hr
      rw [hi.excl j hj] at hm; cases hm
    · obtain ⟨ne, hm⟩ := (List.Nodup.mem_erase_iff h1).mp hj
      simp only [upd_ne _ _ ne]; exact h3 j hm

theorem locked {c : σ} {s : State σ ω ρ} {ls : List (Label ω ρ)} (st : Steps isRead apply (new c) ls s) : Locked s := by
  have key : ∀ (s t : State σ ω ρ) (ls : List (Label ω ρ)), Inv isRead s → Once isRead s → Steps isRead apply s ls t → Once isRead t := by
    intro s t ls hi ho st
    induction st with
    | refl => exact ho
    | step st _ ih => exact ih (inv_step hi st) (once_step hi ho st)
  have := key _ _ ls (inv_new c) ⟨.nil, by simp [new], by simp [new]⟩ st
  exact ⟨fun i hi => (this.write i hi).imp fun _ h => h.1, fun i hi => (this.read i hi).imp fun _ h => h.1⟩

theorem sequential {s t : State σ ω ρ} {ls : List (Label ω ρ)} (hro : ∀ o v, isRead o = true → (apply o v).1 = v) (h : Inv isRead s)
    (st : Steps isRead apply s ls t) : Sequential apply s.inner (effects ls) t.inner := by
  induction st with
  | refl => exact .nil
  | @step s t u l ls st _ ih =>
    have hi := ih (inv_step h st)
    cases st with
    | call => exact hi
    | lock => exact hi
    | rlock => exact hi
    | load => exact hi
    | @store i o v hc hr =>
      have := h.fresh i o v hc
      subst this
      exact .cons hi
    | @answer i o v hc hr =>
      have := h.fresh i o v hc
      subst this
      refine .cons ?_
      rw [hro o _ hr]
      exact hi
    | unlock => exact hi
    | runlock => exact hi

/-- the labels of a caller from some point of a call on -/
def From (i : Nat) : Caller σ ω ρ → List (Label ω ρ) → Prop
  | .idle, l => Calls i l
  | .waiting o, l => Calls i (.call i o :: l)
  | .inside o, l => Calls i (.call i o :: l)
  | .loaded o _, l => Calls i (.call i o :: l)
  | .done o r, l => Calls i (.call i o :: .effect i o r :: l)

theorem calls {s t : State σ ω ρ} {ls : List (Label ω ρ)} (st : Steps isRead apply s ls t) (i : Nat) : From i (s.callers i) (ofCaller i ls) := by
  induction st with
  | @refl s =>
    cases h : s.callers i with
    | idle => exact .nil
    | waiting o => exact .called
    | inside o => exact .called
    | loaded o v => exact .called
    | done o r => exact .pending
  | @step s t u l ls st _ ih =>
    cases st with
    | @call j o hc =>
      by_cases hj : j = i
      · subst hj
        simp only [upd_same] at ih
        rw [hc]
        simp only [ofCaller, if_true]
        exact ih
      · simp only [upd_ne _ _ (Ne.symm hj)] at ih
        simp only [ofCaller, if_neg hj]
        exact ih
    | @lock j o hc =>
      by_cases hj : j = i
      · subst hj
        simp only [upd_same] at ih
        rw [hc]; exact ih
      · simp only [upd_ne _ _ (Ne.symm hj)] at ih; exact ih
    | @rlock j o hc =>
      by_cases hj : j = i
      · subst hj
        simp only [upd_same] at ih
        rw [hc]; exact ih
      · simp only [upd_ne _ _ (Ne.symm hj)] at ih; exact ih
    | @load j o hc =>
      by_cases hj : j = i
      · subst hj
        simp only [upd_same] at ih
        rw [hc]; exact ih
      · simp only [upd_ne _ _ (Ne.symm hj)] at ih; exact ih
    | @store j o v hc =>
      by_cases hj : j = i
      · subst hj
        simp only [upd_same] at ih
        rw [hc]; simp only [ofCaller, if_true]; exact ih
      · simp only [upd_ne _ _ (Ne.symm hj)] at ih; simp only [ofCaller, if_neg hj]; exact ih
    | @answer j o v hc =>
      by_cases hj : j = i
      · subst hj
        simp only [upd_same] at ih
        rw [hc]; simp only [ofCaller, if_true]; exact ih
      · simp only [upd_ne _ _ (Ne.symm hj)] at ih; simp only [ofCaller, if_neg hj]; exact ih
    | @unlock j o r hc =>
      by_cases hj : j = i
      · subst hj
        simp only [upd_same] at ih
        rw [hc]; simp only [ofCaller, if_true]; exact .cons ih
      · simp only [upd_ne _ _ (Ne.symm hj)] at ih; simp only [ofCaller, if_neg hj]; exact ih
    | @runlock j o r hc =>
      by_cases hj : j = i
      · subst hj
        simp only [upd_same] at ih
        rw [hc]; simp only [ofCaller, if_true]; exact .cons ih
      · simp only [upd_ne _ _ (Ne.symm hj)] at ih; simp only [ofCaller, if_neg hj]; exact ih

end Birch.Proofs.Synchronized
