import Verif.Spec.Pool

/- Lemmas about the worker pools. -/

namespace Birch.Proofs.Pool
open Birch Model.Pool Spec.Pool

variable {α β : Type} {S : Sys α β}

/-! ### executions are finite -/

def weight : Worker α β → Nat
  | .receiving => 2
  | .working _ => 5
  | .sending _ => 4
  | .failed => 1
  | .ended => 0

def mainWeight : Main → Nat
  | .waiting => 2
  | .draining => 1
  | .returned => 0

/-- decreases with each step -/
def measure (s : State α β) : Nat :=
  4 * s.queue.length + (s.workers.map weight).sum + s.out.length + mainWeight s.main + (if s.crashed then 0 else 1)

theorem measure_step {s t : State α β} (h : Step S s t) : measure t < measure s := by
  cases h with
  | receive h0 h1 h2 => simp [measure, h1, h2, weight, h0]; omega
  | quit h0 h1 h2 => simp [measure, h1, h2, weight, h0]
  | finish h0 h1 h2 => simp [measure, h1, weight, h0]
  | panic h0 h1 h2 h3 => simp [measure, h1, weight, h0]
  | push h0 h1 => simp [measure, h1, weight, h0]
  | crash h0 h1 h2 h3 => simp [measure, h0]
  | send h0 h1 h2 => simp [measure, h1, weight, h0]; omega
  | wait h0 h1 h2 => simp [measure, h1, mainWeight, h0]
  | drain h0 h1 h2 => simp [measure, h2, h0]
  | stop h0 h1 h2 h3 => simp [measure, h1, mainWeight, h0]

theorem measure_steps {s t : State α β} {n : Nat} (h : Steps S s n t) : n + measure t ≤ measure s := by
  induction h with
  | refl => omega
  | step a _ ih => have := measure_step a; omega

theorem measure_new (k : Nat) (items : List α) : measure (new k items : State α β) ≤ 6 * items.length + 3 := by
  have : min k items.length ≤ items.length := Nat.min_le_right _ _
  simp [measure, new, weight, mainWeight]
  omega

/-! ### what is where -/

/-- the items and results a worker has -/
def holds : Worker α β → Nat
  | .working _ => 1
  | .sending _ => 1
  | _ => 0

/-- the results that a worker will send -/
def pending (S : Sys α β) : Worker α β → List β
  | .working x => (S.work x).toList
  | .sending y => [y]
  | _ => []

structure Inv (S : Sys α β) (items : List α) (s : State α β) : Prop where
  cap : s.cap = items.length
  size : s.queue.length + (s.workers.map holds).sum + s.out.length + s.taken.length ≤ items.length
  perm : List.Perm (s.taken ++ s.out ++ s.workers.flatMap (pending S) ++ s.queue.filterMap S.work) (items.filterMap S.work)
  sub : ∀ x, x ∈ s.queue ∨ .working x ∈ s.workers → x ∈ items
  main : s.main ≠ .waiting → s.workers.all Worker.done = true ∧ s.closed = S.closes
  returned : s.main = .returned → S.closes = true ∧ s.out = []
  /-- a worker that has ended without a panic has found the queue empty -/
  quit : (∀ x ∈ items, S.work x ≠ none) → (∃ w ∈ s.workers, w.done = true) → s.queue = []
  crashed : s.crashed = true → ∃ x ∈ items, S.work x = none ∧ S.recovers = false

theorem inv_new (k : Nat) (items : List α) : Inv S items (new k items) where
  cap := rfl
  size := by simp [new, holds]
  perm := by
    have : (List.replicate (min k items.length) (Worker.receiving : Worker α β)).flatMap (pending S) = [] := by
      rw [List.flatMap_eq_nil_iff]
      intro w hw
      rw [List.eq_of_mem_replicate hw]
      rfl
    simp [new, this]
  sub := by
    rintro x (h | h)
    · exact h
    · have := List.eq_of_mem_replicate h
      cases this
  main := fun h => absurd rfl h
  returned := fun h => by cases h
  quit := by
    rintro - ⟨w, hw, hd⟩
    rw [List.eq_of_mem_replicate hw] at hd
    cases hd
  crashed := fun h => by cases h

open Classical in
theorem inv_step {items : List α} {s t : State α β} (i : Inv S items s) (h : Step S s t) : Inv S items t := by
  have nd : ∀ {a b : List (Worker α β)} {w}, s.workers = a ++ w :: b → w.done = false → s.main = .waiting := by
    intro a b w hw hd
    by_cases hm : s.main = .waiting
    · exact hm
    · have := (i.main hm).1
      rw [hw] at this
      simp [hd] at this
  cases h with
  | @receive a b x q h0 h1 h2 =>
    have hp := i.perm; have hs := i.size
    rw [h1, h2] at hp hs
    refine ⟨i.cap, by simp [holds] at hs ⊢; omega, ?_, ?_, fun h => absurd (nd h1 rfl) h, fun h => (by rw [nd h1 rfl] at h; cases h), ?_, i.crashed⟩
    · rw [List.perm_iff_count] at hp ⊢
      intro y
      have := hp y
      simp only [List.count_append, List.flatMap_append, List.flatMap_cons, pending, List.filterMap_cons] at this ⊢
      cases hx : S.work x with
      | none => rw [hx] at this; simp at this ⊢; omega
      | some z => rw [hx] at this; simp [List.count_cons] at this ⊢; omega
    · rintro y (hy | hy)
      · exact i.sub y (.inl (by rw [h2]; exact List.mem_cons_of_mem _ hy))
      · simp only [List.mem_append, List.mem_cons] at hy
        rcases hy with hy | hy | hy
        · exact i.sub y (.inr (by rw [h1]; simp [hy]))
        · cases hy; exact i.sub x (.inl (by rw [h2]; simp))
        · exact i.sub y (.inr (by rw [h1]; simp [hy]))
    · rintro ht ⟨w, hw, hd⟩
      have := i.quit ht ⟨w, by rw [h1]; simp only [List.mem_append, List.mem_cons] at hw ⊢; rcases hw with hw | rfl | hw; exact .inl hw; cases hd; exact .inr (.inr hw), hd⟩
      rw [h2] at this; cases this
  | @quit a b h0 h1 h2 =>
    have hp := i.perm; have hs := i.size
    rw [h1] at hp hs
    refine ⟨i.cap, by simp [holds] at hs ⊢; omega, by simpa [pending] using hp, ?_, fun h => absurd (nd h1 rfl) h, fun h => (by rw [nd h1 rfl] at h; cases h), fun _ _ => h2, i.crashed⟩
    rintro y (hy | hy)
    · exact i.sub y (.inl hy)
    · exact i.sub y (.inr (by rw [h1]; simpa using hy))
  | @finish a b x y h0 h1 h2 =>
    have hp := i.perm; have hs := i.size
    rw [h1] at hp hs
    refine ⟨i.cap, by simp [holds] at hs ⊢; omega, by simpa [pending, h2] using hp, ?_, fun h => absurd (nd h1 rfl) h, fun h => (by rw [nd h1 rfl] at h; cases h), ?_, i.crashed⟩
    · rintro z (hy | hy)
      · exact i.sub z (.inl hy)
      · exact i.sub z (.inr (by rw [h1]; simp at hy ⊢; rcases hy with hy | hy; exact .inl hy; exact .inr (.inr hy)))
    · rintro ht ⟨w, hw, hd⟩
      exact i.quit ht ⟨w, by rw [h1]; simp only [List.mem_append, List.mem_cons] at hw ⊢; rcases hw with hw | rfl | hw; exact .inl hw; cases hd; exact .inr (.inr hw), hd⟩
  | @panic a b x h0 h1 h2 h3 =>
    have hp := i.perm; have hs := i.size
    rw [h1] at hp hs
    refine ⟨i.cap, by simp [holds] at hs ⊢; omega, by simpa [pending, h2] using hp, ?_, fun h => absurd (nd h1 rfl) h, fun h => (by rw [nd h1 rfl] at h; cases h), ?_, i.crashed⟩
    · rintro z (hy | hy)
      · exact i.sub z (.inl hy)
      · exact i.sub z (.inr (by rw [h1]; simp at hy ⊢; rcases hy with hy | hy; exact .inl hy; exact .inr (.inr hy)))
    · intro ht
      exact absurd h2 (ht x (i.sub x (.inr (by rw [h1]; simp))))
  | @push a b h0 h1 =>
    have hp := i.perm; have hs := i.size
    rw [h1] at hp hs
    refine ⟨i.cap, by simp [holds] at hs ⊢; omega, by simpa [pending] using hp, ?_, fun h => ?_, i.returned, ?_, i.crashed⟩
    · rintro z (hy | hy)
      · exact i.sub z (.inl hy)
      · exact i.sub z (.inr (by rw [h1]; simpa using hy))
    · have := i.main h
      rw [h1] at this
      simpa [Worker.done] using this
    · rintro ht -
      exact i.quit ht ⟨.failed, by rw [h1]; simp, rfl⟩
  | @crash a b x h0 h1 h2 h3 =>
    exact ⟨i.cap, i.size, i.perm, i.sub, i.main, i.returned, i.quit, fun _ => ⟨x, i.sub x (.inr (by rw [h1]; simp)), h2, h3⟩⟩
  | @send a b y h0 h1 h2 =>
    have hp := i.perm; have hs := i.size
    rw [h1] at hp hs
    refine ⟨i.cap, by simp [holds] at hs ⊢; omega, ?_, ?_, fun h => absurd (nd h1 rfl) h, fun h => (by rw [nd h1 rfl] at h; cases h), ?_, i.crashed⟩
    · rw [List.perm_iff_count] at hp ⊢
      intro z
      have := hp z
      simp [pending, List.count_cons] at this ⊢
      omega
    · rintro z (hy | hy)
      · exact i.sub z (.inl hy)
      · exact i.sub z (.inr (by rw [h1]; simpa using hy))
    · rintro ht ⟨w, hw, hd⟩
      exact i.quit ht ⟨w, by rw [h1]; simp only [List.mem_append, List.mem_cons] at hw ⊢; rcases hw with hw | rfl | hw; exact .inl hw; cases hd; exact .inr (.inr hw), hd⟩
  | wait h0 h1 h2 => exact ⟨i.cap, i.size, i.perm, i.sub, fun _ => ⟨h2, rfl⟩, fun h => (by cases h), i.quit, i.crashed⟩
  | @drain y r h0 h1 h2 =>
    have hp := i.perm; have hs := i.size
    rw [h2] at hp hs
    refine ⟨i.cap, by simp at hs ⊢; omega, by simpa using hp, i.sub, i.main, fun h => ?_, i.quit, i.crashed⟩
    rw [h1] at h; cases h
  | stop h0 h1 h2 h3 =>
    have := i.main (by rw [h1]; simp)
    exact ⟨i.cap, i.size, i.perm, i.sub, fun _ => this, fun _ => ⟨by rw [← this.2]; exact h3, h2⟩, i.quit, i.crashed⟩

theorem inv_steps {items : List α} {s t : State α β} {n : Nat} (i : Inv S items s) (h : Steps S s n t) : Inv S items t := by
  induction h with
  | refl => exact i
  | step a _ ih => exact ih (inv_step i a)

/-- how a pool ends -/
theorem stuck {items : List α} {s : State α β} (i : Inv S items s) (h : Stuck S s) (hc : s.crashed = false) :
    s.workers.all (fun w => match w with | .ended => true | _ => false) = true ∧ s.out = [] ∧ s.main ≠ .waiting ∧ (s.main = .draining → S.closes = false) := by
  have he : ∀ w ∈ s.workers, w = .ended := by
    intro w hw
    obtain ⟨a, b, e⟩ := List.append_of_mem hw
    cases w with
    | ended => rfl
    | receiving =>
      cases hq : s.queue with
      | nil => exact absurd ⟨_, .quit hc e hq⟩ h
      | cons x q => exact absurd ⟨_, .receive hc e hq⟩ h
    | working x =>
      cases hx : S.work x with
      | some y => exact absurd ⟨_, .finish hc e hx⟩ h
      | none =>
        cases hr : S.recovers with
        | true => exact absurd ⟨_, .panic hc e hx hr⟩ h
        | false => exact absurd ⟨_, .crash hc e hx hr⟩ h
    | sending y =>
      refine absurd ⟨_, .send hc e ?_⟩ h
      have := i.size
      rw [e] at this
      simp [holds] at this
      rw [i.cap]; omega
    | failed => exact absurd ⟨_, .push hc e⟩ h
  have hm : s.main ≠ .waiting := fun hm => h ⟨_, .wait hc hm (by rw [List.all_eq_true]; intro w hw; rw [he w hw]; rfl)⟩
  refine ⟨by rw [List.all_eq_true]; intro w hw; rw [he w hw], ?_, hm, fun hd => ?_⟩
  · cases hmm : s.main with
    | waiting => exact absurd hmm hm
    | returned => exact (i.returned hmm).2
    | draining =>
      cases ho : s.out with
      | nil => rfl
      | cons y r => exact absurd ⟨_, .drain hc hmm ho⟩ h
  · cases hcl : S.closes with
    | false => rfl
    | true =>
      cases ho : s.out with
      | cons y r => exact absurd ⟨_, .drain hc hd ho⟩ h
      | nil => exact absurd ⟨_, .stop hc hd ho (by rw [(i.main hm).2, hcl])⟩ h

/-- the number of workers stays -/
theorem length_step {s t : State α β} (h : Step S s t) : t.workers.length = s.workers.length := by
  cases h with
  | receive _ h => simp [h]
  | quit _ h => simp [h]
  | finish _ h => simp [h]
  | panic _ h => simp [h]
  | push _ h => simp [h]
  | send _ h => simp [h]
  | _ => rfl

theorem length_steps {s t : State α β} {n : Nat} (h : Steps S s n t) : t.workers.length = s.workers.length := by
  induction h with
  | refl => rfl
  | step a _ ih => rw [ih, length_step a]

theorem exists_stuck : ∀ (m : Nat) (s : State α β), measure s ≤ m → ∃ n t, Steps S s n t ∧ Stuck S t
  | m, s, hm => by
    by_cases h : Stuck S s
    · exact ⟨0, s, .refl, h⟩
    · obtain ⟨t, ht⟩ := Classical.not_not.mp h
      have := measure_step ht
      match m with
      | 0 => omega
      | m + 1 =>
        obtain ⟨n, u, h1, h2⟩ := exists_stuck m t (by omega)
        exact ⟨n + 1, u, .step ht h1, h2⟩

/-- all that can be collected has been taken when nothing is left to do -/
theorem taken_perm {threads : Nat} {items : List α} {s : State α β} {n : Nat} (ht : 1 ≤ threads) (hw : ∀ x ∈ items, S.work x ≠ none)
    (st : Steps S (new threads items) n s) (hm : s.main ≠ .waiting) (ho : s.out = []) : s.taken.Perm (items.filterMap S.work) := by
  have i := inv_steps (inv_new (S := S) threads items) st
  have hd := (i.main hm).1
  have hq : s.queue = [] := by
    cases hi : items with
    | nil => have := i.size; rw [hi] at this; simp at this; exact this.1.1.1
    | cons x r =>
      have hl := length_steps st
      cases hws : s.workers with
      | nil => rw [hws, hi] at hl; simp [new] at hl; omega
      | cons w ws => exact i.quit hw ⟨w, by rw [hws]; simp, List.all_eq_true.mp hd w (by rw [hws]; simp)⟩
  have hf : s.workers.flatMap (pending S) = [] := by
    rw [List.flatMap_eq_nil_iff]
    intro w hw
    have := List.all_eq_true.mp hd w hw
    cases w <;> first | rfl | cases this
  have := i.perm
  rwa [ho, hq, hf, List.append_nil, List.append_nil, List.filterMap_nil, List.append_nil] at this

end Birch.Proofs.Pool
