import Verif.Proofs.Pool

/- C83: the worker pools of the metrics package. -/

namespace Birch.Props
open Birch.Model.Pool Birch.Spec.Pool Birch.Proofs.Pool

section
variable {α β : Type}

/-- No execution of a pool goes on for ever, whatever the scheduling, and there is one that goes on until nothing more can happen. -/
theorem C83_bounded (S : Sys α β) (threads : Nat) (items : List α) :
    (∀ n s, Steps S (new threads items) n s → n ≤ 6 * items.length + 3) ∧ ∃ n s, Steps S (new threads items) n s ∧ Stuck S s := by
  refine ⟨fun n s h => ?_, exists_stuck _ _ (Nat.le_refl _)⟩
  have := measure_steps h
  have := measure_new (β := β) threads items
  omega

/-- `CollectAllProcesses`: whatever the scheduling, when it returns it has the information of each process exactly once, in some order, and it does return. -/
theorem C83_processes (f : α → β) (procs : List α) (n : Nat) (s : State α β) (st : Steps (processes fun p => some (f p)) (new 32 procs) n s) :
    (s.main = .returned → s.taken.Perm (procs.map f)) ∧ (Stuck (processes fun p => some (f p)) s → s.main = .returned) := by
  have i := inv_steps (inv_new 32 procs) st
  constructor
  · intro h
    have := taken_perm (by omega) (by simp [processes]) st (by rw [h]; simp) (i.returned h).2
    simpa [processes, List.filterMap_eq_map'] using this
  · intro h
    have hc : s.crashed = false := by
      cases hc : s.crashed with
      | false => rfl
      | true => obtain ⟨x, -, hx, -⟩ := i.crashed hc; cases hx
    obtain ⟨-, -, hm, hd⟩ := stuck i h hc
    cases hmm : s.main with
    | returned => rfl
    | waiting => exact absurd hmm hm
    | draining => cases hd hmm

/-- two processes and their two workers, the second of which is faster -/
example : ∃ s, Steps (processes fun p : Nat => some (p + 1)) (new 32 [5, 6]) 12 s ∧ s.main = .returned ∧ s.taken = [7, 6] :=
  ⟨_, .step (.receive (a := []) (b := [.receiving]) rfl rfl rfl) (.step (.receive (a := [.working 5]) (b := []) rfl rfl rfl) (.step (.finish (a := [.working 5]) (b := []) rfl rfl rfl)
    (.step (.send (a := [.working 5]) (b := []) rfl rfl (by simp [new])) (.step (.quit (a := [.working 5]) (b := []) rfl rfl rfl) (.step (.finish (a := []) rfl rfl rfl)
      (.step (.send (a := []) rfl rfl (by simp [new])) (.step (.quit (a := []) rfl rfl rfl) (.step (.wait rfl rfl rfl) (.step (.drain rfl rfl rfl) (.step (.drain rfl rfl rfl)
        (.step (.stop rfl rfl rfl rfl) .refl))))))))))), rfl, rfl⟩

/-- `generate` with `RunParallelCollectors` does not return, whatever the collectors do: the loop over the elements waits for ever, as the channel is not closed.  (The workers
    have ended by then, and if no collector panics all their documents have been appended.) -/
theorem C83_parallel_never (work : α → Option β) (threads : Nat) (items : List α) (n : Nat) (s : State α β) (st : Steps (collectors work) (new threads items) n s) :
    s.main ≠ .returned ∧ (Stuck (collectors work) s → s.main = .draining ∧ s.out = [] ∧ s.closed = false ∧ (∀ w ∈ s.workers, w = .ended) ∧
      (1 ≤ threads → (∀ x ∈ items, work x ≠ none) → s.taken.Perm (items.filterMap work))) := by
  have i := inv_steps (inv_new threads items) st
  have hn : s.main ≠ .returned := fun h => by cases (i.returned h).1
  refine ⟨hn, fun h => ?_⟩
  have hc : s.crashed = false := by
    cases hc : s.crashed with
    | false => rfl
    | true => obtain ⟨x, -, -, hx⟩ := i.crashed hc; cases hx
  obtain ⟨hw, ho, hm, -⟩ := stuck i h hc
  refine ⟨?_, ho, (i.main hm).2, fun w hm => ?_, fun ht hx => taken_perm ht hx st hm ho⟩
  · cases hmm : s.main with
    | draining => rfl
    | waiting => exact absurd hmm hm
    | returned => exact absurd hmm hn
  · have := List.all_eq_true.mp hw w hm
    cases w <;> first | rfl | cases this

example : ∃ s, Steps (collectors fun p : Nat => some (p + 1)) (new 4 [5]) 6 s ∧ s.taken = [6] ∧ Stuck (collectors fun p : Nat => some (p + 1)) s := by
  refine ⟨_, .step (.receive (a := []) rfl rfl rfl) (.step (.finish (a := []) rfl rfl rfl) (.step (.send (a := []) rfl rfl (by simp [new])) (.step (.quit (a := []) rfl rfl rfl)
    (.step (.wait rfl rfl rfl) (.step (.drain rfl rfl rfl) .refl))))), rfl, ?_⟩
  rintro ⟨t, h⟩
  cases h with
  | @receive a b _ _ _ h _ => cases a <;> simp at h
  | @quit a b _ h _ => cases a <;> simp at h
  | @finish a b _ _ _ h _ => cases a <;> simp at h
  | @panic a b _ _ h _ _ => cases a <;> simp at h
  | @push a b _ h => cases a <;> simp at h
  | @crash a b _ _ h _ _ => cases a <;> simp at h
  | @send a b _ _ h _ => cases a <;> simp at h
  | wait _ h _ => cases h
  | drain _ _ h => cases h
  | stop _ _ _ h => cases h

/-- A collector that panics ends its worker, so the others may not run: with one worker, none of those after it does. -/
theorem C83_lost (work : α → Option β) (x : α) (rest : List α) (hx : work x = none) :
    ∃ n s, Steps (collectors work) (new 1 (x :: rest)) n s ∧ s.queue = rest ∧ s.taken = [] ∧ s.errors = 1 ∧ Stuck (collectors work) s := by
  refine ⟨4, _, .step (.receive (a := []) (b := []) rfl (by simp [new, Nat.min_eq_left]) rfl) (.step (.panic (a := []) (b := []) rfl rfl hx rfl) (.step (.push (a := []) (b := []) rfl rfl)
    (.step (.wait rfl rfl rfl) .refl))), rfl, rfl, rfl, ?_⟩
  rintro ⟨t, h⟩
  cases h with
  | @receive a b _ _ _ h _ => cases a <;> simp at h
  | @quit a b _ h _ => cases a <;> simp at h
  | @finish a b _ _ _ h _ => cases a <;> simp at h
  | @panic a b _ _ h _ _ => cases a <;> simp at h
  | @push a b _ h => cases a <;> simp at h
  | @crash a b _ _ h _ _ => cases a <;> simp at h
  | @send a b _ _ h _ => cases a <;> simp at h
  | wait _ h _ => cases h
  | drain _ _ h => cases h
  | stop _ _ _ h => cases h

/-- A process whose information cannot be had without a panic ends the whole program. -/
theorem C83_crash (work : α → Option β) (p : α) (rest : List α) (hp : work p = none) :
    ∃ n s, Steps (processes work) (new 32 (p :: rest)) n s ∧ s.crashed = true ∧ Stuck (processes work) s := by
  have hw : ∃ m, min 32 (p :: rest).length = m + 1 := ⟨min 32 (p :: rest).length - 1, by simp; omega⟩
  obtain ⟨m, hm⟩ := hw
  refine ⟨2, _, .step (.receive (a := []) (b := List.replicate m .receiving) rfl (by simp only [new]; rw [hm]; rfl) rfl) (.step (.crash (a := []) rfl rfl hp rfl) .refl), rfl, ?_⟩
  rintro ⟨t, h⟩
  cases h <;> contradiction

example := C83_lost (fun n : Nat => if n = 0 then none else some n) 0 [1, 2] rfl
example := C83_crash (fun n : Nat => if n = 0 then none else some n) 0 [1, 2] rfl

end

end Birch.Props
