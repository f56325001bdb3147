import Verif.Proofs.Interval
import Verif.Proofs.IntervalHist

/- The workers of the two interval recorders: there is one from `BeginIteration` to `EndTest` or `Reset`. -/

namespace Birch.Proofs.IntervalWorkers
open Birch Model
open _root_.Birch.Model.Recorders (Call)
open _root_.Birch.Model.Interval (Worker upd)
open _root_.Birch.Spec.Interval (begun)
open _root_.Birch.Proofs.Interval (upd_same upd_other)

/-- what both recorders know about their workers -/
structure Crew where
  workers : Nat → Worker
  next : Nat
  canceler : Option Nat
  cancelled : Nat → Bool
  rootDone : Bool

structure Good (b : Bool) (w : Crew) : Prop where
  some : b = true → ∃ j, w.canceler = some j ∧ j < w.next ∧ w.cancelled j = false ∧ w.workers j ≠ .none ∧ (w.rootDone = false → w.workers j ≠ .returned)
  none : b = false → w.canceler = none
  old : ∀ k, k < w.next → w.canceler ≠ Option.some k → w.cancelled k = true
  new : ∀ k, w.next ≤ k → w.workers k = .none ∧ w.cancelled k = false

def Crew.begin (w : Crew) : Crew :=
  match w.canceler with
  | .some _ => w
  | .none => { w with canceler := some w.next, workers := upd w.workers w.next .selecting, next := w.next + 1 }

def Crew.reset (w : Crew) : Crew :=
  match w.canceler with
  | .some j => { w with cancelled := upd w.cancelled j true, canceler := none }
  | .none => w

theorem good_begin {b : Bool} {w : Crew} (h : Good b w) : Good true w.begin := by
  cases b with
  | true =>
    obtain ⟨j, hj, -⟩ := h.some rfl
    have : w.begin = w := by simp [Crew.begin, hj]
    rw [this]; exact h
  | false =>
    have hc := h.none rfl
    have : w.begin = { w with canceler := some w.next, workers := upd w.workers w.next .selecting, next := w.next + 1 } := by simp [Crew.begin, hc]
    rw [this]
    refine ⟨fun _ => ⟨w.next, rfl, by dsimp only; omega, (h.new _ (Nat.le_refl _)).2, by simp [upd_same], fun _ => by simp [upd_same]⟩, nofun, fun k hk hn => ?_, fun k hk => ?_⟩
    · dsimp only at hk hn ⊢
      have : k ≠ w.next := fun e => hn (by rw [e])
      exact h.old k (by omega) (by rw [hc]; simp)
    · dsimp only at hk ⊢
      rw [upd_other _ _ (by omega)]; exact h.new k (by omega)

theorem good_reset {b : Bool} {w : Crew} (h : Good b w) : Good false w.reset := by
  cases b with
  | false =>
    have : w.reset = w := by simp [Crew.reset, h.none rfl]
    rw [this]; exact h
  | true =>
    obtain ⟨j, hj, hlt, -⟩ := h.some rfl
    have : w.reset = { w with cancelled := upd w.cancelled j true, canceler := none } := by simp [Crew.reset, hj]
    rw [this]
    refine ⟨nofun, fun _ => rfl, fun k hk _ => ?_, fun k hk => ?_⟩
    · dsimp only
      by_cases e : k = j
      · rw [e, upd_same]
      · rw [upd_other _ _ e]; exact h.old k hk (by rw [hj]; simpa using fun e' => e e'.symm)
    · dsimp only at hk ⊢
      rw [upd_other _ _ (by omega)]; exact h.new k hk

theorem good_change {b : Bool} {w : Crew} (h : Good b w) {j : Nat} {x : Worker} (hj : w.workers j ≠ .none) (hx : x ≠ .none)
    (hr : x = .returned → w.cancelled j = true ∨ w.rootDone = true) : Good b { w with workers := upd w.workers j x } := by
  refine ⟨fun hb => ?_, h.none, h.old, fun k hk => ?_⟩
  · obtain ⟨i, h1, h2, h3, h4, h5⟩ := h.some hb
    refine ⟨i, h1, h2, h3, ?_, fun hroot => ?_⟩
    · dsimp only
      by_cases e : i = j
      · rw [e, upd_same]; exact hx
      · rw [upd_other _ _ e]; exact h4
    · dsimp only at hroot ⊢
      by_cases e : i = j
      · subst e
        rw [upd_same]
        intro he
        rcases hr he with h | h
        · rw [h3] at h; cases h
        · rw [hroot] at h; cases h
      · rw [upd_other _ _ e]; exact h5 hroot
  · dsimp only at hk ⊢
    have : k ≠ j := fun e => hj (e ▸ (h.new k hk).1)
    rw [upd_other _ _ this]; exact h.new k hk

theorem good_root {b : Bool} {w : Crew} (h : Good b w) : Good b { w with rootDone := true } :=
  ⟨fun hb => by obtain ⟨i, h1, h2, h3, h4, h5⟩ := h.some hb; exact ⟨i, h1, h2, h3, h4, nofun⟩, h.none, h.old, h.new⟩

/-- what the theorems say -/
theorem good_live {b : Bool} {w : Crew} (h : Good b w) :
    (b = true → ∃ j, (∀ k, w.workers k ≠ .none ∧ w.workers k ≠ .returned ∧ w.cancelled k = false → k = j) ∧
      (w.rootDone = false → w.workers j ≠ .none ∧ w.workers j ≠ .returned ∧ w.cancelled j = false)) ∧
    (b = false → ∀ k, ¬ (w.workers k ≠ .none ∧ w.workers k ≠ .returned ∧ w.cancelled k = false)) := by
  have key : ∀ k, w.workers k ≠ .none ∧ w.workers k ≠ .returned ∧ w.cancelled k = false → w.canceler = some k := by
    rintro k ⟨h1, -, h2⟩
    by_cases hk : k < w.next
    · false_or_by_contra
      rename_i hn
      rw [h.old k hk hn] at h2; cases h2
    · exact absurd (h.new k (by omega)).1 h1
  refine ⟨fun hb => ?_, fun hb k hk => ?_⟩
  · obtain ⟨j, h1, h2, h3, h4, h5⟩ := h.some hb
    refine ⟨j, fun k hk => ?_, fun hr => ⟨h4, h5 hr, h3⟩⟩
    have := key k hk
    rw [h1] at this
    simpa using this.symm
  · have := key k hk
    rw [h.none hb] at this; cases this

/-! ### the performance recorder -/

def crew (s : Interval.State) : Crew := ⟨s.workers, s.next, s.canceler, s.cancelled, s.rootDone⟩

theorem crew_body (s : Interval.State) (now : Nat → Time) (c : Call) :
    crew (Interval.body s now c) = match c with | .beginIteration => (crew s).begin | .endTest => (crew s).reset | .reset => (crew s).reset | _ => crew s := by
  cases c with
  | beginIteration => cases h : s.canceler <;> simp [Interval.body, Crew.begin, crew, h]
  | endIteration d => simp only [Interval.body]; split <;> rfl
  | endTest => cases h : s.canceler <;> by_cases hp : s.point.ts = Events.zeroTime <;> simp [Interval.body, Interval.reset, Crew.reset, crew, h, hp]
  | reset => cases h : s.canceler <;> simp [Interval.body, Interval.reset, Crew.reset, crew, h]
  | _ => rfl

theorem good_call {w : Crew} {cs : List Call} (h : Good (begun cs) w) (c : Call) :
    Good (begun (c :: cs)) (match c with | .beginIteration => w.begin | .endTest => w.reset | .reset => w.reset | _ => w) := by
  cases c with
  | beginIteration => exact good_begin h
  | endTest => exact good_reset h
  | reset => exact good_reset h
  | _ => exact h

theorem good_steps {s t : Interval.State} {ls : List Interval.Label} (st : Interval.Steps s ls t) :
    ∀ cs, Good (begun cs) (crew s) → Good (begun ((Spec.Interval.bodies ls).reverse ++ cs)) (crew t) := by
  induction st with
  | refl => exact fun _ h => h
  | @step s t u l ls a _ ih =>
    intro cs h
    cases a with
    | @body i c now hi =>
      have := ih (c :: cs) (by have := good_call h c; rw [← crew_body s now] at this; exact this)
      simpa [Spec.Interval.bodies] using this
    | tick hj => exact ih cs (good_change h (j := _) (by show s.workers _ ≠ _; rw [hj]; simp) (by simp) (by simp))
    | stop hj hd => exact ih cs (good_change h (by show s.workers _ ≠ _; rw [hj]; simp) (by simp) (fun _ => by simpa [Interval.ctxDone, crew] using hd))
    | lock hj _ => exact ih cs (good_change h (by show s.workers _ ≠ _; rw [hj]; simp) (by simp) (by simp))
    | leave hj hd => exact ih cs (good_change h (by show s.workers _ ≠ _; rw [hj]; simp) (by simp) (fun _ => by simpa [Interval.ctxDone, crew] using hd))
    | record hj _ => exact ih cs (good_change h (by show s.workers _ ≠ _; rw [hj]; simp) (by simp) (by simp))
    | unlock hj => exact ih cs (good_change h (by show s.workers _ ≠ _; rw [hj]; simp) (by simp) (by simp))
    | rootDone => exact ih cs (good_root h)
    | _ => exact ih cs h

theorem good_new : Good false (crew Interval.new) := ⟨nofun, fun _ => rfl, fun k hk => absurd hk (Nat.not_lt_zero k), fun _ _ => ⟨rfl, rfl⟩⟩

/-! ### the histogram recorder -/

section
variable {H : Type} {L : Histograms.Lib H}

def crewH (s : IntervalHist.State H) : Crew := ⟨s.workers, s.next, s.canceler, s.cancelled, s.rootDone⟩

theorem crewH_body (s : IntervalHist.State H) (e : Histograms.Env) (c : Call) :
    crewH (IntervalHist.body L s e c) = match c with | .beginIteration => (crewH s).begin | .endTest => (crewH s).reset | .reset => (crewH s).reset | _ => crewH s := by
  cases c with
  | beginIteration => cases h : s.canceler <;> simp [IntervalHist.body, Crew.begin, crewH, h]
  | endTest => cases h : s.canceler <;> simp [IntervalHist.body, IntervalHist.reset, Crew.reset, crewH, h]
  | reset => cases h : s.canceler <;> simp [IntervalHist.body, IntervalHist.reset, Crew.reset, crewH, h]
  | _ => rfl

theorem goodH_steps {s t : IntervalHist.State H} {ls : List IntervalHist.Label} (st : IntervalHist.Steps L s ls t) :
    ∀ is, Good (begun (Spec.IntervalHist.calls is)) (crewH s) → Good (begun (Spec.IntervalHist.calls (Spec.IntervalHist.history ls ++ is))) (crewH t) := by
  induction st with
  | refl => exact fun _ h => h
  | @step s t u l ls a _ ih =>
    intro is h
    cases a with
    | @body i c e hi =>
      have := ih (.call c e :: is) (by have := good_call h c; rw [← crewH_body (L := L) s e] at this; exact this)
      simpa [Spec.IntervalHist.history] using this
    | tick hj => exact ih is (good_change h (j := _) (by show s.workers _ ≠ _; rw [hj]; simp) (by simp) (by simp))
    | stop hj hd => exact ih is (good_change h (by show s.workers _ ≠ _; rw [hj]; simp) (by simp) (fun _ => by simpa [IntervalHist.ctxDone, crewH] using hd))
    | lock hj _ => exact ih is (good_change h (by show s.workers _ ≠ _; rw [hj]; simp) (by simp) (by simp))
    | leave hj hd => exact ih is (good_change h (by show s.workers _ ≠ _; rw [hj]; simp) (by simp) (fun _ => by simpa [IntervalHist.ctxDone, crewH] using hd))
    | @record j e hj _ =>
      have := ih (.tick e :: is) (good_change h (by show s.workers _ ≠ _; rw [hj]; simp) (by simp) (by simp))
      simpa [Spec.IntervalHist.history] using this
    | unlock hj => exact ih is (good_change h (by show s.workers _ ≠ _; rw [hj]; simp) (by simp) (by simp))
    | rootDone => exact ih is (good_root h)
    | _ => exact ih is h

theorem goodH_new : Good false (crewH (IntervalHist.new L)) := ⟨nofun, fun _ => rfl, fun k hk => absurd hk (Nat.not_lt_zero k), fun _ _ => ⟨rfl, rfl⟩⟩

end

end Birch.Proofs.IntervalWorkers
