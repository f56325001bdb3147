import Verif.Spec.Interval
import Verif.Proofs.Recorders

namespace Birch.Proofs.Interval
open Birch.Model.Events hiding run
open Birch.Model.Recorders hiding run new
open Birch Model Model.Interval Spec.Interval Proofs.Recorders Proofs.Events

def Caller.holds : Caller → Prop
  | .inside _ => True
  | .done => True
  | _ => False

def Worker.holds : Worker → Prop
  | .checking => True
  | .unlocking => True
  | _ => False

/-- who has the lock is where the lock can be had, and nobody else is -/
structure Inv (s : State) : Prop where
  caller : ∀ i, Caller.holds (s.callers i) ↔ s.lock = some (.caller i)
  worker : ∀ j, Worker.holds (s.workers j) → s.lock = some (.worker j)
  owner : ∀ j, s.lock = some (.worker j) → Worker.holds (s.workers j) ∨ s.workers j = .returned

theorem upd_same {α : Type} (f : Nat → α) (i : Nat) (x : α) : upd f i x i = x := by simp [upd]
theorem upd_other {α : Type} (f : Nat → α) {i j : Nat} (x : α) (h : j ≠ i) : upd f i x j = f j := by simp [upd, h]

theorem reset_keeps (s : State) : (reset s).lock = s.lock ∧ (reset s).callers = s.callers ∧ (reset s).workers = s.workers ∧ (reset s).rootDone = s.rootDone := by
  unfold reset
  cases s.canceler <;> exact ⟨rfl, rfl, rfl, rfl⟩

theorem body_keeps (s : State) (now : Nat → Time) (c : Call) : (body s now c).lock = s.lock ∧ (body s now c).callers = s.callers ∧
    (body s now c).rootDone = s.rootDone ∧ ((body s now c).workers = s.workers ∨ (body s now c).workers = upd s.workers s.next .selecting) := by
  cases c with
  | beginIteration =>
    simp only [body]
    cases s.canceler
    · exact ⟨rfl, rfl, rfl, .inr rfl⟩
    · exact ⟨rfl, rfl, rfl, .inl rfl⟩
  | endIteration d =>
    simp only [body]
    split <;> exact ⟨rfl, rfl, rfl, .inl rfl⟩
  | endTest =>
    simp only [body]
    split
    · obtain ⟨h1, h2, h3, h4⟩ := reset_keeps { s with recorded := s.recorded ++ [s.point] }
      exact ⟨h1, h2, h4, .inl h3⟩
    · obtain ⟨h1, h2, h3, h4⟩ := reset_keeps s
      exact ⟨h1, h2, h4, .inl h3⟩
  | reset =>
    obtain ⟨h1, h2, h3, h4⟩ := reset_keeps s
    exact ⟨h1, h2, h4, .inl h3⟩
  | _ => exact ⟨rfl, rfl, rfl, .inl rfl⟩

theorem inv_new : Inv new := ⟨fun i => by simp [new, Caller.holds], fun j => by simp [new, Worker.holds], fun j => by simp [new]⟩

/-- a worker that does not have the lock changes -/
theorem inv_worker {s : State} (h : Inv s) {j : Nat} {x : Worker} (hx : ¬ Worker.holds x) (hj : ¬ Worker.holds (s.workers j)) (hr : s.workers j ≠ .returned) :
    Inv { s with workers := upd s.workers j x } := by
  refine ⟨h.caller, fun k => ?_, fun k hk => ?_⟩
  · intro hk
    have hk : Worker.holds (upd s.workers j x k) := hk
    by_cases e : k = j
    · subst e; rw [upd_same] at hk; exact absurd hk hx
    · rw [upd_other _ _ e] at hk; exact h.worker k hk
  · by_cases e : k = j
    · subst e
      have := h.owner k hk
      rcases this with h1 | h1
      · exact absurd h1 hj
      · exact absurd h1 hr
    · show Worker.holds (upd s.workers j x k) ∨ upd s.workers j x k = .returned
      rw [upd_other _ _ e]; exact h.owner k hk

theorem inv_step {s t : State} {l : Label} (h : Inv s) (st : Step s l t) : Inv t := by
  cases st with
  | @call i c hi =>
    refine ⟨fun k => ?_, h.worker, h.owner⟩
    show Caller.holds (upd s.callers i (.waiting c) k) ↔ _
    by_cases e : k = i
    · subst e; rw [upd_same]
      have := h.caller k
      rw [hi] at this
      exact this
    · rw [upd_other _ _ e]; exact h.caller k
  | @acquire i c hi hl =>
    refine ⟨fun k => ?_, fun k hk => ?_, fun k hk => ?_⟩
    · show Caller.holds (upd s.callers i (.inside c) k) ↔ some (Owner.caller i) = _
      by_cases e : k = i
      · subst e; rw [upd_same]; simp [Caller.holds]
      · rw [upd_other _ _ e]
        have := (h.caller k)
        rw [hl] at this
        simp only [reduceCtorEq, iff_false] at this
        simp only [this, Option.some.injEq, Owner.caller.injEq, false_iff]
        exact fun c => e c.symm
    · have := h.worker k hk; rw [hl] at this; cases this
    · simp only [Option.some.injEq, reduceCtorEq] at hk
  | @body i c now hi =>
    obtain ⟨h1, h2, h3, h4⟩ := body_keeps s now c
    have hlock : s.lock = some (.caller i) := (h.caller i).1 (by rw [hi]; trivial)
    refine ⟨fun k => ?_, fun k hk => ?_, fun k hk => ?_⟩
    · show Caller.holds (upd s.callers i .done k) ↔ (Model.Interval.body s now c).lock = _
      rw [h1]
      by_cases e : k = i
      · subst e; rw [upd_same]; simp [Caller.holds, hlock]
      · rw [upd_other _ _ e]; exact h.caller k
    · have hk' : Worker.holds (s.workers k) := by
        rcases h4 with h4 | h4
        · simp only [h4] at hk; exact hk
        · simp only [h4] at hk
          by_cases e : k = s.next
          · subst e; rw [upd_same] at hk; exact absurd hk (by simp [Worker.holds])
          · rw [upd_other _ _ e] at hk; exact hk
      have := h.worker k hk'; rw [hlock] at this; cases this
    · simp only [h1, hlock, Option.some.injEq, reduceCtorEq] at hk
  | @release i hi =>
    have hlock : s.lock = some (.caller i) := (h.caller i).1 (by rw [hi]; trivial)
    refine ⟨fun k => ?_, fun k hk => ?_, fun k hk => ?_⟩
    · show Caller.holds (upd s.callers i .idle k) ↔ none = _
      by_cases e : k = i
      · subst e; rw [upd_same]; simp [Caller.holds]
      · rw [upd_other _ _ e, h.caller k, hlock]
        simp only [Option.some.injEq, Owner.caller.injEq, reduceCtorEq, iff_false]
        exact fun c => e c.symm
    · have := h.worker k hk; rw [hlock] at this; cases this
    · simp only [reduceCtorEq] at hk
  | @tick j hj => exact inv_worker h (by simp [Worker.holds]) (by simp [hj, Worker.holds]) (by simp [hj])
  | @stop j hj hd => exact inv_worker h (by simp [Worker.holds]) (by simp [hj, Worker.holds]) (by simp [hj])
  | @lock j hj hl =>
    refine ⟨fun k => ?_, fun k hk => ?_, fun k hk => ?_⟩
    · show Caller.holds (s.callers k) ↔ some (Owner.worker j) = _
      rw [h.caller k, hl]; simp
    · show some (Owner.worker j) = _
      by_cases e : k = j
      · rw [e]
      · have hk' : Worker.holds (s.workers k) := by
          have : Worker.holds (upd s.workers j .checking k) := hk
          rwa [upd_other _ _ e] at this
        have := h.worker k hk'; rw [hl] at this; cases this
    · have e : j = k := by simpa using hk
      subst e
      left
      show Worker.holds (upd s.workers j .checking j)
      rw [upd_same]; trivial
  | @leave j hj hd =>
    have hlock : s.lock = some (.worker j) := h.worker j (by rw [hj]; trivial)
    refine ⟨h.caller, fun k hk => ?_, fun k hk => ?_⟩
    · by_cases e : k = j
      · rw [e]; exact hlock
      · have : Worker.holds (upd s.workers j .returned k) := hk
        rw [upd_other _ _ e] at this
        exact h.worker k this
    · show Worker.holds (upd s.workers j .returned k) ∨ upd s.workers j .returned k = .returned
      by_cases e : k = j
      · right; rw [e, upd_same]
      · rw [upd_other _ _ e]; exact h.owner k hk
  | @record j now hj hd =>
    have hlock : s.lock = some (.worker j) := h.worker j (by rw [hj]; trivial)
    refine ⟨h.caller, fun k hk => ?_, fun k hk => ?_⟩
    · by_cases e : k = j
      · rw [e]; exact hlock
      · have : Worker.holds (upd s.workers j .unlocking k) := hk
        rw [upd_other _ _ e] at this
        exact h.worker k this
    · show Worker.holds (upd s.workers j .unlocking k) ∨ upd s.workers j .unlocking k = .returned
      by_cases e : k = j
      · left; rw [e, upd_same]; trivial
      · rw [upd_other _ _ e]; exact h.owner k hk
  | @unlock j hj =>
    have hlock : s.lock = some (.worker j) := h.worker j (by rw [hj]; trivial)
    refine ⟨fun k => ?_, fun k hk => ?_, fun k hk => ?_⟩
    · show Caller.holds (s.callers k) ↔ none = _
      rw [h.caller k, hlock]; simp
    · have hk2 : Worker.holds (upd s.workers j .selecting k) := hk
      by_cases e : k = j
      · subst e; rw [upd_same] at hk2; exact absurd hk2 (by simp [Worker.holds])
      · rw [upd_other _ _ e] at hk2
        have := h.worker k hk2
        rw [hlock] at this
        simp only [Option.some.injEq, Owner.worker.injEq] at this
        exact absurd this.symm e
    · simp only [reduceCtorEq] at hk
  | rootDone => exact ⟨h.caller, h.worker, h.owner⟩

theorem inv_steps {s t : State} {ls : List Label} (h : Inv s) (st : Steps s ls t) : Inv t := by
  induction st with
  | refl => exact h
  | step a _ ih => exact ih (inv_step h a)

theorem reachable_inv {s : State} (h : Reachable s) : Inv s := by
  obtain ⟨ls, h⟩ := h
  exact inv_steps inv_new h

theorem steps_append {s t u : State} {ls ms : List Label} (h : Steps s ls t) (g : Steps t ms u) : Steps s (ls ++ ms) u := by
  induction h with
  | refl => exact g
  | step a _ ih => exact .step a (ih g)

theorem body_cancelled (s : State) (now : Nat → Time) (c : Call) (j : Nat) (h : s.cancelled j = true) : (body s now c).cancelled j = true := by
  have hr : ∀ s : State, s.cancelled j = true → (reset s).cancelled j = true := by
    intro s h
    unfold reset
    cases s.canceler with
    | none => exact h
    | some k =>
      show upd s.cancelled k true j = true
      unfold upd; split
      · rfl
      · exact h
  cases c with
  | beginIteration =>
    simp only [body]
    cases s.canceler <;> exact h
  | endIteration d =>
    simp only [body]
    split <;> exact h
  | endTest =>
    simp only [body]
    apply hr
    split <;> exact h
  | reset => exact hr s h
  | _ => exact h

/-- a lost lock stays lost -/
theorem doomed_step {s t : State} {l : Label} (hi : Inv s) (h : Doomed s) (st : Step s l t) : Doomed t := by
  obtain ⟨j, hl, hw⟩ := h
  have noc : ∀ i, ¬ Caller.holds (s.callers i) := fun i hc => by
    have := (hi.caller i).1 hc; rw [hl] at this; cases this
  have now' : ∀ k, Worker.holds (s.workers k) → k = j := fun k hk => by
    have := hi.worker k hk; rw [hl] at this
    simp only [Option.some.injEq, Owner.worker.injEq] at this
    exact this.symm
  cases st with
  | @call i c h1 => exact ⟨j, hl, hw⟩
  | @acquire i c h1 h2 => rw [hl] at h2; cases h2
  | @body i c now h1 => exact absurd (by rw [h1]; trivial) (noc i)
  | @release i h1 => exact absurd (by rw [h1]; trivial) (noc i)
  | @tick k h1 =>
    refine ⟨j, hl, ?_⟩
    have e : j ≠ k := by rintro rfl; rw [h1] at hw; simp at hw
    show upd s.workers k .waiting j = _ ∨ (upd s.workers k .waiting j = _ ∧ _)
    rw [upd_other _ _ e]; exact hw
  | @stop k h1 h2 =>
    refine ⟨j, hl, ?_⟩
    have e : j ≠ k := by rintro rfl; rw [h1] at hw; simp at hw
    show upd s.workers k .returned j = _ ∨ (upd s.workers k .returned j = _ ∧ _)
    rw [upd_other _ _ e]; exact hw
  | @lock k h1 h2 => rw [hl] at h2; cases h2
  | @leave k h1 h2 =>
    obtain rfl := now' k (by rw [h1]; trivial)
    exact ⟨k, hl, .inl (upd_same _ _ _)⟩
  | @record k now h1 h2 =>
    obtain rfl := now' k (by rw [h1]; trivial)
    rw [h1, h2] at hw; simp at hw
  | @unlock k h1 =>
    obtain rfl := now' k (by rw [h1]; trivial)
    rw [h1] at hw; simp at hw
  | rootDone =>
    refine ⟨j, hl, hw.imp id fun ⟨a, b⟩ => ⟨a, ?_⟩⟩
    simp [ctxDone]

theorem doomed_steps {s t : State} {ls : List Label} (hi : Inv s) (h : Doomed s) (st : Steps s ls t) : Doomed t := by
  induction st with
  | refl => exact h
  | step a _ ih => exact ih (inv_step hi a) (doomed_step hi h a)

/-- a caller that waits for a lost lock goes on waiting -/
theorem doomed_waits {s t : State} {ls : List Label} (hi : Inv s) (h : Doomed s) (st : Steps s ls t) {i : Nat} {c : Call} (hc : s.callers i = .waiting c) :
    t.callers i = .waiting c := by
  induction st with
  | refl => exact hc
  | @step s t u l ls a _ ih =>
    refine ih (inv_step hi a) (doomed_step hi h a) ?_
    have noc : ∀ i, ¬ Caller.holds (s.callers i) := fun i hc => by
      obtain ⟨j, hl, -⟩ := h
      have := (hi.caller i).1 hc; rw [hl] at this; cases this
    cases a with
    | @call k d h1 =>
      have e : i ≠ k := by rintro rfl; rw [hc] at h1; cases h1
      exact (upd_other _ _ e).trans hc
    | @acquire k d h1 h2 => obtain ⟨j, hl, -⟩ := h; rw [hl] at h2; cases h2
    | @body k d now h1 => exact absurd (by rw [h1]; trivial) (noc k)
    | @release k h1 => exact absurd (by rw [h1]; trivial) (noc k)
    | _ => exact hc

/-- from any other state a waiting caller can get the lock -/
theorem can_get {s : State} (hi : Inv s) (h : ¬ Doomed s) {i : Nat} {c : Call} (hc : s.callers i = .waiting c) :
    ∃ ls t, Steps s ls t ∧ ls.length ≤ 3 ∧ t.callers i = .inside c := by
  have get : ∀ t : State, t.callers i = .waiting c → t.lock = none → ∃ u, Step t (.acquire i) u ∧ u.callers i = .inside c :=
    fun t h1 h2 => ⟨_, .acquire h1 h2, upd_same _ _ _⟩
  cases hl : s.lock with
  | none =>
    obtain ⟨u, h1, h2⟩ := get s hc hl
    exact ⟨_, u, .step h1 .refl, by simp, h2⟩
  | some o =>
    cases o with
    | caller k =>
      have hk : Caller.holds (s.callers k) := (hi.caller k).2 hl
      have ne : i ≠ k := by rintro rfl; rw [hc] at hk; exact hk
      have rel : ∀ t : State, t.callers k = .done → t.callers i = .waiting c →
          ∃ u, Steps t [.release k, .acquire i] u ∧ u.callers i = .inside c := by
        intro t h1 h2
        obtain ⟨u, h3, h4⟩ := get { t with callers := upd t.callers k .idle, lock := none } ((upd_other _ _ ne).trans h2) rfl
        exact ⟨u, .step (.release h1) (.step h3 .refl), h4⟩
      cases hd : s.callers k with
      | idle => rw [hd] at hk; exact absurd hk id
      | waiting d => rw [hd] at hk; exact absurd hk id
      | done =>
        obtain ⟨u, h1, h2⟩ := rel s hd hc
        exact ⟨_, u, h1, by simp, h2⟩
      | inside d =>
        have b := Step.body (now := fun _ => zeroTime) hd
        obtain ⟨u, h1, h2⟩ := rel { body s (fun _ => zeroTime) d with callers := upd s.callers k .done } (upd_same ..) ((upd_other s.callers .done ne).trans hc)
        exact ⟨_, u, .step b h1, by simp, h2⟩
    | worker j =>
      rcases hi.owner j hl with hw | hw
      · have rel : ∀ t : State, t.workers j = .unlocking → t.callers i = .waiting c →
            ∃ u, Steps t [.unlock j, .acquire i] u ∧ u.callers i = .inside c := by
          intro t h1 h2
          obtain ⟨u, h3, h4⟩ := get { t with workers := upd t.workers j .selecting, lock := none } h2 rfl
          exact ⟨u, .step (.unlock h1) (.step h3 .refl), h4⟩
        cases hd : s.workers j with
        | checking =>
          have hn : ctxDone s j = false := by
            cases hx : ctxDone s j with
            | false => rfl
            | true => exact absurd ⟨j, hl, .inr ⟨hd, hx⟩⟩ h
          have b := Step.record (now := zeroTime) hd hn
          obtain ⟨u, h1, h2⟩ := rel
            { s with
              workers := upd s.workers j .unlocking
              recorded := s.recorded ++ [setTimestamp s.point s.started zeroTime]
              point := zeroPerf s.point.gauges } (upd_same ..) hc
          exact ⟨_, u, .step b h1, by simp, h2⟩
        | unlocking =>
          obtain ⟨u, h1, h2⟩ := rel s hd hc
          exact ⟨_, u, h1, by simp, h2⟩
        | none => rw [hd] at hw; exact absurd hw id
        | selecting => rw [hd] at hw; exact absurd hw id
        | waiting => rw [hd] at hw; exact absurd hw id
        | returned => rw [hd] at hw; exact absurd hw id
      · exact absurd ⟨j, hl, .inl hw⟩ h

/-- without `EndTest`, `Reset` and the end of the context nothing is ever cancelled -/
theorem not_cancelled {s t : State} {ls : List Label} (st : Steps s ls t) : NoReset ls → Label.rootDone ∉ ls →
    (∀ j, s.cancelled j = false) → s.rootDone = false → (∀ j, t.cancelled j = false) ∧ t.rootDone = false := by
  induction st with
  | refl => intro _ _ h1 h2; exact ⟨h1, h2⟩
  | @step s t u l ls a _ ih =>
    intro hn hr h1 h2
    have hn' : NoReset ls := by
      intro c hc
      apply hn c
      cases l <;> simp only [bodies, List.mem_cons] <;> first | exact hc | exact .inr hc
    have hr' : Label.rootDone ∉ ls := fun c => hr (List.mem_cons_of_mem _ c)
    refine ih hn' hr' ?_ ?_
    · cases a with
      | @body i c now h =>
        have := hn c (by simp [bodies])
        show ∀ j, (Model.Interval.body s now c).cancelled j = false
        cases c with
        | beginIteration =>
          simp only [Model.Interval.body]
          cases s.canceler <;> exact h1
        | endIteration d =>
          simp only [Model.Interval.body]
          split <;> exact h1
        | endTest => exact absurd rfl this.1
        | reset => exact absurd rfl this.2
        | _ => exact h1
      | _ => exact h1
    · cases a with
      | @body i c now h =>
        show (Model.Interval.body s now c).rootDone = false
        rw [(body_keeps s now c).2.2.1]; exact h2
      | rootDone => exact absurd (List.mem_cons_self ..) hr
      | _ => exact h2

/-! ### what is recorded -/

/-- a counter, as a field of the event and as what calls report -/
structure Field where
  get : Perf → Int
  of : Call → Int
  zero : ∀ g, get (zeroPerf g) = 0
  stamp : ∀ p s n, get (setTimestamp p s n) = get p
  body : ∀ s now c, c ≠ .endTest → c ≠ .reset → get (body s now c).point = i64 (get s.point + of c) ∨ (of c = 0 ∧ get (Model.Interval.body s now c).point = get s.point)

theorem body_recorded {s : State} {now : Nat → Time} {c : Call} (h1 : c ≠ .endTest) (h2 : c ≠ .reset) : (body s now c).recorded = s.recorded := by
  cases c with
  | beginIteration =>
    simp only [body]
    cases s.canceler <;> rfl
  | endIteration d =>
    simp only [body]
    split <;> rfl
  | endTest => exact absurd rfl h1
  | reset => exact absurd rfl h2
  | _ => rfl

theorem gauges_after {s t : State} {ls : List Label} (st : Steps s ls t) :
    t.point.gauges = gaugesAfter s.point.gauges (bodies ls) ∧
      ∃ l, t.recorded = s.recorded ++ l ∧ ∀ p ∈ l, ∃ pre post, bodies ls = pre ++ post ∧ p.gauges = gaugesAfter s.point.gauges pre := by
  have app : ∀ (a b : List Call) (g : Gauges), gaugesAfter g (a ++ b) = gaugesAfter (gaugesAfter g a) b := by
    intro a
    induction a with
    | nil => intro b g; rfl
    | cons c a ih => intro b g; cases c <;> exact ih b _
  induction st with
  | refl => exact ⟨rfl, [], by simp, by simp⟩
  | @step s t u l ls a _ ih =>
    obtain ⟨h1, m, h2, h3⟩ := ih
    cases a with
    | @body i c now h =>
      have hr : ∀ s : State, (reset s).recorded = s.recorded ∧ (reset s).point = zeroPerf s.point.gauges := by
        intro s; unfold reset; cases s.canceler <;> exact ⟨rfl, rfl⟩
      have hg : (Model.Interval.body s now c).point.gauges = gaugesAfter s.point.gauges [c] ∧
          ∃ x, (Model.Interval.body s now c).recorded = s.recorded ++ x ∧ ∀ p ∈ x, p.gauges = s.point.gauges := by
        have k := fun (p : Perf) (a b : Time) => (setTimestamp_keeps p a b).2.2.1
        cases c with
        | beginIteration =>
          refine ⟨?_, [], ?_, by simp⟩
          · simp only [Model.Interval.body]
            cases s.canceler <;> simp only [k] <;> rfl
          · simp only [Model.Interval.body]
            cases s.canceler <;> simp
        | endIteration d =>
          refine ⟨?_, [], ?_, by simp⟩
          · simp only [Model.Interval.body]
            split <;> simp only [k] <;> rfl
          · simp only [Model.Interval.body]
            split <;> simp
        | endTest =>
          simp only [Model.Interval.body, hr]
          split
          · exact ⟨rfl, [s.point], rfl, by simp⟩
          · exact ⟨rfl, [], by simp, by simp⟩
        | reset =>
          simp only [Model.Interval.body, hr]
          exact ⟨rfl, [], by simp, by simp⟩
        | _ => exact ⟨rfl, [], by simp [Model.Interval.body], by simp⟩
      obtain ⟨g1, x, g2, g3⟩ := hg
      have h1 : u.point.gauges = gaugesAfter (Model.Interval.body s now c).point.gauges (bodies ls) := h1
      have h2 : u.recorded = (Model.Interval.body s now c).recorded ++ m := h2
      have h3 : ∀ p ∈ m, ∃ pre post, bodies ls = pre ++ post ∧ p.gauges = gaugesAfter (Model.Interval.body s now c).point.gauges pre := h3
      refine ⟨?_, x ++ m, by rw [h2, g2, List.append_assoc], ?_⟩
      · rw [h1, g1, ← app]; rfl
      · intro p hp
        rcases List.mem_append.mp hp with hp | hp
        · exact ⟨[], bodies (.body i c :: ls), rfl, g3 p hp⟩
        · obtain ⟨pre, post, e1, e2⟩ := h3 p hp
          refine ⟨c :: pre, post, by simp [bodies, e1], ?_⟩
          rw [e2, g1, ← app]; rfl
    | @record j now hj hd =>
      refine ⟨h1, setTimestamp s.point s.started now :: m, by rw [h2]; simp, ?_⟩
      intro p hp
      rcases List.mem_cons.mp hp with rfl | hp
      · exact ⟨[], bodies ls, rfl, (setTimestamp_keeps _ _ _).2.2.1⟩
      · exact h3 p hp
    | _ => exact ⟨h1, m, h2, h3⟩

theorem conserve (f : Field) {s t : State} {ls : List Label} (st : Steps s ls t) : NoReset ls →
    ∃ l, t.recorded = s.recorded ++ l ∧ i64 ((l.map f.get).sum + f.get t.point) = i64 (f.get s.point + ((bodies ls).map f.of).sum) := by
  induction st with
  | refl => intro _; exact ⟨[], by simp, by simp [bodies]⟩
  | @step s t u l ls a _ ih =>
    intro hn
    have hn' : NoReset ls := by
      intro c hc
      apply hn c
      cases l <;> simp only [bodies, List.mem_cons] <;> first | exact hc | exact .inr hc
    obtain ⟨m, h1, h2⟩ := ih hn'
    cases a with
    | @body i c now h =>
      obtain ⟨n1, n2⟩ := hn c (by simp [bodies])
      refine ⟨m, ?_, ?_⟩
      · rw [h1]
        show (Model.Interval.body s now c).recorded ++ m = _
        rw [body_recorded n1 n2]
      · rw [h2]
        show i64 (f.get (Model.Interval.body s now c).point + _) = _
        simp only [bodies, List.map_cons, List.sum_cons]
        rcases f.body s now c n1 n2 with e | ⟨e0, e⟩
        · rw [e, i64_add, Int.add_assoc]
        · rw [e, e0, Int.zero_add]
    | @record j now hj hd =>
      refine ⟨setTimestamp s.point s.started now :: m, ?_, ?_⟩
      · rw [h1]; simp
      · simp only [bodies, List.map_cons, List.sum_cons, f.stamp]
        have h2' : i64 ((m.map f.get).sum + f.get u.point) = i64 (f.get (zeroPerf s.point.gauges) + ((bodies ls).map f.of).sum) := h2
        rw [f.zero, Int.zero_add] at h2'
        unfold i64 at *
        omega
    | _ => exact ⟨m, h1, h2⟩

def number : Field where
  get p := p.counters.number
  of := iterations
  zero _ := rfl
  stamp p s n := by rw [(setTimestamp_keeps p s n).1]
  body s now c h1 h2 := by
    cases c with
    | endTest => exact absurd rfl h1
    | reset => exact absurd rfl h2
    | incIterations v => exact .inl rfl
    | beginIteration =>
      right
      simp only [body, (setTimestamp_keeps _ _ _).1]
      cases s.canceler <;> exact ⟨rfl, rfl⟩
    | endIteration d =>
      right
      simp only [body]
      refine ⟨rfl, ?_⟩
      split <;> simp only [(setTimestamp_keeps _ _ _).1]
    | _ => exact .inr ⟨rfl, rfl⟩

def operations : Field where
  get p := p.counters.operations
  of := Spec.Recorders.operations
  zero _ := rfl
  stamp p s n := by rw [(setTimestamp_keeps p s n).1]
  body s now c h1 h2 := by
    cases c with
    | endTest => exact absurd rfl h1
    | reset => exact absurd rfl h2
    | incOperations v => exact .inl rfl
    | beginIteration =>
      right
      simp only [body, (setTimestamp_keeps _ _ _).1]
      cases s.canceler <;> exact ⟨rfl, rfl⟩
    | endIteration d =>
      right
      simp only [body]
      refine ⟨rfl, ?_⟩
      split <;> simp only [(setTimestamp_keeps _ _ _).1]
    | _ => exact .inr ⟨rfl, rfl⟩

def size : Field where
  get p := p.counters.size
  of := Spec.Recorders.size
  zero _ := rfl
  stamp p s n := by rw [(setTimestamp_keeps p s n).1]
  body s now c h1 h2 := by
    cases c with
    | endTest => exact absurd rfl h1
    | reset => exact absurd rfl h2
    | incSize v => exact .inl rfl
    | beginIteration =>
      right
      simp only [body, (setTimestamp_keeps _ _ _).1]
      cases s.canceler <;> exact ⟨rfl, rfl⟩
    | endIteration d =>
      right
      simp only [body]
      refine ⟨rfl, ?_⟩
      split <;> simp only [(setTimestamp_keeps _ _ _).1]
    | _ => exact .inr ⟨rfl, rfl⟩

def errors : Field where
  get p := p.counters.errors
  of := Spec.Recorders.errors
  zero _ := rfl
  stamp p s n := by rw [(setTimestamp_keeps p s n).1]
  body s now c h1 h2 := by
    cases c with
    | endTest => exact absurd rfl h1
    | reset => exact absurd rfl h2
    | incError v => exact .inl rfl
    | beginIteration =>
      right
      simp only [body, (setTimestamp_keeps _ _ _).1]
      cases s.canceler <;> exact ⟨rfl, rfl⟩
    | endIteration d =>
      right
      simp only [body]
      refine ⟨rfl, ?_⟩
      split <;> simp only [(setTimestamp_keeps _ _ _).1]
    | _ => exact .inr ⟨rfl, rfl⟩

def duration : Field where
  get p := p.timers.duration
  of := Spec.Recorders.duration
  zero _ := rfl
  stamp p s n := by rw [(setTimestamp_keeps p s n).2.1]
  body s now c h1 h2 := by
    cases c with
    | endTest => exact absurd rfl h1
    | reset => exact absurd rfl h2
    | setDuration v => exact .inl rfl
    | beginIteration =>
      right
      simp only [body, (setTimestamp_keeps _ _ _).2.1]
      cases s.canceler <;> exact ⟨rfl, rfl⟩
    | endIteration d =>
      left
      simp only [body]
      split <;> simp only [(setTimestamp_keeps _ _ _).2.1] <;> rfl
    | _ => exact .inr ⟨rfl, rfl⟩

end Birch.Proofs.Interval
