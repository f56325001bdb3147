import Verif.Spec.IntervalHist
import Verif.Proofs.Histograms
import Verif.Proofs.Interval

namespace Birch.Proofs.IntervalHist
open Birch Model Model.Events Model.IntervalHist Spec Spec.IntervalHist
open Birch.Spec.Recorders (noTime orElse gauges)
open Birch.Model.Recorders (Call)
open Birch.Model.Interval (Caller Worker Owner upd)
open Birch.Model.Histograms (Lib Point Recorder Env newPoint stampPoint push incNumber incOperations incSize incError setDuration setTotal)
open Birch.Proofs.Interval (Caller.holds Worker.holds upd_same upd_other)

variable {H : Type} {L : Lib H}

def env0 : Env := ⟨fun _ => zeroTime, false⟩

theorem calls_append (xs ys : History) : calls (xs ++ ys) = calls xs ++ calls ys := by
  induction xs with
  | nil => rfl
  | cons x xs ih => cases x <;> simp [calls, ih]

theorem noReset_tail {l : Label} {ls : List Label} (h : NoReset (history (l :: ls))) : NoReset (history ls) := by
  intro c hc
  apply h c
  cases l <;> simp [history, calls_append, hc]

/-- who has the lock is where the lock can be had, and nobody else is -/
structure Inv (s : State H) : Prop where
  caller : ∀ i, Caller.holds (s.callers i) ↔ s.lock = some (.caller i)
  worker : ∀ j, Worker.holds (s.workers j) → s.lock = some (.worker j)
  owner : ∀ j, s.lock = some (.worker j) → Worker.holds (s.workers j) ∨ s.workers j = .returned

theorem reset_keeps (s : State H) : (reset L s).lock = s.lock ∧ (reset L s).callers = s.callers ∧ (reset L s).workers = s.workers ∧ (reset L s).rootDone = s.rootDone := by
  unfold reset
  cases s.canceler <;> exact ⟨rfl, rfl, rfl, rfl⟩

theorem body_keeps (s : State H) (e : Env) (c : Call) : (body L s e c).lock = s.lock ∧ (body L s e c).callers = s.callers ∧
    (body L s e c).rootDone = s.rootDone ∧ ((body L s e c).workers = s.workers ∨ (body L s e c).workers = upd s.workers s.next .selecting) := by
  cases c with
  | beginIteration =>
    simp only [body]
    cases s.canceler
    · exact ⟨rfl, rfl, rfl, .inr rfl⟩
    · exact ⟨rfl, rfl, rfl, .inl rfl⟩
  | endTest =>
    obtain ⟨h1, h2, h3, h4⟩ := reset_keeps (L := L) { s with data := endTest L s.data e }
    exact ⟨h1, h2, h4, .inl h3⟩
  | reset =>
    obtain ⟨h1, h2, h3, h4⟩ := reset_keeps (L := L) s
    exact ⟨h1, h2, h4, .inl h3⟩
  | _ => exact ⟨rfl, rfl, rfl, .inl rfl⟩

theorem inv_new : Inv (new L) := ⟨fun i => by simp [new, Caller.holds], fun j => by simp [new, Worker.holds], fun j => by simp [new]⟩

/-- a worker that does not have the lock changes -/
theorem inv_worker {s : State H} (h : Inv s) {j : Nat} {x : Worker} (hx : ¬ Worker.holds x) (hj : ¬ Worker.holds (s.workers j)) (hr : s.workers j ≠ .returned) :
    Inv { s with workers := upd s.workers j x } := by
  refine ⟨h.caller, fun k => ?_, fun k hk => ?_⟩
  · intro hk
    have hk : Worker.holds (upd s.workers j x k) := hk
    by_cases e : k = j
    · subst e; rw [upd_same] at hk; exact absurd hk hx
    · rw [upd_other _ _ e] at hk; exact h.worker k hk
  · by_cases e : k = j
    · subst e
      have := h.owner k hk
      rcases this with h1 | h1
      · exact absurd h1 hj
      · exact absurd h1 hr
    · show Worker.holds (upd s.workers j x k) ∨ upd s.workers j x k = .returned
      rw [upd_other _ _ e]; exact h.owner k hk

theorem inv_step {s t : State H} {l : Label} (h : Inv s) (st : Step L s l t) : Inv t := by
  cases st with
  | @call i c hi =>
    refine ⟨fun k => ?_, h.worker, h.owner⟩
    show Caller.holds (upd s.callers i (.waiting c) k) ↔ _
    by_cases e : k = i
    · subst e; rw [upd_same]
      have := h.caller k
      rw [hi] at this
      exact this
    · rw [upd_other _ _ e]; exact h.caller k
  | @acquire i c hi hl =>
    refine ⟨fun k => ?_, fun k hk => ?_, fun k hk => ?_⟩
    · show Caller.holds (upd s.callers i (.inside c) k) ↔ some (Owner.caller i) = _
      by_cases e : k = i
      · subst e; rw [upd_same]; simp [Caller.holds]
      · rw [upd_other _ _ e]
        have := (h.caller k)
        rw [hl] at this
        simp only [reduceCtorEq, iff_false] at this
        simp only [this, Option.some.injEq, Owner.caller.injEq, false_iff]
        exact fun c => e c.symm
    · have := h.worker k hk; rw [hl] at this; cases this
    · simp only [Option.some.injEq, reduceCtorEq] at hk
  | @body i c ev hi =>
    obtain ⟨h1, h2, h3, h4⟩ := body_keeps (L := L) s ev c
    have hlock : s.lock = some (.caller i) := (h.caller i).1 (by rw [hi]; trivial)
    refine ⟨fun k => ?_, fun k hk => ?_, fun k hk => ?_⟩
    · show Caller.holds (upd s.callers i .done k) ↔ (Model.IntervalHist.body L s ev c).lock = _
      rw [h1]
      by_cases e : k = i
      · subst e; rw [upd_same]; simp [Caller.holds, hlock]
      · rw [upd_other _ _ e]; exact h.caller k
    · have hk' : Worker.holds (s.workers k) := by
        rcases h4 with h4 | h4
        · simp only [h4] at hk; exact hk
        · simp only [h4] at hk
          by_cases e : k = s.next
          · subst e; rw [upd_same] at hk; exact absurd hk (by simp [Worker.holds])
          · rw [upd_other _ _ e] at hk; exact hk
      have := h.worker k hk'; rw [hlock] at this; cases this
    · simp only [h1, hlock, Option.some.injEq, reduceCtorEq] at hk
  | @release i hi =>
    have hlock : s.lock = some (.caller i) := (h.caller i).1 (by rw [hi]; trivial)
    refine ⟨fun k => ?_, fun k hk => ?_, fun k hk => ?_⟩
    · show Caller.holds (upd s.callers i .idle k) ↔ none = _
      by_cases e : k = i
      · subst e; rw [upd_same]; simp [Caller.holds]
      · rw [upd_other _ _ e, h.caller k, hlock]
        simp only [Option.some.injEq, Owner.caller.injEq, reduceCtorEq, iff_false]
        exact fun c => e c.symm
    · have := h.worker k hk; rw [hlock] at this; cases this
    · simp only [reduceCtorEq] at hk
  | @tick j hj => exact inv_worker h (by simp [Worker.holds]) (by simp [hj, Worker.holds]) (by simp [hj])
  | @stop j hj hd => exact inv_worker h (by simp [Worker.holds]) (by simp [hj, Worker.holds]) (by simp [hj])
  | @lock j hj hl =>
    refine ⟨fun k => ?_, fun k hk => ?_, fun k hk => ?_⟩
    · show Caller.holds (s.callers k) ↔ some (Owner.worker j) = _
      rw [h.caller k, hl]; simp
    · show some (Owner.worker j) = _
      by_cases e : k = j
      · rw [e]
      · have hk' : Worker.holds (s.workers k) := by
          have : Worker.holds (upd s.workers j .checking k) := hk
          rwa [upd_other _ _ e] at this
        have := h.worker k hk'; rw [hl] at this; cases this
    · have e : j = k := by simpa using hk
      subst e
      left
      show Worker.holds (upd s.workers j .checking j)
      rw [upd_same]; trivial
  | @leave j hj hd =>
    have hlock : s.lock = some (.worker j) := h.worker j (by rw [hj]; trivial)
    refine ⟨h.caller, fun k hk => ?_, fun k hk => ?_⟩
    · by_cases e : k = j
      · rw [e]; exact hlock
      · have : Worker.holds (upd s.workers j .returned k) := hk
        rw [upd_other _ _ e] at this
        exact h.worker k this
    · show Worker.holds (upd s.workers j .returned k) ∨ upd s.workers j .returned k = .returned
      by_cases e : k = j
      · right; rw [e, upd_same]
      · rw [upd_other _ _ e]; exact h.owner k hk
  | @record j ev hj hd =>
    have hlock : s.lock = some (.worker j) := h.worker j (by rw [hj]; trivial)
    refine ⟨h.caller, fun k hk => ?_, fun k hk => ?_⟩
    · by_cases e : k = j
      · rw [e]; exact hlock
      · have : Worker.holds (upd s.workers j .unlocking k) := hk
        rw [upd_other _ _ e] at this
        exact h.worker k this
    · show Worker.holds (upd s.workers j .unlocking k) ∨ upd s.workers j .unlocking k = .returned
      by_cases e : k = j
      · left; rw [e, upd_same]; trivial
      · rw [upd_other _ _ e]; exact h.owner k hk
  | @unlock j hj =>
    have hlock : s.lock = some (.worker j) := h.worker j (by rw [hj]; trivial)
    refine ⟨fun k => ?_, fun k hk => ?_, fun k hk => ?_⟩
    · show Caller.holds (s.callers k) ↔ none = _
      rw [h.caller k, hlock]; simp
    · have hk2 : Worker.holds (upd s.workers j .selecting k) := hk
      by_cases e : k = j
      · subst e; rw [upd_same] at hk2; exact absurd hk2 (by simp [Worker.holds])
      · rw [upd_other _ _ e] at hk2
        have := h.worker k hk2
        rw [hlock] at this
        simp only [Option.some.injEq, Owner.worker.injEq] at this
        exact absurd this.symm e
    · simp only [reduceCtorEq] at hk
  | rootDone => exact ⟨h.caller, h.worker, h.owner⟩

theorem inv_steps {s t : State H} {ls : List Label} (h : Inv s) (st : Steps L s ls t) : Inv t := by
  induction st with
  | refl => exact h
  | step a _ ih => exact ih (inv_step h a)

theorem reachable_inv {s : State H} (h : Reachable L s) : Inv s := by
  obtain ⟨ls, h⟩ := h
  exact inv_steps inv_new h

theorem steps_append {s t u : State H} {ls ms : List Label} (h : Steps L s ls t) (g : Steps L t ms u) : Steps L s (ls ++ ms) u := by
  induction h with
  | refl => exact g
  | step a _ ih => exact .step a (ih g)

/-- a lost lock stays lost -/
theorem doomed_step {s t : State H} {l : Label} (hi : Inv s) (h : Doomed s) (st : Step L s l t) : Doomed t := by
  obtain ⟨j, hl, hw⟩ := h
  have noc : ∀ i, ¬ Caller.holds (s.callers i) := fun i hc => by
    have := (hi.caller i).1 hc; rw [hl] at this; cases this
  have now' : ∀ k, Worker.holds (s.workers k) → k = j := fun k hk => by
    have := hi.worker k hk; rw [hl] at this
    simp only [Option.some.injEq, Owner.worker.injEq] at this
    exact this.symm
  cases st with
  | @call i c h1 => exact ⟨j, hl, hw⟩
  | @acquire i c h1 h2 => rw [hl] at h2; cases h2
  | @body i c ev h1 => exact absurd (by rw [h1]; trivial) (noc i)
  | @release i h1 => exact absurd (by rw [h1]; trivial) (noc i)
  | @tick k h1 =>
    refine ⟨j, hl, ?_⟩
    have e : j ≠ k := by rintro rfl; rw [h1] at hw; simp at hw
    show upd s.workers k .waiting j = _ ∨ (upd s.workers k .waiting j = _ ∧ _)
    rw [upd_other _ _ e]; exact hw
  | @stop k h1 h2 =>
    refine ⟨j, hl, ?_⟩
    have e : j ≠ k := by rintro rfl; rw [h1] at hw; simp at hw
    show upd s.workers k .returned j = _ ∨ (upd s.workers k .returned j = _ ∧ _)
    rw [upd_other _ _ e]; exact hw
  | @lock k h1 h2 => rw [hl] at h2; cases h2
  | @leave k h1 h2 =>
    obtain rfl := now' k (by rw [h1]; trivial)
    exact ⟨k, hl, .inl (upd_same _ _ _)⟩
  | @record k e h1 h2 =>
    obtain rfl := now' k (by rw [h1]; trivial)
    simp [ctxDone] at h2; simp [h1, h2] at hw
  | @unlock k h1 =>
    obtain rfl := now' k (by rw [h1]; trivial)
    rw [h1] at hw; simp at hw
  | rootDone =>
    refine ⟨j, hl, hw.imp id fun ⟨a, b⟩ => ⟨a, ?_⟩⟩
    simp

theorem doomed_steps {s t : State H} {ls : List Label} (hi : Inv s) (h : Doomed s) (st : Steps L s ls t) : Doomed t := by
  induction st with
  | refl => exact h
  | step a _ ih => exact ih (inv_step hi a) (doomed_step hi h a)

/-- a caller that waits for a lost lock goes on waiting -/
theorem doomed_waits {s t : State H} {ls : List Label} (hi : Inv s) (h : Doomed s) (st : Steps L s ls t) {i : Nat} {c : Call} (hc : s.callers i = .waiting c) :
    t.callers i = .waiting c := by
  induction st with
  | refl => exact hc
  | @step s t u l ls a _ ih =>
    refine ih (inv_step hi a) (doomed_step hi h a) ?_
    have noc : ∀ i, ¬ Caller.holds (s.callers i) := fun i hc => by
      obtain ⟨j, hl, -⟩ := h
      have := (hi.caller i).1 hc; rw [hl] at this; cases this
    cases a with
    | @call k d h1 =>
      have e : i ≠ k := by rintro rfl; rw [hc] at h1; cases h1
      exact (upd_other _ _ e).trans hc
    | @acquire k d h1 h2 => obtain ⟨j, hl, -⟩ := h; rw [hl] at h2; cases h2
    | @body k d e h1 => exact absurd (by rw [h1]; trivial) (noc k)
    | @release k h1 => exact absurd (by rw [h1]; trivial) (noc k)
    | _ => exact hc

/-- from any other state a waiting caller can get the lock -/
theorem can_get {s : State H} (hi : Inv s) (h : ¬ Doomed s) {i : Nat} {c : Call} (hc : s.callers i = .waiting c) :
    ∃ ls t, Steps L s ls t ∧ ls.length ≤ 3 ∧ t.callers i = .inside c := by
  have get : ∀ t : State H, t.callers i = .waiting c → t.lock = none → ∃ u, Step L t (.acquire i) u ∧ u.callers i = .inside c :=
    fun t h1 h2 => ⟨_, .acquire h1 h2, upd_same _ _ _⟩
  cases hl : s.lock with
  | none =>
    obtain ⟨u, h1, h2⟩ := get s hc hl
    exact ⟨_, u, .step h1 .refl, by simp, h2⟩
  | some o =>
    cases o with
    | caller k =>
      have hk : Caller.holds (s.callers k) := (hi.caller k).2 hl
      have ne : i ≠ k := by rintro rfl; rw [hc] at hk; exact hk
      have rel : ∀ t : State H, t.callers k = .done → t.callers i = .waiting c →
          ∃ u, Steps L t [.release k, .acquire i] u ∧ u.callers i = .inside c := by
        intro t h1 h2
        obtain ⟨u, h3, h4⟩ := get { t with callers := upd t.callers k .idle, lock := none } ((upd_other _ _ ne).trans h2) rfl
        exact ⟨u, .step (.release h1) (.step h3 .refl), h4⟩
      cases hd : s.callers k with
      | idle => rw [hd] at hk; exact absurd hk id
      | waiting d => rw [hd] at hk; exact absurd hk id
      | done =>
        obtain ⟨u, h1, h2⟩ := rel s hd hc
        exact ⟨_, u, h1, by simp, h2⟩
      | inside d =>
        have b := Step.body (L := L) (e := env0) hd
        obtain ⟨u, h1, h2⟩ := rel { body L s env0 d with callers := upd s.callers k .done } (upd_same ..) ((upd_other s.callers .done ne).trans hc)
        exact ⟨_, u, .step b h1, by simp, h2⟩
    | worker j =>
      rcases hi.owner j hl with hw | hw
      · have rel : ∀ t : State H, t.workers j = .unlocking → t.callers i = .waiting c →
            ∃ u, Steps L t [.unlock j, .acquire i] u ∧ u.callers i = .inside c := by
          intro t h1 h2
          obtain ⟨u, h3, h4⟩ := get { t with workers := upd t.workers j .selecting, lock := none } h2 rfl
          exact ⟨u, .step (.unlock h1) (.step h3 .refl), h4⟩
        cases hd : s.workers j with
        | checking =>
          have hn : ctxDone s j = false := by
            cases hx : ctxDone s j with
            | false => rfl
            | true => exact absurd ⟨j, hl, .inr ⟨hd, by simpa [ctxDone] using hx⟩⟩ h
          have b := Step.record (L := L) (e := env0) hd hn
          obtain ⟨u, h1, h2⟩ := rel
            { s with
              workers := upd s.workers j .unlocking
              data := Model.IntervalHist.tick L s.data env0 } (upd_same ..) hc
          exact ⟨_, u, .step b h1, by simp, h2⟩
        | unlocking =>
          obtain ⟨u, h1, h2⟩ := rel s hd hc
          exact ⟨_, u, h1, by simp, h2⟩
        | none => rw [hd] at hw; exact absurd hw id
        | selecting => rw [hd] at hw; exact absurd hw id
        | waiting => rw [hd] at hw; exact absurd hw id
        | returned => rw [hd] at hw; exact absurd hw id
      · exact absurd ⟨j, hl, .inl hw⟩ h

/-- without `EndTest`, `Reset` and the end of the context nothing is ever cancelled -/
theorem not_cancelled {s t : State H} {ls : List Label} (st : Steps L s ls t) : NoReset (history ls) → Label.rootDone ∉ ls →
    (∀ j, s.cancelled j = false) → s.rootDone = false → (∀ j, t.cancelled j = false) ∧ t.rootDone = false := by
  induction st with
  | refl => intro _ _ h1 h2; exact ⟨h1, h2⟩
  | @step s t u l ls a _ ih =>
    intro hn hr h1 h2
    have hn' : NoReset (history ls) := noReset_tail hn
    have hr' : Label.rootDone ∉ ls := fun c => hr (List.mem_cons_of_mem _ c)
    refine ih hn' hr' ?_ ?_
    · cases a with
      | @body i c ev h =>
        have := hn c (by simp [history, calls_append, calls])
        show ∀ j, (Model.IntervalHist.body L s ev c).cancelled j = false
        cases c with
        | beginIteration =>
          simp only [Model.IntervalHist.body]
          cases s.canceler <;> exact h1
        | endTest => exact absurd rfl this.1
        | reset => exact absurd rfl this.2
        | _ => exact h1
      | _ => exact h1
    · cases a with
      | @body i c ev h =>
        show (Model.IntervalHist.body L s ev c).rootDone = false
        rw [(body_keeps (L := L) s ev c).2.2.1]; exact h2
      | rootDone => exact absurd (List.mem_cons_self ..) hr
      | _ => exact h2

/-! ### what is recorded -/

open Birch.Spec.Histograms (numbers operations sizes errors durations counter timer refuses)
open Birch.Proofs.Histograms (stampPoint_eq counter_append timer_append refuses_nil refuses_one)

/-- what the recorder holds after a history -/
structure Good (L : Lib H) (is : History) (r : Recorder H) : Prop where
  started : r.started = began is
  point : r.point = event L is
  catcher : r.catcher = failed L is
  recorded : r.recorded = events L is
  results : r.results = Spec.IntervalHist.results L is

theorem new_good : Good L [] (new L).data := ⟨rfl, rfl, rfl, rfl, rfl⟩

theorem begin_good (is : History) (r : Recorder H) (h : Good L is r) (e : Env) :
    Good L (.call .beginIteration e :: is) { r with started := e.now 0, point := stampPoint r.point (e.now 0) (e.now 1) } := by
  obtain ⟨g1, g4, g5, g6, g7⟩ := h
  obtain ⟨st, la, iv, pt, ca, re, rs⟩ := r
  simp only at g1 g4 g5 g6 g7
  subst g1 g4 g5 g6 g7
  refine ⟨rfl, ?_, ?_, ?_, rfl⟩ <;>
    simp [stampPoint_eq, event, stamp, renews, reported, numbers, operations, sizes, errors, durations, totals, totalsOf, lastID, calls, gauges, failed, fails,
      refuses_nil, records, events]

theorem endIteration_good (is : History) (r : Recorder H) (h : Good L is r) (d : Int) (e : Env) :
    Good L (.call (.endIteration d) e :: is) (endIteration L r d e) := by
  obtain ⟨g1, g4, g5, g6, g7⟩ := h
  obtain ⟨st, la, iv, pt, ca, re, rs⟩ := r
  simp only at g1 g4 g5 g6 g7
  subst g1 g4 g5 g6 g7
  have ez : zeroTime = noTime := rfl
  unfold endIteration
  simp only [stampPoint_eq, incNumber, Model.Histograms.setDuration, setTotal, push, ez]
  by_cases hb : began is = noTime
  · refine ⟨?_, ?_, ?_, ?_, ?_⟩ <;>
      simp [hb, began, event, stamp, renews, reported, numbers, operations, sizes, errors, durations, totals, totalsOf, elapsed, lastID, calls, gauges, failed, fails,
        refuses_nil, refuses_one, counter_append, timer_append, records, events, Spec.IntervalHist.results, Bool.or_assoc]
  · refine ⟨?_, ?_, ?_, ?_, ?_⟩ <;>
      simp [hb, began, event, stamp, renews, reported, numbers, operations, sizes, errors, durations, totals, totalsOf, elapsed, lastID, calls, gauges, failed, fails,
        refuses_nil, refuses_one, counter_append, timer_append, records, events, Spec.IntervalHist.results, Bool.or_assoc]

theorem change_good (is : History) (r : Recorder H) (h : Good L is r) (c : Call) (e : Env) (h0 : c ≠ .beginIteration) (h2 : c ≠ .endTest) (h3 : c ≠ .reset) :
    Good L (.call c e :: is) (change L r e c) := by
  cases c with
  | endIteration d => exact endIteration_good is r h d e
  | beginIteration => exact absurd rfl h0
  | endTest => exact absurd rfl h2
  | reset => exact absurd rfl h3
  | _ =>
    obtain ⟨g1, g4, g5, g6, g7⟩ := h
    obtain ⟨st, la, iv, pt, ca, re, rs⟩ := r
    simp only at g1 g4 g5 g6 g7
    subst g1 g4 g5 g6 g7
    refine ⟨rfl, ?_, ?_, ?_, rfl⟩ <;>
      simp [change, incNumber, Model.Histograms.incOperations, Model.Histograms.incSize, Model.Histograms.incError, Model.Histograms.setDuration,
        setTotal, push, event, stamp, renews, reported, numbers, operations, sizes, errors, durations, totals, totalsOf, lastID, calls, gauges, failed, fails,
        refuses_nil, refuses_one, counter_append, timer_append, records, events]

theorem reset_good (is : History) (c : Call) (e : Env) (hc : c = .endTest ∨ c = .reset) (s : State H) (h1 : s.data.point.gauges = gauges (calls is))
    (h3 : s.data.recorded = events L (.call c e :: is)) (h4 : s.data.results = Spec.IntervalHist.results L (.call c e :: is)) :
    Good L (.call c e :: is) (reset L s).data := by
  have hg : gauges (calls (.call c e :: is)) = gauges (calls is) := by rcases hc with rfl | rfl <;> rfl
  have he : event L (.call c e :: is) = newPoint L s.data.point.gauges := by
    rw [h1, ← hg]
    rcases hc with rfl | rfl <;> rfl
  have h5 : began (.call c e :: is) = zeroTime := by rcases hc with rfl | rfl <;> rfl
  have h7 : failed L (.call c e :: is) = false := by rcases hc with rfl | rfl <;> rfl
  unfold reset
  cases s.canceler <;> exact ⟨h5.symm, he.symm, h7.symm, h3, h4⟩

theorem endTest_good (is : History) (s : State H) (h : Good L is s.data) (e : Env) :
    Good L (.call .endTest e :: is) (reset L { s with data := endTest L s.data e }).data := by
  obtain ⟨g1, g4, g5, g6, g7⟩ := h
  have ez : zeroTime = noTime := rfl
  apply reset_good _ _ _ (.inl rfl) <;> unfold endTest <;> simp only [setTotal, push, Model.Histograms.persist, ez, g1] <;>
    by_cases hb : began is = noTime <;> by_cases ht : stamp is = noTime <;>
      simp [hb, ht, g4, g5, g6, g7, event, events, records, elapsed, timer_append, Spec.IntervalHist.results, fails, numbers, operations, sizes, errors, durations,
        totalsOf, refuses_nil, refuses_one, addFails, Bool.or_assoc]

theorem tick_good (is : History) (r : Recorder H) (h : Good L is r) (e : Env) : Good L (.tick e :: is) (Model.IntervalHist.tick L r e) := by
  obtain ⟨g1, g4, g5, g6, g7⟩ := h
  refine ⟨g1, ?_, ?_, ?_, ?_⟩ <;>
    simp [Model.IntervalHist.tick, Model.Histograms.persist, push, stampPoint_eq, g1, g4, g5, g6, g7, failed, fails, records, addFails, events,
      Spec.IntervalHist.results]
  · simp [event, calls, newPoint, stamp, lastID, reported, totals, renews]
    exact ⟨rfl, rfl, rfl⟩
  · simp [event]

theorem body_good (is : History) (s : State H) (h : Good L is s.data) (e : Env) (c : Call) : Good L (.call c e :: is) (body L s e c).data := by
  cases c with
  | beginIteration =>
    have := begin_good is s.data h e
    simp only [body]
    cases s.canceler <;> exact this
  | endTest => exact endTest_good is s h e
  | reset =>
    apply reset_good _ _ _ (.inr rfl)
    · rw [h.point]; rfl
    · rw [h.recorded]; simp [events, records]
    · exact h.results
  | _ => exact change_good is s.data h _ e (by simp) (by simp) (by simp)

theorem good {s t : State H} {ls : List Label} (st : Steps L s ls t) : ∀ is, Good L is s.data → Good L (history ls ++ is) t.data := by
  induction st with
  | refl => intro is h; exact h
  | @step s t u l ls a _ ih =>
    intro is h
    cases a with
    | @body i c e hc =>
      rw [history, List.append_assoc]
      exact ih _ (body_good is s h e c)
    | @record j e h1 h2 =>
      rw [history, List.append_assoc]
      exact ih _ (tick_good is s.data h e)
    | _ => exact ih _ h

/-- the events recorded hold what was reported, one part each -/
theorem conserve (f : Call → List Int) (is : History) (h : NoReset is) (get : Point H → H) (mk : List Int → H)
    (h1 : ∀ is, get (event L is) = mk (reported f is)) (h2 : ∀ (p : Point H) t, get { p with ts := t } = get p) :
    ∃ vss : List (List Int), (events L is).map get = vss.map mk ∧ vss.flatten ++ reported f is = all f is := by
  induction is with
  | nil => exact ⟨[], rfl, rfl⟩
  | cons i is ih =>
    have h' : NoReset is := by
      intro c hc
      apply h c
      cases i <;> simp [calls, hc]
    obtain ⟨vss, e1, e2⟩ := ih h'
    cases i with
    | tick e =>
      refine ⟨vss ++ [reported f is], ?_, ?_⟩
      · simp [events, records, e1, h1, h2]
      · simp [reported, renews, all, e2]
    | call c e =>
      obtain ⟨n1, n2⟩ := h c (by simp [calls])
      have hr : records L (.call c e) is = [] := by cases c <;> first | rfl | exact absurd rfl n1
      have hn : renews (.call c e) = false := by cases c <;> first | rfl | exact absurd rfl n1 | exact absurd rfl n2
      refine ⟨vss, ?_, ?_⟩
      · simp [events, hr, e1]
      · simp [reported, hn, all, ← e2]

/-- without `EndTest`, `Reset` and the end of the context no worker returns -/
theorem not_returned {s t : State H} {ls : List Label} (st : Steps L s ls t) : NoReset (history ls) → Label.rootDone ∉ ls → (∀ j, s.cancelled j = false) →
    s.rootDone = false → (∀ j, s.workers j ≠ .returned) → ∀ j, t.workers j ≠ .returned := by
  induction st with
  | refl => intro _ _ _ _ h; exact h
  | @step s t u l ls a b ih =>
    intro hn hr h1 h2 hw
    obtain ⟨g1, g2⟩ := not_cancelled (.step a .refl) (ls := [l]) (by
        intro c hc
        apply hn c
        cases l <;> simp_all [history, calls, calls_append]) (by simp at hr ⊢; exact fun e => hr.1 e) h1 h2
    refine ih (noReset_tail hn) (fun c => hr (List.mem_cons_of_mem _ c)) g1 g2 ?_
    intro j
    have keep : ∀ (k : Nat) (x : Worker), x ≠ .returned → upd s.workers k x j ≠ .returned := by
      intro k x hx
      by_cases e : j = k
      · subst e; rw [upd_same]; exact hx
      · rw [upd_other _ _ e]; exact hw j
    cases a with
    | @body i c ev hb =>
      show (Model.IntervalHist.body L s ev c).workers j ≠ _
      rcases (body_keeps (L := L) s ev c).2.2.2 with e | e <;> rw [e]
      · exact hw j
      · exact keep _ _ (by simp)
    | @stop k h3 h4 => simp [ctxDone, h1, h2] at h4
    | @leave k h3 h4 => simp [ctxDone, h1, h2] at h4
    | @tick k h3 => exact keep _ _ (by simp)
    | @lock k h3 h4 => exact keep _ _ (by simp)
    | @record k now h3 h4 => exact keep _ _ (by simp)
    | @unlock k h3 => exact keep _ _ (by simp)
    | _ => exact hw j

end Birch.Proofs.IntervalHist
