import Verif.Proofs.SyncRecorder
import Verif.Props.Concurrent

/- C81: recorders and collectors of the events package that wrap another one. -/

namespace Birch.Props
open Birch Model Model.SyncRecorder Spec.SyncRecorder Proofs.SyncRecorder
open _root_.Birch.Model.Recorders (Call)

section
variable {σ ρ : Type} {apply : Call → σ → σ × Option ρ → Prop}

/-- Under every interleaving, the calls are as if they were made one after the other, in the order of their effects.  Each call leads to one call of the same method of the
    recorder inside, with the same argument, between the call and its return, and gives its result. -/
theorem C81_linearizable (r : σ) (ls : List (Label ρ)) (s : State σ ρ) (st : Steps apply (new r) ls s) :
    Sequential apply r (effects ls) s.inner ∧ ∀ i, Calls i (ofCaller i ls) :=
  ⟨sequential (inv_new r) st, fun i => calls st i⟩

/-- a recorder that counts the iterations and panics at `EndTest` -/
def counting : Call → Nat → Nat × Option Nat → Prop
  | .beginIteration, n, o => o = (n + 1, some n)
  | .endTest, n, o => o = (n, none)
  | _, n, o => o = (n, some n)

example : ∃ s, Steps counting (new 0) [.call 0 .beginIteration, .call 1 (.setID 7), .lock 1, .load 1, .effect 1 (.setID 7) (some 0), .ret 1 (.setID 7) 0, .lock 0, .load 0,
    .effect 0 .beginIteration (some 0)] s ∧ s.inner = 1 :=
  ⟨_, .step (.call rfl) (.step (.call rfl) (.step (.lock rfl rfl) (.step (.load rfl) (.step (.store (c := .setID 7) (v := 0) (w := 0) (r := 0) rfl rfl) (.step (.unlock rfl) (.step (.lock rfl rfl)
    (.step (.load rfl) (.step (.store (c := .beginIteration) (v := 0) (w := 1) (r := 0) rfl rfl) .refl)))))))), rfl⟩

/-- Only one caller is between `Lock` and `Unlock`. -/
theorem C81_exclusive (r : σ) (ls : List (Label ρ)) (s : State σ ρ) (st : Steps apply (new r) ls s) (i j : Nat) (hi : Holds (s.callers i)) (hj : Holds (s.callers j)) :
    i = j := by
  have inv := inv_steps (inv_new r) st
  have := inv.holds i hi
  rw [inv.holds j hj] at this
  exact (Option.some.inj this).symm

example : ∃ s, Steps counting (new 0) [.call 0 .reset, .lock 0, .call 1 .reset] s ∧ Holds (s.callers 0) :=
  ⟨_, .step (.call rfl) (.step (.lock rfl rfl) (.step (.call rfl) .refl)), trivial⟩

/-- As long as no method of the recorder inside has panicked, nobody waits for ever: if a caller is in a call, somebody in a call can go on.  The methods inside are assumed
    to end. -/
theorem C81_progress_partial (hend : ∀ c v, ∃ o, apply c v o) (r : σ) (ls : List (Label ρ)) (s : State σ ρ) (st : Steps apply (new r) ls s) (hp : ¬ Panicked ls) (i : Nat)
    (hi : s.callers i ≠ .idle) : ∃ l t, Step apply s l t ∧ ¬ IsCall l := by
  have go : ∀ j, Holds (s.callers j) → ∃ l t, Step apply s l t ∧ ¬ IsCall l := by
    intro j hj
    cases hc : s.callers j with
    | idle => rw [hc] at hj; cases hj
    | waiting => rw [hc] at hj; cases hj
    | inside c => exact ⟨_, _, .load hc, by simp [IsCall]⟩
    | loaded c v =>
      obtain ⟨⟨w, o⟩, h⟩ := hend (forward c) v
      cases o with
      | none => exact ⟨_, _, .panic hc h, by simp [IsCall]⟩
      | some r => exact ⟨_, _, .store hc h, by simp [IsCall]⟩
    | done c r => exact ⟨_, _, .unlock hc, by simp [IsCall]⟩
  have hh := held_steps (inv_new r) (by simp [Held, new]) st hp
  cases hc : s.callers i with
  | idle => exact absurd hc hi
  | inside c => exact go i (by rw [hc]; trivial)
  | loaded c v => exact go i (by rw [hc]; trivial)
  | done c r => exact go i (by rw [hc]; trivial)
  | waiting c =>
    cases hw : s.holder with
    | some j => exact go j (hh j hw)
    | none => exact ⟨_, _, .lock hc hw, by simp [IsCall]⟩

example : ∀ c v, ∃ o, counting c v o := by
  intro c v
  cases c <;> exact ⟨_, rfl⟩

/-- But once a method of the recorder inside has panicked, the lock is never given back: whatever happens then, no call gets the lock, reaches the recorder inside or
    returns. -/
theorem C81_panic_blocks (r : σ) (ls ms : List (Label ρ)) (s t : State σ ρ) (st : Steps apply (new r) ls s) (hp : Panicked ls) (st' : Steps apply s ms t) :
    (∀ l ∈ ms, IsCall l) ∧ t.inner = s.inner := by
  have h := lost_steps (panicked_lost (inv_new r) st hp) st'
  refine ⟨h.2, ?_⟩
  have he : effects ms = [] := by
    have := h.2
    clear h st' st hp
    induction ms with
    | nil => rfl
    | cons l ms ih =>
      have hl := this l (by simp)
      cases l <;> simp [IsCall] at hl
      exact ih fun m hm => this m (by simp [hm])
  have hs := sequential (inv_steps (inv_new r) st) st'
  rw [he] at hs
  generalize s.inner = a, t.inner = b at hs
  cases hs
  rfl

/-- `EndTest` panics -/
example : ∃ s, Steps counting (new 3) [.call 0 .endTest, .lock 0, .load 0, .effect 0 .endTest none, .call 1 .beginIteration] s ∧ Panicked [.call 0 .endTest, .lock 0, .load 0, .effect 0 .endTest (none : Option Nat), .call 1 .beginIteration] :=
  ⟨_, .step (.call rfl) (.step (.lock rfl rfl) (.step (.load rfl) (.step (.panic (c := .endTest) (v := 3) (w := 3) rfl rfl) (.step (.call rfl) .refl)))), 0, .endTest, by simp⟩

end

/-- With one of the raw, single or grouped recorders inside: the recorder is in the state it would be in if the calls were made one after the other from one goroutine. -/
theorem C81_performance (k : Recorders.Flavor) (r : Recorders.Recorder) (ls : List (Label Unit)) (s : State Recorders.Recorder Unit) (st : Steps (performance k) (new r) ls s) :
    ∃ nows : List (Nat → Time), nows.length = (effects ls).length ∧ s.inner = Recorders.run k r (((effects ls).map fun e => e.2.1).zip nows) :=
  run_sequential (C81_linearizable r ls s st).1

/-- two goroutines that both count an operation -/
example (r : Recorders.Recorder) (now : Nat → Time) : ∃ s, Steps (performance .raw) (new r) [.call 0 (.incOperations 1), .call 1 (.incOperations 1), .lock 0, .load 0,
    .effect 0 (.incOperations 1) (some ()), .ret 0 (.incOperations 1) (), .lock 1, .load 1, .effect 1 (.incOperations 1) (some ())] s :=
  ⟨_, .step (.call rfl) (.step (.call rfl) (.step (.lock rfl rfl) (.step (.load rfl) (.step (.store (c := .incOperations 1) rfl ⟨now, rfl⟩) (.step (.unlock rfl) (.step (.lock rfl rfl)
    (.step (.load rfl) (.step (.store (c := .incOperations 1) rfl ⟨now, rfl⟩) .refl))))))))⟩

section
open Model.Synchronized Spec.Concurrent

variable {σ α β μ ρ : Type}

/-- The synchronized collector of the events package: the calls are as if they were made one after the other, and nobody waits for ever, also after calls that panicked
    (`none`), as the lock is given back then. -/
theorem C81_collector (apply : Method α β μ → σ → σ × Option ρ) (hro : ∀ v, (apply .info v).1 = v) (c : σ) (ls : List (Synchronized.Label (Method α β μ) (Option ρ)))
    (s : Synchronized.State σ (Method α β μ) (Option ρ)) (st : Synchronized.Steps Method.isRead apply (Synchronized.new c) ls s) :
    Spec.Concurrent.Sequential apply c (Spec.Concurrent.effects ls) s.inner ∧ (∀ i, Spec.Concurrent.Calls i (Spec.Concurrent.ofCaller i ls)) ∧
    (∀ i j o o', held (s.callers i) = some o → held (s.callers j) = some o' → o ≠ .info → i = j) ∧
    ∀ i, s.callers i ≠ .idle → ∃ l t, Synchronized.Step Method.isRead apply s l t ∧ ∀ j o, l ≠ .call j o := by
  have h := C72_linearizable (isRead := Method.isRead) (fun o v h => by cases o <;> simp [Method.isRead] at h; exact hro v) c ls s st
  refine ⟨h.1, h.2, fun i j o o' hi hj ho => C72_exclusive c ls s st i j o o' hi hj ?_, fun i hi => C72_progress c ls s st i hi⟩
  cases o <;> first | rfl | exact absurd rfl ho

/-- a collector whose `Resolve` panics -/
def noResolve : Method Nat Nat Nat → Nat → Nat × Option Nat
  | .resolve, v => (v, none)
  | .add x, v => (v + x, some 0)
  | _, v => (v, some v)

example : ∃ s, Synchronized.Steps Method.isRead noResolve
    (Synchronized.new 5) [.call 0 .resolve, .lock 0, .load 0, .effect 0 .resolve none, .ret 0 .resolve none, .call 1 (.add 2), .lock 1] s :=
  ⟨_, .step (.call rfl) (.step (.lock rfl rfl rfl rfl) (.step (.load rfl) (.step (.store (o := Method.resolve) (v := 5) rfl rfl) (.step (.unlock rfl rfl) (.step (.call rfl)
    (.step (.lock rfl rfl rfl rfl) .refl))))))⟩

end

/-- Whatever calls are made of the shim as a `Recorder`: the recorder inside gets exactly these, and the timer is reset once for each `Reset`.  So the timer is neither started
    nor stopped by `BeginIteration` and `EndIteration`.  Each reset of the timer is directly followed by that of the recorder. -/
theorem C81_shim (cs : List Call) :
    recorderCalls (cs.flatMap shimCall) = cs ∧ timerCalls (cs.flatMap shimCall) = List.replicate (cs.countP isReset) .reset ∧
    TimerOp.start ∉ timerCalls (cs.flatMap shimCall) ∧ TimerOp.stop ∉ timerCalls (cs.flatMap shimCall) ∧
    ∀ before after, cs.flatMap shimCall = before ++ .timer .reset :: after → ∃ rest, after = .recorder .reset :: rest := by
  have order : ∀ before after, cs.flatMap shimCall = before ++ .timer .reset :: after → ∃ rest, after = .recorder .reset :: rest := by
    induction cs with
    | nil => intro before after h; cases before <;> cases h
    | cons c cs ih =>
      intro before after h
      rw [List.flatMap_cons] at h
      cases c with
      | reset =>
        match before with
        | [] => simp only [shimCall, List.cons_append, List.nil_append, List.cons.injEq, true_and] at h; exact ⟨_, h.symm⟩
        | [a] => simp [shimCall] at h
        | a :: b :: before => simp only [shimCall, List.cons_append, List.nil_append, List.cons.injEq] at h; exact ih before after h.2.2
      | _ =>
        match before with
        | [] => simp [shimCall] at h
        | a :: before => simp only [shimCall, List.cons_append, List.nil_append, List.cons.injEq] at h; exact ih before after h.2
  have h : recorderCalls (cs.flatMap shimCall) = cs ∧ timerCalls (cs.flatMap shimCall) = List.replicate (cs.countP isReset) .reset := by
    clear order
    induction cs with
    | nil => exact ⟨rfl, rfl⟩
    | cons c cs ih =>
      rw [List.flatMap_cons, recorderCalls_append, timerCalls_append, ih.1, ih.2]
      refine ⟨by cases c <;> rfl, ?_⟩
      cases c <;> simp [shimCall, timerCalls, isReset, List.countP_cons, List.replicate_succ]
  refine ⟨h.1, h.2, ?_, ?_, order⟩ <;> rw [h.2] <;> intro hm <;> cases (List.mem_replicate.mp hm).2

example : timerCalls ([Call.beginIteration, .endIteration 5, .reset].flatMap shimCall) = [.reset] := rfl

/-- The methods that start and stop it, `Begin` and `End`, are not in the interface that `NewShimRecorder` returns.  Iterations made with them are timed: the timer runs from
    before each `BeginIteration` to before the `EndIteration`. -/
theorem C81_shim_begin (ds : List Int) :
    recorderCalls (ds.flatMap fun d => shimBegin ++ shimEnd d) = ds.flatMap (fun d => [.beginIteration, .endIteration d]) ∧
    timerCalls (ds.flatMap fun d => shimBegin ++ shimEnd d) = ds.flatMap (fun _ => [.start, .stop]) ∧
    ∀ d ∈ ds, shimBegin ++ shimEnd d = [.timer .start, .recorder .beginIteration, .timer .stop, .recorder (.endIteration d)] := by
  refine ⟨?_, ?_, fun d _ => rfl⟩ <;> induction ds with
  | nil => rfl
  | cons d ds ih => rw [List.flatMap_cons, List.flatMap_cons]; first | rw [recorderCalls_append, ih]; rfl | rw [timerCalls_append, ih]; rfl

example := C81_shim_begin [5, 7]

end Birch.Props
