import Verif.Proofs.Buffered
import Verif.Proofs.Synchronized

/- C71: the buffered collector.  C72: the synchronized collector. -/

namespace Birch.Props
open Birch Model Spec.Concurrent

/-! ### C71 -/

section
open Model.Buffered Proofs.Buffered

variable {σ α : Type} {add : σ → α → σ × Option Err} {size : Nat}

/-- Under every interleaving: the collector inside gets the items for which `Add` returned nil, each once and in this order, apart from the last ones, which are still in the
    channel (at most `size`) or in the hand of the goroutine (at most one).  It is as if they were added one after the other, and the errors are collected. -/
theorem C71_order (c : σ) (ls : List (Label σ α)) (s : State σ α) (st : Steps add size (new c) ls s) :
    ∃ rest, sent ls = added ls ++ rest ∧ rest.length ≤ size + 1 ∧ s.inner = (addAll add c (added ls)).1 ∧ s.catcher = (addAll add c (added ls)).2 := by
  obtain ⟨h1, h2, h3⟩ := fifo st
  refine ⟨inHand s.worker ++ s.pipe, h1, ?_, h2, h3⟩
  have := (inv_steps (inv_new c) st).room
  cases s.worker <;> simp [inHand] <;> omega

/-- two callers, a channel with room for one -/
example : ∃ s, Steps (fun (c : List Nat) x => (c ++ [x], none)) 1 (new []) [.call 0 7, .call 1 8, .sent 1 8, .worker, .sent 0 7, .added 8] s ∧ s.inner = [8] ∧ s.pipe = [7] :=
  ⟨_, .step (.call rfl) (.step (.call rfl) (.step (.send rfl rfl (by decide)) (.step (.receive rfl rfl) (.step (.send rfl rfl (by decide)) (.step (.add rfl) .refl))))), rfl, rfl⟩

/-- When the goroutine has returned, all items for which `Add` ever returned nil are in the collector inside, and so it stays. -/
theorem C71_complete (c : σ) (ls ms : List (Label σ α)) (s t : State σ α) (st : Steps add size (new c) ls s) (hw : s.worker = .returned) (st' : Steps add size s ms t) :
    added ls = sent ls ∧ sent ms = [] ∧ t.worker = .returned ∧ t.inner = (addAll add c (sent ls)).1 ∧ t.catcher = (addAll add c (sent ls)).2 := by
  have hi := inv_steps (inv_new c) st
  have hq := hi.worker
  rw [hw] at hq
  obtain ⟨h1, h2, h3⟩ := fifo st
  have e : added ls = sent ls := by
    rw [hw, hq.2] at h1
    simpa [new, inHand] using h1.symm
  have key : ∀ (s t : State σ α) (ms : List (Label σ α)), Inv size s → s.worker = .returned → Steps add size s ms t → sent ms = [] ∧ t.worker = .returned ∧ t.inner = s.inner ∧ t.catcher = s.catcher := by
    intro s t ms hi hw st
    induction st with
    | refl => exact ⟨rfl, hw, rfl, rfl⟩
    | @step s t u l ms st _ ih =>
      have hq := hi.worker
      rw [hw] at hq
      have hn := inv_step hi st
      cases st with
      | call h => obtain ⟨a, b⟩ := ih hn hw; exact ⟨a, b⟩
      | send _ h => rw [hq.1] at h; cases h
      | handOver _ h => rw [hq.1] at h; cases h
      | panic h => obtain ⟨a, b⟩ := ih hn hw; exact ⟨a, b⟩
      | refuse h => obtain ⟨a, b⟩ := ih hn hw; exact ⟨a, b⟩
      | cancel => obtain ⟨a, b⟩ := ih hn hw; exact ⟨a, b⟩
      | resolve => obtain ⟨a, b⟩ := ih hn hw; exact ⟨a, b⟩
      | receive h => rw [hw] at h; cases h
      | add h => rw [hw] at h; cases h
      | notice h => rw [hw] at h; cases h
      | close h => rw [hw] at h; cases h
      | check h => rw [hw] at h; cases h
      | next h => rw [hw] at h; cases h
      | drain h => rw [hw] at h; cases h
      | finish h => rw [hw] at h; cases h
  obtain ⟨a1, a2, a3, a4⟩ := key s t ms hi hw st'
  rw [a3, a4, h2, h3, e]
  exact ⟨rfl, a1, a2, rfl, rfl⟩

/-- an item in the channel when the context ends -/
example : ∃ s, Steps (fun (c : List Nat) x => (c ++ [x], none)) 5 (new []) [.call 0 7, .sent 0 7, .cancel, .worker, .worker, .worker, .worker, .added 7, .worker] s ∧
    s.worker = .returned :=
  ⟨_, .step (.call rfl) (.step (.send rfl rfl (by decide)) (.step .cancel (.step (.notice rfl rfl) (.step (.close rfl) (.step (.check rfl) (.step (.next rfl rfl)
    (.step (.drain rfl) (.step (.finish rfl rfl) .refl)))))))), rfl⟩

/-- After the end of the context, from every state the goroutine can return by itself.  Once the channel is closed it takes at most `2 * size + 3` more steps, whatever the
    others do, and it can take a step until it has returned. -/
theorem C71_stops (c : σ) (ls : List (Label σ α)) (s : State σ α) (st : Steps add size (new c) ls s) :
    (s.ctxDone = true → ∃ ms t, Steps add size s ms t ∧ (∀ l ∈ ms, IsWorker l) ∧ t.worker = .returned) ∧
    (s.closed = true → ∀ ms t, Steps add size s ms t → workerSteps ms ≤ 2 * size + 3) ∧
    (s.closed = true → s.worker ≠ .returned → ∃ l t, Step add size s l t ∧ IsWorker l) := by
  have hi := inv_steps (inv_new c) st
  refine ⟨fun hd => stops hd, fun hc ms t st' => ?_, fun hc hr => ?_⟩
  · have := bounded hi hc st'
    have h2 := hi.room
    have : left s.worker ≤ 3 := by cases s.worker <;> simp [left]
    omega
  · have hw := hi.worker
    cases h : s.worker with
    | selecting => rw [h, hc] at hw; cases hw
    | adding y => rw [h, hc] at hw; cases hw
    | closing => rw [h, hc] at hw; cases hw.1
    | checking => exact ⟨_, _, .check h, by simp [IsWorker]⟩
    | ranging =>
      match hp : s.pipe with
      | [] => exact ⟨_, _, .finish h hp, by simp [IsWorker]⟩
      | y :: r => exact ⟨_, _, .next h hp, by simp [IsWorker]⟩
    | draining y => exact ⟨_, _, .drain h, by simp [IsWorker]⟩
    | returned => exact absurd h hr

example : ∃ s, Steps (fun (c : List Nat) x => (c ++ [x], none)) 5 (new []) [.call 0 7, .sent 0 7, .cancel, .worker, .worker] s ∧ s.closed = true ∧ s.ctxDone = true :=
  ⟨_, .step (.call rfl) (.step (.send rfl rfl (by decide)) (.step .cancel (.step (.notice rfl rfl) (.step (.close rfl) .refl)))), rfl, rfl⟩

/-- Nobody waits for ever: if a caller is in `Add`, it or the goroutine can go on. -/
theorem C71_progress (c : σ) (ls : List (Label σ α)) (s : State σ α) (st : Steps add size (new c) ls s) (i : Nat) (x : α) (hc : s.callers i = .selecting x) :
    ∃ l t, Step add size s l t ∧ (l = .sent i x ∨ l = .refused i x ∨ l = .panicked i x ∨ IsWorker l) := by
  have hi := inv_steps (inv_new c) st
  cases hcl : s.closed with
  | true => exact ⟨_, _, .panic hc hcl, by simp⟩
  | false =>
    have hw := hi.worker
    cases h : s.worker with
    | selecting =>
      match hp : s.pipe with
      | [] => exact ⟨_, _, .handOver hc hcl hp h, by simp⟩
      | y :: r => exact ⟨_, _, .receive h hp, by simp [IsWorker]⟩
    | adding y => exact ⟨_, _, .add h, by simp [IsWorker]⟩
    | closing => exact ⟨_, _, .close h, by simp [IsWorker]⟩
    | checking => rw [h, hcl] at hw; cases hw
    | ranging => rw [h, hcl] at hw; cases hw
    | draining y => rw [h, hcl] at hw; cases hw
    | returned => rw [h, hcl] at hw; cases hw.1

/-- The items with which a caller calls `Add` are accepted, refused or end in a panic one after the other, in the order of the calls; the last call may not be over.
    An item is refused or a caller panics only after the end of the context. -/
theorem C71_calls (c : σ) (ls : List (Label σ α)) (s : State σ α) (st : Steps add size (new c) ls s) (i : Nat) :
    (∃ rest, called i ls = (outcomes i ls).map Prod.fst ++ rest ∧ rest.length ≤ 1) ∧ (s.ctxDone = false → ∀ p ∈ outcomes i ls, p.2 = .accepted) := by
  constructor
  · refine ⟨pending (s.callers i), calls st i, ?_⟩
    cases s.callers i <;> simp [pending]
  · have key : ∀ (s t : State σ α) (ls : List (Label σ α)), Inv size s → Steps add size s ls t → t.ctxDone = false → s.ctxDone = false ∧ ∀ p ∈ outcomes i ls, p.2 = .accepted := by
      intro s t ls hi st ht
      induction st with
      | refl => exact ⟨ht, by simp [outcomes]⟩
      | @step s t u l ls st _ ih =>
        obtain ⟨a, b⟩ := ih (inv_step hi st) ht
        rw [outcomes_cons]
        cases st with
        | @send j x h =>
          refine ⟨a, fun p hp => ?_⟩
          rcases List.mem_append.mp hp with hp | hp
          · simp only [outcomes] at hp
            split at hp <;> simp at hp
            rw [hp]
          · exact b p hp
        | @handOver j x h =>
          refine ⟨a, fun p hp => ?_⟩
          rcases List.mem_append.mp hp with hp | hp
          · simp only [outcomes] at hp
            split at hp <;> simp at hp
            rw [hp]
          · exact b p hp
        | panic _ h => have := hi.done h; simp only at a; rw [a] at this; cases this
        | refuse _ h => simp only at a; rw [a] at h; cases h
        | cancel => simp at a
        | call => exact ⟨a, by simpa [outcomes] using b⟩
        | receive => exact ⟨a, by simpa [outcomes] using b⟩
        | add => exact ⟨a, by simpa [outcomes] using b⟩
        | notice => exact ⟨a, by simpa [outcomes] using b⟩
        | close => exact ⟨a, by simpa [outcomes] using b⟩
        | check => exact ⟨a, by simpa [outcomes] using b⟩
        | next => exact ⟨a, by simpa [outcomes] using b⟩
        | drain => exact ⟨a, by simpa [outcomes] using b⟩
        | finish => exact ⟨a, by simpa [outcomes] using b⟩
        | resolve => exact ⟨a, by simpa [outcomes] using b⟩
    exact fun h => (key _ _ ls (inv_new c) st h).2

example : ∃ s, Steps (fun (c : List Nat) x => (c ++ [x], none)) 0 (new []) [.call 0 7, .sent 0 7, .call 0 8, .cancel, .refused 0 8] s :=
  ⟨_, .step (.call rfl) (.step (.handOver rfl rfl rfl rfl) (.step (.call rfl) (.step .cancel (.step (.refuse rfl rfl) .refl))))⟩

/-- Once the goroutine has seen the end of the context, each `Add` may panic: the channel is closed while callers still send to it. -/
theorem C71_panics (c : σ) (x : α) : (∃ ls s, Steps add size (new c) ls s ∧ s.closed = true) ∧
    ∀ ls (s : State σ α), Steps add size (new c) ls s → s.closed = true → ∀ i, s.callers i = .idle → ∃ t, Steps add size s [.call i x, .panicked i x] t := by
  refine ⟨⟨_, _, .step .cancel (.step (.notice rfl rfl) (.step (.close rfl) .refl)), rfl⟩, fun ls s _ hcl i hi => ⟨_, .step (.call hi) (.step (.panic (by simp [Interval.upd]) hcl) .refl)⟩⟩

/-- `Resolve` does not wait for the goroutine: with room for at least one item in the channel, `Add` can return nil for an item that is not in what `Resolve` gives afterwards, although
    the context never ended. -/
theorem C71_resolve_early (h : 1 ≤ size) (c : σ) (x : α) : ∃ s, Steps add size (new c) [.call 0 x, .sent 0 x, .resolved (.inr c)] s ∧ s.ctxDone = false :=
  ⟨_, .step (.call rfl) (.step (.send (by simp [Interval.upd]) rfl (by simp [new]; omega)) (.step .resolve .refl)), rfl⟩

/-- `Resolve` gives the errors of the collector inside if there ever were any, and else what the collector inside has then. -/
theorem C71_resolve (c : σ) (ls : List (Label σ α)) (s t : State σ α) (r : List Err ⊕ σ) (st : Steps add size (new c) ls s) (h : Step add size s (.resolved r) t) :
    t = s ∧ r = if (addAll add c (added ls)).2 = [] then .inr (addAll add c (added ls)).1 else .inl (addAll add c (added ls)).2 := by
  obtain ⟨_, h2, h3⟩ := fifo st
  cases h
  refine ⟨rfl, ?_⟩
  rw [h2, h3]
  by_cases h : (addAll add c (added ls)).2 = [] <;> simp [new, h]

example : ∃ s, Steps (fun (c : List Nat) _ => (c, some Err.other)) 5 (new []) [.call 0 7, .sent 0 7, .added 7, .resolved (.inl [.other])] s :=
  ⟨_, .step (.call rfl) (.step (.handOver rfl rfl rfl rfl) (.step (.add rfl) (.step .resolve .refl)))⟩

end

/-! ### C72 -/

/-- the methods of a collector that is a list -/
inductive Op where
  | add (x : Nat)
  | resolve
  | reset
  | info

def Op.isInfo : Op → Bool
  | .info => true
  | _ => false

def Op.apply : Op → List Nat → List Nat × List Nat
  | .add x, l => (l ++ [x], [])
  | .resolve, l => (l, l)
  | .reset, _ => ([], [])
  | .info, l => (l, [l.length])

example : ∀ o v, Op.isInfo o = true → (Op.apply o v).1 = v := by
  intro o v h; cases o <;> simp [Op.isInfo, Op.apply] at *

section
open Model.Synchronized Proofs.Synchronized

variable {σ ω ρ : Type} {isRead : ω → Bool} {apply : ω → σ → σ × ρ}

/-- Under every interleaving, the calls are as if they were made one after the other, in the order of their effects: each result is that of the sequential collector, and the
    state is that after all of them.  Each effect is between the call and the return of the method, and the result returned is that of the effect. -/
theorem C72_linearizable (hro : ∀ o v, isRead o = true → (apply o v).1 = v) (c : σ) (ls : List (Label ω ρ)) (s : State σ ω ρ) (st : Steps isRead apply (new c) ls s) :
    Sequential apply c (effects ls) s.inner ∧ ∀ i, Calls i (ofCaller i ls) :=
  ⟨sequential hro (inv_new c) st, fun i => calls st i⟩

/-- two callers, of which one waits for the lock -/
example (x y : Nat) : ∃ s, Steps Op.isInfo Op.apply (new []) [.call 0 (.add x), .call 1 (.add y), .lock 1, .load 1, .effect 1 (.add y) [], .ret 1 (.add y) [], .lock 0, .load 0,
    .effect 0 (.add x) []] s ∧ s.inner = [y, x] :=
  ⟨_, .step (.call rfl) (.step (.call rfl) (.step (.lock rfl rfl rfl rfl) (.step (.load rfl) (.step (.store rfl rfl) (.step (.unlock rfl rfl) (.step (.lock rfl rfl rfl rfl)
    (.step (.load rfl) (.step (.store rfl rfl) .refl)))))))), rfl⟩

/-- Only one method that can change the collector is between `Lock` and `Unlock`, and then no other method. -/
theorem C72_exclusive (c : σ) (ls : List (Label ω ρ)) (s : State σ ω ρ) (st : Steps isRead apply (new c) ls s) (i j : Nat) (o o' : ω)
    (hi : held (s.callers i) = some o) (hj : held (s.callers j) = some o') (hw : isRead o = false) : i = j := by
  have inv := inv_steps (inv_new c) st
  have h1 := inv.write i o hi hw
  cases h : isRead o' with
  | false =>
    have := inv.write j o' hj h
    rw [h1] at this
    exact Option.some.inj this
  | true =>
    have := inv.read j o' hj h
    rw [inv.excl i h1] at this
    cases this

example (x : Nat) : ∃ s, Steps Op.isInfo Op.apply (new []) [.call 0 (.add x), .lock 0, .call 1 .info] s ∧ held (s.callers 0) = some (.add x) ∧ s.callers 1 ≠ .idle :=
  ⟨_, .step (.call rfl) (.step (.lock rfl rfl rfl rfl) (.step (.call rfl) .refl)), rfl, by simp [Interval.upd]⟩

/-- Nobody waits for ever: if a caller is in a call, somebody in a call can go on. -/
theorem C72_progress (c : σ) (ls : List (Label ω ρ)) (s : State σ ω ρ) (st : Steps isRead apply (new c) ls s) (i : Nat) (hi : s.callers i ≠ .idle) :
    ∃ l t, Step isRead apply s l t ∧ ∀ j o, l ≠ .call j o := by
  have go : ∀ j, (∃ o, held (s.callers j) = some o) → ∃ l t, Step isRead apply s l t ∧ ∀ j o, l ≠ .call j o := by
    rintro j ⟨o, ho⟩
    cases hc : s.callers j with
    | idle => rw [hc] at ho; cases ho
    | waiting => rw [hc] at ho; cases ho
    | inside o => exact ⟨_, _, .load hc, by simp⟩
    | loaded o v =>
      cases hr : isRead o with
      | false => exact ⟨_, _, .store hc hr, by simp⟩
      | true => exact ⟨_, _, .answer hc hr, by simp⟩
    | done o r =>
      cases hr : isRead o with
      | false => exact ⟨_, _, .unlock hc hr, by simp⟩
      | true => exact ⟨_, _, .runlock hc hr, by simp⟩
  cases hc : s.callers i with
  | idle => exact absurd hc hi
  | inside o => exact go i ⟨o, by rw [hc]; rfl⟩
  | loaded o v => exact go i ⟨o, by rw [hc]; rfl⟩
  | done o r => exact go i ⟨o, by rw [hc]; rfl⟩
  | waiting o =>
    have hl := locked st
    cases hw : s.writer with
    | some j => exact go j (hl.1 j hw)
    | none =>
      cases hr : isRead o with
      | true => exact ⟨_, _, .rlock hc hr hw, by simp⟩
      | false =>
        match hq : s.readers with
        | [] => exact ⟨_, _, .lock hc hr hw hq, by simp⟩
        | j :: r => exact go j (hl.2 j (by rw [hq]; simp))

/-- The methods are atomic, but `FlushCollector` is not: a sample that another goroutine adds between its `Resolve` and its `Reset` is neither written nor kept, although
    `Add` returned without an error. -/
theorem C72_flush_loses (x y : Nat) : ∃ ls s, Steps Op.isInfo Op.apply (new []) ls s ∧
    effects ls = [(1, .add x, []), (0, .info, [1]), (0, .resolve, [x]), (1, .add y, []), (0, .reset, [])] ∧ s.inner = [] ∧ ∀ i, s.callers i = .idle := by
  have one : ∀ (v : List Nat) (o : Op) (i : Nat), Op.isInfo o = false → Steps Op.isInfo Op.apply ⟨v, none, [], fun _ => .idle⟩
      [.call i o, .lock i, .load i, .effect i o (Op.apply o v).2, .ret i o (Op.apply o v).2] ⟨(Op.apply o v).1, none, [], fun _ => .idle⟩ := by
    intro v o i ho
    refine .step (.call rfl) (.step (.lock (o := o) (by simp [Interval.upd]) ho rfl rfl) (.step (.load (o := o) (by simp [Interval.upd])) (.step (.store (o := o) (v := v) (by simp [Interval.upd]) ho)
      (.step (.unlock (o := o) (r := (Op.apply o v).2) (by simp [Interval.upd]) ho) ?_))))
    rw [show Interval.upd (Interval.upd (Interval.upd (Interval.upd (Interval.upd (fun _ => (Caller.idle : Caller (List Nat) Op (List Nat))) i (.waiting o)) i (.inside o)) i (.loaded o v)) i
      (.done o (Op.apply o v).2)) i .idle = fun _ => .idle by funext j; simp only [Interval.upd]; split <;> rfl]
    exact .refl
  have info : ∀ (v : List Nat) (i : Nat), Steps Op.isInfo Op.apply ⟨v, none, [], fun _ => .idle⟩
      [.call i .info, .lock i, .load i, .effect i .info (Op.apply .info v).2, .ret i .info (Op.apply .info v).2] ⟨v, none, [], fun _ => .idle⟩ := by
    intro v i
    refine .step (.call rfl) (.step (.rlock (o := Op.info) (by simp [Interval.upd]) rfl rfl) (.step (.load (o := Op.info) (by simp [Interval.upd])) (.step (.answer (o := Op.info) (v := v) (by simp [Interval.upd]) rfl)
      (.step (.runlock (o := Op.info) (r := (Op.apply .info v).2) (by simp [Interval.upd, Op.apply]) rfl) ?_))))
    rw [show Interval.upd (Interval.upd (Interval.upd (Interval.upd (Interval.upd (fun _ => (Caller.idle : Caller (List Nat) Op (List Nat))) i (.waiting .info)) i (.inside .info)) i (.loaded .info v)) i
      (.done .info (Op.apply .info v).2)) i .idle = fun _ => .idle by funext j; simp only [Interval.upd]; split <;> rfl]
    simp only [List.erase_cons_head]
    exact .refl
  refine ⟨_, _, steps_append (one [] (.add x) 1 rfl) (steps_append (info [x] 0) (steps_append (one [x] .resolve 0 rfl) (steps_append (one [x] (.add y) 1 rfl) (one [x, y] .reset 0 rfl)))), ?_, rfl, fun _ => rfl⟩
  rfl

end
end Birch.Props
