import Verif.Spec.Service

/- The goroutines of a connection of the service. -/

namespace Birch.Proofs.Service
open Birch Model Model.Wire Model.Registry Model.Service Spec.Service

variable {H : Type} {y : Sys H}

theorem Steps.trans {s t u : State H} (h : Steps y s t) (h' : Steps y t u) : Steps y s u := by
  induction h with
  | refl => exact h'
  | step a _ ih => exact .step a (ih h')

theorem Steps.one {s t : State H} (h : Step y s t) : Steps y s t := .step h .refl

/-- An invariant of every step holds after any number of steps. -/
theorem invariant {P : State H → Prop} (hp : ∀ s t, Step y s t → P s → P t) {s t : State H} (st : Steps y s t) : P s → P t := by
  induction st with
  | refl => exact id
  | step a _ ih => exact fun h => ih (hp _ _ a h)

/-! ### The dispatcher -/

/-- what is yet to be done -/
def Fut (y : Sys H) (hs : List (H × Message)) (f : Option Fault) (s : State H) : Prop :=
  match s.dispatcher with
  | .reading => (∃ rest, Asks y s.conn rest f ∧ started s ++ rest = hs) ∧ s.errors = []
  | .got m => s.errors = [] ∧
    ((∃ h rest, dispatch y.ops m = .ok (some h) ∧ Asks y s.conn rest f ∧ started s ++ (h, m) :: rest = hs) ∨
     (dispatch y.ops m = .ok none ∧ started s = hs ∧ f = some .undefined) ∨ (dispatch y.ops m = .panic ∧ started s = hs ∧ f = some .panic))
  | .closing => started s = hs ∧ s.errors = f.toList
  | .ended => started s = hs ∧ (s.errors = f.toList ∨ s.errors = f.toList ++ [.closing])

theorem started_set {s : State H} {i : Nat} {t t' : Handling H} (h : s.tasks[i]? = some t) (h1 : t'.handler = t.handler) (h2 : t'.message = t.message) :
    (s.tasks.set i t').map (fun t => (t.handler, t.message)) = s.tasks.map fun t => (t.handler, t.message) := by
  apply List.ext_getElem?
  intro j
  simp only [List.getElem?_map, List.getElem?_set]
  split
  · next e =>
    subst e
    rw [h]
    split
    · simp [h1, h2]
    · next hl => rw [List.getElem?_eq_none (by omega)] at h; cases h
  · rfl

theorem fut_congr {hs : List (H × Message)} {f : Option Fault} {s t : State H} (h : Fut y hs f s) (h1 : t.dispatcher = s.dispatcher) (h2 : t.conn = s.conn)
    (h3 : t.errors = s.errors) (h4 : started t = started s) : Fut y hs f t := by
  unfold Fut at h ⊢
  rw [h1, h2, h3, h4]
  exact h

theorem fut_step {hs : List (H × Message)} {f : Option Fault} {s t : State H} (st : Step y s t) (hi : s.ctxDone = false → Fut y hs f s) (hc : t.ctxDone = false) : Fut y hs f t := by
  cases st with
  | read h1 h2 h3 h4 =>
    have hi := hi hc
    unfold Fut at hi ⊢
    rw [h2] at hi
    obtain ⟨⟨rest, ha, he⟩, h5⟩ := hi
    rw [h3 hc] at h4
    refine ⟨h5, ?_⟩
    cases ha with
    | eof h | err h | panic h => rw [h] at h4; cases h4
    | undefined h h' => rw [h] at h4; cases h4; exact .inr (.inl ⟨h', (List.append_nil (started s)).symm.trans he, rfl⟩)
    | noScope h h' => rw [h] at h4; cases h4; exact .inr (.inr ⟨h', (List.append_nil (started s)).symm.trans he, rfl⟩)
    | next h h' ha => rw [h] at h4; cases h4; exact .inl ⟨_, _, h', ha, he⟩
  | readErr h1 h2 h3 h4 =>
    have hi := hi hc
    unfold Fut at hi ⊢
    rw [h2] at hi
    obtain ⟨⟨rest, ha, he⟩, h5⟩ := hi
    rw [h3 hc] at h4
    dsimp only at hc ⊢
    rw [h5, hc]
    cases ha with
    | eof h => rw [h] at h4; cases h4; exact ⟨(List.append_nil (started s)).symm.trans he, by simp⟩
    | err h hn => rw [h] at h4; cases h4; exact ⟨(List.append_nil (started s)).symm.trans he, by simp [hn]⟩
    | panic h | undefined h h' | noScope h h' | next h h' ha => rw [h] at h4; cases h4
  | readPanic h1 h2 h3 h4 =>
    have hi := hi hc
    unfold Fut at hi ⊢
    rw [h2] at hi
    obtain ⟨⟨rest, ha, he⟩, h5⟩ := hi
    rw [h3 hc] at h4
    dsimp only
    rw [h5]
    cases ha with
    | panic h => exact ⟨(List.append_nil (started s)).symm.trans he, rfl⟩
    | eof h | err h | undefined h h' | noScope h h' | next h h' ha => rw [h] at h4; cases h4
  | start h1 h2 h3 =>
    have hi := hi hc
    unfold Fut at hi ⊢
    rw [h2] at hi
    obtain ⟨h5, ⟨h, rest, e, ha, he⟩ | ⟨e, _⟩ | ⟨e, _⟩⟩ := hi
    · rw [e] at h3
      cases h3
      exact ⟨⟨rest, ha, by simpa [started] using he⟩, h5⟩
    · rw [e] at h3; cases h3
    · rw [e] at h3; cases h3
  | undefined h1 h2 h3 =>
    have hi := hi hc
    unfold Fut at hi ⊢
    rw [h2] at hi
    obtain ⟨h5, ⟨h, rest, e, ha, he⟩ | ⟨e, he, rfl⟩ | ⟨e, _⟩⟩ := hi
    · rw [e] at h3; cases h3
    · exact ⟨he, by simp [h5]⟩
    · rw [e] at h3; cases h3
  | scopePanic h1 h2 h3 =>
    have hi := hi hc
    unfold Fut at hi ⊢
    rw [h2] at hi
    obtain ⟨h5, ⟨h, rest, e, ha, he⟩ | ⟨e, _⟩ | ⟨e, he, rfl⟩⟩ := hi
    · rw [e] at h3; cases h3
    · rw [e] at h3; cases h3
    · exact ⟨he, by simp [h5]⟩
  | close failed h1 h2 =>
    have hi := hi hc
    unfold Fut at hi ⊢
    rw [h2] at hi
    refine ⟨hi.1, ?_⟩
    dsimp only
    rw [hi.2]
    cases failed <;> simp
  | write h1 h2 h3 h4 h5 | writeFail h1 h2 h3 h4 h5 | «return» h1 h2 h3 h4 h5 =>
    exact fut_congr (hi hc) rfl rfl rfl (started_set h2 rfl rfl)
  | panic h1 h2 h3 h4 h5 => exact hi hc
  | cancel => cases hc

theorem fut_steps {hs : List (H × Message)} {f : Option Fault} {src : Stream.Source} {s : State H} (ha : Asks y src hs f) (st : Steps y (new src) s) (hc : s.ctxDone = false) :
    Fut y hs f s :=
  invariant (P := fun s => s.ctxDone = false → Fut y hs f s) (fun _ _ a h hc => fut_step a h hc) st (fun _ => ⟨⟨hs, ha, rfl⟩, rfl⟩) hc

/-! ### Closing and errors -/

def Faults (s : State H) : Prop :=
  match s.dispatcher with
  | .reading | .got _ => s.closes = 0 ∧ s.errors = []
  | .closing => s.closes = 0 ∧ s.errors.length ≤ 1 ∧ .closing ∉ s.errors
  | .ended => s.closes = 1 ∧ ∃ es, es.length ≤ 1 ∧ .closing ∉ es ∧ (s.errors = es ∨ s.errors = es ++ [.closing])

theorem faults_step {s t : State H} (st : Step y s t) (h : Faults s) : Faults t := by
  cases st with
  | read h1 h2 | start h1 h2 => unfold Faults at h ⊢; rw [h2] at h; exact h
  | readErr h1 h2 =>
    unfold Faults at h ⊢
    rw [h2] at h
    dsimp only
    rw [h.2]
    refine ⟨h.1, ?_⟩
    split <;> simp
  | readPanic h1 h2 | undefined h1 h2 | scopePanic h1 h2 =>
    unfold Faults at h ⊢
    rw [h2] at h
    dsimp only
    rw [h.2]
    exact ⟨h.1, by simp, by simp⟩
  | close failed h1 h2 =>
    unfold Faults at h ⊢
    rw [h2] at h
    refine ⟨by simp [h.1], s.errors, h.2.1, h.2.2, ?_⟩
    cases failed <;> simp
  | write h1 h2 h3 h4 h5 | writeFail h1 h2 h3 h4 h5 | «return» h1 h2 h3 h4 h5 | panic h1 h2 h3 h4 h5 | cancel => exact h

theorem faults {src : Stream.Source} {s : State H} (st : Steps y (new src) s) : Faults s :=
  invariant (fun _ _ a h => faults_step a h) st ⟨rfl, rfl⟩

/-! ### What the client gets -/

structure Sent (y : Sys H) (s : State H) : Prop where
  known : ∀ x ∈ s.out, x.1 < s.tasks.length
  task : ∀ (i : Nat) (t : Handling H), s.tasks[i]? = some t → (t.running = false → t.left = []) ∧
    ∃ lost, reply s i ++ lost ++ t.left = y.writes t.handler t.message ∧ (s.closes = 0 → lost = [])

theorem sent_congr {s t : State H} (h : Sent y s) (h1 : t.out = s.out) (h2 : t.tasks = s.tasks) (h3 : t.closes = 0 → s.closes = 0) : Sent y t := by
  refine ⟨by rw [h1, h2]; exact h.known, fun i a ha => ?_⟩
  rw [h2] at ha
  obtain ⟨a1, l, a2, a3⟩ := h.task i a ha
  exact ⟨a1, l, by rw [reply, h1]; exact a2, fun e => a3 (h3 e)⟩

theorem sent_step {s t : State H} (st : Step y s t) (h : Sent y s) : Sent y t := by
  cases st with
  | read | readErr | readPanic | undefined | scopePanic | panic | cancel => exact sent_congr h rfl rfl id
  | close => exact sent_congr h rfl rfl (fun e => by simp at e)
  | start h1 h2 h3 =>
    refine ⟨fun x hx => by have := h.known x hx; simp; omega, fun i t ht => ?_⟩
    rw [List.getElem?_append] at ht
    split at ht
    · exact h.task i t ht
    · next hl =>
      have hn : reply s i = [] := by
        simp only [reply, List.map_eq_nil_iff, List.filter_eq_nil_iff, decide_eq_true_eq]
        intro x hx e
        have := h.known x hx
        omega
      cases hj : i - s.tasks.length with
      | zero =>
        rw [hj] at ht
        simp only [List.getElem?_cons_zero, Option.some.injEq] at ht
        subst ht
        refine ⟨by simp, [], ?_, fun _ => rfl⟩
        change reply s i ++ _ ++ _ = _
        simp [hn]
      | succ => rw [hj] at ht; simp at ht
  | @write i t b bs h1 h2 h3 h4 h5 =>
    have hl : i < s.tasks.length := (List.getElem?_eq_some_iff.mp h2).1
    refine ⟨fun x hx => ?_, fun j u hu => ?_⟩
    · simp only [List.length_set]
      rcases List.mem_append.mp hx with hx | hx
      · exact h.known x hx
      · simp only [List.mem_singleton] at hx; subst hx; exact hl
    · simp only [List.getElem?_set] at hu
      split at hu
      · next e =>
        subst e
        simp only [Option.some.injEq] at hu
        subst hu
        obtain ⟨a1, l, a2, a3⟩ := h.task i t h2
        rw [a3 h5, h4, List.append_nil] at a2
        refine ⟨fun e => by simp [h3] at e, [], ?_, fun _ => rfl⟩
        rw [← a2]
        simp [reply]
      · next e =>
        obtain ⟨a1, l, a2, a3⟩ := h.task j u hu
        refine ⟨a1, l, ?_, a3⟩
        rw [← a2]
        simp [reply, e]
  | @writeFail i t b bs h1 h2 h3 h4 h5 =>
    have hl : i < s.tasks.length := (List.getElem?_eq_some_iff.mp h2).1
    refine ⟨fun x hx => by simpa using h.known x hx, fun j u hu => ?_⟩
    simp only [List.getElem?_set] at hu
    split at hu
    · next e =>
      subst e
      simp only [Option.some.injEq] at hu
      subst hu
      obtain ⟨a1, l, a2, a3⟩ := h.task i t h2
      rw [h4] at a2
      refine ⟨fun e => by simp [h3] at e, l ++ [b], ?_, fun e => absurd e h5⟩
      rw [← a2]
      simp [reply]
    · exact h.task j u hu
  | @«return» i t h1 h2 h3 h4 h5 =>
    have hl : i < s.tasks.length := (List.getElem?_eq_some_iff.mp h2).1
    refine ⟨fun x hx => by simpa using h.known x hx, fun j u hu => ?_⟩
    simp only [List.getElem?_set] at hu
    split at hu
    · next e =>
      subst e
      simp only [Option.some.injEq] at hu
      subst hu
      obtain ⟨a1, l, a2, a3⟩ := h.task i t h2
      exact ⟨fun _ => h4, l, a2, a3⟩
    · exact h.task j u hu

theorem sent {src : Stream.Source} {s : State H} (st : Steps y (new src) s) : Sent y s :=
  invariant (fun _ _ a h => sent_step a h) st ⟨by simp [new], by simp [new]⟩

/-- Nothing reaches the client after the connection is closed. -/
theorem closed_steps {s t : State H} (st : Steps y s t) (h : s.closes ≠ 0) : t.closes ≠ 0 ∧ t.out = s.out := by
  induction st with
  | refl => exact ⟨h, rfl⟩
  | step a _ ih =>
    suffices hs : _ ∧ _ from ⟨(ih hs.1).1, (ih hs.1).2.trans hs.2⟩
    cases a with
    | write h1 h2 h3 h4 h5 => exact absurd h5 h
    | close => exact ⟨by simp, rfl⟩
    | read | readErr | readPanic | start | undefined | scopePanic | writeFail | «return» | panic | cancel => exact ⟨h, rfl⟩

/-- Without a handler that panics the process goes on. -/
theorem not_crashed (hp : ∀ h m, y.panics h m = false) {s t : State H} (st : Steps y s t) : s.crashed = false → t.crashed = false := by
  refine invariant (P := fun s => s.crashed = false) (fun s t a h => ?_) st
  cases a with
  | panic h1 h2 h3 h4 h5 => rw [hp] at h5; cases h5
  | read | readErr | readPanic | start | undefined | scopePanic | write | close | writeFail | «return» | cancel => exact h

/-! ### Every execution can be completed -/

/-- what the handlers have yet to do -/
def work : List (Handling H) → Nat
  | [] => 0
  | t :: ts => (if t.running then t.left.length + 1 else 0) + work ts

theorem work_set {ts : List (Handling H)} {i : Nat} {t t' : Handling H} (h : ts[i]? = some t)
    (hw : (if t'.running then t'.left.length + 1 else 0) < (if t.running then t.left.length + 1 else 0)) : work (ts.set i t') < work ts := by
  induction ts generalizing i with
  | nil => simp at h
  | cons a ts ih =>
    cases i with
    | zero => simp only [List.getElem?_cons_zero, Option.some.injEq] at h; subst h; simp only [List.set_cons_zero, work]; omega
    | succ i => simp only [List.getElem?_cons_succ] at h; simp only [List.set_cons_succ, work]; have := ih h; omega

theorem finish_tasks (hp : ∀ h m, y.panics h m = false) (n : Nat) : ∀ s : State H, work s.tasks ≤ n → s.crashed = false → s.dispatcher = .ended → s.closes ≠ 0 →
    ∃ t, Steps y s t ∧ Over t ∧ started t = started s ∧ t.errors = s.errors ∧ t.ctxDone = s.ctxDone := by
  induction n with
  | zero =>
    intro s hn hc hd hk
    refine ⟨s, .refl, ⟨hc, hd, fun t ht => ?_⟩, rfl, rfl, rfl⟩
    obtain ⟨i, hi⟩ := List.mem_iff_getElem?.mp ht
    cases hr : t.running with
    | false => rfl
    | true =>
      have := work_set (t' := { t with running := false }) hi (by simp [hr])
      omega
  | succ n ih =>
    intro s hn hc hd hk
    by_cases hr : ∃ t ∈ s.tasks, t.running = true
    · obtain ⟨t, ht, hr⟩ := hr
      obtain ⟨i, hi⟩ := List.mem_iff_getElem?.mp ht
      cases hl : t.left with
      | nil =>
        have hw := work_set (t' := { t with running := false }) hi (by simp [hr])
        obtain ⟨u, h1, h2, h3, h4⟩ := ih { s with tasks := s.tasks.set i { t with running := false } } (by dsimp only; omega) hc hd hk
        exact ⟨u, .step (.return hc hi hr hl (hp _ _)) h1, h2, h3.trans (started_set hi rfl rfl), h4⟩
      | cons b bs =>
        have hw := work_set (t' := { t with left := bs }) hi (by simp [hr, hl])
        obtain ⟨u, h1, h2, h3, h4⟩ := ih { s with tasks := s.tasks.set i { t with left := bs } } (by dsimp only; omega) hc hd hk
        exact ⟨u, .step (.writeFail hc hi hr hl hk) h1, h2, h3.trans (started_set hi rfl rfl), h4⟩
    · refine ⟨s, .refl, ⟨hc, hd, fun t ht => ?_⟩, rfl, rfl, rfl⟩
      cases hr' : t.running with
      | false => rfl
      | true => exact absurd ⟨t, ht, hr'⟩ hr

theorem finish_dispatcher {f : Option Fault} {src : Stream.Source} {rest : List (H × Message)} (ha : Asks y src rest f) : ∀ s : State H, s.conn = src → s.crashed = false →
    s.ctxDone = false → s.dispatcher = .reading → ∃ t, Steps y s t ∧ t.dispatcher = .closing ∧ t.crashed = false ∧ t.ctxDone = false ∧ t.out = s.out := by
  induction ha with
  | eof h | err h => rintro s rfl hc hx hd; exact ⟨_, Steps.one (.readErr hc hd (fun _ => rfl) h), rfl, hc, hx, rfl⟩
  | panic h => rintro s rfl hc hx hd; exact ⟨_, Steps.one (.readPanic hc hd (fun _ => rfl) h), rfl, hc, hx, rfl⟩
  | undefined h h' => rintro s rfl hc hx hd; exact ⟨_, .step (.read hc hd (fun _ => rfl) h) (Steps.one (.undefined hc rfl h')), rfl, hc, hx, rfl⟩
  | noScope h h' => rintro s rfl hc hx hd; exact ⟨_, .step (.read hc hd (fun _ => rfl) h) (Steps.one (.scopePanic hc rfl h')), rfl, hc, hx, rfl⟩
  | @next s0 m s' fs h hs f h h' ha ih =>
    rintro s rfl hc hx hd
    obtain ⟨t, h1, h2⟩ := ih { s with dispatcher := .reading, conn := s', tasks := s.tasks ++ [⟨_, m, y.writes _ m, true⟩] } rfl hc hx rfl
    exact ⟨t, .step (.read hc hd (fun _ => rfl) h) (.step (.start hc rfl h') h1), h2⟩

/-- From every state that can be reached without the context ending, the execution can be brought to its end. -/
theorem finish {hs : List (H × Message)} {f : Option Fault} {src : Stream.Source} {s : State H} (hp : ∀ h m, y.panics h m = false) (ha : Asks y src hs f)
    (st : Steps y (new src) s) (hc : s.ctxDone = false) : ∃ t, Steps y s t ∧ Over t ∧ t.ctxDone = false := by
  have hcr := not_crashed hp st rfl
  have close : ∀ u : State H, Steps y s u → u.dispatcher = .closing → u.crashed = false → u.ctxDone = false → ∃ t, Steps y s t ∧ Over t ∧ t.ctxDone = false := by
    intro u h1 h2 h3 h4
    obtain ⟨t, a, b, _, _, c⟩ := finish_tasks hp _ { u with dispatcher := .ended, closes := u.closes + 1, errors := u.errors ++ if false then [.closing] else [] }
      (Nat.le_refl _) h3 rfl (by simp)
    exact ⟨t, Steps.trans h1 (.step (.close false h3 h2) a), b, by rw [c]; exact h4⟩
  have hf := fut_steps ha st hc
  unfold Fut at hf
  cases hd : s.dispatcher with
  | reading =>
    rw [hd] at hf
    obtain ⟨⟨rest, h1, _⟩, _⟩ := hf
    obtain ⟨u, h2, h3, h4, h5, _⟩ := finish_dispatcher h1 s rfl hcr hc hd
    exact close u h2 h3 h4 h5
  | got m =>
    rw [hd] at hf
    obtain ⟨_, ⟨h, rest, e, h1, _⟩ | ⟨e, _⟩ | ⟨e, _⟩⟩ := hf
    · obtain ⟨u, h2, h3, h4, h5, _⟩ := finish_dispatcher h1 { s with dispatcher := .reading, tasks := s.tasks ++ [⟨h, m, y.writes h m, true⟩] } rfl hcr hc rfl
      exact close u (.step (.start hcr hd e) h2) h3 h4 h5
    · exact close _ (Steps.one (.undefined hcr hd e)) rfl hcr hc
    · exact close _ (Steps.one (.scopePanic hcr hd e)) rfl hcr hc
  | closing => exact close s .refl hd hcr hc
  | ended =>
    have hk : s.closes ≠ 0 := by
      have := faults st
      unfold Faults at this
      rw [hd] at this
      omega
    obtain ⟨t, a, b, _, _, c⟩ := finish_tasks hp _ s (Nat.le_refl _) hcr hd hk
    exact ⟨t, a, b, by rw [c]; exact hc⟩

/-- The dispatcher may get to its end before any handler writes. -/
theorem silent {hs : List (H × Message)} {f : Option Fault} {src : Stream.Source} (hp : ∀ h m, y.panics h m = false) (ha : Asks y src hs f) :
    ∃ s, Steps y (new src) s ∧ Over s ∧ s.ctxDone = false ∧ s.out = [] := by
  obtain ⟨u, h1, h2, h3, h4, h5⟩ := finish_dispatcher ha (new src) rfl rfl rfl rfl
  obtain ⟨t, a, b, _, _, c⟩ := finish_tasks hp _ { u with dispatcher := .ended, closes := u.closes + 1, errors := u.errors ++ if false then [.closing] else [] }
    (Nat.le_refl _) h3 rfl (by simp)
  refine ⟨t, Steps.trans h1 (.step (.close false h3 h2) a), b, by rw [c]; exact h4, ?_⟩
  rw [(closed_steps a (by simp)).2]
  exact h5

/-! ### The handler of a message -/

theorem wants_total {cs : List (Scope × Option H)} (ws : List Spec.Wire.WMsg) : ∃ hs f, Wants cs ws hs f := by
  induction ws with
  | nil => exact ⟨_, _, .done⟩
  | cons w ws ih =>
    obtain ⟨hs, f, ih⟩ := ih
    cases hw : Spec.Registry.scopeOf w with
    | none => exact ⟨_, _, .reply hw⟩
    | some s =>
      by_cases h : ∃ x, HandlerFor cs s x
      · obtain ⟨x, h⟩ := h
        exact ⟨_, _, .next hw h ih⟩
      · exact ⟨_, _, .undefined hw fun x hx => h ⟨x, hx⟩⟩

/-! ### `Run` -/

variable {C : Type}

theorem run_dispatched {r t : Run C} {ls : List (Option (Accepted C))} (st : Run.Steps r ls t) : t.dispatched = r.dispatched ++ accepted ls := by
  induction st with
  | refl => simp [accepted]
  | step a _ ih => rw [ih]; cases a <;> simp [accepted]

theorem run_reported {r t : Run C} {ls : List (Option (Accepted C))} (st : Run.Steps r ls t) : t.reported = r.reported + refused ls := by
  induction st with
  | refl => simp [refused]
  | step a _ ih => rw [ih]; cases a <;> simp [refused] <;> omega

theorem run_over {r t : Run C} {ls : List (Option (Accepted C))} (st : Run.Steps r ls t) (h : r.loop = .returned) : t.loop = .returned ∧ accepted ls = [] := by
  induction st with
  | refl => exact ⟨h, rfl⟩
  | step a _ ih => cases a <;> first | exact ih h | simp_all

theorem run_returned {r t : Run C} {ls : List (Option (Accepted C))} (st : Run.Steps r ls t) (h : t.loop = .returned) :
    r.loop = .returned ∨ t.ctxDone = true ∨ some .ctxErr ∈ ls := by
  have mono : ∀ {r t : Run C} {ls : List (Option (Accepted C))}, Run.Steps r ls t → r.ctxDone = true → t.ctxDone = true := by
    intro r t ls st
    induction st with
    | refl => exact id
    | step a _ ih => intro h; apply ih; cases a <;> first | rfl | exact h
  induction st with
  | refl => exact .inl h
  | step a st ih =>
    rcases ih h with ih | ih | ih
    · cases a with
      | cancel => exact .inl ih
      | done h1 h2 => exact .inr (.inl (mono st h2))
      | live => cases ih
      | conn => cases ih
      | ctxErr => exact .inr (.inr (by simp))
      | err => cases ih
    · exact .inr (.inl ih)
    · exact .inr (.inr (by simp [ih]))

/-- After the context has ended at most one connection is served. -/
theorem run_last {r t : Run C} {ls : List (Option (Accepted C))} (st : Run.Steps r ls t) (h : r.ctxDone = true) :
    (accepted ls).length ≤ if r.loop = .accepting then 1 else 0 := by
  induction st with
  | refl => simp [accepted]
  | step a _ ih =>
    cases a with
    | cancel => simpa [accepted] using ih rfl
    | done h1 h2 => have := ih h; simpa [accepted, h1] using this
    | live h1 h2 => rw [h] at h2; cases h2
    | conn h1 => have := ih h; simp [accepted, h1] at this ⊢; simp [this]
    | ctxErr h1 => have := ih h; simp [accepted, h1] at this ⊢; simp [this]
    | err h1 => have := ih h; simp [accepted, h1] at this ⊢; simp [this]

theorem run_waits {r t : Run C} {ls : List (Option (Accepted C))} (st : Run.Steps r ls t) (h : r.loop = .accepting) (hl : ∀ l ∈ ls, l = none) : t.loop = .accepting := by
  induction st with
  | refl => exact h
  | step a _ ih =>
    refine ih ?_ fun l hm => hl l (by simp [hm])
    cases a with
    | cancel => exact h
    | done h1 => rw [h] at h1; cases h1
    | live => rfl
    | conn | ctxErr | err => have := hl _ (List.mem_cons_self ..); cases this

theorem Run.Steps.trans {r t u : Run C} {ls ms : List (Option (Accepted C))} (h : Run.Steps r ls t) (h' : Run.Steps t ms u) : Run.Steps r (ls ++ ms) u := by
  induction h with
  | refl => exact h'
  | step a _ ih => exact .step a (ih h')

end Birch.Proofs.Service
