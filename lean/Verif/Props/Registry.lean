import Verif.Proofs.Registry

/-
C44: the operation registry.
-/

namespace Birch.Props
open Birch Spec Spec.Wire Spec.Registry Model Model.Wire Model.Registry Proofs.Registry

variable {H : Type}

/-- After any registrations, `Get` returns the handler registered for the scope; without one, the handler registered for the scope without its context;
    without that, nothing. -/
theorem C44_get (cs : List (Scope × Option H)) (s : Scope) :
    (∀ h, Registered cs s h → (Ops.new.run cs).get s = some h) ∧
    ((∀ h, ¬ Registered cs s h) → ∀ h, Registered cs { s with context := [] } h → (Ops.new.run cs).get s = some h) ∧
    ((∀ h, ¬ Registered cs s h) → (∀ h, ¬ Registered cs { s with context := [] } h) → (Ops.new.run cs).get s = none) := by
  have ho := (history cs).2
  have none : ∀ s, (∀ h, ¬ Registered cs s h) → (Ops.new.run cs).at s = none := by
    intro s hs
    cases e : (Ops.new.run cs).at s with
    | none => rfl
    | some h => exact absurd ((ho s h).mp e) (hs h)
  refine ⟨fun h hr => ?_, fun hs h hr => ?_, fun hs hs' => ?_⟩
  · unfold Ops.get; rw [(ho s h).mpr hr]
  · unfold Ops.get; rw [none s hs]; exact (ho _ h).mpr hr
  · unfold Ops.get; rw [none s hs]; exact none _ hs'

/-- two handlers for the same command, one for a database, and a third that comes too late -/
example : ∃ (cs : List (Scope × Option Nat)) (s : Scope), cs = [(⟨2013, [], [112], none⟩, some 1), (⟨2013, [97], [112], none⟩, some 2), (⟨2013, [97], [112], none⟩, some 3)] ∧
    s = ⟨2013, [97], [112], none⟩ ∧ Registered cs s 2 ∧ Registered cs { s with context := [] } 1 ∧ ∀ h, ¬ Registered cs { s with context := [98] } h := by
  refine ⟨_, _, rfl, rfl, ⟨by simp [Valid], [(⟨2013, [], [112], none⟩, some 1)], _, rfl, by simp⟩, ⟨by simp [Valid], [], _, rfl, by simp⟩, ?_⟩
  rintro h ⟨-, b, a, e, -⟩
  have : ((⟨2013, [98], [112], none⟩, some h) : Scope × Option Nat) ∈ b ++ (⟨2013, [98], [112], none⟩, some h) :: a := by simp
  rw [← e] at this
  simp at this

/-- A scope has at most one handler, and it stays the same whatever is registered later. -/
theorem C44_never_replaced (cs cs' : List (Scope × Option H)) (s : Scope) (h : H) (hr : Registered cs s h) :
    (Ops.new.run (cs ++ cs')).get s = some h := by
  obtain ⟨hv, b, a, rfl, hn⟩ := hr
  exact (C44_get _ s).1 h ⟨hv, b, a ++ cs', by simp, hn⟩

example : Registered [((⟨2002, [97, 46, 98], [], none⟩ : Scope), some 1)] ⟨2002, [97, 46, 98], [], none⟩ 1 := ⟨by simp [Valid], [], [], rfl, by simp⟩

/-- `Add` fails exactly for a scope that is not valid, a nil handler, or a scope that has a handler; it never panics. -/
theorem C44_add (cs : List (Scope × Option H)) (s : Scope) (h : Option H) :
    ((∃ o, (Ops.new.run cs).add s h = .ok o) ↔ Valid s ∧ h ≠ none ∧ ∀ x, ¬ Registered cs s x) ∧
    ((∃ e, (Ops.new.run cs).add s h = .err e) ↔ ¬ Valid s ∨ h = none ∨ ∃ x, Registered cs s x) := by
  have := add_holds (history cs) s h
  split at this
  · next o e =>
    rw [e]
    obtain ⟨h1, ⟨x, rfl⟩, h3, -⟩ := this
    refine ⟨⟨fun _ => ⟨h1, by simp, h3⟩, fun _ => ⟨o, rfl⟩⟩, ⟨fun h => by simp at h, ?_⟩⟩
    rintro (h | h | ⟨x, h⟩)
    · exact absurd h1 h
    · cases h
    · exact absurd h (h3 x)
  · next x e =>
    rw [e]
    refine ⟨⟨fun h => by simp at h, ?_⟩, ⟨fun _ => this.1, fun _ => ⟨x, rfl⟩⟩⟩
    rintro ⟨h1, h2, h3⟩
    rcases this.1 with h | h | ⟨x, h⟩
    · exact absurd h1 h
    · exact absurd h h2
    · exact absurd h (h3 x)
  · exact this.elim

example : Valid ⟨2013, [97], [112], none⟩ ∧ ¬ Valid ⟨2013, [97], [], none⟩ ∧ ∀ x, ¬ Registered ([] : List (Scope × Option Nat)) ⟨2013, [97], [112], none⟩ x := by
  simp [Valid, Registered]

/-- `Add` panics on the zero value of `OperationRegistry`, for everything that could be registered. -/
theorem C44_zero_value (s : Scope) (h : H) (hv : Valid s) : Ops.add (none : Ops H) s (some h) = .panic := by
  unfold Ops.add
  rw [if_neg (by simp [(validate_iff s).mpr hv])]
  rfl

example : Valid ⟨2007, [], [], none⟩ := by simp [Valid]

/-- A message is dispatched on its op code and namespace, or for a command its database and name. -/
theorem C44_scope (m : Message) (w : WMsg) (h : RepMsg m w) (hc : m.header.opCode = w.code) (hn : HasName w) : scope m = .ok (scopeOf w) :=
  scope_rep h hc hn

/-- `{ping: 1, $db: "a"}` as an OP_MSG -/
example : ∃ m w, RepMsg m w ∧ m.header.opCode = w.code ∧ HasName w ∧ scopeOf w = some ⟨2013, [97], [112], none⟩ := by
  refine ⟨.msg ⟨0, 1, 0, 2013⟩ [] 0 [] [] [] [.body (some [.raw 0 3 [16, 112, 0, 1, 0, 0, 0], .raw 0 5 [2, 36, 100, 98, 0, 2, 0, 0, 0, 97, 0]])] 0,
    .msg 0 [.body (.cons [112] (.int32 1) (.cons [36, 100, 98] (.string [97]) .nil))] none, ⟨_, _, rfl, ⟨⟨_, rfl, ?_⟩, trivial⟩, rfl, rfl, rfl, rfl⟩, rfl, ?_, rfl⟩
  · simp only [RepFields, Rep, and_true]
    exact ⟨⟨by simp [NulFree], by simp [BVal.WF], by simp, [], [], by decide, rfl, rfl⟩, by simp [NulFree], by simp [BVal.WF], by simp, [], [], by decide, rfl, rfl⟩
  · simp [HasName, bodyOf]

/-- The handler a message goes to: that of its scope, else that of its scope without context, else none; replies make the dispatch panic. -/
theorem C44_dispatch (cs : List (Scope × Option H)) (m : Message) (w : WMsg) (h : RepMsg m w) (hc : m.header.opCode = w.code) (hn : HasName w) :
    match scopeOf w with
    | none => dispatch (Ops.new.run cs) m = .panic
    | some s => ∃ r, dispatch (Ops.new.run cs) m = .ok r ∧
      ((∃ x, r = some x ∧ Registered cs s x) ∨
       (∃ x, r = some x ∧ (∀ y, ¬ Registered cs s y) ∧ Registered cs { s with context := [] } x) ∨
       (r = none ∧ (∀ y, ¬ Registered cs s y) ∧ ∀ y, ¬ Registered cs { s with context := [] } y)) := by
  unfold dispatch
  rw [C44_scope m w h hc hn]
  simp only [Res.bind_ok]
  cases scopeOf w with
  | none => rfl
  | some s =>
    have := C44_get cs s
    refine ⟨_, rfl, ?_⟩
    by_cases h1 : ∃ x, Registered cs s x
    · obtain ⟨x, h1⟩ := h1
      exact .inl ⟨x, this.1 x h1, h1⟩
    · have h1 : ∀ y, ¬ Registered cs s y := fun y hy => h1 ⟨y, hy⟩
      by_cases h2 : ∃ x, Registered cs { s with context := [] } x
      · obtain ⟨x, h2⟩ := h2
        exact .inr (.inl ⟨x, this.2.1 h1 x h2, h1, h2⟩)
      · have h2 : ∀ y, ¬ Registered cs { s with context := [] } y := fun y hy => h2 ⟨y, hy⟩
        exact .inr (.inr ⟨this.2.2 h1 h2, h1, h2⟩)

/-- A handler registered with a payload document gets no message. -/
theorem C44_payload (cs : List (Scope × Option H)) (hp : ∀ c ∈ cs, c.1.payload ≠ none) (m : Message) (r : Option H)
    (h : dispatch (Ops.new.run cs) m = .ok r) : r = none := by
  have no : ∀ s : Scope, s.payload = none → ∀ x, ¬ Registered cs s x := by
    rintro s hs x ⟨-, b, a, rfl, -⟩
    exact hp (s, some x) (by simp) hs
  unfold dispatch at h
  rw [Res.bind_eq_ok] at h
  obtain ⟨o, h1, h⟩ := h
  cases o with
  | none => cases h
  | some s =>
    have hs : s.payload = none := by
      cases m with
      | reply | commandReply => cases h1
      | update | query | getMore | insert | delete | killCursors | command =>
        simp only [scope, Res.ok.injEq, Option.some.injEq] at h1
        rw [← h1]
      | msg =>
        simp only [scope] at h1
        split at h1
        · simp only [Res.ok.injEq, Option.some.injEq] at h1
          rw [← h1]
        · rw [Res.bind_eq_ok] at h1
          obtain ⟨_, -, h1⟩ := h1
          rw [Res.bind_eq_ok] at h1
          obtain ⟨_, -, h1⟩ := h1
          simp only [Res.ok.injEq, Option.some.injEq] at h1
          rw [← h1]
    simp only [Res.ok.injEq] at h
    rw [← h]
    exact (C44_get cs s).2.2 (no s hs) (no { s with context := [] } hs)

example : ∃ (cs : List (Scope × Option Nat)) (m : Message) (r : Option Nat), cs = [(⟨2007, [], [], some 0⟩, some 1)] ∧ m = .killCursors ⟨0, 1, 0, 2007⟩ 0 0 [] ∧
    (∀ c ∈ cs, c.1.payload ≠ none) ∧ dispatch (Ops.new.run cs) m = .ok r := ⟨_, _, _, rfl, rfl, by simp, rfl⟩

end Birch.Props
