import Verif.Spec.Registry
import Verif.Proofs.Search

namespace Birch.Proofs.Registry
open Birch Spec Spec.Wire Spec.Registry Model Model.Wire Model.Registry Proofs

theorem validate_iff (s : Scope) : s.validate = true ↔ Valid s := by
  simp only [Scope.validate, Valid, OP_COMMAND, OP_DELETE, OP_UPDATE, OP_KILL_CURSORS, OP_QUERY, OP_INSERT, OP_GET_MORE, OP_MSG]
  obtain ⟨t, c, n, p⟩ := s
  dsimp only
  by_cases h1 : t = 2010
  · subst h1; simp
  by_cases h2 : t = 2006
  · subst h2; simp
  by_cases h3 : t = 2001
  · subst h3; simp
  by_cases h4 : t = 2007
  · subst h4; simp
  by_cases h5 : t = 2004
  · subst h5; simp
  by_cases h6 : t = 2002
  · subst h6; simp
  by_cases h7 : t = 2005
  · subst h7; simp
  by_cases h8 : t = 2013
  · subst h8; simp
  simp [h1, h2, h3, h4, h5, h6, h7, h8]

variable {H : Type}

/-- what the registry holds: for each scope the handler of the first valid registration -/
def Holds (o : Ops H) (cs : List (Scope × Option H)) : Prop :=
  (∃ l, o = some l) ∧ ∀ s h, o.at s = some h ↔ Registered cs s h

theorem registered_snoc {cs : List (Scope × Option H)} {s s' : Scope} {h : H} {h' : Option H} :
    Registered (cs ++ [(s', h')]) s h ↔ Registered cs s h ∨ (Valid s ∧ s' = s ∧ h' = some h ∧ ∀ x, (s, some x) ∉ cs) := by
  constructor
  · rintro ⟨hv, b, a, e, hn⟩
    rcases a.eq_nil_or_concat with rfl | ⟨a, x, rfl⟩
    · obtain ⟨rfl, e'⟩ := List.append_inj' e rfl
      injection e' with e'
      injection e' with e1 e2
      exact .inr ⟨hv, e1, e2, hn⟩
    · rw [List.concat_eq_append, ← List.cons_append, ← List.append_assoc] at e
      obtain ⟨rfl, -⟩ := List.append_inj' e rfl
      exact .inl ⟨hv, b, a, rfl, hn⟩
  · rintro (⟨hv, b, a, rfl, hn⟩ | ⟨hv, rfl, rfl, hn⟩)
    · exact ⟨hv, b, a ++ [(s', h')], by simp, hn⟩
    · exact ⟨hv, cs, [], rfl, hn⟩

/-- a scope with a valid registration has a handler -/
theorem registered_exists {s : Scope} (hv : Valid s) : ∀ {cs : List (Scope × Option H)} {x : H}, (s, some x) ∈ cs → ∃ h, Registered cs s h := by
  intro cs
  induction cs with
  | nil => intro x h; simp at h
  | cons c cs ih =>
    intro x h
    by_cases hc : ∃ y, c = (s, some y)
    · obtain ⟨y, rfl⟩ := hc
      exact ⟨y, hv, [], cs, rfl, by simp⟩
    · simp only [List.mem_cons] at h
      rcases h with rfl | h
      · exact absurd ⟨x, rfl⟩ hc
      · obtain ⟨z, -, b, a, rfl, hn⟩ := ih h
        refine ⟨z, hv, c :: b, a, rfl, fun y hy => ?_⟩
        simp only [List.mem_cons] at hy
        rcases hy with rfl | hy
        · exact hc ⟨y, rfl⟩
        · exact hn y hy

theorem at_cons (l : List (Scope × H)) (s s' : Scope) (h : H) : Ops.at (some ((s, h) :: l)) s' = if s = s' then some h else Ops.at (some l) s' := by
  unfold Ops.at
  simp only [Option.getD_some, List.find?_cons]
  by_cases e : s = s' <;> simp [e]

/-- one `Add` -/
theorem add_holds {o : Ops H} {cs : List (Scope × Option H)} (ho : Holds o cs) (s : Scope) (h : Option H) :
    (match o.add s h with
      | .ok o' => Valid s ∧ (∃ x, h = some x) ∧ (∀ x, ¬ Registered cs s x) ∧ Holds o' (cs ++ [(s, h)])
      | .err _ => (¬ Valid s ∨ h = none ∨ ∃ x, Registered cs s x) ∧ Holds o (cs ++ [(s, h)])
      | _ => False) := by
  obtain ⟨⟨l, rfl⟩, ho⟩ := ho
  unfold Ops.add
  by_cases hv : Valid s
  · rw [if_neg (by simp [(validate_iff s).mpr hv])]
    cases h with
    | none =>
      refine ⟨.inr (.inl rfl), ⟨l, rfl⟩, fun s' x => ?_⟩
      rw [ho, registered_snoc]
      simp
    | some h =>
      dsimp only
      cases hat : Ops.at (some l) s with
      | some y =>
        refine ⟨.inr (.inr ⟨y, (ho s y).mp hat⟩), ⟨l, rfl⟩, fun s' x => ?_⟩
        rw [ho, registered_snoc]
        constructor
        · exact .inl
        · rintro (hr | ⟨-, rfl, -, hn⟩)
          · exact hr
          · obtain ⟨-, b, a, rfl, -⟩ := (ho s y).mp hat
            exact absurd (by simp) (hn y)
      | none =>
        have none : ∀ x, ¬ Registered cs s x := fun x hr => by rw [(ho s x).mpr hr] at hat; cases hat
        refine ⟨hv, ⟨h, rfl⟩, none, ⟨_, rfl⟩, fun s' x => ?_⟩
        rw [at_cons, registered_snoc]
        by_cases e : s = s'
        · subst e
          rw [if_pos rfl]
          constructor
          · intro hx
            exact .inr ⟨hv, rfl, hx, fun y hy => (registered_exists hv hy).elim none⟩
          · rintro (hr | ⟨-, -, hx, -⟩)
            · exact absurd hr (none x)
            · exact hx
        · rw [if_neg e, ho]
          constructor
          · exact .inl
          · rintro (hr | ⟨-, rfl, -⟩)
            · exact hr
            · exact absurd rfl e
  · rw [if_pos (by simp only [Bool.not_eq_true]; rw [← Bool.not_eq_true]; exact fun h => hv ((validate_iff s).mp h))]
    refine ⟨.inl hv, ⟨l, rfl⟩, fun s' x => ?_⟩
    rw [ho, registered_snoc]
    constructor
    · exact .inl
    · rintro (hr | ⟨hv', rfl, -⟩)
      · exact hr
      · exact absurd hv' hv

theorem run_holds : ∀ (cs : List (Scope × Option H)) {o : Ops H} {cs0 : List (Scope × Option H)}, Holds o cs0 → Holds (o.run cs) (cs0 ++ cs) := by
  intro cs
  induction cs with
  | nil => intro o cs0 h; simpa [Ops.run] using h
  | cons c cs ih =>
    obtain ⟨s, h⟩ := c
    intro o cs0 ho
    have := add_holds ho s h
    unfold Ops.run
    rw [show cs0 ++ (s, h) :: cs = (cs0 ++ [(s, h)]) ++ cs by simp]
    split at this
    · next e => rw [e]; exact ih this.2.2.2
    · next e => rw [e]; exact ih this.2
    · exact this.elim

theorem new_holds : Holds (Ops.new : Ops H) [] := by
  refine ⟨⟨[], rfl⟩, fun s h => ?_⟩
  unfold Ops.new Ops.at Registered
  simp

theorem history (cs : List (Scope × Option H)) : Holds (Ops.new.run cs) cs := by
  have := run_holds cs (new_holds (H := H))
  simpa using this

theorem stringOK_rep {v : Value} {k : Bytes} {t : BVal} (h : Rep v k t) :
    stringValueOK v = .ok (match (generalizing := false) t with | .string s => some s | _ => none) := by
  have e : stringValueOK v = if t.tag ≠ 2 then .ok none else (stringValue v >>= fun d => .ok (some d)) := by
    unfold stringValueOK okVariant
    rw [if_neg (rep_offset h), (rep_key h).2.1]; rfl
  rw [e]
  cases t <;> try rfl
  rw [stringValue_rep h]; rfl

theorem bodyDB_rep {d : Doc} {fs : Fields} (h : RepFields d fs) : bodyDB (some d) = .ok (dbOf fs) := by
  have := findElem_rep [36, 100, 98] h
  simp only [bodyDB, dbOf]
  split at this
  · next e => rw [this, e]; rfl
  · next t e =>
    obtain ⟨v, h1, h2, -⟩ := this
    rw [h1, e]
    simp only [Res.bind_ok, stringOK_rep h2]
    cases t <;> rfl

theorem firstBody_rep : ∀ {is : List Item} {ss : List WSection}, RepItems is ss →
    (match bodyOf ss with
      | none => firstBody is = none
      | some fs => ∃ d, firstBody is = some (some d) ∧ RepFields d fs)
  | [], [], _ => rfl
  | .body d :: is, .body fs :: ss, h => by
    obtain ⟨⟨d', rfl, h⟩, -⟩ := h
    exact ⟨d', rfl, h⟩
  | .sequence .. :: is, .sequence .. :: ss, h => by
    simp only [bodyOf, firstBody]
    exact firstBody_rep h.2
  | .body _ :: _, .sequence .. :: _, h => h.1.elim
  | .sequence .. :: _, .body _ :: _, h => h.1.elim
  | [], _ :: _, h => h.elim
  | _ :: _, [], h => h.elim

theorem scope_rep {m : Message} {w : WMsg} (h : RepMsg m w) (hc : m.header.opCode = w.code) (hn : HasName w) : scope m = .ok (scopeOf w) := by
  cases m with
  | reply => obtain ⟨_, rfl, -⟩ := h; rfl
  | commandReply => obtain ⟨_, _, _, rfl, -⟩ := h; rfl
  | update => obtain ⟨_, _, rfl, -⟩ := h; simp only [scope, scopeOf]; simp only [Message.header] at hc; rw [hc]; rfl
  | query => obtain ⟨_, _, rfl, -⟩ := h; simp only [scope, scopeOf]; simp only [Message.header] at hc; rw [hc]; rfl
  | getMore => obtain ⟨rfl, -⟩ := h; simp only [scope, scopeOf]; simp only [Message.header] at hc; rw [hc]; rfl
  | insert => obtain ⟨_, rfl, -⟩ := h; simp only [scope, scopeOf]; simp only [Message.header] at hc; rw [hc]; rfl
  | delete => obtain ⟨_, rfl, -⟩ := h; simp only [scope, scopeOf]; simp only [Message.header] at hc; rw [hc]; rfl
  | killCursors => obtain ⟨rfl, -⟩ := h; simp only [scope, scopeOf]; simp only [Message.header] at hc; rw [hc]; rfl
  | command => obtain ⟨_, _, _, rfl, -⟩ := h; simp only [scope, scopeOf]; simp only [Message.header] at hc; rw [hc]; rfl
  | msg hd sd f db coll op is c =>
    obtain ⟨ss, cs, rfl, hi, -⟩ := h
    simp only [Message.header] at hc
    have := firstBody_rep hi
    simp only [HasName] at hn
    simp only [scope, scopeOf, hc]
    split at this
    · next e => rw [this, e]; rfl
    · next fs e =>
      obtain ⟨d, h1, h2⟩ := this
      rw [h1, e]
      match d, fs, h2 with
      | [], .nil, _ => exact absurd e hn
      | v :: d, .cons k t fs, h2 =>
        have h3 := h2
        simp only [RepFields] at h3
        simp only [bodyName, key_rep h3.1, Res.bind_ok, bodyDB_rep h2]
        rfl

end Birch.Proofs.Registry
