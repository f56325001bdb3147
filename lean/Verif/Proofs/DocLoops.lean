import Verif.Model.DocLoops
import Verif.Spec.DocLoops
import Verif.Proofs.DocView

/-
Loops over a document that is changed meanwhile.
-/

namespace Birch.Proofs.DocLoops
open Birch Model.DocHeap Model.DocLoops Spec.Docs Spec.DocLoops Spec.DocView Proofs.DocHeap

variable {E : Type}

/-! ### an array that keeps its first slots -/

/-- array `a` starts with the slots `X` -/
def Pre (h : Heap E) (a : Nat) (X : List (Option E)) : Prop := ∃ rest, h[a]? = some (X ++ rest)

/-- a slice that writes behind `X` only -/
def Behind (C : Prop) (a : Nat) (X : List (Option E)) (s : Slice) : Prop := s.arr = a → C ∧ X.length ≤ s.len

theorem Pre.lt {h : Heap E} {a : Nat} {X : List (Option E)} (H : Pre h a X) : a < h.length := by
  obtain ⟨_, H⟩ := H
  exact (List.getElem?_eq_some_iff.mp H).1

theorem Pre.app {h : Heap E} {a : Nat} {X : List (Option E)} (H : Pre h a X) (y : Heap E) : Pre (h ++ y) a X := by
  have := H.lt
  obtain ⟨r, H⟩ := H
  exact ⟨r, by rw [List.getElem?_append_left this]; exact H⟩

theorem Pre.set {h : Heap E} {a b : Nat} {X : List (Option E)} (H : Pre h a X) (hb : b ≠ a) (y : List (Option E)) :
    Pre (h.set b y) a X := by
  obtain ⟨r, H⟩ := H
  exact ⟨r, by rw [List.getElem?_set_ne hb]; exact H⟩

theorem append1_pre {C : Prop} {grow : Nat → Nat} {h : Heap E} {s : Slice} {a : Nat} {X : List (Option E)} (H : Pre h a X)
    (B : Behind C a X s) (x : Option E) : Pre (append1 grow h s x).1 a X ∧ Behind C a X (append1 grow h s x).2 := by
  unfold append1
  simp only
  split
  · refine ⟨?_, fun e => ⟨(B e).1, by have := (B e).2; simp only; omega⟩⟩
    by_cases e : s.arr = a
    · obtain ⟨r, hr⟩ := H
      have hl := (List.getElem?_eq_some_iff.mp hr).1
      have ha : array h s = X ++ r := array_eq (by rw [e]; exact hr)
      refine ⟨r.set (s.len - X.length) x, ?_⟩
      rw [e, List.getElem?_set_self hl, ha, List.set_append_right _ _ (B e).2]
    · exact H.set e _
  · refine ⟨H.app _, fun e => ?_⟩
    have := H.lt
    simp only at e
    omega

theorem appendLoop_pre {C : Prop} {grow : Nat → Nat} {src : Slice} {a : Nat} {X : List (Option E)} :
    ∀ (n i : Nat) (h : Heap E) (d : Slice) {r}, Pre h a X → Behind C a X d → appendLoop grow h d src i n = .ok r →
    Pre r.1 a X ∧ Behind C a X r.2 := by
  intro n
  induction n with
  | zero => intro i h d r H B e; cases e; exact ⟨H, B⟩
  | succ n ih =>
    intro i h d r H B e
    rw [appendLoop] at e
    obtain ⟨x, _, e⟩ := Res.bind_eq_ok.mp e
    cases x with
    | none => cases e
    | some y =>
      obtain ⟨H', B'⟩ := append1_pre (grow := grow) H B (some y)
      exact ih _ _ _ H' B' e

theorem append_pre {C : Prop} {grow : Nat → Nat} {src : Slice} {a : Nat} {X : List (Option E)} {h : Heap E} {d : Document E} {r}
    (H : Pre h a X) (B : Behind C a X d.elems) (e : append grow h d src = .ok r) : Pre r.1 a X ∧ Behind C a X r.2.elems := by
  rw [append] at e
  obtain ⟨y, hy, e⟩ := Res.bind_eq_ok.mp e
  cases e
  exact appendLoop_pre _ _ _ _ H B hy

theorem omitLoop_pre {C : Prop} {grow : Nat → Nat} {isEmpty : E → Res Bool} {src : Slice} {a : Nat} {X : List (Option E)} :
    ∀ (n i : Nat) (h : Heap E) (d : Slice) {r}, Pre h a X → Behind C a X d → omitLoop grow isEmpty h d src i n = .ok r →
    Pre r.1 a X ∧ Behind C a X r.2 := by
  intro n
  induction n with
  | zero => intro i h d r H B e; cases e; exact ⟨H, B⟩
  | succ n ih =>
    intro i h d r H B e
    rw [omitLoop] at e
    obtain ⟨x, _, e⟩ := Res.bind_eq_ok.mp e
    cases x with
    | none => exact ih _ _ _ H B e
    | some y =>
      obtain ⟨b, _, e⟩ := Res.bind_eq_ok.mp e
      cases b with
      | true => exact ih _ _ _ H B e
      | false =>
        obtain ⟨H', B'⟩ := append1_pre (grow := grow) H B (some y)
        exact ih _ _ _ H' B' e

theorem unmarshalLoop_pre {C : Prop} {grow : Nat → Nat} {a : Nat} {X : List (Option E)} :
    ∀ (args : List E) (h : Heap E) (d : Slice), Pre h a X → Behind C a X d →
    Pre (Model.DocHeap.unmarshalLoop grow h d args).1 a X ∧ Behind C a X (Model.DocHeap.unmarshalLoop grow h d args).2 := by
  intro args
  induction args with
  | nil => intro h d H B; exact ⟨H, B⟩
  | cons e args ih =>
    intro h d H B
    obtain ⟨H', B'⟩ := append1_pre (grow := grow) H B (some e)
    exact ih _ _ H' B'

theorem newArrayLoop_pre {C : Prop} {grow : Nat → Nat} {a : Nat} {X : List (Option E)} :
    ∀ (args : List E) (h : Heap E) (d : Document E) {r}, Pre h a X → Behind C a X d.elems → newArrayLoop grow h d args = .ok r →
    Pre r.1 a X ∧ Behind C a X r.2.elems := by
  intro args
  induction args with
  | nil => intro h d r H B e; cases e; exact ⟨H, B⟩
  | cons x args ih =>
    intro h d r H B e
    rw [newArrayLoop] at e
    obtain ⟨y, hy, e⟩ := Res.bind_eq_ok.mp e
    obtain ⟨H', B'⟩ := append_pre (H.app _) B hy
    exact ih _ _ H' B' e

/-- a new slice -/
theorem fresh {C : Prop} {h : Heap E} {a : Nat} {X : List (Option E)} (H : Pre h a X) (n : Nat) : Behind C a X ⟨h.length, n⟩ := by
  intro e
  have := H.lt
  simp only at e
  omega

theorem elements_pre {grow : Nat → Nat} {src : Slice} {a : Nat} {X : List (Option E)} {h : Heap E} {r}
    (H : Pre h a X) (e : Model.DocHeap.elements grow h src = .ok r) : Pre r.1 a X ∧ Behind False a X r.2.elems := by
  rw [Model.DocHeap.elements] at e
  exact append_pre (H.app _) (fresh H 0) e

/-! ### worlds -/

/-- array `a` starts with `X`; only document `d` may use it, and shows all of `X` -/
structure Keeps (w : World E) (a : Nat) (X : List (Option E)) (d : Nat) : Prop where
  pre : Pre w.heap a X
  only : ∀ (j : Nat) (x : Document E), w.docs[j]? = some x → Behind (j = d) a X x.elems

theorem Keeps.push {w : World E} {a : Nat} {X : List (Option E)} {d : Nat} (K : Keeps w a X d) {r : Heap E × Document E}
    (h : Pre r.1 a X ∧ Behind False a X r.2.elems) : Keeps (push w r) a X d := by
  refine ⟨h.1, fun j x hx => ?_⟩
  rw [Model.DocHeap.push] at hx
  by_cases hj : j < w.docs.length
  · rw [List.getElem?_append_left hj] at hx; exact K.only j x hx
  · rw [List.getElem?_append_right (by omega)] at hx
    cases hk : j - w.docs.length with
    | zero => rw [hk] at hx; cases hx; exact fun e => (h.2 e).1.elim
    | succ k => rw [hk] at hx; simp at hx

theorem Keeps.store {w : World E} {a : Nat} {X : List (Option E)} {d : Nat} (K : Keeps w a X d) {i : Nat} {r : Heap E × Document E}
    (h : Pre r.1 a X ∧ Behind (i = d) a X r.2.elems) : Keeps (store w i r) a X d := by
  refine ⟨h.1, fun j x hx => ?_⟩
  rw [Model.DocHeap.store] at hx
  simp only [List.getElem?_set] at hx
  split at hx
  · rename_i e
    split at hx
    · cases hx; subst e; exact h.2
    · cases hx
  · exact K.only j x hx

theorem deref_get {w : World E} {i : Nat} {x : Document E} (h : deref w i = .ok x) : w.docs[i]? = some x := by
  unfold deref at h
  cases hx : w.docs[i]? with
  | none => rw [hx] at h; cases h
  | some y => rw [hx] at h; cases h; rfl

theorem put_pre {h h' : Heap E} {s : Slice} {i : Nat} {x : Option E} {a : Nat} {X : List (Option E)} (H : Pre h a X) (hn : s.arr ≠ a)
    (e : put h s i x = .ok h') : Pre h' a X := by
  unfold put at e
  split at e
  · cases e; exact H.set hn _
  · cases e

/-- calls that spare document `d` -/
theorem step_keeps {P : Params E} {w w' : World E} {a : Nat} {X : List (Option E)} {d : Nat} {c : Call E} {o : Out E}
    (K : Keeps w a X d) (hc : Spares d c) (e : Model.DocHeap.step P w c = .ok (w', o)) : Keeps w' a X d := by
  have other : ∀ {j : Nat} {x : Document E}, deref w j = .ok x → j ≠ d → x.elems.arr ≠ a :=
    fun hx hj ha => hj (K.only _ _ (deref_get hx) ha).1
  have behind : ∀ {j : Nat} {x : Document E} {s : Slice}, j ≠ d → x.elems.arr ≠ a → s.arr = x.elems.arr → Behind (j = d) a X s :=
    fun _ hx hs ha => (hx (hs ▸ ha)).elim
  cases c with
  | make n => cases e; exact K.push ⟨K.pre.app _, fresh K.pre 0⟩
  | elements args =>
    obtain ⟨r, hr, e⟩ := Res.bind_eq_ok.mp e
    cases e
    exact K.push (elements_pre (K.pre.app _) hr)
  | append j args =>
    obtain ⟨x, hx, e⟩ := Res.bind_eq_ok.mp e
    obtain ⟨r, hr, e⟩ := Res.bind_eq_ok.mp e
    cases e
    exact K.store (append_pre (K.pre.app _) (K.only _ _ (deref_get hx)) hr)
  | appendOmitEmpty j args =>
    obtain ⟨x, hx, e⟩ := Res.bind_eq_ok.mp e
    obtain ⟨r, hr, e⟩ := Res.bind_eq_ok.mp e
    cases e
    rw [appendOmitEmpty] at hr
    obtain ⟨y, hy, hr⟩ := Res.bind_eq_ok.mp hr
    cases hr
    exact K.store (omitLoop_pre _ _ _ _ (K.pre.app _) (K.only _ _ (deref_get hx)) hy)
  | extend j k =>
    obtain ⟨x, hx, e⟩ := Res.bind_eq_ok.mp e
    obtain ⟨y, hy, e⟩ := Res.bind_eq_ok.mp e
    obtain ⟨r, hr, e⟩ := Res.bind_eq_ok.mp e
    cases e
    exact K.store (append_pre K.pre (K.only _ _ (deref_get hx)) hr)
  | set j v =>
    obtain ⟨x, hx, e⟩ := Res.bind_eq_ok.mp e
    obtain ⟨r, hr, e⟩ := Res.bind_eq_ok.mp e
    cases e
    have hn := other hx hc
    simp only [Model.DocHeap.set] at hr
    obtain ⟨k, _, hr⟩ := Res.bind_eq_ok.mp hr
    obtain ⟨f, _, hr⟩ := Res.bind_eq_ok.mp hr
    cases f with
    | none => cases hr; exact K.store (append1_pre K.pre (K.only _ _ (deref_get hx)) _)
    | some i =>
      obtain ⟨h', hp, hr⟩ := Res.bind_eq_ok.mp hr
      cases hr
      exact K.store ⟨put_pre K.pre hn hp, behind hc hn rfl⟩
  | delete j k =>
    obtain ⟨x, hx, e⟩ := Res.bind_eq_ok.mp e
    obtain ⟨r, hr, e⟩ := Res.bind_eq_ok.mp e
    cases e
    have hn := other hx hc
    simp only [Model.DocHeap.delete] at hr
    obtain ⟨f, _, hr⟩ := Res.bind_eq_ok.mp hr
    cases f with
    | none => cases hr; exact K.store ⟨K.pre, behind hc hn rfl⟩
    | some i =>
      obtain ⟨y, _, hr⟩ := Res.bind_eq_ok.mp hr
      cases hr
      exact K.store ⟨K.pre.set hn _, behind hc hn rfl⟩
  | reset j =>
    obtain ⟨x, hx, e⟩ := Res.bind_eq_ok.mp e
    cases e
    have hn := other hx hc
    exact K.store ⟨K.pre.set hn _, behind hc hn rfl⟩
  | copy j =>
    obtain ⟨x, hx, e⟩ := Res.bind_eq_ok.mp e
    cases e
    exact K.push ⟨K.pre.app _, fresh K.pre _⟩
  | sorted j =>
    obtain ⟨x, hx, e⟩ := Res.bind_eq_ok.mp e
    obtain ⟨r, hr, e⟩ := Res.bind_eq_ok.mp e
    cases e
    rw [sorted] at hr
    obtain ⟨y, _, hr⟩ := Res.bind_eq_ok.mp hr
    obtain ⟨z, _, hr⟩ := Res.bind_eq_ok.mp hr
    exact K.push (elements_pre (K.pre.app _) hr)
  | map j =>
    obtain ⟨x, hx, e⟩ := Res.bind_eq_ok.mp e
    obtain ⟨r, hr, e⟩ := Res.bind_eq_ok.mp e
    cases e
    have := K.only _ _ (deref_get hx)
    unfold Model.DocHeap.map at hr
    split at hr
    · cases hr; exact K.store ⟨K.pre, this⟩
    · obtain ⟨y, _, hr⟩ := Res.bind_eq_ok.mp hr
      cases hr
      exact K.store ⟨K.pre, this⟩
  | unmarshal j args =>
    obtain ⟨x, hx, e⟩ := Res.bind_eq_ok.mp e
    cases e
    exact K.store (unmarshalLoop_pre args _ _ (K.pre.app _) (fresh K.pre 0))
  | newArray args =>
    obtain ⟨r, hr, e⟩ := Res.bind_eq_ok.mp e
    cases e
    rw [newArray] at hr
    exact K.push (newArrayLoop_pre args _ _ (K.pre.app _) (fresh K.pre 0) hr)
  | arraySet j i v =>
    obtain ⟨x, hx, e⟩ := Res.bind_eq_ok.mp e
    obtain ⟨r, hr, e⟩ := Res.bind_eq_ok.mp e
    cases e
    have hn := other hx hc
    unfold arraySet at hr
    split at hr
    · cases hr
    · obtain ⟨y, hy, hr⟩ := Res.bind_eq_ok.mp hr
      cases hr
      exact K.store ⟨put_pre K.pre hn hy, behind hc hn rfl⟩
  | arrayDelete j i =>
    obtain ⟨x, hx, e⟩ := Res.bind_eq_ok.mp e
    obtain ⟨r, hr, e⟩ := Res.bind_eq_ok.mp e
    cases e
    have hn := other hx hc
    unfold arrayDelete at hr
    split at hr
    · cases hr; exact K.store ⟨K.pre, behind hc hn rfl⟩
    · obtain ⟨y, hy, hr⟩ := Res.bind_eq_ok.mp hr
      cases y with
      | none => cases hr
      | some y => cases hr; exact K.store ⟨K.pre.set hn _, behind hc hn rfl⟩

theorem run_keeps {P : Params E} {a : Nat} {X : List (Option E)} {d : Nat} : ∀ (cs : List (Call E)) {w w' : World E} {os : List (Out E)},
    Keeps w a X d → (∀ c ∈ cs, Spares d c) → Model.DocHeap.run P w cs = .ok (w', os) → Keeps w' a X d := by
  intro cs
  induction cs with
  | nil => intro w w' os K _ e; cases e; exact K
  | cons c cs ih =>
    intro w w' os K hc e
    rw [Model.DocHeap.run] at e
    obtain ⟨⟨w1, o⟩, h1, e⟩ := Res.bind_eq_ok.mp e
    obtain ⟨⟨w2, os2⟩, h2, e⟩ := Res.bind_eq_ok.mp e
    cases e
    exact ih (step_keeps K (hc c (by simp)) h1) (fun c hc' => hc c (by simp [hc'])) h2

theorem get_pre {h : Heap E} {s : Slice} {X : List (Option E)} (H : Pre h s.arr X) {i : Nat} (hi : i < X.length) (hs : i < s.len) :
    get h s i = .ok X[i] := by
  obtain ⟨rest, H⟩ := H
  rw [Model.DocHeap.get, if_pos hs, array_eq H, List.getElem?_append_left hi, List.getElem?_eq_getElem hi]

theorem loop_keeps {P : Params E} {s : Slice} {body : Nat → Option E → List (Call E)} {X : List (Option E)} {d : Nat}
    (hl : s.len = X.length) (hb : ∀ i x, ∀ c ∈ body i x, Spares d c) : ∀ (n i : Nat) {w : World E} {r}, Keeps w s.arr X d →
    i + n = X.length → loop P s body i n w = .ok r → r.1 = X.drop i ∧ Keeps r.2 s.arr X d := by
  intro n
  induction n with
  | zero => intro i w r K hi e; cases e; exact ⟨by simp; omega, K⟩
  | succ n ih =>
    intro i w r K hi e
    have hil : i < X.length := by omega
    rw [loop, get_pre K.pre hil (by omega), Res.bind_ok] at e
    obtain ⟨⟨w1, o⟩, h1, e⟩ := Res.bind_eq_ok.mp e
    obtain ⟨⟨xs, w2⟩, h2, e⟩ := Res.bind_eq_ok.mp e
    cases e
    obtain ⟨a, b⟩ := ih (i + 1) (run_keeps _ K (hb _ _) h1) (by omega) h2
    simp only at a
    exact ⟨by simp only [a]; rw [List.drop_eq_getElem_cons hil], b⟩

/-- what a reached world says about a document's slice -/
theorem owns_of {P : Params E} {M : Sem E} (hm : Means P M) {w : World E} (hw : Reached P w) {d : Nat} {es : List E} (hd : Shows w d es) :
    ∃ x, deref w d = .ok x ∧ Owns w.heap x.elems es ∧ Keeps w x.elems.arr (es.map some) d := by
  obtain ⟨s, R⟩ := reached_rep hm hw
  have h := doc_of_shows R hd
  simp only [doc, Option.map_eq_some_iff] at h
  obtain ⟨⟨es', b⟩, hx, rfl⟩ := h
  obtain ⟨x, hd, hde⟩ := deref_of R hx
  have ho := R.owns d x _ hd hx
  refine ⟨x, hde, ho, ho.1, fun j y hy ha => ?_⟩
  by_cases hj : j = d
  · subst hj
    rw [hd] at hy; cases hy
    exact ⟨rfl, by simp [ho.2]⟩
  · exact (R.disjoint j d y x hj hy hd ha).elim

/-! ### one change in the middle of a loop -/

/-- the array of the slice holds all its slots -/
def Full (h : Heap E) (s : Slice) : Prop := s.arr < h.length ∧ s.len ≤ (array h s).length

theorem get_full {h : Heap E} {s : Slice} (H : Full h s) {i : Nat} (hi : i < s.len) :
    ∃ x, get h s i = .ok x ∧ (visible h s)[i]? = some x := by
  have : i < (array h s).length := by have := H.2; omega
  refine ⟨(array h s)[i], ?_, ?_⟩
  · rw [Model.DocHeap.get, if_pos hi, List.getElem?_eq_getElem this]
  · rw [visible, List.getElem?_take_of_lt hi, List.getElem?_eq_getElem this]

theorem visible_length {h : Heap E} {s : Slice} (H : Full h s) : (visible h s).length = s.len := by
  have := H.2
  rw [visible, List.length_take]; omega

theorem drop_cons {α : Type} {l : List α} {i : Nat} {x : α} (h : l[i]? = some x) : l.drop i = x :: l.drop (i + 1) := by
  obtain ⟨hi, rfl⟩ := List.getElem?_eq_some_iff.mp h
  exact List.drop_eq_getElem_cons hi

theorem loop_quiet {P : Params E} {s : Slice} {body : Nat → Option E → List (Call E)} {w : World E} (H : Full w.heap s) :
    ∀ (n i : Nat), (∀ j x, i ≤ j → body j x = []) → i + n = s.len →
    loop P s body i n w = .ok ((visible w.heap s).drop i, w) := by
  intro n
  induction n with
  | zero => intro i _ hi; rw [List.drop_of_length_le (by rw [visible_length H]; omega)]; rfl
  | succ n ih =>
    intro i hb hi
    obtain ⟨x, hg, hv⟩ := get_full H (i := i) (by omega)
    rw [loop, hg, Res.bind_ok, hb i x (Nat.le_refl _), Model.DocHeap.run, Res.bind_ok]
    simp only
    rw [ih (i + 1) (fun j x h => hb j x (by omega)) (by omega), Res.bind_ok, drop_cons hv]

/-- a loop that makes one call, in turn `j` -/
def once (j : Nat) (c : Call E) : Nat → Option E → List (Call E) := fun i _ => if i = j then [c] else []

theorem loop_once {P : Params E} {s : Slice} {j : Nat} {c : Call E} {w w1 : World E} {o : Out E} (H : Full w.heap s) (H1 : Full w1.heap s)
    (hj : j < s.len) (hc : Model.DocHeap.step P w c = .ok (w1, o)) : ∀ (n i : Nat), i ≤ j → i + n = s.len →
    loop P s (fun i _ => if i = j then [c] else []) i n w =
      .ok (((visible w.heap s).take (j + 1)).drop i ++ (visible w1.heap s).drop (j + 1), w1) := by
  intro n
  induction n with
  | zero => intro i hi he; omega
  | succ n ih =>
    intro i hi he
    obtain ⟨x, hg, hv⟩ := get_full H (i := i) (by omega)
    have hv' : ((visible w.heap s).take (j + 1))[i]? = some x := by rw [List.getElem?_take_of_lt (by omega)]; exact hv
    rw [loop, hg, Res.bind_ok, drop_cons hv']
    by_cases hij : i = j
    · subst hij
      rw [if_pos rfl, Model.DocHeap.run, hc, Res.bind_ok]
      simp only [Model.DocHeap.run, Res.bind_ok]
      rw [loop_quiet H1 n (i + 1) (fun k x h => by rw [if_neg (by omega)]) (by omega), Res.bind_ok]
      simp only [List.cons_append]
      rw [List.drop_of_length_le (l := (visible w.heap s).take (i + 1)) (by rw [List.length_take]; omega), List.nil_append]
    · rw [if_neg hij, Model.DocHeap.run, Res.bind_ok]
      simp only
      rw [ih (i + 1) (by omega) (by omega), Res.bind_ok]
      rfl

/-- the slice `s` shows `all`; document `d` uses its array and shows `cur` -/
structure Mid (w : World E) (d : Nat) (s : Slice) (cur : List E) (all : List (Option E)) : Prop where
  doc : ∃ x, deref w d = .ok x ∧ x.elems.arr = s.arr ∧ x.elems.len = cur.length
  arr : ∃ rest, w.heap[s.arr]? = some (all ++ rest)
  len : s.len = all.length
  pre : cur.map some <+: all

theorem Mid.full {w : World E} {d : Nat} {s : Slice} {cur : List E} {all : List (Option E)} (m : Mid w d s cur all) : Full w.heap s := by
  obtain ⟨rest, h⟩ := m.arr
  exact ⟨(List.getElem?_eq_some_iff.mp h).1, by rw [array_eq h, m.len]; simp⟩

theorem Mid.visible {w : World E} {d : Nat} {s : Slice} {cur : List E} {all : List (Option E)} (m : Mid w d s cur all) :
    visible w.heap s = all := by
  obtain ⟨rest, h⟩ := m.arr
  rw [Model.DocHeap.visible, array_eq h, m.len]; simp

theorem Mid.owns {w : World E} {d : Nat} {s : Slice} {cur : List E} {all : List (Option E)} (m : Mid w d s cur all) :
    ∃ x, deref w d = .ok x ∧ x.elems.arr = s.arr ∧ Owns w.heap x.elems cur := by
  obtain ⟨rest, h⟩ := m.arr
  obtain ⟨x, hx, ha, hl⟩ := m.doc
  obtain ⟨t, ht⟩ := m.pre
  exact ⟨x, hx, ha, ⟨t ++ rest, by rw [ha, h, ← ht]; simp⟩, hl⟩

theorem shows_owns {w : World E} {d : Nat} {es : List E} {x : Document E} (hx : deref w d = .ok x) (ho : Owns w.heap x.elems es) :
    Shows w d es := by
  refine ⟨x, hx, ho.2, visible_owns ho, fun i hi => ?_, fun i hi => ?_⟩
  · have hg := get_has ho.1 hi (by rw [ho.2]; exact hi)
    have h2 : elementAtOK w.heap x i = .ok (some es[i], true) := by
      rw [elementAtOK, if_neg (by rw [ho.2]; omega), elementAt, hg]; rfl
    exact ⟨hg, h2, by rw [arrayLookup, h2]; rfl⟩
  · have : ¬ i < x.elems.len := by rw [ho.2]; simpa using hi
    have h2 : elementAtOK w.heap x i = .ok (none, false) := by rw [elementAtOK, if_pos (by omega)]
    exact ⟨by rw [elementAt, Model.DocHeap.get, if_neg this], h2, by rw [arrayLookup, h2]; rfl⟩

theorem Mid.shows {w : World E} {d : Nat} {s : Slice} {cur : List E} {all : List (Option E)} (m : Mid w d s cur all) : Shows w d cur := by
  obtain ⟨x, hx, _, ho⟩ := m.owns
  exact shows_owns hx ho

theorem deref_store {w : World E} {d : Nat} {x : Document E} (hx : deref w d = .ok x) (r : Heap E × Document E) :
    deref (store w d r) d = .ok r.2 := by
  have := (List.getElem?_eq_some_iff.mp (deref_get hx)).1
  simp [deref, store, this]

/-- overwriting the array -/
theorem Mid.write {w : World E} {d : Nat} {s : Slice} {cur cur' : List E} {all all' : List (Option E)} (m : Mid w d s cur all)
    {x : Document E} (hx : deref w d = .ok x) {y : List (Option E)} {x' : Document E} (ha : x'.elems.arr = s.arr)
    (hl : x'.elems.len = cur'.length) (hy : ∃ rest, y = all' ++ rest) (hal : all'.length = all.length) (hp : cur'.map some <+: all') :
    Mid (store w d (w.heap.set s.arr y, x')) d s cur' all' := by
  obtain ⟨rest, rfl⟩ := hy
  exact ⟨⟨x', deref_store hx _, ha, hl⟩, ⟨rest, by simp [store, m.full.1]⟩, by rw [m.len, hal], hp⟩

theorem idx_split {key : E → Bytes} {k : Bytes} {pre post : List E} {y : E} (hy : key y = k) (hp : ∀ z ∈ pre, key z ≠ k) :
    (pre ++ y :: post).findIdx? (fun e => key e = k) = some pre.length := by
  rw [List.findIdx?_append, List.findIdx?_eq_none_iff.mpr (by simpa using hp), List.findIdx?_cons]
  simp [hy]

theorem removeAt_eq {h : Heap E} {s : Slice} {pre post : List E} {y : E} {rest : List (Option E)}
    (ha : h[s.arr]? = some ((pre ++ y :: post).map some ++ rest)) (hl : s.len = (pre ++ y :: post).length) :
    removeAt h s pre.length = (h.set s.arr ((pre ++ post ++ ((y :: post).getLast?).toList).map some ++ rest), ⟨s.arr, (pre ++ post).length⟩) := by
  unfold removeAt
  rw [array_eq ha]
  have e1 : s.len - 1 = (pre ++ post).length := by rw [hl]; simp
  have e2 : ((pre ++ y :: post).map some ++ rest).take s.len = (pre ++ y :: post).map some := by
    rw [hl, show (pre ++ y :: post).length = ((pre ++ y :: post).map (some : E → Option E)).length by simp, List.take_left]
  have e3 : ((pre ++ y :: post).map some ++ rest).drop (s.len - 1) = ((y :: post).getLast?).toList.map some ++ rest := by
    rw [List.getLast?_eq_some_getLast (List.cons_ne_nil _ _)]
    obtain ⟨q, hq⟩ : ∃ q, y :: post = q ++ [(y :: post).getLast (List.cons_ne_nil _ _)] :=
      ⟨_, (List.dropLast_concat_getLast (List.cons_ne_nil _ _)).symm⟩
    generalize (y :: post).getLast _ = z at hq
    have hlen : (pre ++ q).length = s.len - 1 := by
      rw [hl, hq]; simp
    rw [hq, ← hlen, List.map_append, List.map_append, ← List.append_assoc, ← List.map_append, List.append_assoc]
    rw [show (pre ++ q).length = ((pre ++ q).map (some : E → Option E)).length by simp, List.drop_left]
    simp
  simp only
  rw [e2, e3, e1]
  congr 1
  congr 1
  simp [List.drop_append]

theorem delete_mid {P : Params E} {M : Sem E} (hm : Means P M) {w : World E} {d : Nat} {s : Slice} {pre post : List E} {y : E}
    {stale : List (Option E)} (m : Mid w d s (pre ++ y :: post) ((pre ++ y :: post).map some ++ stale)) (hp : ∀ z ∈ pre, M.key z ≠ M.key y) :
    ∃ w' o, Model.DocHeap.step P w (.delete d (M.key y)) = .ok (w', o) ∧
      Mid w' d s (pre ++ post) ((pre ++ post ++ ((y :: post).getLast?).toList).map some ++ stale) := by
  obtain ⟨x, hx, ha, ho⟩ := m.owns
  obtain ⟨rest, hr⟩ := m.arr
  have hf := find_at hm ho (M.key y)
  rw [idx_split rfl hp] at hf
  have hg := get_has (s := x.elems) ho.1 (i := pre.length) (by simp) (by rw [ho.2]; simp)
  have hrm := removeAt_eq (s := x.elems) (by rw [ha, hr, List.append_assoc]) ho.2
  refine ⟨_, _, by
    rw [Model.DocHeap.step, hx, Res.bind_ok, Model.DocHeap.delete, hf]
    simp only [Res.bind_ok, hg, hrm]
    rfl, ?_⟩
  rw [ha]
  refine m.write hx rfl rfl ⟨rest, (List.append_assoc _ _ _).symm⟩ ?_ ?_
  · cases h : (y :: post).getLast? with
    | none => simp at h
    | some z => simp; omega
  · rw [List.map_append (l₁ := pre ++ post), List.append_assoc]; exact List.prefix_append _ _

theorem delete_absent {P : Params E} {M : Sem E} (hm : Means P M) {w : World E} {d : Nat} {s : Slice} {cur : List E} {k : Bytes}
    {all : List (Option E)} (m : Mid w d s cur all) (hp : ∀ z ∈ cur, M.key z ≠ k) :
    ∃ w' o, Model.DocHeap.step P w (.delete d k) = .ok (w', o) ∧ Mid w' d s cur all := by
  obtain ⟨x, hx, ha, ho⟩ := m.owns
  have hf := find_at hm ho k
  rw [List.findIdx?_eq_none_iff.mpr (by simpa using hp)] at hf
  refine ⟨_, _, by
    rw [Model.DocHeap.step, hx, Res.bind_ok, Model.DocHeap.delete, hf]
    simp only [Res.bind_ok]
    rfl, ?_⟩
  exact ⟨⟨_, deref_store hx _, ha, ho.2⟩, m.arr, m.len, m.pre⟩

theorem mid_of {w : World E} {d : Nat} {es : List E} {x : Document E} (hx : deref w d = .ok x) (ho : Owns w.heap x.elems es) :
    Mid w d x.elems es (es.map some) :=
  ⟨⟨x, hx, rfl, ho.2⟩, ho.1, by simp [ho.2], List.prefix_refl _⟩

theorem forEach_nil {P : Params E} {w : World E} {d : Nat} {x : Document E} (hx : deref w d = .ok x)
    (body : Nat → Option E → List (Call E)) : forEach P d [] body w = loop P x.elems body 0 x.elems.len w := by
  rw [forEach, hx, Res.bind_ok, Model.DocHeap.run, Res.bind_ok]

/-- one call in turn `j`, after which the loop's slice shows `all` -/
theorem forEach_once {P : Params E} {w w1 : World E} {d : Nat} {es : List E} {x : Document E} {all : List (Option E)} {c : Call E} {o : Out E}
    {j : Nat} (hx : deref w d = .ok x) (ho : Owns w.heap x.elems es) (hj : j < es.length) (hc : Model.DocHeap.step P w c = .ok (w1, o))
    (hp : Pre w1.heap x.elems.arr all) (hl : all.length = es.length) :
    forEach P d [] (fun i _ => if i = j then [c] else []) w = .ok ((es.map some).take (j + 1) ++ all.drop (j + 1), w1) := by
  have m0 := mid_of hx ho
  have hlt := hp.lt
  obtain ⟨rest, hr⟩ := hp
  have hf : Full w1.heap x.elems := ⟨hlt, by rw [array_eq hr, ho.2, ← hl]; simp⟩
  have hv : visible w1.heap x.elems = all := by rw [visible, array_eq hr, ho.2, ← hl]; simp
  rw [forEach_nil hx, loop_once m0.full hf (by rw [ho.2]; exact hj) hc _ 0 (by omega) (by omega), m0.visible, hv]
  simp

/-! ### deleting every element -/

/-- the body of `for e := range d.Iterator() { d.Delete(e.Key()) }` -/
def deleting (key : E → Bytes) (d : Nat) : Nat → Option E → List (Call E)
  | _, none => [.delete d []]
  | _, some e => [.delete d (key e)]

theorem run_one {P : Params E} {w w' : World E} {c : Call E} {o : Out E} (h : Model.DocHeap.step P w c = .ok (w', o)) :
    Model.DocHeap.run P w [c] = .ok (w', [o]) := by
  rw [Model.DocHeap.run, h, Res.bind_ok]; rfl

theorem loop_stale {P : Params E} {M : Sem E} (hm : Means P M) {d : Nat} {s : Slice} {cur : List E} {last : E} (hp : ∀ z ∈ cur, M.key z ≠ M.key last)
    {m : Nat} : ∀ (n i : Nat) {w : World E}, Mid w d s cur (cur.map some ++ List.replicate m (some last)) → cur.length ≤ i → i + n = s.len →
    ∃ w', loop P s (deleting M.key d) i n w = .ok (List.replicate n (some last), w') ∧ Shows w' d cur := by
  intro n
  induction n with
  | zero => intro i w M0 _ _; exact ⟨w, rfl, M0.shows⟩
  | succ n ih =>
    intro i w M0 hi he
    obtain ⟨x, hg, hv⟩ := get_full M0.full (i := i) (by omega)
    rw [M0.visible, List.getElem?_append_right (by simpa using hi), List.getElem?_replicate] at hv
    have : x = some last := by
      split at hv
      · cases hv; rfl
      · cases hv
    subst this
    obtain ⟨w1, o, h1, M1⟩ := delete_absent hm M0 hp
    obtain ⟨w', h2, h3⟩ := ih (i + 1) M1 (by omega) (by omega)
    refine ⟨w', ?_, h3⟩
    rw [loop, hg, Res.bind_ok, deleting, run_one h1, Res.bind_ok]
    simp only [h2, Res.bind_ok]
    rfl

theorem loop_deleting {P : Params E} {M : Sem E} (hm : Means P M) {d : Nat} {s : Slice} {last : E} : ∀ (rest pre : List E) (n : Nat) {w : World E},
    Mid w d s (pre ++ rest) ((pre ++ rest).map some ++ List.replicate pre.length (some last)) → (pre ++ rest).getLast? = some last →
    ((pre ++ rest).map M.key).Nodup → pre.length + n = s.len →
    ∃ w', loop P s (deleting M.key d) pre.length n w = .ok ((evens rest).map some ++ List.replicate (n - (evens rest).length) (some last), w') ∧
      Shows w' d (if rest.length % 2 = 0 then (pre ++ odds rest).dropLast else pre ++ odds rest)
  | [], pre, n, w, M0, hl, hn, he => by
    rw [List.append_nil] at M0 hl hn
    obtain ⟨q, rfl⟩ : ∃ q, pre = q ++ [last] := by
      cases h : pre.reverse with
      | nil => simp at h; subst h; simp at hl
      | cons a b =>
        have : pre = b.reverse ++ [a] := by simpa using congrArg List.reverse h
        subst this; simp at hl; subst hl; exact ⟨_, rfl⟩
    have hk : ∀ z ∈ q, M.key z ≠ M.key last := by
      intro z hz hzl
      rw [List.map_append, List.nodup_append] at hn
      exact hn.2.2 _ (List.mem_map_of_mem hz) _ (by simp) hzl
    have hlen := M0.len
    simp only [List.length_append, List.length_map, List.length_replicate, List.length_cons, List.length_nil] at hlen he
    obtain ⟨k, rfl⟩ : ∃ k, n = k + 1 := ⟨n - 1, by omega⟩
    obtain ⟨x, hg, hv⟩ := get_full M0.full (i := q.length + 1) (by omega)
    rw [M0.visible, List.getElem?_append_right (by simp), List.getElem?_replicate] at hv
    have : x = some last := by
      split at hv
      · cases hv; rfl
      · cases hv
    subst this
    obtain ⟨w1, o, h1, M1⟩ := delete_mid (post := []) hm M0 hk
    rw [List.append_nil] at M1
    have M2 : Mid w1 d s q (q.map some ++ List.replicate (q.length + 2) (some last)) := by
      simpa [List.replicate_succ] using M1
    obtain ⟨w', h2, h3⟩ := loop_stale hm hk k (q.length + 2) M2 (by omega) (by omega)
    refine ⟨w', ?_, by simpa [odds] using h3⟩
    rw [show (q ++ [last]).length = q.length + 1 by simp, loop, hg, Res.bind_ok, deleting, run_one h1, Res.bind_ok]
    simp only [h2, Res.bind_ok, evens, List.map_nil, List.nil_append, List.length_nil, Nat.sub_zero]
    rfl
  | [x], pre, n, w, M0, hl, hn, he => by
    have hx : x = last := by simpa using hl
    subst hx
    have hk : ∀ z ∈ pre, M.key z ≠ M.key x := by
      intro z hz hzl
      rw [List.map_append, List.nodup_append] at hn
      exact hn.2.2 _ (List.mem_map_of_mem hz) _ (by simp) hzl
    have hlen := M0.len
    simp only [List.length_append, List.length_map, List.length_replicate, List.length_cons, List.length_nil] at hlen
    obtain ⟨k, rfl⟩ : ∃ k, n = k + 1 := ⟨n - 1, by omega⟩
    have hg : get w.heap s pre.length = .ok (some x) := by
      obtain ⟨y, hg, hv⟩ := get_full M0.full (i := pre.length) (by omega)
      rw [M0.visible] at hv
      simp at hv
      rw [hg, hv]
    obtain ⟨w1, o, h1, M1⟩ := delete_mid (post := []) hm M0 hk
    rw [List.append_nil] at M1
    have M2 : Mid w1 d s pre (pre.map some ++ List.replicate (pre.length + 1) (some x)) := by
      simpa [List.replicate_succ] using M1
    obtain ⟨w', h2, h3⟩ := loop_stale hm hk k (pre.length + 1) M2 (by omega) (by omega)
    refine ⟨w', ?_, by simpa [odds] using h3⟩
    rw [loop, hg, Res.bind_ok, deleting, run_one h1, Res.bind_ok]
    simp only [h2, Res.bind_ok, evens]
    rfl
  | x :: y :: r, pre, n, w, M0, hl, hn, he => by
    have hk : ∀ z ∈ pre, M.key z ≠ M.key x := by
      intro z hz hzl
      rw [List.map_append, List.nodup_append] at hn
      exact hn.2.2 _ (List.mem_map_of_mem hz) _ (by simp) hzl
    have hlen := M0.len
    simp only [List.length_append, List.length_map, List.length_replicate, List.length_cons] at hlen
    obtain ⟨k, rfl⟩ : ∃ k, n = k + 1 := ⟨n - 1, by omega⟩
    have hg : get w.heap s pre.length = .ok (some x) := by
      obtain ⟨z, hg, hv⟩ := get_full M0.full (i := pre.length) (by omega)
      rw [M0.visible] at hv
      simp at hv
      rw [hg, hv]
    obtain ⟨w1, o, h1, M1⟩ := delete_mid hm M0 hk
    have hl' : (y :: r).getLast? = some last := by simpa using hl
    have hl2 : (x :: y :: r).getLast? = some last := by simpa using hl
    rw [hl2] at M1
    have M2 : Mid w1 d s ((pre ++ [y]) ++ r) (((pre ++ [y]) ++ r).map some ++ List.replicate (pre ++ [y]).length (some last)) := by
      simpa [List.replicate_succ] using M1
    obtain ⟨w', h2, h3⟩ := loop_deleting hm r (pre ++ [y]) k M2 (by simpa using hl') (by
      refine List.Nodup.sublist ?_ hn
      apply List.Sublist.map
      simp) (by simp; omega)
    rw [show (pre ++ [y]).length = pre.length + 1 by simp] at h2
    refine ⟨w', ?_, by simpa [odds, show (r.length + 1 + 1) % 2 = r.length % 2 by omega] using h3⟩
    rw [loop, hg, Res.bind_ok, deleting, run_one h1, Res.bind_ok]
    simp only [h2, Res.bind_ok, evens, List.map_cons, List.length_cons, Nat.add_sub_add_right]
    rfl

theorem odds_dropLast : ∀ (l : List E), odds l.dropLast = if l.length % 2 = 0 then (odds l).dropLast else odds l
  | [] => rfl
  | [x] => rfl
  | [x, y] => by simp [odds]
  | x :: y :: z :: r => by
    have ih := odds_dropLast (z :: r)
    have e : (x :: y :: z :: r).dropLast = x :: y :: (z :: r).dropLast := rfl
    rw [e, odds, ih, odds]
    simp only [List.length_cons]
    by_cases h : (r.length + 1) % 2 = 0
    · rw [if_pos h, if_pos (by omega)]
      cases r with
      | nil => simp at h
      | cons a r => simp [odds]
    · rw [if_neg h, if_neg (by omega)]

theorem evens_length : ∀ (l : List E), (evens l).length = (l.length + 1) / 2
  | [] => by simp [evens]
  | [x] => by simp [evens]
  | x :: y :: r => by rw [evens, List.length_cons, evens_length r]; simp only [List.length_cons]; omega

/-! ### UnmarshalDocument -/

theorem unmarshal_document {P : Params E} {M : Sem E} (hm : Means P M) {d in_ : Nat} {s : Slice} {ss : List E} (hl : s.len = ss.length) :
    ∀ (n i : Nat) {w : World E} {ds : List E}, Keeps w s.arr (ss.map some) in_ → Reached P w → Shows w d ds → i + n = ss.length →
    ∃ w', Model.DocLoops.unmarshalLoop P d s i n w = .ok w' ∧ Reached P w' ∧ Shows w' d (ds ++ ss.drop i) ∧
      ∀ d' es', d' ≠ d → Shows w d' es' → Shows w' d' es' := by
  intro n
  induction n with
  | zero =>
    intro i w ds K hw hd hi
    exact ⟨w, rfl, hw, by rw [List.drop_of_length_le (by omega), List.append_nil]; exact hd, fun _ _ _ h => h⟩
  | succ n ih =>
    intro i w ds K hw hd hi
    have hil : i < ss.length := by omega
    have hg := get_pre (s := s) K.pre (i := i) (by simpa using hil) (by omega)
    rw [List.getElem_map] at hg
    obtain ⟨w1, o, e, hw1, hd1, hf, _⟩ := change hm hw hd (.append d [ss[i]]) (ds ++ [ss[i]]) false (by
      intro st h
      simp only [doc, Option.map_eq_some_iff] at h
      obtain ⟨y, hy, rfl⟩ := h
      simp [Spec.Docs.step, upd, hy])
    obtain ⟨w', e', hw', hd', hf'⟩ := ih (i + 1) (step_keeps K (by simp [Spares]) e) hw1 hd1 (by omega)
    refine ⟨w', ?_, hw', ?_, fun d' es' hne h => hf' d' es' hne (hf d' es' hne h)⟩
    · rw [Model.DocLoops.unmarshalLoop, hg, Res.bind_ok]
      simp only [e, Res.bind_ok, e']
    · rw [List.drop_eq_getElem_cons hil]
      simpa using hd'

/-! ### other changes -/

theorem array_set_eq {es : List E} {rest : List (Option E)} {i : Nat} (hi : i < es.length) (e : E) :
    (es.map some ++ rest).set i (some e) = (es.set i e).map some ++ rest := by
  rw [List.set_append_left _ _ (by simpa using hi), List.map_set]

theorem set_after {P : Params E} {M : Sem E} (hm : Means P M) {w w1 : World E} {d : Nat} {es : List E} {x : Document E} {e : E} {o : Out E}
    (hx : deref w d = .ok x) (ho : Owns w.heap x.elems es) (hc : Model.DocHeap.step P w (.set d e) = .ok (w1, o)) :
    Pre w1.heap x.elems.arr (((setFirst M.key e es).take es.length).map some) ∧
      ((setFirst M.key e es).take es.length).length = es.length := by
  rw [Model.DocHeap.step, hx, Res.bind_ok] at hc
  obtain ⟨r, hr, hc⟩ := Res.bind_eq_ok.mp hc
  cases hc
  simp only [Model.DocHeap.set, hm.key, Res.bind_ok, find_at hm ho] at hr
  cases hf : es.findIdx? (fun y => M.key y = M.key e) with
  | none =>
    rw [hf] at hr
    cases hr
    rw [setFirst_absent (fun y hy => by simpa using (List.findIdx?_eq_none_iff.mp hf) y hy), List.take_left]
    exact ⟨(append1_pre (C := True) ho.1 (fun _ => ⟨trivial, by simp [ho.2]⟩) _).1, rfl⟩
  | some i =>
    rw [hf] at hr
    obtain ⟨hil, hi, hlt⟩ := List.findIdx?_eq_some_iff_getElem.mp hf
    have hs : setFirst M.key e es = es.set i e := by
      have e1 : es = es.take i ++ es[i] :: es.drop (i + 1) := by simp
      have e2 := setFirst_split (key := M.key) (e := e) (x := es[i]) (post := es.drop (i + 1)) (pre := es.take i) (by simpa using hi) (by
        intro y hy
        obtain ⟨j, hj, rfl⟩ := List.mem_take_iff_getElem.mp hy
        simpa using hlt j (by omega))
      rw [← e1] at e2
      rw [e2, List.set_eq_take_append_cons_drop, if_pos hil]
    obtain ⟨rest, ha⟩ := ho.1
    have hput : put w.heap x.elems i (some e) = .ok (w.heap.set x.elems.arr ((es.set i e).map some ++ rest)) := by
      rw [put, if_pos (by rw [ho.2]; exact hil), array_eq ha, array_set_eq hil]
    simp only [hput, Res.bind_ok] at hr
    cases hr
    have hlt' := ho.1.lt
    refine ⟨⟨rest, ?_⟩, by rw [hs, List.take_of_length_le (by simp), List.length_set]⟩
    rw [hs, List.take_of_length_le (by simp)]
    simp [store, hlt']

/-! ### loops that come to their end -/

theorem step_fits {P : Params E} {M : Sem E} (hm : Means P M) {n : Nat} {w : World E} (hw : Reached P w) (hn : n ≤ w.docs.length) {c : Call E}
    (hc : Fits n c) : ∃ w' o, Model.DocHeap.step P w c = .ok (w', o) ∧ Reached P w' ∧ n ≤ w'.docs.length := by
  obtain ⟨s, R⟩ := reached_rep hm hw
  have hs : n ≤ s.length := by rw [← R.len]; exact hn
  have hu : ∀ (d : Nat) (f : List E → List E × Bool), d < n → ∃ s', upd s d f = some s' ∧ n ≤ s'.length := by
    intro d f h
    have : s[d]? = some s[d] := List.getElem?_eq_getElem (by omega)
    exact ⟨_, by rw [upd, this], by simp; exact hs⟩
  have hd : ∀ d : Nat, d < n → ∃ es, doc s d = some es := by
    intro d h
    exact ⟨s[d].1, by rw [doc, List.getElem?_eq_getElem (by omega)]; rfl⟩
  have hw : ∀ es : List E, ∃ s', new s (some es) = some s' ∧ n ≤ s'.length := fun es => ⟨_, rfl, by simp; omega⟩
  have key : ∃ s', Spec.Docs.step M s c = some s' ∧ n ≤ s'.length := by
    cases c with
    | make k => exact hw _
    | elements args => exact hw _
    | append d args => rw [Spec.Docs.step]; exact hu _ _ hc
    | appendOmitEmpty d args => rw [Spec.Docs.step]; exact hu _ _ hc
    | extend d d2 =>
      obtain ⟨es, h⟩ := hd d2 hc.2
      rw [Spec.Docs.step, h, Option.bind_some]
      exact hu _ _ hc.1
    | set d e => rw [Spec.Docs.step]; exact hu _ _ hc
    | delete d k => rw [Spec.Docs.step]; exact hu _ _ hc
    | reset d => rw [Spec.Docs.step]; exact hu _ _ hc
    | copy d => obtain ⟨es, h⟩ := hd d hc; rw [Spec.Docs.step, h]; exact hw _
    | sorted d => obtain ⟨es, h⟩ := hd d hc; rw [Spec.Docs.step, h]; exact hw _
    | map d =>
      refine ⟨s, ?_, hs⟩
      rw [Spec.Docs.step, List.getElem?_eq_getElem (show d < s.length by have : d < n := hc; omega)]; rfl
    | unmarshal d args => rw [Spec.Docs.step]; exact hu _ _ hc
    | newArray args => exact hw _
    | arraySet d i e => exact hc.elim
    | arrayDelete d i =>
      rw [Spec.Docs.step, List.getElem?_eq_getElem (show d < s.length by have : d < n := hc; omega)]
      simp only [Option.bind_some]
      split
      · exact ⟨_, rfl, by simp; exact hs⟩
      · exact ⟨_, rfl, hs⟩
  obtain ⟨s', h1, h2⟩ := key
  obtain ⟨w', o, e, R', _⟩ := step_refines hm R c h1
  exact ⟨w', o, e, Reached.step ‹_› e, by rw [R'.len]; exact h2⟩

theorem run_fits {P : Params E} {M : Sem E} (hm : Means P M) {n : Nat} : ∀ (cs : List (Call E)) {w : World E}, Reached P w → n ≤ w.docs.length →
    (∀ c ∈ cs, Fits n c) → ∃ w' os, Model.DocHeap.run P w cs = .ok (w', os) ∧ Reached P w' ∧ n ≤ w'.docs.length := by
  intro cs
  induction cs with
  | nil => intro w hw hn _; exact ⟨w, [], rfl, hw, hn⟩
  | cons c cs ih =>
    intro w hw hn hc
    obtain ⟨w1, o, e1, hw1, hn1⟩ := step_fits hm hw hn (hc c (by simp))
    obtain ⟨w2, os, e2, hw2, hn2⟩ := ih hw1 hn1 (fun c h => hc c (by simp [h]))
    exact ⟨w2, o :: os, by rw [Model.DocHeap.run, e1, Res.bind_ok]; simp only [e2, Res.bind_ok], hw2, hn2⟩

theorem loop_fits {P : Params E} {M : Sem E} (hm : Means P M) {k : Nat} {s : Slice} {body : Nat → Option E → List (Call E)} {X : List (Option E)} {d : Nat}
    (hl : s.len = X.length) (hb : ∀ i x, ∀ c ∈ body i x, Spares d c ∧ Fits k c) : ∀ (n i : Nat) {w : World E}, Keeps w s.arr X d →
    Reached P w → k ≤ w.docs.length → i + n = X.length → ∃ r, loop P s body i n w = .ok r := by
  intro n
  induction n with
  | zero => intro i w K hw hk hi; exact ⟨_, rfl⟩
  | succ n ih =>
    intro i w K hw hk hi
    have hil : i < X.length := by omega
    obtain ⟨w1, os, e1, hw1, hk1⟩ := run_fits hm (body i X[i]) hw hk (fun c h => (hb _ _ c h).2)
    obtain ⟨r, hr⟩ := ih (i + 1) (run_keeps _ K (fun c h => (hb _ _ c h).1) e1) hw1 hk1 (by omega)
    refine ⟨(X[i] :: r.1, r.2), ?_⟩
    rw [loop, get_pre K.pre hil (by omega), Res.bind_ok, e1, Res.bind_ok]
    simp only [hr, Res.bind_ok]

end Birch.Proofs.DocLoops
