import Verif.Spec.Events
import Verif.Proofs.Basic

namespace Birch.Proofs.Events
open Birch Model Spec Model.Events Spec.Events Proofs

theorem i64_add (a b : Int) : i64 (i64 a + b) = i64 (a + b) := by unfold i64; omega

theorem sumOf_append (f : Perf → Int) (es : List Perf) (e : Perf) : sumOf f (es ++ [e]) = i64 (sumOf f es + f e) := by
  unfold sumOf
  rw [List.map_append, List.sum_append, i64_add]; simp

theorem sumOf_single {f : Perf → Int} {e : Perf} (h : IsInt64 (f e)) : sumOf f [e] = f e := by
  unfold sumOf IsInt64 at *
  simp only [List.map_cons, List.map_nil, List.sum_cons, List.sum_nil, Int.add_zero]
  exact i64_small h.1 h.2

theorem ident_append (es : List Perf) (e : Perf) : ident (es ++ [e]) = if e.id = 0 then i64 (ident es + 1) else e.id := by
  unfold ident; rw [List.foldl_append]; rfl

theorem totals_append (es : List Perf) (e : Perf) : totals (es ++ [e]) = totals es ++ [total (es ++ [e]) e] := by
  unfold totals
  rw [List.mapIdx_append]
  simp only [List.mapIdx_cons, List.mapIdx_nil, Nat.zero_add]
  congr 1
  · apply List.ext_getElem
    · simp
    · intro i h1 h2
      simp only [List.length_mapIdx] at h1
      simp only [List.getElem_mapIdx]
      rw [List.take_append_of_le_length (by omega)]
  · rw [List.take_of_length_le (by simp)]

theorem totals_length (es : List Perf) : (totals es).length = es.length := by simp [totals]

theorem total_single {e : Perf} (h : Fits e) : total [e] e = e := by
  obtain ⟨h1, ⟨h2, h3, h4, h5⟩, ⟨h6, h7⟩, ⟨h8, h9⟩, h10, h11⟩ := h
  have hid : ident [e] = e.id := by
    unfold ident
    simp only [List.foldl_cons, List.foldl_nil]
    split
    · rename_i h; rw [h]; decide
    · rfl
  unfold total
  rw [sumOf_single h2, sumOf_single h3, sumOf_single h4, sumOf_single h5, sumOf_single h6, sumOf_single h7, hid]

/-- everything but the record: `current` holds the total of the events so far -/
def Inv (es : List Perf) (g : Heap) (used : List Nat) (w : World) : Prop :=
  (∀ a, a ∉ used → w.heap a = g a) ∧
  match w.current with
  | none => es = [] ∧ used = []
  | some c => c ∈ used ∧ ∃ es' e, es = es' ++ [e] ∧ w.heap c = total es e

theorem inv_write {es : List Perf} {g : Heap} {used : List Nat} {w : World} (h : Inv es g used w) {a : Nat} (ha : a ∉ used) (p : Perf) :
    Inv es (g.set a p) used { w with heap := w.heap.set a p } := by
  obtain ⟨h1, h2⟩ := h
  refine ⟨?_, ?_⟩
  · intro b hb
    show w.heap.set a p b = g.set a p b
    unfold Heap.set; split
    · rfl
    · exact h1 b hb
  · revert h2
    show (match w.current with | none => _ | some c => _) → (match w.current with | none => _ | some c => _)
    cases w.current with
    | none => exact id
    | some c =>
      rintro ⟨hc, es', e, h3, h4⟩
      refine ⟨hc, es', e, h3, ?_⟩
      show w.heap.set a p c = _
      unfold Heap.set
      rw [if_neg (by rintro rfl; exact ha hc)]
      exact h4

theorem add_other {h : Heap} {p q a : Nat} (hp : a ≠ p) (hq : a ≠ q) : add h p q a = h a := by
  unfold add Heap.set
  simp only [hp, if_false]
  split
  · simp [hq]
  · rfl

theorem add_total {h : Heap} {p q : Nat} (hpq : p ≠ q) {es : List Perf} {e : Perf} (hp : h p = total es e) :
    add h p q p = total (es ++ [h q]) (h q) := by
  unfold add
  by_cases hz : (h q).id = 0
  · simp only [hz, if_true, Heap.set, hpq, if_false]
    unfold total
    simp only [sumOf_append, ident_append, hz, if_true, hp]
    unfold total
    rfl
  · simp only [hz, if_false, Heap.set, if_true]
    unfold total
    simp only [sumOf_append, ident_append, hz, if_false, hp]
    unfold total
    rfl

theorem inv_sum {es : List Perf} {g : Heap} {used : List Nat} {w : World} (h : Inv es g used w) {a : Nat} (ha : a ∉ used) (fit : Fits (g a)) :
    Inv (es ++ [g a]) g (a :: used) (w.sum a).1 ∧ (w.sum a).1.heap (w.sum a).2 = total (es ++ [g a]) (g a) ∧
    (w.sum a).1.recorded = w.recorded ∧ (w.sum a).1.count = w.count ∧ (w.sum a).1.last = w.last := by
  obtain ⟨h1, h2⟩ := h
  unfold World.sum
  cases hc : w.current with
  | none =>
    rw [hc] at h2
    obtain ⟨rfl, rfl⟩ := h2
    have : w.heap a = total ([] ++ [g a]) (g a) := by rw [h1 a ha]; exact (total_single fit).symm
    exact ⟨⟨fun b _ => h1 b (by simp), List.mem_cons_self .., [], g a, rfl, this⟩, this, rfl, rfl, rfl⟩
  | some c =>
    rw [hc] at h2
    obtain ⟨hcu, es', e, h3, h4⟩ := h2
    have hca : c ≠ a := by rintro rfl; exact ha hcu
    have : add w.heap c a c = total (es ++ [g a]) (g a) := by rw [add_total hca h4, h1 a ha]
    refine ⟨⟨?_, ?_⟩, this, rfl, rfl, rfl⟩
    · intro b hb
      simp only [List.mem_cons, not_or] at hb
      show add w.heap c a b = g b
      rw [add_other (by rintro rfl; exact hb.2 hcu) hb.1]
      exact h1 b hb.2
    · exact ⟨List.mem_cons_of_mem _ hcu, es, g a, rfl, this⟩

theorem inv_same {es : List Perf} {g : Heap} {used : List Nat} {w w' : World} (h : Inv es g used w) (h1 : w'.heap = w.heap) (h2 : w'.current = w.current) :
    Inv es g used w' := by
  unfold Inv at *
  rw [h1, h2]; exact h

/-- whether the collectors that sum record the event, from the state before -/
def picks (k : Kind) (w : World) (i : In) : Bool :=
  match k with
  | .basic => true
  | .passthrough => true
  | .sampling n => w.count.tmod n = 0
  | .random percent => percent > 100 || (percent > 0 && i.draw < percent)
  | .interval dur => w.current.isNone || timeSub i.now1 w.last ≥ dur

/-- one `AddEvent` -/
theorem addEvent_inv {k : Kind} (hk : k ≠ .passthrough) (hn : k ≠ .sampling 0) {es : List Perf} {g : Heap} {used : List Nat} {w : World}
    (h : Inv es g used w) {a : Nat} {i : In} (hi : i.event = some a) (ha : a ∉ used) (fit : Fits (g a)) :
    ∃ w', addEvent k w i = .ok w' ∧ Inv (es ++ [g a]) g (a :: used) w' ∧
      w'.recorded = w.recorded ++ (if picks k w i then [total (es ++ [g a]) (g a)] else []) ∧
      (∀ n, k = .sampling n → w'.count = i64 (w.count + 1)) ∧
      (∀ d, k = .interval d → w'.last = if picks k w i then i.now2 else w.last) ∧ w'.current.isSome := by
  obtain ⟨h1, h2, h3, h4, h5⟩ := inv_sum h ha fit
  have cur : ∀ w : World, (w.sum a).1.current.isSome := by
    intro w; unfold World.sum
    cases hc : w.current with
    | none => rfl
    | some c => rfl
  have hc := cur w
  unfold addEvent
  rw [hi]
  clear cur
  cases k with
  | passthrough => exact absurd rfl hk
  | basic =>
    dsimp only
    generalize w.sum a = s at *
    refine ⟨_, rfl, inv_same h1 rfl rfl, ?_, by simp, by simp, hc⟩
    simp only [picks, if_true]
    show s.1.recorded ++ [s.1.heap s.2] = _
    rw [h3, h2]
  | sampling n =>
    have hn0 : n ≠ 0 := by rintro rfl; exact hn rfl
    dsimp only
    generalize w.sum a = s at *
    simp only [hn0, if_false]
    refine ⟨_, rfl, ?_, ?_, ?_, by simp, ?_⟩
    · split
      · exact inv_same h1 rfl rfl
      · exact inv_same h1 rfl rfl
    · simp only [picks, decide_eq_true_eq, h4]
      split
      · show s.1.recorded ++ [s.1.heap s.2] = _
        rw [h3, h2]
      · show s.1.recorded = _
        rw [h3]; simp
    · intro m hm
      split
      · show i64 (s.1.count + 1) = _; rw [h4]
      · show i64 (s.1.count + 1) = _; rw [h4]
    · split <;> exact hc
  | random percent =>
    dsimp only
    generalize w.sum a = s at *
    refine ⟨_, rfl, ?_, ?_, by simp, by simp, ?_⟩
    · split
      · exact inv_same h1 rfl rfl
      · split
        · exact h1
        · split
          · exact inv_same h1 rfl rfl
          · exact h1
    · simp only [picks]
      by_cases p1 : percent > 100
      · simp only [p1, if_true, decide_true, Bool.true_or]
        show s.1.recorded ++ [s.1.heap s.2] = _
        rw [h3, h2]
      · by_cases p2 : percent ≤ 0
        · have : ¬ percent > 0 := by omega
          simp only [p1, p2, this, if_true, if_false, decide_false, Bool.false_or, Bool.false_and]
          rw [h3]; simp
        · have : percent > 0 := by omega
          simp only [p1, p2, this, if_false, decide_false, decide_true, Bool.false_or, Bool.true_and, decide_eq_true_eq]
          by_cases p3 : i.draw < percent
          · simp only [p3, if_true]
            show s.1.recorded ++ [s.1.heap s.2] = _
            rw [h3, h2]
          · simp only [p3, if_false]
            rw [h3]; simp
    · split
      · exact hc
      · split
        · exact hc
        · split <;> exact hc
  | interval d =>
    dsimp only
    generalize w.sum a = s at *
    cases hcur : w.current with
    | none =>
      refine ⟨_, rfl, inv_same h1 rfl rfl, ?_, by simp, ?_, hc⟩
      · simp only [picks, hcur, Option.isNone_none, Bool.true_or, if_true]
        show s.1.recorded ++ [s.1.heap s.2] = _
        rw [h3, h2]
      · intro d' _
        simp only [picks, hcur, Option.isNone_none, Bool.true_or, if_true]
        rfl
    | some c =>
      simp only [picks, hcur, Option.isNone_some, Bool.false_or, decide_eq_true_eq, h5]
      refine ⟨_, rfl, ?_, ?_, by simp, ?_, ?_⟩
      · split <;> exact inv_same h1 rfl rfl
      · split
        · show s.1.recorded ++ [s.1.heap s.2] = _
          rw [h3, h2]
        · rw [h3]; simp
      · intro d' _
        split
        · rfl
        · exact h5
      · split <;> exact hc

/-- the calls of `AddEvent` with an event -/
def calls : List Act → List In
  | [] => []
  | .write _ _ :: as => calls as
  | .add ⟨none, _, _, _⟩ :: as => calls as
  | .add i :: as => i :: calls as

theorem act_nil (k : Kind) (w : World) (d : Int) (t u : Time) : act k w (.add ⟨none, d, t, u⟩) = .ok w := by
  simp [act, addEvent]

/-- a whole run, for any property of the record that is kept -/
theorem run_inv {k : Kind} (hk : k ≠ .passthrough) (hn : k ≠ .sampling 0) (P : List Perf → List Act → World → Prop) :
    (∀ es a p as w h, P es (.write a p :: as) w → P es as { w with heap := h }) →
    (∀ es d t u as w, P es (.add ⟨none, d, t, u⟩ :: as) w → P es as w) →
    (∀ es a d t u as e w w', P es (.add ⟨some a, d, t, u⟩ :: as) w → (w.current.isSome ↔ es ≠ []) →
      w'.recorded = w.recorded ++ (if picks k w ⟨some a, d, t, u⟩ then [total (es ++ [e]) e] else []) →
      (∀ n, k = .sampling n → w'.count = i64 (w.count + 1)) →
      (∀ dur, k = .interval dur → w'.last = if picks k w ⟨some a, d, t, u⟩ then u else w.last) →
      w'.current.isSome → P (es ++ [e]) as w') →
    ∀ (as : List Act) (es : List Perf) (g : Heap) (used : List Nat) (w : World), Inv es g used w → Fresh used as → (∀ e ∈ added g as, Fits e) →
      P es as w → ∃ w', run k w as = .ok w' ∧ (∃ used' g', Inv (es ++ added g as) g' used' w') ∧ P (es ++ added g as) [] w' := by
  intro pw pn pa as
  induction as with
  | nil =>
    intro es g used w h _ _ hp
    exact ⟨w, rfl, ⟨used, g, by simpa [added] using h⟩, by simpa [added] using hp⟩
  | cons x as ih =>
    intro es g used w h hf hfit hp
    match x with
    | .write a p =>
      simp only [Fresh] at hf
      simp only [added] at hfit ⊢
      obtain ⟨w', h1, h2, h3⟩ := ih es _ used _ (inv_write h hf.1 p) hf.2 hfit (pw _ _ _ _ _ _ hp)
      exact ⟨w', by rw [run, act]; exact h1, h2, h3⟩
    | .add ⟨none, d, t, u⟩ =>
      simp only [Fresh] at hf
      simp only [added] at hfit ⊢
      obtain ⟨w', h1, h2, h3⟩ := ih es _ used _ h hf hfit (pn _ _ _ _ _ _ hp)
      exact ⟨w', by rw [run, act_nil]; exact h1, h2, h3⟩
    | .add ⟨some a, d, t, u⟩ =>
      simp only [Fresh] at hf
      simp only [added, List.mem_cons, forall_eq_or_imp] at hfit ⊢
      obtain ⟨w1, e1, i1, r1, c1, l1, s1⟩ := addEvent_inv hk hn h (i := ⟨some a, d, t, u⟩) rfl hf.1 hfit.1
      have hcur : w.current.isSome ↔ es ≠ [] := by
        have := h.2
        cases hc : w.current with
        | none => rw [hc] at this; simp [this.1]
        | some c =>
          rw [hc] at this
          obtain ⟨_, es', e, h3, _⟩ := this
          simp [h3]
      obtain ⟨w', h1, h2, h3⟩ := ih _ _ _ _ i1 hf.2 hfit.2 (pa _ _ _ _ _ _ _ _ _ hp hcur r1 c1 l1 s1)
      rw [List.append_assoc, List.singleton_append] at h2 h3
      exact ⟨w', by rw [run, act, e1]; exact h1, h2, h3⟩

theorem inv_new (h : Heap) : Inv [] h [] (World.new h) := ⟨fun _ _ => rfl, rfl, rfl⟩

end Birch.Proofs.Events
