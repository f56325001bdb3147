import Verif.Spec.Graph
import Verif.Proofs.Write

/- Objects: what calls write to, and views of objects that nobody writes to. -/

namespace Birch.Proofs.Graph
open Birch Model Model.Graph Spec Spec.Graph

set_option linter.unusedSimpArgs false
set_option linter.unusedVariables false
attribute [local irreducible] i32 u32 u32i u64i i64

/-! ### reachability -/

theorem reach_trans {w : World} {a b c : Obj} (h : Reach w a b) (h2 : Reach w b c) : Reach w a c := by
  induction h with
  | refl => exact h2
  | step e _ ih => exact .step e (ih h2)

theorem reach_made {w : World} (g : Good w) {a b : Obj} (ha : Made w a) (h : Reach w a b) : Made w b := by
  induction h with
  | refl => exact ha
  | step e _ ih => exact ih (g _ _ ha e)

theorem mapRes_congr {α β : Type} {f g : α → Res β} : ∀ {l : List α}, (∀ x ∈ l, f x = g x) → mapRes f l = mapRes g l
  | [], _ => rfl
  | x :: xs, h => by
    unfold mapRes
    rw [h x (by simp), mapRes_congr (fun y hy => h y (by simp [hy]))]

/-- the edges from an object that has not changed have not changed -/
theorem edge_same {w w' : World} {a b : Obj} (h : Same w w' a) (e : Edge w a b) : Edge w' a b := by
  cases e with
  | data p => 
    have h : w.vals p = w'.vals p := h
    rw [h]; exact .data p
  | d hd => 
    rename_i p d
    have h : w.vals p = w'.vals p := h
    rw [h] at hd; exact .d hd
  | elem he => 
    rename_i d e
    have h : w.docs d = w'.docs d := h
    rw [h] at he; exact .elem he
  | value e => 
    have h : w.elems e = w'.elems e := h
    rw [h]; exact .value e

theorem reach_same {w w' : World} {a b : Obj} (h : ∀ o, Reach w a o → Same w w' o) (r : Reach w a b) : Reach w' a b := by
  induction r with
  | refl => exact .refl _
  | step e _ ih => exact .step (edge_same (h _ (.refl _)) e) (ih (fun o ho => h o (.step e ho)))

theorem same_symm {w w' : World} {o : Obj} (h : Same w w' o) : Same w' w o := by
  cases o <;> exact Eq.symm h

theorem same_trans {w w1 w2 : World} {o : Obj} (h : Same w w1 o) (h2 : Same w1 w2 o) : Same w w2 o := by
  cases o <;> exact Eq.trans h h2

theorem same_refl (w : World) (o : Obj) : Same w w o := by cases o <;> rfl

theorem reach_back {w w' : World} {a b : Obj} (h : ∀ o, Reach w a o → Same w w' o) (r : Reach w' a b) : Reach w a b := by
  induction r with
  | refl => exact .refl _
  | step e _ ih => 
    have e' := edge_same (same_symm (h _ (.refl _))) e
    exact .step e' (ih (fun o ho => h o (.step e' ho)))

theorem bytes_same {w w' : World} {s : Span} (h : w.bufs s.buf = w'.bufs s.buf) : w'.bytes s = w.bytes s := by
  unfold World.bytes; rw [h]

/-- a value looks the same when nothing it refers to has changed -/
theorem view_frame {w w' : World} : ∀ (n p : Nat), (∀ o, Reach w (.val p) o → Same w w' o) → viewVal w' n p = viewVal w n p
  | 0, _, _ => rfl
  | n + 1, p, h => by
    have hp : w.vals p = w'.vals p := h (.val p) (.refl _)
    have hb : w.bufs (w.vals p).data.buf = w'.bufs (w.vals p).data.buf := h (.buf _) (.step (.data p) (.refl _))
    unfold viewVal
    simp only
    rw [← hp, bytes_same hb]
    cases hd : (w.vals p).d with
    | none => rfl
    | some d =>
      have hdoc : w.docs d = w'.docs d := h (.doc d) (.step (.d hd) (.refl _))
      simp only
      rw [← hdoc]
      congr 1
      apply mapRes_congr
      intro e he
      have r1 : Reach w (.val p) (.elem e) := .step (.d hd) (.step (.elem he) (.refl _))
      have hel : w.elems e = w'.elems e := h (.elem e) r1
      rw [← hel]
      exact view_frame n _ (fun o ho => h o (reach_trans r1 (.step (.value e) ho)))

theorem viewDoc_frame {w w' : World} (n d : Nat) (h : ∀ o, Reach w (.doc d) o → Same w w' o) : viewDoc w' n d = viewDoc w n d := by
  unfold viewDoc
  have hdoc : w.docs d = w'.docs d := h (.doc d) (.refl _)
  rw [← hdoc]
  apply mapRes_congr
  intro e he
  have r1 : Reach w (.doc d) (.elem e) := .step (.elem he) (.refl _)
  have hel : w.elems e = w'.elems e := h (.elem e) r1
  rw [← hel]
  exact view_frame n _ (fun o ho => h o (reach_trans r1 (.step (.value e) ho)))

/-! ### growing -/

/-- new objects only -/
structure Ext (w w' : World) : Prop where
  nb : w.nb ≤ w'.nb
  nv : w.nv ≤ w'.nv
  ne : w.ne ≤ w'.ne
  nd : w.nd ≤ w'.nd
  same : ∀ o, Made w o → Same w w' o
  good : Good w → Good w'

theorem Ext.made {w w' : World} (x : Ext w w') {o : Obj} (h : Made w o) : Made w' o := by
  cases o <;> simp only [Made] at h ⊢
  · exact Nat.lt_of_lt_of_le h x.nb
  · exact Nat.lt_of_lt_of_le h x.nv
  · exact Nat.lt_of_lt_of_le h x.ne
  · exact Nat.lt_of_lt_of_le h x.nd

theorem Ext.refl (w : World) : Ext w w :=
  ⟨Nat.le_refl _, Nat.le_refl _, Nat.le_refl _, Nat.le_refl _, fun o _ => same_refl w o, id⟩

theorem Ext.trans {w w1 w2 : World} (x : Ext w w1) (y : Ext w1 w2) : Ext w w2 :=
  ⟨Nat.le_trans x.nb y.nb, Nat.le_trans x.nv y.nv, Nat.le_trans x.ne y.ne, Nat.le_trans x.nd y.nd,
    fun o h => same_trans (x.same o h) (y.same o (x.made h)), fun g => y.good (x.good g)⟩

theorem upd_self {α : Type} (f : Nat → α) (i : Nat) (x : α) : upd f i x i = x := by simp [upd]
theorem upd_ne {α : Type} (f : Nat → α) {i j : Nat} (x : α) (h : j ≠ i) : upd f i x j = f j := by simp [upd, h]

theorem newBuf_ext (w : World) (b : Bytes) : Ext w (newBuf b w).1 := by
  refine ⟨by simp [newBuf], Nat.le_refl _, Nat.le_refl _, Nat.le_refl _, ?_, ?_⟩
  · intro o h
    cases o <;> simp only [Made, Same, newBuf] at h ⊢
    rw [upd_ne _ _ (by omega)]
  · intro g a b ha e
    cases e with
    | data p => exact Nat.lt_succ_of_lt (g (.val p) _ ha (.data p))
    | @d p i hd => exact g (.val p) (.doc i) ha (.d hd)
    | @elem i e he => exact g (.doc i) (.elem e) ha (.elem he)
    | value e => exact g (.elem e) _ ha (.value e)

theorem newVal_ext (w : World) (v : VObj) (h1 : v.data.buf < w.nb) (h2 : ∀ d, v.d = some d → d < w.nd) : Ext w (newVal v w).1 := by
  refine ⟨Nat.le_refl _, by simp [newVal], Nat.le_refl _, Nat.le_refl _, ?_, ?_⟩
  · intro o h
    cases o <;> simp only [Made, Same, newVal] at h ⊢
    rw [upd_ne _ _ (by omega)]
  · intro g a b ha e
    cases e with
    | data p => 
      simp only [Made, newVal] at ha ⊢
      by_cases hp : p = w.nv
      · subst hp; rw [upd_self]; exact h1
      · rw [upd_ne _ _ hp]; exact g (.val p) _ (show p < w.nv by omega) (.data p)
    | d hd =>
      rename_i p d
      simp only [Made, newVal] at ha hd ⊢
      by_cases hp : p = w.nv
      · subst hp; rw [upd_self] at hd; exact h2 _ hd
      · rw [upd_ne _ _ hp] at hd; exact g (.val p) _ (show p < w.nv by omega) (.d hd)
    | @elem i e he => exact g (.doc i) (.elem e) ha (.elem he)
    | value e => exact Nat.lt_succ_of_lt (g (.elem e) _ ha (.value e))

theorem newElem_ext (w : World) (p : Nat) (h1 : p < w.nv) : Ext w (newElem p w).1 := by
  refine ⟨Nat.le_refl _, Nat.le_refl _, by simp [newElem], Nat.le_refl _, ?_, ?_⟩
  · intro o h
    cases o <;> simp only [Made, Same, newElem] at h ⊢
    rw [upd_ne _ _ (by omega)]
  · intro g a b ha e
    cases e with
    | data p => exact g (.val p) _ ha (.data p)
    | @d p i hd => exact g (.val p) (.doc i) ha (.d hd)
    | @elem i e he => exact Nat.lt_succ_of_lt (g (.doc i) (.elem e) ha (.elem he))
    | value e => 
      simp only [Made, newElem] at ha ⊢
      by_cases he : e = w.ne
      · subst he; rw [upd_self]; exact h1
      · rw [upd_ne _ _ he]; exact g (.elem e) _ (show e < w.ne by omega) (.value e)

theorem newDoc_ext (w : World) (es : List Nat) (h1 : ∀ e ∈ es, e < w.ne) : Ext w (newDoc es w).1 := by
  refine ⟨Nat.le_refl _, Nat.le_refl _, Nat.le_refl _, by simp [newDoc], ?_, ?_⟩
  · intro o h
    cases o <;> simp only [Made, Same, newDoc] at h ⊢
    rw [upd_ne _ _ (by omega)]
  · intro g a b ha e
    cases e with
    | data p => exact g (.val p) _ ha (.data p)
    | @d p i hd => exact Nat.lt_succ_of_lt (g (.val p) (.doc i) ha (.d hd))
    | elem he => 
      rename_i d e
      simp only [Made, newDoc] at ha he ⊢
      by_cases hd : d = w.nd
      · subst hd; rw [upd_self] at he; exact h1 _ he
      · rw [upd_ne _ _ hd] at he; exact g (.doc d) _ (show d < w.nd by omega) (.elem he)
    | value e => exact g (.elem e) _ ha (.value e)

/-! ### running -/

theorem bind_run {α β : Type} (m : M α) (f : α → M β) (w : World) :
    (m >>= f) w = match m w with
      | (w, .ok a) => f a w
      | (w, .err e) => (w, .err e)
      | (w, .panic) => (w, .panic)
      | (w, .oof) => (w, .oof) := rfl

theorem look_run {α : Type} (f : World → Res α) (w : World) : look f w = (w, f w) := rfl
theorem lift_run {α : Type} (r : Res α) (w : World) : lift r w = (w, r) := rfl
theorem pure_run {α : Type} (a : α) (w : World) : (pure a : M α) w = (w, .ok a) := rfl
theorem bind_ok_run {α β : Type} {m : M α} {f : α → M β} {w w' : World} {a : α} (h : m w = (w', .ok a)) : (m >>= f) w = f a w' := by
  rw [bind_run, h]

/-- what holds of the objects afterwards, if it holds after each step -/
theorem bind_post {α β : Type} {m : M α} {f : α → M β} {w : World} (P : World → Prop) (h1 : P (m w).1)
    (h2 : ∀ a w', m w = (w', .ok a) → P (f a w').1) : P ((m >>= f) w).1 := by
  rw [bind_run]
  rcases hm : m w with ⟨w', r⟩
  rw [hm] at h1
  cases r with
  | ok a => exact h2 a w' hm
  | err e => exact h1
  | panic => exact h1
  | oof => exact h1

theorem newElems_ext : ∀ (vs : List Value) (s : Span) (w : World), s.buf < w.nb →
    ∃ es w', newElems s vs w = (w', .ok es) ∧ Ext w w' ∧ ∀ e ∈ es, e < w'.ne
  | [], s, w, h => ⟨[], w, rfl, Ext.refl w, by simp⟩
  | v :: vs, s, w, h => by
    have x1 := newVal_ext w ⟨v.start, v.offset, s, none⟩ h (by simp)
    have x2 := newElem_ext (newVal ⟨v.start, v.offset, s, none⟩ w).1 w.nv (by simp [newVal])
    obtain ⟨es, w', h1, h2, h3⟩ := newElems_ext vs s (newElem w.nv (newVal ⟨v.start, v.offset, s, none⟩ w).1).1 h
    refine ⟨w.ne :: es, w', ?_, (x1.trans x2).trans h2, ?_⟩
    · unfold newElems
      rw [bind_ok_run (a := w.nv) (w' := (newVal ⟨v.start, v.offset, s, none⟩ w).1) rfl,
        bind_ok_run (a := w.ne) (w' := (newElem w.nv (newVal ⟨v.start, v.offset, s, none⟩ w).1).1) rfl, bind_ok_run h1, pure_run]
    · intro e he
      rcases List.mem_cons.mp he with rfl | he
      · exact Nat.lt_of_lt_of_le (Nat.lt_succ_self w.ne) h2.ne
      · exact h3 e he

theorem readDocument_ext (n : Nat) (s : Span) (w : World) (h : s.buf < w.nb) :
    Ext w (Graph.readDocument n s w).1 ∧ ∀ d w', Graph.readDocument n s w = (w', .ok d) → d < w'.nd := by
  unfold Graph.readDocument
  rw [bind_run, look_run]
  cases hr : Model.readDocument n (w.bytes s) with
  | ok vs =>
    obtain ⟨es, w', h1, h2, h3⟩ := newElems_ext vs s w h
    simp only
    rw [bind_ok_run h1]
    refine ⟨h2.trans (newDoc_ext w' es h3), ?_⟩
    rintro d w'' hd
    simp only [newDoc, Prod.mk.injEq, Res.ok.injEq] at hd
    rw [← hd.1, ← hd.2]
    exact Nat.lt_succ_self _
  | err e => exact ⟨Ext.refl w, by rintro d w' h; simp at h⟩
  | panic => exact ⟨Ext.refl w, by rintro d w' h; simp at h⟩
  | oof => exact ⟨Ext.refl w, by rintro d w' h; simp at h⟩

theorem construct_ext (w : World) (b : Bytes) (o : Nat) (d : Option Nat) (h : ∀ i, d = some i → i < w.nd) : Ext w (construct b o d w).1 := by
  have x0 := newBuf_ext w b
  have x1 := newVal_ext (newBuf b w).1 ⟨0, o, ⟨w.nb, 0, b.length⟩, d⟩ (Nat.lt_succ_self _) h
  exact (x0.trans x1).trans (newElem_ext _ w.nv (Nat.lt_succ_self _))

theorem copyDocument_ext (w : World) (d : Nat) (g : Good w) (h : d < w.nd) : Ext w (copyDocument d w).1 :=
  newDoc_ext w (w.docs d) (fun e he => g (.doc d) (.elem e) h (.elem he))

theorem copyValue_ext (w : World) (p : Nat) (g : Good w) (h : p < w.nv) : Ext w (copyValue p w).1 :=
  newVal_ext w (w.vals p) (g (.val p) _ h (.data p)) (fun d hd => g (.val p) (.doc d) h (.d hd))

theorem copyElement_ext (w : World) (e : Nat) (g : Good w) (h : e < w.ne) : Ext w (copyElement e w).1 :=
  (copyValue_ext w (w.elems e) g (g (.elem e) _ h (.value e))).trans (newElem_ext _ w.nv (Nat.lt_succ_self _))

theorem convert_ext (w : World) (key : Bytes) (p : Nat) (g : Good w) (h : p < w.nv) : Ext w (Graph.convertValueToElem key p w).1 := by
  unfold Graph.convertValueToElem
  rw [bind_ok_run (a := w.vals p) (w' := w) rfl, bind_ok_run (a := w.bytes (w.vals p).data) (w' := w) rfl]
  split
  · exact Ext.refl w
  · apply bind_post (Ext w)
    · exact Ext.refl w
    · intro rest w1 h1
      rw [lift_run] at h1
      simp only [Prod.mk.injEq] at h1
      obtain ⟨rfl, h1⟩ := h1
      apply bind_post (Ext w)
      · exact Ext.refl w
      · intro t w1 h1
        rw [lift_run] at h1
        simp only [Prod.mk.injEq] at h1
        obtain ⟨rfl, h1⟩ := h1
        cases hd : (w.vals p).d with
        | none =>
          exact construct_ext w _ _ _ (by simp)
        | some d =>
          have hdn : d < w.nd := g (.val p) (.doc d) h (.d hd)
          have x := copyDocument_ext w d g hdn
          exact x.trans (construct_ext (copyDocument d w).1 _ _ (some w.nd) (by rintro i hi; cases hi; exact Nat.lt_succ_self _))

/-! ### marshalling -/

/-- the same objects with other bytes in some buffers -/
def Near (B : Nat → Prop) (w w' : World) : Prop := ∃ f, w' = { w with bufs := f } ∧ ∀ b, ¬ B b → f b = w.bufs b

theorem Near.refl (B : Nat → Prop) (w : World) : Near B w w := ⟨w.bufs, rfl, fun _ _ => rfl⟩

variable {B : Nat → Prop} {w0 : World}

theorem near_lift {α : Type} {w : World} (r : Res α) (h : Near B w0 w) : Near B w0 (lift r w).1 := h
theorem near_look {α : Type} {w : World} (f : World → Res α) (h : Near B w0 w) : Near B w0 (look f w).1 := h
theorem near_pure {α : Type} {w : World} (a : α) (h : Near B w0 w) : Near B w0 ((pure a : M α) w).1 := h

theorem near_bind {α β : Type} {m : M α} {f : α → M β} {w : World} (h1 : Near B w0 (m w).1)
    (h2 : ∀ a w', m w = (w', .ok a) → Near B w0 w' → Near B w0 (f a w').1) : Near B w0 ((m >>= f) w).1 :=
  bind_post (Near B w0) h1 (fun a w' hm => h2 a w' hm (by rw [hm] at h1; exact h1))

theorem near_lift_bind {α β : Type} {r : Res α} {f : α → M β} {w : World} (h : Near B w0 w)
    (h2 : ∀ a, r = .ok a → Near B w0 (f a w).1) : Near B w0 ((lift r >>= f) w).1 :=
  near_bind h (by intro a w' hm _; simp only [lift_run, Prod.mk.injEq] at hm; obtain ⟨rfl, hm⟩ := hm; exact h2 a hm)

theorem near_look_bind {α β : Type} {g : World → Res α} {f : α → M β} {w : World} (h : Near B w0 w)
    (h2 : ∀ a, g w = .ok a → Near B w0 (f a w).1) : Near B w0 ((look g >>= f) w).1 :=
  near_bind h (by intro a w' hm _; simp only [look_run, Prod.mk.injEq] at hm; obtain ⟨rfl, hm⟩ := hm; exact h2 a hm)

theorem near_asTooSmall {α : Type} {m : M α} {w : World} (h : Near B w0 (m w).1) : Near B w0 (Graph.asTooSmall m w).1 := by
  unfold Graph.asTooSmall
  rcases hm : m w with ⟨w', r⟩
  rw [hm] at h
  cases r <;> exact h

theorem near_setLength {w : World} {v : VObj} {x : Int} (hb : B v.data.buf) (h : Near B w0 w) : Near B w0 (setLength v x w).1 := by
  unfold setLength
  split
  · obtain ⟨f, rfl, hf⟩ := h
    refine ⟨_, rfl, ?_⟩
    intro b hnb
    rw [upd_ne _ _ (by rintro rfl; exact hnb hb)]
    exact hf b hnb
  all_goals exact h

theorem near_bytes {w : World} {s : Span} (h : Near B w0 w) (hb : ¬ B s.buf) : w.bytes s = w0.bytes s := by
  obtain ⟨f, rfl, hf⟩ := h
  unfold World.bytes
  simp only [hf _ hb]

theorem idx_some {b : Bytes} {i : Nat} {t : UInt8} (h : idx b i = .ok t) : b[i]? = some t := by
  unfold idx at h
  cases hb : b[i]? with
  | none => rw [hb] at h; simp at h
  | some y => rw [hb] at h; simpa using h

theorem idx_ite {c : Prop} [Decidable c] {b : Bytes} {i : Nat} {t : UInt8} (h : (if c then Res.panic else idx b i) = .ok t) : b[i]? = some t := by
  by_cases hc : c
  · rw [if_pos hc] at h; simp at h
  · rw [if_neg hc] at h; exact idx_some h

/-- a value that is code now was code before, or its buffer is one of those -/
theorem near_code {w : World} {v : VObj} (hv : (w0.bytes v.data)[v.start]? = some 0x0F → B v.data.buf) (h : Near B w0 w)
    (hc : (w.bytes v.data)[v.start]? = some 0x0F) : B v.data.buf := by
  by_cases hb : B v.data.buf
  · exact hb
  · rw [near_bytes h hb] at hc
    exact hv hc

theorem near_rawWrite {w : World} {v : VObj} (sw size start : Nat) (b : Bytes)
    (hv : (w0.bytes v.data)[v.start]? = some 0x0F → B v.data.buf) (h : Near B w0 w) : Near B w0 (Graph.rawWrite sw size start v b w).1 := by
  unfold Graph.rawWrite
  refine near_look_bind h (fun data hdata => ?_)
  simp only [Res.ok.injEq] at hdata
  subst hdata
  refine near_lift_bind h (fun t ht => ?_)
  have ht := idx_ite ht
  split
  · rename_i h15
    rw [h15] at ht
    have hB := near_code hv h ht
    refine near_lift_bind h (fun cl _ => ?_)
    refine near_lift_bind h (fun sl _ => ?_)
    exact near_bind (near_setLength hB h) (fun a w' _ h' => near_look _ h')
  · exact near_lift _ h

theorem near_frameWrite {w : World} (start size : Nat) (b : Bytes) (body : Nat → Bytes → M (Nat × Bytes)) (h : Near B w0 w)
    (hb : ∀ p b w, Near B w0 w → Near B w0 (body p b w).1) : Near B w0 (Graph.frameWrite start size b body w).1 := by
  unfold Graph.frameWrite
  split
  · exact near_lift _ h
  · refine near_lift_bind h (fun nb _ => ?_)
    refine near_bind (hb _ _ _ h) (fun a w' _ h' => ?_)
    exact near_lift_bind h' (fun a _ => near_pure _ h')

theorem near_elemsWrite (f : Nat → Bytes → Nat → M (Nat × Bytes)) : ∀ (es : List Nat) (pos : Nat) (b : Bytes) (w : World),
    (∀ e ∈ es, ∀ pos b w, Near B w0 w → Near B w0 (f pos b (w0.elems e) w).1) → Near B w0 w → Near B w0 (Graph.elemsWrite f pos b es w).1
  | [], pos, b, w, _, h => h
  | e :: es, pos, b, w, hf, h => by
    unfold Graph.elemsWrite
    refine near_look_bind h (fun p hp => ?_)
    have : p = w0.elems e := by obtain ⟨g, rfl, _⟩ := h; simpa using hp.symm
    subst this
    refine near_bind (hf e (by simp) _ _ _ h) (fun a w' _ h' => ?_)
    refine near_bind (near_elemsWrite f es _ _ _ (fun e he => hf e (by simp [he])) h') (fun a w' _ h' => ?_)
    exact near_pure _ h'

theorem near_valsWrite (f : Nat → Bytes → Nat → M (Nat × Bytes)) : ∀ (es : List Nat) (i pos : Nat) (b : Bytes) (w : World),
    (∀ e ∈ es, ∀ pos b w, Near B w0 w → Near B w0 (f pos b (w0.elems e) w).1) → Near B w0 w → Near B w0 (Graph.valsWrite f i pos b es w).1
  | [], i, pos, b, w, _, h => h
  | e :: es, i, pos, b, w, hf, h => by
    unfold Graph.valsWrite
    refine near_look_bind h (fun p hp => ?_)
    have : p = w0.elems e := by obtain ⟨g, rfl, _⟩ := h; simpa using hp.symm
    subst this
    refine near_look_bind h (fun t _ => ?_)
    refine near_lift_bind h (fun b _ => ?_)
    refine near_lift_bind h (fun b _ => ?_)
    refine near_bind (hf e (by simp) _ _ _ h) (fun a w' _ h' => ?_)
    refine near_bind (near_valsWrite f es _ _ _ _ (fun e he => hf e (by simp [he])) h') (fun a w' _ h' => ?_)
    exact near_pure _ h'

theorem near_elemWrite (n : Nat) : ∀ (fuel : Nat) (key : Bool) (start : Nat) (b : Bytes) (p : Nat) (w : World),
    (∀ q, Reach w0 (.val p) (.val q) → IsCode w0 q → B (w0.vals q).data.buf) → Near B w0 w →
      Near B w0 (Graph.elemWrite n fuel key start b p w).1
  | 0, _, _, _, _, _, _, h => h
  | fuel + 1, key, start, b, p, w, hB, h => by
    unfold Graph.elemWrite
    refine near_look_bind h (fun v _ => ?_)
    refine near_lift_bind h (fun size _ => ?_)
    apply near_asTooSmall
    refine near_look_bind h (fun o ho => ?_)
    have : o = w0.vals p := by obtain ⟨g, rfl, _⟩ := h; simpa using ho.symm
    subst this
    have hv : (w0.bytes (w0.vals p).data)[(w0.vals p).start]? = some 0x0F → B (w0.vals p).data.buf := hB p (.refl _)
    refine near_lift_bind h (fun sw _ => ?_)
    cases hd : (w0.vals p).d with
    | none => exact near_rawWrite _ _ _ _ hv h
    | some d =>
      simp only
      refine near_look_bind h (fun data hdata => ?_)
      simp only [Res.ok.injEq] at hdata
      subst hdata
      refine near_look_bind h (fun es hes => ?_)
      have : es = w0.docs d := by obtain ⟨g, rfl, _⟩ := h; simpa using hes.symm
      subst this
      refine near_lift_bind h (fun t ht => ?_)
      have ht := idx_ite ht
      have rec_ : ∀ key, ∀ e ∈ w0.docs d, ∀ pos b w, Near B w0 w → Near B w0 (Graph.elemWrite n fuel key pos b (w0.elems e) w).1 := by
        intro key e he pos b w h
        exact near_elemWrite n fuel key pos b _ w
          (fun q hq => hB q (.step (.d hd) (.step (.elem he) (.step (.value e) hq)))) h
      have hes : ∀ p b w, Near B w0 w → Near B w0 (Graph.elemsWrite (Graph.elemWrite n fuel true) p b (w0.docs d) w).1 :=
        fun p b w h => near_elemsWrite _ _ _ _ _ (rec_ true) h
      have hvs : ∀ p b w, Near B w0 w → Near B w0 (Graph.valsWrite (Graph.elemWrite n fuel false) 0 p b (w0.docs d) w).1 :=
        fun p b w h => near_valsWrite _ _ _ _ _ _ (rec_ false) h
      split
      · split
        · refine near_lift_bind h (fun a _ => ?_)
          refine near_bind (near_frameWrite _ _ _ _ h hes) (fun a w' _ h' => ?_)
          exact near_pure _ h'
        · exact near_frameWrite _ _ _ _ h hes
      · split
        · split
          · refine near_lift_bind h (fun a _ => ?_)
            refine near_bind (near_frameWrite _ _ _ _ h hvs) (fun a w' _ h' => ?_)
            exact near_pure _ h'
          · exact near_frameWrite _ _ _ _ h hvs
        · split
          · rename_i h15
            rw [h15] at ht
            have hBb := near_code hv h ht
            refine near_lift_bind h (fun cl _ => ?_)
            refine near_look_bind h (fun sl _ => ?_)
            refine near_bind (near_setLength hBb h) (fun a w' _ h' => ?_)
            refine near_look_bind h' (fun a _ => ?_)
            refine near_bind (near_frameWrite _ _ _ _ h' hes) (fun a w' _ h' => ?_)
            exact near_pure _ h'
          · exact near_rawWrite _ _ _ _ hv h

/-- the buffers of the code with a scope that is in a document -/
def CodeBuf (w : World) (d : Nat) (b : Nat) : Prop := ∃ p, Reach w (.doc d) (.val p) ∧ IsCode w p ∧ b = (w.vals p).data.buf

theorem near_marshal (w : World) (n d : Nat) : Near (CodeBuf w d) w (Graph.marshal n d w).1 := by
  unfold Graph.marshal
  have h := Near.refl (CodeBuf w d) w
  refine near_look_bind h (fun size _ => ?_)
  refine near_look_bind h (fun es hes => ?_)
  simp only [Res.ok.injEq] at hes
  subst hes
  refine near_bind (near_frameWrite _ _ _ _ h (fun p b w' h' => near_elemsWrite _ _ _ _ _ ?_ h')) (fun a w' _ h' => ?_)
  · intro e he pos b w' h'
    exact near_elemWrite n n true pos b _ w' 
      (fun q hq hc => ⟨q, .step (.elem he) (.step (.value e) hq), hc, rfl⟩) h'
  · exact near_pure _ h'

/-! ### marshalling what has not been opened -/

/-- without a change of the objects -/
def Sim {α : Type} (w : World) (m : M α) (r : Res α) : Prop := m w = (w, r)

theorem Sim.lift {α : Type} (w : World) (r : Res α) : Sim w (lift r) r := rfl
theorem Sim.pure {α : Type} (w : World) (a : α) : Sim w (pure a) (.ok a) := rfl
theorem Sim.look {α : Type} {w : World} {f : World → Res α} {r : Res α} (h : f w = r) : Sim w (look f) r := by
  unfold Sim; rw [look_run, h]

theorem Sim.bind {α β : Type} {w : World} {m : M α} {f : α → M β} {r : Res α} {g : α → Res β} (h : Sim w m r)
    (h2 : ∀ a, r = .ok a → Sim w (f a) (g a)) : Sim w (m >>= f) (r >>= g) := by
  unfold Sim at h ⊢
  rw [bind_run, h]
  cases r with
  | ok a => exact h2 a rfl
  | err e => rfl
  | panic => rfl
  | oof => rfl

theorem Sim.bindOk {α β : Type} {w : World} {m : M α} {f : α → M β} {a : α} {r : Res β} (h : Sim w m (.ok a))
    (h2 : Sim w (f a) r) : Sim w (m >>= f) r := by
  unfold Sim at h ⊢
  rw [bind_run, h]
  exact h2

theorem Sim.ite {α β : Type} {w : World} {c : Prop} [Decidable c] {f : α → M β} {r : Res α} {g : α → Res β} 
    (h : ∀ a, ¬ c → r = .ok a → Sim w (f a) (g a)) : Sim w (Graph.lift (if c then .panic else r) >>= f) (if c then (.panic >>= g) else (r >>= g)) := by
  split
  · rfl
  · rename_i hc
    exact Sim.bind (Sim.lift w r) (fun a => h a hc)

theorem Sim.asTooSmall {α : Type} {w : World} {m : M α} {r : Res α} (h : Sim w m r) : Sim w (Graph.asTooSmall m) (Model.asTooSmall r) := by
  unfold Sim at h ⊢
  unfold Graph.asTooSmall
  rw [h]
  cases r <;> rfl

theorem sim_frameWrite {w : World} {start size : Nat} {b : Bytes} {f : Nat → Bytes → M (Nat × Bytes)} {g : Nat → Bytes → Res (Nat × Bytes)}
    (h : ∀ p b, Sim w (f p b) (g p b)) : Sim w (Graph.frameWrite start size b f) (Model.frameWrite start size b g) := by
  unfold Graph.frameWrite Model.frameWrite
  split
  · exact Sim.lift w _
  · refine Sim.bind (Sim.lift w _) (fun a _ => ?_)
    refine Sim.bind (h _ _) (fun a _ => ?_)
    exact Sim.bind (Sim.lift w _) (fun a _ => Sim.pure w _)

/-- the elements of a list and their views -/
theorem mapRes_cons {α β : Type} {f : α → Res β} {x : α} {xs : List α} {l : List β} (h : mapRes f (x :: xs) = .ok l) :
    ∃ y ys, l = y :: ys ∧ f x = .ok y ∧ mapRes f xs = .ok ys := by
  unfold mapRes at h
  obtain ⟨y, h1, h⟩ := Res.bind_eq_ok.mp h
  obtain ⟨ys, h2, h⟩ := Res.bind_eq_ok.mp h
  simp only [Res.ok.injEq] at h
  exact ⟨y, ys, h.symm, h1, h2⟩

theorem mapRes_mono {α β : Type} {f g : α → Res β} : ∀ {l : List α} {ys : List β}, (∀ x ∈ l, ∀ y, f x = .ok y → g x = .ok y) →
    mapRes f l = .ok ys → mapRes g l = .ok ys
  | [], ys, _, h => h
  | x :: xs, ys, hfg, h => by
    obtain ⟨y, ys, rfl, h1, h2⟩ := mapRes_cons h
    unfold mapRes
    rw [hfg x (by simp) y h1, mapRes_mono (fun z hz => hfg z (by simp [hz])) h2]
    rfl

theorem view_mono {w : World} : ∀ {k n p : Nat} {v : Value}, k ≤ n → viewVal w k p = .ok v → viewVal w n p = .ok v
  | 0, _, _, _, _, h => by simp [viewVal] at h
  | k + 1, 0, _, _, hk, _ => by omega
  | k + 1, n + 1, p, v, hk, h => by
    unfold viewVal at h ⊢
    simp only at h ⊢
    cases hd : (w.vals p).d with
    | none => rw [hd] at h; exact h
    | some d =>
      rw [hd] at h
      simp only at h ⊢
      obtain ⟨es, h1, h2⟩ := Res.bind_eq_ok.mp h
      rw [mapRes_mono (fun e _ y hy => view_mono (by omega) hy) h1]
      exact h2

theorem view_parts {w : World} {k p : Nat} {v : Value} (h : viewVal w k p = .ok v) :
    v.start = (w.vals p).start ∧ v.data = w.bytes (w.vals p).data := by
  cases k with
  | zero => simp [viewVal] at h
  | succ k =>
    unfold viewVal at h
    simp only at h
    cases hd : (w.vals p).d with
    | none => rw [hd] at h; simp only [Res.ok.injEq] at h; subst h; exact ⟨rfl, rfl⟩
    | some d =>
      rw [hd] at h
      obtain ⟨es, h1, h2⟩ := Res.bind_eq_ok.mp h
      simp only [Res.ok.injEq] at h2; subst h2; exact ⟨rfl, rfl⟩

theorem take_drop_restore (old : Bytes) (lo len : Nat) :
    old.take lo ++ (old.drop lo).take len ++ old.drop (lo + ((old.drop lo).take len).length) = old := by
  rw [List.append_assoc]
  conv => rhs; rw [← List.take_append_drop lo old]
  congr 1
  rw [← List.drop_drop]
  conv => rhs; rw [← List.take_append_drop len (old.drop lo)]
  congr 1
  rw [List.length_take, List.length_drop]
  by_cases h : len ≤ old.length - lo
  · rw [Nat.min_eq_left h]
  · rw [Nat.min_eq_right (by omega), List.drop_eq_nil_of_le (by simp), List.drop_eq_nil_of_le (by simp; omega)]

theorem upd_id {α : Type} (f : Nat → α) (i : Nat) : upd f i (f i) = f := by
  funext j; unfold upd; split
  · rename_i h; rw [h]
  · rfl

/-- writing a length that is there already -/
theorem sim_setLength {w : World} {v : VObj} {x : Int} {β : Type} {f : Unit → M β} {g : Nat × Bytes → Res β}
    (h : ∀ r, encRes (Elements.int32 v.offset (w.bytes v.data) x) = .ok r → r.2 = w.bytes v.data)
    (h2 : ∀ r, r.2 = w.bytes v.data → Sim w (f ()) (g r)) :
    Sim w (setLength v x >>= f) (encRes (Elements.int32 v.offset (w.bytes v.data) x) >>= g) := by
  unfold Sim
  rw [bind_run]
  unfold setLength
  cases hr : encRes (Elements.int32 v.offset (w.bytes v.data) x) with
  | ok r =>
    have hr := h r hr
    obtain ⟨k, b⟩ := r
    simp only at hr
    subst hr
    simp only
    rw [show (w.bufs v.data.buf).take v.data.lo ++ w.bytes v.data ++ (w.bufs v.data.buf).drop (v.data.lo + (w.bytes v.data).length) =
      w.bufs v.data.buf from take_drop_restore _ _ _, upd_id]
    exact h2 (k, w.bytes v.data) rfl
  | err e => rfl
  | panic => rfl
  | oof => rfl

/-- the length of raw code that is well-formed is the one that is written again -/
theorem rep_length {start offset : Nat} {data key : Bytes} {t : BVal} (h : Rep (.raw start offset data) key t) (h15 : data[start]? = some 0x0F)
    {cl sl : Int} (hcl : (slice data (u32 (offset + 4)) (u32 (u32 (offset + 4) + 4)) >>= fun b => readi32 b) = .ok cl)
    (hsl : (slice data (u32 (u32 (offset + 4) + 4 + u32i cl)) (u32 (u32 (u32 (offset + 4) + 4 + u32i cl) + 4)) >>= fun b => readi32 b) = .ok sl)
    {r : Nat × Bytes} (hr : encRes (Elements.int32 offset data (i32 (i32 (i32 (u32 (u32 (offset + 4) + 4 + u32i cl)) + sl) - i32 offset))) = .ok r) :
    r.2 = data := by
  simp only [Rep] at h
  obtain ⟨hk, wf, hd, pre, post, rfl, rfl, rfl⟩ := h
  have htag : t.tag = 0x0F := by simpa using h15
  cases t with
  | codeScope c fs =>
    have hn : (BVal.codeScope c fs).enc.length = c.length + fs.enc.length + 14 := by
      simp [BVal.enc]; omega
    have e0 : (BVal.codeScope c fs).enc = le32 (c.length + fs.enc.length + 14) ++ (le32 (c.length + 1) ++ (c ++ (0 :: (le32 (fs.enc.length + 5) ++ (fs.enc ++ [0]))))) := by
      simp [BVal.enc, encString, wrapDoc]; congr 1; omega
    have hd' := hd
    simp only [List.length_append, List.length_cons, hn] at hd'
    have s1 : slice (pre ++ (BVal.codeScope c fs).tag :: (key ++ 0 :: ((BVal.codeScope c fs).enc ++ post)))
        (pre.length + key.length + 6) (pre.length + key.length + 10) = .ok (le32 (c.length + 1)) := by
      have := slice_mid (pre ++ (BVal.codeScope c fs).tag :: (key ++ 0 :: le32 (c.length + fs.enc.length + 14)))
        (le32 (c.length + 1)) ((c ++ (0 :: (le32 (fs.enc.length + 5) ++ (fs.enc ++ [0])))) ++ post)
        (lo := pre.length + key.length + 6) (hi := pre.length + key.length + 10) (by simp; omega) (by simp; omega)
      rw [e0]
      simpa using this
    have s2 : slice (pre ++ (BVal.codeScope c fs).tag :: (key ++ 0 :: ((BVal.codeScope c fs).enc ++ post)))
        (pre.length + key.length + c.length + 11) (pre.length + key.length + c.length + 15) = .ok (le32 (fs.enc.length + 5)) := by
      have := slice_mid (pre ++ (BVal.codeScope c fs).tag :: (key ++ 0 :: (le32 (c.length + fs.enc.length + 14) ++ (le32 (c.length + 1) ++ (c ++ [0])))))
        (le32 (fs.enc.length + 5)) ((fs.enc ++ [0]) ++ post)
        (lo := pre.length + key.length + c.length + 11) (hi := pre.length + key.length + c.length + 15) (by simp; omega) (by simp; omega)
      rw [e0]
      simpa using this
    have s3 : encRes (Elements.int32 (pre.length + key.length + 2) (pre ++ (BVal.codeScope c fs).tag :: (key ++ 0 :: ((BVal.codeScope c fs).enc ++ post)))
        ((c.length + fs.enc.length + 14 : Nat) : Int)) = .ok (4, pre ++ (BVal.codeScope c fs).tag :: (key ++ 0 :: ((BVal.codeScope c fs).enc ++ post))) := by
      rw [int32_splice (n := c.length + fs.enc.length + 14) (Eq.refl _) (by omega) (by simp only [List.length_append, List.length_cons, hn]; omega), e0]
      have := splice_self (pre ++ (BVal.codeScope c fs).tag :: (key ++ [0])) (le32 (c.length + fs.enc.length + 14))
        ((le32 (c.length + 1) ++ (c ++ (0 :: (le32 (fs.enc.length + 5) ++ (fs.enc ++ [0]))))) ++ post) 
        (s := pre.length + key.length + 2) (by simp; omega)
      simp only [List.append_assoc, List.cons_append, List.nil_append] at this ⊢
      rw [this]
    generalize (pre ++ (BVal.codeScope c fs).tag :: (key ++ 0 :: ((BVal.codeScope c fs).enc ++ post))) = D at *
    rw [u32_small (n := pre.length + key.length + 2 + 4) (by omega), u32_small (n := pre.length + key.length + 2 + 4 + 4) (by omega),
      show pre.length + key.length + 2 + 4 = pre.length + key.length + 6 by omega, 
      show pre.length + key.length + 6 + 4 = pre.length + key.length + 10 by omega, s1] at hcl
    simp only [Res.bind_ok] at hcl
    rw [readi32_le32_nat' (by omega)] at hcl
    simp only [Res.ok.injEq] at hcl
    subst hcl
    rw [u32_small (n := pre.length + key.length + 2 + 4) (by omega),
      u32i_nat (by omega), show u32 (pre.length + key.length + 2 + 4 + 4 + (c.length + 1)) = pre.length + key.length + c.length + 11 by simp only [u32]; omega] at hsl hr
    rw [u32_small (n := pre.length + key.length + c.length + 11 + 4) (by omega), s2] at hsl
    simp only [Res.bind_ok] at hsl
    rw [readi32_le32_nat' (by omega)] at hsl
    simp only [Res.ok.injEq] at hsl
    subst hsl
    rw [scope_len (by omega), s3] at hr
    simp only [Res.ok.injEq] at hr
    rw [← hr]
  | _ => simp [BVal.tag] at htag

theorem sim_rawWrite {w : World} {v : VObj} (sw size start : Nat) (b : Bytes)
    (h : (w.bytes v.data)[v.start]? = some 0x0F → ∃ key t, Rep (.raw v.start v.offset (w.bytes v.data)) key t) :
    Sim w (Graph.rawWrite sw size start v b) (Model.rawWrite sw v.start v.offset size start (w.bytes v.data) b) := by
  unfold Graph.rawWrite Model.rawWrite
  refine Sim.bindOk (Sim.look rfl) ?_
  refine Sim.ite (fun t _ ht => ?_)
  have ht := idx_some ht
  simp only
  split
  · rename_i h15
    rw [h15] at ht
    obtain ⟨key, t, hrep⟩ := h ht
    have e1 : ∀ {α β γ : Type} (x : Res α) (f : α → Res β) (g : β → Res γ), (x >>= f >>= g) = (x >>= fun a => f a >>= g) := by
      intro α β γ x f g; cases x <;> rfl
    rw [← e1]
    refine Sim.bind (Sim.lift w _) (fun cl hcl => ?_)
    rw [← e1]
    refine Sim.bind (Sim.lift w _) (fun sl hsl => ?_)
    refine sim_setLength (fun r hr => rep_length hrep ht hcl hsl hr) (fun r hr => ?_)
    obtain ⟨k, d⟩ := r
    simp only at hr
    subst hr
    exact Sim.look rfl
  · exact Sim.lift w _

/-- every element is well-formed -/
def AllRep (d : List Value) : Prop := ∀ v ∈ d, ∃ k t, Rep v k t

theorem repFields_all : ∀ {d : List Value} {fs : Fields}, RepFields d fs → AllRep d
  | [], .nil, _ => by simp [AllRep]
  | v :: d, .cons k t fs, h => by
    simp only [RepFields] at h
    intro x hx
    rcases List.mem_cons.mp hx with rfl | hx
    · exact ⟨k, t, h.1⟩
    · exact repFields_all h.2 x hx
  | [], .cons _ _ _, h => by simp [RepFields] at h
  | _ :: _, .nil, h => by simp [RepFields] at h

theorem repVals_all : ∀ {d : List Value} {vs : Vals}, RepVals d vs → AllRep d
  | [], .nil, _ => by simp [AllRep]
  | v :: d, .cons t vs, h => by
    simp only [RepVals] at h
    intro x hx
    rcases List.mem_cons.mp hx with rfl | hx
    · exact ⟨_, t, h.1.choose_spec⟩
    · exact repVals_all h.2 x hx
  | [], .cons _ _, h => by simp [RepVals] at h
  | _ :: _, .nil, h => by simp [RepVals] at h

theorem rep_inner {s o : Nat} {data : Bytes} {d : List Value} {k : Bytes} {t : BVal} (h : Rep (.withDoc s o data d) k t) : 
    AllRep d ∧ (data[s]? = some 0x03 ∨ data[s]? = some 0x04 ∨ data[s]? = some 0x0F) := by
  simp only [Rep] at h
  obtain ⟨_, _, pre, post, rfl, rfl, rfl, h⟩ := h
  cases t <;> simp at h
  · exact ⟨repFields_all h, .inl (by simp [BVal.tag])⟩
  · exact ⟨repVals_all h, .inr (.inl (by simp [BVal.tag]))⟩
  · exact ⟨repFields_all h.2, .inr (.inr (by simp [BVal.tag]))⟩

theorem sim_elemsWrite {w : World} {n k : Nat} {f : Nat → Bytes → Nat → M (Nat × Bytes)} : ∀ (es : List Nat) (d : List Value) (pos : Nat) (b : Bytes),
    mapRes (fun e => viewVal w k (w.elems e)) es = .ok d → AllRep d →
    (∀ e ∈ es, ∀ v, viewVal w k (w.elems e) = .ok v → (∃ k t, Rep v k t) → ∀ pos b, Sim w (f pos b (w.elems e)) (Model.elemWrite n true pos b v)) →
    Sim w (Graph.elemsWrite f pos b es) (Model.elemsWrite n pos b d)
  | [], d, pos, b, h, ha, hf => by
    simp only [mapRes, Res.ok.injEq] at h
    subst h
    unfold Graph.elemsWrite Model.elemsWrite
    exact Sim.pure w _
  | e :: es, d, pos, b, h, ha, hf => by
    obtain ⟨v, d, rfl, h1, h2⟩ := mapRes_cons h
    unfold Graph.elemsWrite Model.elemsWrite
    refine Sim.bindOk (Sim.look rfl) ?_
    refine Sim.bind (hf e (by simp) v h1 (ha v (by simp)) _ _) (fun a _ => ?_)
    refine Sim.bind (sim_elemsWrite es d _ _ h2 (fun x hx => ha x (by simp [hx])) (fun e he => hf e (by simp [he]))) (fun a _ => ?_)
    exact Sim.pure w _

theorem sim_valsWrite {w : World} {n k : Nat} {f : Nat → Bytes → Nat → M (Nat × Bytes)} : ∀ (es : List Nat) (d : List Value) (i pos : Nat) (b : Bytes),
    mapRes (fun e => viewVal w k (w.elems e)) es = .ok d → AllRep d →
    (∀ e ∈ es, ∀ v, viewVal w k (w.elems e) = .ok v → (∃ k t, Rep v k t) → ∀ pos b, Sim w (f pos b (w.elems e)) (Model.elemWrite n false pos b v)) →
    Sim w (Graph.valsWrite f i pos b es) (Model.valsWrite n i pos b d)
  | [], d, i, pos, b, h, ha, hf => by
    simp only [mapRes, Res.ok.injEq] at h
    subst h
    unfold Graph.valsWrite Model.valsWrite
    exact Sim.pure w _
  | e :: es, d, i, pos, b, h, ha, hf => by
    obtain ⟨v, d, rfl, h1, h2⟩ := mapRes_cons h
    unfold Graph.valsWrite Model.valsWrite
    obtain ⟨p1, p2⟩ := view_parts h1
    refine Sim.bindOk (Sim.look rfl) ?_
    rw [p1, p2]
    refine Sim.bind (Sim.look rfl) (fun t _ => ?_)
    refine Sim.bind (Sim.lift w _) (fun b _ => ?_)
    refine Sim.bind (Sim.lift w _) (fun b _ => ?_)
    refine Sim.bind (hf e (by simp) v h1 (ha v (by simp)) _ _) (fun a _ => ?_)
    refine Sim.bind (sim_valsWrite es d _ _ _ h2 (fun x hx => ha x (by simp [hx])) (fun e he => hf e (by simp [he]))) (fun a _ => ?_)
    exact Sim.pure w _

theorem sim_elemWrite {w : World} (n : Nat) : ∀ (k p : Nat) (v : Value) (fuel : Nat) (key : Bool) (start : Nat) (b : Bytes),
    viewVal w k p = .ok v → (∃ k t, Rep v k t) → (∀ q, Reach w (.val p) (.val q) → IsCode w q → (w.vals q).d = none) → k ≤ n → k ≤ fuel →
      Sim w (Graph.elemWrite n fuel key start b p) (Model.elemWrite n key start b v)
  | 0, _, _, _, _, _, _, h, _, _, _, _ => by simp [viewVal] at h
  | k + 1, p, v, 0, key, start, b, h, hr, hq, hn, hf => by omega
  | k + 1, p, v, fuel + 1, key, start, b, h, hr, hq, hn, hf => by
    have hv := view_mono hn h
    unfold viewVal at h
    simp only at h
    unfold Graph.elemWrite
    refine Sim.bindOk (Sim.look hv) ?_
    cases hd : (w.vals p).d with
    | none =>
      rw [hd] at h
      simp only [Res.ok.injEq] at h
      subst h
      unfold Model.elemWrite
      refine Sim.bind (Sim.lift w _) (fun size _ => ?_)
      apply Sim.asTooSmall
      refine Sim.bindOk (Sim.look rfl) ?_
      refine Sim.bind (Sim.lift w _) (fun sw _ => ?_)
      rw [hd]
      exact sim_rawWrite _ _ _ _ (fun _ => hr)
    | some d =>
      rw [hd] at h
      simp only at h
      obtain ⟨tree, h1, h2⟩ := Res.bind_eq_ok.mp h
      simp only [Res.ok.injEq] at h2
      subst h2
      obtain ⟨key', t', hr⟩ := hr
      obtain ⟨ha, _⟩ := rep_inner hr
      have hnc : (w.bytes (w.vals p).data)[(w.vals p).start]? ≠ some 0x0F := by
        intro hc
        have := hq p (.refl _) hc
        rw [hd] at this; simp at this
      have rec_ : ∀ key, ∀ e ∈ w.docs d, ∀ v, viewVal w k (w.elems e) = .ok v → (∃ k t, Rep v k t) → ∀ pos b,
          Sim w (Graph.elemWrite n fuel key pos b (w.elems e)) (Model.elemWrite n key pos b v) := by
        intro key e he v hv hr pos b
        exact sim_elemWrite n k _ v fuel key pos b hv hr
          (fun q hqr => hq q (.step (.d hd) (.step (.elem he) (.step (.value e) hqr)))) (by omega) (by omega)
      have hes : ∀ p b, Sim w (Graph.elemsWrite (Graph.elemWrite n fuel true) p b (w.docs d)) (Model.elemsWrite n p b tree) :=
        fun p b => sim_elemsWrite _ _ _ _ h1 ha (rec_ true)
      have hvs : ∀ p b, Sim w (Graph.valsWrite (Graph.elemWrite n fuel false) 0 p b (w.docs d)) (Model.valsWrite n 0 p b tree) :=
        fun p b => sim_valsWrite _ _ _ _ _ h1 ha (rec_ false)
      unfold Model.elemWrite
      refine Sim.bind (Sim.lift w _) (fun size _ => ?_)
      apply Sim.asTooSmall
      refine Sim.bindOk (Sim.look rfl) ?_
      refine Sim.bind (Sim.lift w _) (fun sw _ => ?_)
      rw [hd]
      simp only
      refine Sim.bindOk (Sim.look rfl) ?_
      refine Sim.bindOk (Sim.look rfl) ?_
      refine Sim.ite (fun t _ ht => ?_)
      have ht := idx_some ht
      have e1 : ∀ {α β γ : Type} (x : Res α) (f : α → Res β) (g : β → Res γ), (x >>= f >>= g) = (x >>= fun a => f a >>= g) := by
        intro α β γ x f g; cases x <;> rfl
      split
      · split
        · rw [← e1]
          refine Sim.bind (Sim.lift w _) (fun a _ => ?_)
          exact Sim.bind (sim_frameWrite hes) (fun a _ => Sim.pure w _)
        · exact sim_frameWrite hes
      · split
        · split
          · rw [← e1]
            refine Sim.bind (Sim.lift w _) (fun a _ => ?_)
            exact Sim.bind (sim_frameWrite hvs) (fun a _ => Sim.pure w _)
          · exact sim_frameWrite hvs
        · rw [if_neg (by rintro rfl; exact hnc ht), if_neg (by rintro rfl; exact hnc ht)]
          exact sim_rawWrite _ _ _ _ (fun hc => absurd hc hnc)

/-- marshalling what has not been opened changes nothing -/
theorem marshal_calm {w : World} {n d : Nat} {fs : Fields} (h : Calm w n d fs) (hl : (encDoc fs).length < 2147483648)
    (hn : (encDoc fs).length < n) : Graph.marshal n d w = (w, .ok (encDoc fs)) := by
  obtain ⟨⟨tree, h1, h2⟩, hq⟩ := h
  rw [← docMarshal_rep n h2 hl hn]
  show Sim w _ _
  unfold Graph.marshal Model.docMarshal Model.docWrite
  refine Sim.bind (r := docValidate n tree) (Sim.look (by rw [h1]; rfl)) (fun size _ => ?_)
  refine Sim.bindOk (Sim.look rfl) ?_
  refine Sim.bind (sim_frameWrite (fun p b => ?_)) (fun a _ => Sim.pure w _)
  refine sim_elemsWrite (k := n) _ _ _ _ h1 (repFields_all h2) (fun e he v hv hr pos b => ?_)
  exact sim_elemWrite n n _ v n true pos b hv hr (fun q hqr => hq q (.step (.elem he) (.step (.value e) hqr))) (Nat.le_refl _) (Nat.le_refl _)

/-! ### calls -/

theorem docSpan_buf {w : World} {v : VObj} {s : Span} (h : docSpan w v = .ok s) : s.buf = v.data.buf := by
  unfold docSpan at h
  simp only at h
  split at h
  · simp at h
  obtain ⟨t, _, h⟩ := Res.bind_eq_ok.mp h
  split at h
  · obtain ⟨_, _, h⟩ := Res.bind_eq_ok.mp h
    obtain ⟨_, _, h⟩ := Res.bind_eq_ok.mp h
    obtain ⟨_, _, h⟩ := Res.bind_eq_ok.mp h
    simp only [Res.ok.injEq] at h
    rw [← h]
  · split at h
    · obtain ⟨_, _, h⟩ := Res.bind_eq_ok.mp h
      obtain ⟨_, _, h⟩ := Res.bind_eq_ok.mp h
      obtain ⟨_, _, h⟩ := Res.bind_eq_ok.mp h
      obtain ⟨_, _, h⟩ := Res.bind_eq_ok.mp h
      obtain ⟨_, _, h⟩ := Res.bind_eq_ok.mp h
      obtain ⟨_, _, h⟩ := Res.bind_eq_ok.mp h
      simp only [Res.ok.injEq] at h
      rw [← h]
    · simp at h

/-- opening makes new objects and may set the document of the value -/
theorem open_shape (w : World) (n p : Nat) (g : Good w) (h : p < w.nv) :
    ∃ w1, Ext w w1 ∧ ((Graph.openValue n p w).1 = w1 ∨
      ((w.vals p).d = none ∧ ∃ d, d < w1.nd ∧ (Graph.openValue n p w).1 = { w1 with vals := upd w1.vals p { w.vals p with d := some d } })) := by
  unfold Graph.openValue
  rw [bind_ok_run (a := w.vals p) (w' := w) rfl]
  cases hd : (w.vals p).d with
  | some d =>
    refine ⟨w, Ext.refl w, .inl ?_⟩
    simp only
    rw [bind_run, look_run]
    split <;> rename_i heq <;> simp only [Prod.mk.injEq] at heq <;> rw [← heq.1]
    rfl
  | none =>
    simp only
    rw [bind_run, look_run]
    cases hs : docSpan w (w.vals p) with
    | ok s =>
      have hb : s.buf < w.nb := by rw [docSpan_buf hs]; exact g (.val p) _ h (.data p)
      obtain ⟨x, hx⟩ := readDocument_ext n s w hb
      refine ⟨(Graph.readDocument n s w).1, x, ?_⟩
      simp only
      rw [bind_run]
      unfold Graph.orPanic
      rcases hm : Graph.readDocument n s w with ⟨w', r⟩
      cases r with
      | ok d =>
        simp only
        exact .inr ⟨trivial, d, hx d w' hm, rfl⟩
      | err e => exact .inl rfl
      | panic => exact .inl rfl
      | oof => exact .inl rfl
    | err e => exact ⟨w, Ext.refl w, .inl rfl⟩
    | panic => exact ⟨w, Ext.refl w, .inl rfl⟩
    | oof => exact ⟨w, Ext.refl w, .inl rfl⟩

/-- what a call leaves as it is, and that objects go on referring to objects there are -/
theorem run_frame {w : World} (g : Good w) {c : Call} (ha : Args w c) :
    Good (c.run w) ∧ (∀ o, Made w o → Made (c.run w) o) ∧ ∀ o, Made w o → ¬ Writes w c o → Same w (c.run w) o := by
  have ext : ∀ w', Ext w w' → Good w' ∧ (∀ o, Made w o → Made w' o) ∧ ∀ o, Made w o → ¬ Writes w c o → Same w w' o :=
    fun w' x => ⟨x.good g, fun o h => x.made h, fun o h _ => x.same o h⟩
  cases c with
  | copyValue p => exact ext _ (copyValue_ext w p g ha)
  | copyElement e => exact ext _ (copyElement_ext w e g ha)
  | copyDocument d => exact ext _ (copyDocument_ext w d g ha)
  | construct b o d => exact ext _ (construct_ext w b o d ha)
  | value key p => exact ext _ (convert_ext w key p g ha)
  | read n s => exact ext _ (readDocument_ext n s w ha).1
  | set p q =>
    obtain ⟨hp, hq⟩ := ha
    refine ⟨?_, fun o h => by cases o <;> exact h, ?_⟩
    · intro a b hm e
      cases e with
      | data x =>
        show (upd w.vals p (w.vals q) x).data.buf < w.nb
        unfold upd; split
        · exact g (.val q) _ hq (.data q)
        · exact g (.val x) _ hm (.data x)
      | @d x i hd =>
        have hd : (upd w.vals p (w.vals q) x).d = some i := hd
        unfold upd at hd; split at hd
        · exact g (.val q) (.doc i) hq (.d hd)
        · exact g (.val x) (.doc i) hm (.d hd)
      | @elem i e he => exact g (.doc i) (.elem e) hm (.elem he)
      | value e => exact g (.elem e) _ hm (.value e)
    · intro o hm hw
      cases o with
      | val x =>
        show w.vals x = upd w.vals p (w.vals q) x
        rw [upd_ne]; rintro rfl; exact hw rfl
      | _ => rfl
  | setValue e p =>
    obtain ⟨he, hp⟩ := ha
    refine ⟨?_, fun o h => by cases o <;> exact h, ?_⟩
    · intro a b hm ed
      cases ed with
      | data x => exact g (.val x) _ hm (.data x)
      | @d x i hd => exact g (.val x) (.doc i) hm (.d hd)
      | @elem i e he => exact g (.doc i) (.elem e) hm (.elem he)
      | value x =>
        show upd w.elems e p x < w.nv
        unfold upd; split
        · exact hp
        · exact g (.elem x) _ hm (.value x)
    · intro o hm hw
      cases o with
      | elem x =>
        show w.elems x = upd w.elems e p x
        rw [upd_ne]; rintro rfl; exact hw rfl
      | _ => rfl
  | change d es =>
    obtain ⟨hd, hes⟩ := ha
    refine ⟨?_, fun o h => by cases o <;> exact h, ?_⟩
    · intro a b hm ed
      cases ed with
      | data x => exact g (.val x) _ hm (.data x)
      | @d x i hd => exact g (.val x) (.doc i) hm (.d hd)
      | @elem i e he =>
        have he : e ∈ upd w.docs d es i := he
        unfold upd at he; split at he
        · exact hes e he
        · exact g (.doc i) (.elem e) hm (.elem he)
      | value x => exact g (.elem x) _ hm (.value x)
    · intro o hm hw
      cases o with
      | doc x =>
        show w.docs x = upd w.docs d es x
        rw [upd_ne]; rintro rfl; exact hw rfl
      | _ => rfl
  | «open» n p =>
    obtain ⟨w1, x, h | ⟨hn, d, hd, h⟩⟩ := open_shape w n p g ha
    · rw [show Call.run w (.open n p) = w1 from h]
      exact ext _ x
    · rw [show Call.run w (.open n p) = _ from h]
      have g1 := x.good g
      have hp1 : Made w1 (.val p) := x.made ha
      have hv : w.vals p = w1.vals p := x.same (.val p) ha
      refine ⟨?_, fun o h => by have := x.made h; cases o <;> exact this, ?_⟩
      · intro a b hm ed
        cases ed with
        | data y =>
          show (upd w1.vals p { w.vals p with d := some d } y).data.buf < w1.nb
          unfold upd; split
          · rw [hv]; exact g1 (.val p) _ hp1 (.data p)
          · exact g1 (.val y) _ hm (.data y)
        | @d y i hy =>
          have hy : (upd w1.vals p { w.vals p with d := some d } y).d = some i := hy
          unfold upd at hy; split at hy
          · simp only [Option.some.injEq] at hy; rw [← hy]; exact hd
          · exact g1 (.val y) (.doc i) hm (.d hy)
        | @elem i e he => exact g1 (.doc i) (.elem e) hm (.elem he)
        | value y => exact g1 (.elem y) _ hm (.value y)
      · intro o hm hw
        have hs := x.same o hm
        cases o with
        | val y =>
          show w.vals y = upd w1.vals p { w.vals p with d := some d } y
          rw [upd_ne _ _ (by rintro rfl; exact hw ⟨rfl, hn⟩)]
          exact hs
        | _ => exact hs
  | marshal n d =>
    obtain ⟨f, h, hf⟩ := near_marshal w n d
    rw [show Call.run w (.marshal n d) = _ from h]
    refine ⟨?_, fun o h => by cases o <;> exact h, ?_⟩
    · intro a b hm ed
      cases ed with
      | data x => exact g (.val x) _ hm (.data x)
      | @d x i hd => exact g (.val x) (.doc i) hm (.d hd)
      | @elem i e he => exact g (.doc i) (.elem e) hm (.elem he)
      | value x => exact g (.elem x) _ hm (.value x)
    · intro o hm hw
      cases o with
      | buf b =>
        show w.bufs b = f b
        by_cases hc : ∃ fs, Calm w n d fs ∧ (encDoc fs).length < 2147483648 ∧ (encDoc fs).length < n
        · obtain ⟨fs, h1, h2, h3⟩ := hc
          have := marshal_calm h1 h2 h3
          rw [this] at h
          exact congrArg (fun w => w.bufs b) h
        · refine (hf b ?_).symm
          rintro ⟨p, h1, h2, rfl⟩
          exact hw ⟨hc, p, h1, h2, rfl⟩
      | _ => rfl

theorem all_frame {os : Obj → Prop} : ∀ (cs : List Call) (w : World), Good w → (∀ o, os o → Made w o) → Avoid os w cs →
    Good (runAll w cs) ∧ (∀ o, Made w o → Made (runAll w cs) o) ∧ ∀ o, os o → Same w (runAll w cs) o
  | [], w, g, hm, _ => ⟨g, fun o h => h, fun o _ => same_refl w o⟩
  | c :: cs, w, g, hm, h => by
    obtain ⟨h1, h2, h3⟩ := h
    obtain ⟨a1, a2, a3⟩ := run_frame g h1
    obtain ⟨b1, b2, b3⟩ := all_frame cs (c.run w) a1 (fun o ho => a2 o (hm o ho)) h3
    exact ⟨b1, fun o ho => b2 o (a2 o ho), fun o ho => same_trans (a3 o (hm o ho) (h2 o ho)) (b3 o ho)⟩

/-! ### cycles -/

theorem mapRes_mem {α β : Type} {f : α → Res β} : ∀ {l : List α} {ys : List β}, mapRes f l = .ok ys → ∀ x ∈ l, ∃ y, f x = .ok y
  | [], _, _, x, hx => by simp at hx
  | a :: l, ys, h, x, hx => by
    obtain ⟨y, ys, rfl, h1, h2⟩ := mapRes_cons h
    rcases List.mem_cons.mp hx with rfl | hx
    · exact ⟨y, h1⟩
    · exact mapRes_mem h2 x hx

/-- the object can be looked at with so much fuel -/
def OkAt (w : World) (n : Nat) : Obj → Prop
  | .buf _ => True
  | .val p => ∃ v, viewVal w n p = .ok v
  | .elem e => ∃ v, viewVal w n (w.elems e) = .ok v
  | .doc d => ∃ t, viewDoc w n d = .ok t

theorem okAt_edge {w : World} {n : Nat} {a b : Obj} (e : Edge w a b) (h : OkAt w n a) : ∃ m, m ≤ n ∧ OkAt w m b := by
  cases e with
  | data p => exact ⟨n, Nat.le_refl _, trivial⟩
  | value e => exact ⟨n, Nat.le_refl _, h⟩
  | elem he =>
    obtain ⟨t, ht⟩ := h
    exact ⟨n, Nat.le_refl _, mapRes_mem ht _ he⟩
  | @d p i hd =>
    obtain ⟨v, hv⟩ := h
    cases n with
    | zero => simp [viewVal] at hv
    | succ n =>
      unfold viewVal at hv
      simp only [hd] at hv
      obtain ⟨es, h3, _⟩ := Res.bind_eq_ok.mp hv
      exact ⟨n, Nat.le_succ _, es, h3⟩

theorem okAt_reach {w : World} {a b : Obj} (r : Reach w a b) : ∀ {n : Nat}, OkAt w n a → ∃ m, m ≤ n ∧ OkAt w m b := by
  induction r with
  | refl => intro n h; exact ⟨n, Nat.le_refl _, h⟩
  | step e _ ih =>
    intro n h
    obtain ⟨m, hm, h⟩ := okAt_edge e h
    obtain ⟨m2, hm2, h⟩ := ih h
    exact ⟨m2, by omega, h⟩

theorem okAt_down {w : World} {p d n : Nat} (r : Reach w (.val p) (.doc d)) (h : OkAt w n (.val p)) : ∃ m, m < n ∧ OkAt w m (.doc d) := by
  cases r with
  | step e r =>
    cases e with
    | data => cases r with
      | step e _ => cases e
    | @d _ i hd =>
      obtain ⟨v, hv⟩ := h
      cases n with
      | zero => simp [viewVal] at hv
      | succ n =>
        unfold viewVal at hv
        simp only [hd] at hv
        obtain ⟨es, h3, _⟩ := Res.bind_eq_ok.mp hv
        obtain ⟨m, hm, h⟩ := okAt_reach r (n := n) ⟨es, h3⟩
        exact ⟨m, by omega, h⟩

theorem view_cycle {w : World} {d e : Nat} (he : e ∈ w.docs d) (r : Reach w (.elem e) (.doc d)) : ∀ (n : Nat), ¬ OkAt w n (.doc d) := by
  intro n
  induction n using Nat.strongRecOn with
  | ind n ih =>
    rintro ⟨t, ht⟩
    cases r with
    | step ed r =>
      cases ed with
      | value =>
        obtain ⟨m, hm, h⟩ := okAt_down r (n := n) (mapRes_mem ht e he)
        exact ih m hm h

theorem mapRes_ok_or_oof {α β : Type} {f : α → Res β} : ∀ {l : List α}, (∀ x ∈ l, (∃ y, f x = .ok y) ∨ f x = .oof) →
    (∃ ys, mapRes f l = .ok ys) ∨ mapRes f l = .oof
  | [], _ => .inl ⟨[], rfl⟩
  | x :: xs, h => by
    unfold mapRes
    rcases h x (by simp) with ⟨y, hy⟩ | hy
    · rw [hy]
      simp only [Res.bind_ok]
      rcases mapRes_ok_or_oof (l := xs) (fun z hz => h z (by simp [hz])) with ⟨ys, h2⟩ | h2
      · rw [h2]; exact .inl ⟨y :: ys, rfl⟩
      · rw [h2]; exact .inr rfl
    · rw [hy]; exact .inr rfl

theorem view_ok_or_oof {w : World} : ∀ (n p : Nat), (∃ v, viewVal w n p = .ok v) ∨ viewVal w n p = .oof
  | 0, p => .inr rfl
  | n + 1, p => by
    unfold viewVal
    simp only
    cases (w.vals p).d with
    | none => exact .inl ⟨_, rfl⟩
    | some d =>
      simp only
      rcases mapRes_ok_or_oof (l := w.docs d) (f := fun e => viewVal w n (w.elems e)) (fun e _ => view_ok_or_oof n (w.elems e)) with ⟨ys, h⟩ | h
      · rw [h]; exact .inl ⟨_, rfl⟩
      · rw [h]; exact .inr rfl

theorem viewDoc_ok_or_oof {w : World} (n d : Nat) : (∃ t, viewDoc w n d = .ok t) ∨ viewDoc w n d = .oof :=
  mapRes_ok_or_oof (fun e _ => view_ok_or_oof n (w.elems e))

theorem mapRes_ok {α β : Type} {f : α → Res β} {l : List α} (h : ∀ x ∈ l, ∃ y, f x = .ok y) : ∃ ys, mapRes f l = .ok ys := by
  induction l with
  | nil => exact ⟨[], rfl⟩
  | cons x xs ih =>
    obtain ⟨y, hy⟩ := h x (by simp)
    obtain ⟨ys, hys⟩ := ih (fun z hz => h z (by simp [hz]))
    exact ⟨y :: ys, by unfold mapRes; rw [hy, hys]; rfl⟩

theorem view_ranked {w : World} {rank : Nat → Nat} (h : Ranked w rank) : ∀ (n p : Nat), rank p < n → ∃ v, viewVal w n p = .ok v
  | 0, p, hn => by omega
  | n + 1, p, hn => by
    unfold viewVal
    simp only
    cases hd : (w.vals p).d with
    | none => exact ⟨_, rfl⟩
    | some d =>
      simp only
      obtain ⟨ys, hy⟩ := mapRes_ok (l := w.docs d) (f := fun e => viewVal w n (w.elems e))
        (fun e he => view_ranked h n (w.elems e) (by have := h p d hd e he; omega))
      rw [hy]
      exact ⟨_, rfl⟩

end Birch.Proofs.Graph
