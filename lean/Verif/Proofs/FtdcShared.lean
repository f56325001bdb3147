import Verif.Proofs.GraphOpen
import Verif.Proofs.FtdcHistory
import Verif.Spec.FtdcShared

/- The base collector on shared objects. -/

namespace Birch.Proofs.Shared
open Birch Model Model.Graph Model.Shared Spec Spec.Graph Spec.Shared Proofs Proofs.Graph Proofs.Ftdc

/-! ### opening values -/

/-- values were opened, and nothing else -/
structure Opened (N : Nat) (w w' : World) : Prop where
  good : Spec.Graph.Good w'
  made : ∀ o, Made w o → Made w' o
  bufs : ∀ b, b < w.nb → w'.bufs b = w.bufs b
  elems : ∀ e, e < w.ne → w'.elems e = w.elems e
  docs : ∀ d, d < w.nd → w'.docs d = w.docs d
  vals : ∀ p, p < w.nv → (w'.vals p).start = (w.vals p).start ∧ (w'.vals p).offset = (w.vals p).offset ∧ (w'.vals p).data = (w.vals p).data
  views : ∀ (k q : Nat) (v : Value) (key : Bytes) (t : BVal), q < w.nv → viewVal w k q = .ok v → Rep v key t → t.enc.length < 2147483648 → t.enc.length < N →
    ∃ k' v', viewVal w' k' q = .ok v' ∧ Rep v' key t

theorem Opened.refl {N : Nat} {w : World} (g : Spec.Graph.Good w) : Opened N w w :=
  ⟨g, fun _ h => h, fun _ _ => rfl, fun _ _ => rfl, fun _ _ => rfl, fun _ _ => ⟨rfl, rfl, rfl⟩, fun k _ v _ _ _ hv hr _ _ => ⟨k, v, hv, hr⟩⟩

theorem Opened.trans {N : Nat} {w w1 w2 : World} (a : Opened N w w1) (b : Opened N w1 w2) : Opened N w w2 where
  good := b.good
  made := fun o h => b.made o (a.made o h)
  bufs := fun i h => by rw [b.bufs i (a.made (.buf i) h), a.bufs i h]
  elems := fun i h => by rw [b.elems i (a.made (.elem i) h), a.elems i h]
  docs := fun i h => by rw [b.docs i (a.made (.doc i) h), a.docs i h]
  vals := fun p h => by
    obtain ⟨a1, a2, a3⟩ := a.vals p h
    obtain ⟨b1, b2, b3⟩ := b.vals p (a.made (.val p) h)
    exact ⟨b1.trans a1, b2.trans a2, b3.trans a3⟩
  views := fun k q v key t hq hv hr hl hn => by
    obtain ⟨k1, v1, h1, h2⟩ := a.views k q v key t hq hv hr hl hn
    exact b.views k1 q v1 key t (a.made (.val q) hq) h1 h2 hl hn

theorem opened_open {w w' : World} (g : Spec.Graph.Good w) {p n d : Nat} (hp : p < w.nv) (h : Graph.openValue n p w = (w', .ok d)) : Opened n w w' := by
  obtain ⟨h1, h2, h3, h4, _⟩ := open_others g hp h
  refine ⟨h2, h1, fun b hb => (h3 (.buf b) hb (by simp)).symm, fun e he => (h3 (.elem e) he (by simp)).symm, fun d hd => (h3 (.doc d) hd (by simp)).symm, ?_, ?_⟩
  · intro q hq
    by_cases hqp : q = p
    · subst hqp; rw [h4]; exact ⟨rfl, rfl, rfl⟩
    · have : w.vals q = w'.vals q := h3 (.val q) hq (by simpa using hqp)
      rw [this]; exact ⟨rfl, rfl, rfl⟩
  · intro k q v key t hq hv hr hl hn
    obtain ⟨v', a, b⟩ := open_keeps g hp h k q v key t hq hv hr hl hn
    exact ⟨_, v', a, b⟩

theorem opened_bytes {N : Nat} {w w' : World} (g : Spec.Graph.Good w) (o : Opened N w w') {p : Nat} (hp : p < w.nv) :
    w'.bytes (w'.vals p).data = w.bytes (w.vals p).data := by
  obtain ⟨_, _, h⟩ := o.vals p hp
  rw [h]
  unfold World.bytes
  rw [o.bufs _ (g (.val p) _ hp (.data p))]

/-! ### what is read from kept values -/

/-- the numbers of the values that are kept -/
def readAll (w : World) (l : List (UInt8 × Held)) : Res Row := mapRes (fun x => do .ok (x.1, ← x.2.read w)) l

/-- the values that are kept exist -/
def Bound (w : World) (l : List (UInt8 × Held)) : Prop := ∀ t p, (t, Held.at p) ∈ l → p < w.nv

theorem read_same {w w' : World} {p : Nat} (h1 : (w'.vals p).start = (w.vals p).start) (h2 : (w'.vals p).offset = (w.vals p).offset)
    (h3 : w'.bytes (w'.vals p).data = w.bytes (w.vals p).data) : (Held.at p).read w' = (Held.at p).read w := by
  simp only [Held.read, h1, h2, h3]

theorem readAll_congr {w w' : World} {l : List (UInt8 × Held)} (h : ∀ t p, (t, Held.at p) ∈ l → (Held.at p).read w' = (Held.at p).read w) :
    readAll w' l = readAll w l := by
  unfold readAll
  refine mapRes_congr fun x hx => ?_
  obtain ⟨t, y⟩ := x
  cases y with
  | own y => rfl
  | «at» p => simp only [h t p hx]

theorem readAll_opened {N : Nat} {w w' : World} (g : Spec.Graph.Good w) (o : Opened N w w') {l : List (UInt8 × Held)} (hb : Bound w l) : readAll w' l = readAll w l :=
  readAll_congr fun t p hm => read_same (o.vals p (hb t p hm)).1 (o.vals p (hb t p hm)).2.1 (opened_bytes g o (hb t p hm))

theorem mapRes_append {α β : Type} {f : α → Res β} : ∀ {a b : List α} {x y : List β}, mapRes f a = .ok x → mapRes f b = .ok y → mapRes f (a ++ b) = .ok (x ++ y)
  | [], b, x, y, h1, h2 => by simp only [mapRes, Res.ok.injEq] at h1; subst h1; exact h2
  | a :: as, b, x, y, h1, h2 => by
    obtain ⟨v, xs, rfl, h3, h4⟩ := mapRes_cons h1
    have := mapRes_append h4 h2
    rw [List.cons_append]; unfold mapRes; rw [h3, this]; rfl

theorem Bound.append {w : World} {a b : List (UInt8 × Held)} (ha : Bound w a) (hb : Bound w b) : Bound w (a ++ b) := fun t p h => by
  rcases List.mem_append.mp h with h | h
  · exact ha t p h
  · exact hb t p h

theorem Bound.opened {N : Nat} {w w' : World} (o : Opened N w w') {l : List (UInt8 × Held)} (h : Bound w l) : Bound w' l :=
  fun t p hm => o.made (.val p) (h t p hm)

/-! ### extraction -/

/-- elements and what they stand for -/
def Items (N : Nat) (w : World) : List Nat → List BVal → Prop
  | [], [] => True
  | e :: es, t :: ts => (e < w.ne ∧ ∃ k v key, viewVal w k (w.elems e) = .ok v ∧ Rep v key t ∧ t.enc.length < N) ∧ Items N w es ts
  | _, _ => False

theorem items_opened {n N : Nat} (h31 : N ≤ 2147483648) (hN : N ≤ n) {w w' : World} (g : Spec.Graph.Good w) (o : Opened n w w') : ∀ (es : List Nat) (ts : List BVal), Items N w es ts → Items N w' es ts
  | [], [], _ => trivial
  | [], _ :: _, h => h.elim
  | _ :: _, [], h => h.elim
  | e :: es, t :: ts, ⟨⟨he, k, v, key, h1, h2, h3⟩, h⟩ => by
    have hp : w.elems e < w.nv := g (.elem e) _ he (.value e)
    obtain ⟨k', v', a, b⟩ := o.views k _ v key t hp h1 h2 (by omega) (by omega)
    exact ⟨⟨o.made (.elem e) he, k', v', key, by rw [o.elems e he]; exact a, b, h3⟩, items_opened h31 hN g o es ts h⟩

/-- what `extractValue` does with one value -/
def ValueOk (N n fuel : Nat) : Prop := ∀ (w : World) (p k : Nat) (v : Value) (key : Bytes) (t : BVal), Spec.Graph.Good w → p < w.nv → viewVal w k p = .ok v → Rep v key t →
  t.enc.length < N → ∃ w' l, Shared.extractValue n fuel p w = (w', .ok l) ∧ Opened n w w' ∧ Bound w' l ∧ readAll w' l = .ok (nums t)

theorem elems_ok {N n fuel : Nat} (h31 : N ≤ 2147483648) (hN : N ≤ n) (ih : ValueOk N n fuel) : ∀ (es : List Nat) (ts : List BVal) (w : World), Spec.Graph.Good w → Items N w es ts →
    ∃ w' l, Shared.extractElems (Shared.extractValue n fuel) es w = (w', .ok l) ∧ Opened n w w' ∧ Bound w' l ∧ readAll w' l = .ok (ts.map nums).flatten
  | [], [], w, g, _ => ⟨w, [], rfl, .refl g, by intro t p h; simp at h, rfl⟩
  | [], _ :: _, _, _, h => h.elim
  | _ :: _, [], _, _, h => h.elim
  | e :: es, t :: ts, w, g, ⟨⟨he, k, v, key, h1, h2, h3⟩, h⟩ => by
    obtain ⟨w1, l1, a1, a2, a3, a4⟩ := ih w (w.elems e) k v key t g (g (.elem e) _ he (.value e)) h1 h2 h3
    obtain ⟨w2, l2, b1, b2, b3, b4⟩ := elems_ok h31 hN ih es ts w1 a2.good (items_opened h31 hN g a2 es ts h)
    refine ⟨w2, l1 ++ l2, ?_, a2.trans b2, .append (a3.opened b2) b3, ?_⟩
    · unfold Shared.extractElems
      rw [bind_ok_run (a := w.elems e) (w' := w) rfl, bind_ok_run a1, bind_ok_run b1]
      rfl
    · simp only [List.map_cons, List.flatten_cons]
      exact mapRes_append (by have := readAll_opened a2.good b2 a3; rw [a4] at this; exact this) b4

/-- the values of the fields -/
def fvals : Fields → List BVal
  | .nil => []
  | .cons _ t rest => t :: fvals rest

def vvals : Vals → List BVal
  | .nil => []
  | .cons t rest => t :: vvals rest

theorem nums_fvals : ∀ fs : Fields, ((fvals fs).map nums).flatten = numsF fs
  | .nil => rfl
  | .cons _ t rest => by simp [fvals, numsF, nums_fvals rest]

theorem nums_vvals : ∀ vs : Vals, ((vvals vs).map nums).flatten = numsV vs
  | .nil => rfl
  | .cons t rest => by simp [vvals, numsV, nums_vvals rest]

theorem items_fields {w : World} {k N : Nat} : ∀ {es : List Nat} {tree : List Value} {fs : Fields}, (∀ e ∈ es, e < w.ne) → mapRes (fun e => viewVal w k (w.elems e)) es = .ok tree →
    RepFields tree fs → fs.enc.length < N → Items N w es (fvals fs)
  | [], tree, fs, _, h, hr, _ => by
    simp only [mapRes, Res.ok.injEq] at h; subst h
    cases fs with
    | nil => trivial
    | cons => simp [RepFields] at hr
  | e :: es, tree, fs, hm, h, hr, hl => by
    obtain ⟨v, tree, rfl, h1, h2⟩ := mapRes_cons h
    cases fs with
    | nil => simp [RepFields] at hr
    | cons key t fs =>
      simp only [RepFields] at hr
      rw [fieldsEnc_length] at hl
      exact ⟨⟨hm e (by simp), k, v, key, h1, hr.1, by omega⟩, items_fields (fun e he => hm e (by simp [he])) h2 hr.2 (by omega)⟩

theorem items_vals {w : World} {k N : Nat} : ∀ {es : List Nat} {tree : List Value} {vs : Vals} {i : Nat}, (∀ e ∈ es, e < w.ne) → mapRes (fun e => viewVal w k (w.elems e)) es = .ok tree →
    RepVals tree vs → (vs.encFrom i).length < N → Items N w es (vvals vs)
  | [], tree, vs, _, _, h, hr, _ => by
    simp only [mapRes, Res.ok.injEq] at h; subst h
    cases vs with
    | nil => trivial
    | cons => simp [RepVals] at hr
  | e :: es, tree, vs, i, hm, h, hr, hl => by
    obtain ⟨v, tree, rfl, h1, h2⟩ := mapRes_cons h
    cases vs with
    | nil => simp [RepVals] at hr
    | cons t vs =>
      simp only [RepVals] at hr
      obtain ⟨⟨key, hr1⟩, hr2⟩ := hr
      rw [encFrom_length] at hl
      exact ⟨⟨hm e (by simp), k, v, key, h1, hr1, by omega⟩, items_vals (i := i + 1) (fun e he => hm e (by simp [he])) h2 hr2 (by omega)⟩

/-- a value that is neither a document nor an array -/
theorem leaf_ok {v : Value} {key : Bytes} {t : BVal} (h : Rep v key t) (h3 : t.tag ≠ 3) (h4 : t.tag ≠ 4) : Ftdc.extractValue 1 v = .ok (nums t) := by
  unfold Ftdc.extractValue
  rw [type_rep h]
  simp only [Res.bind_ok]
  cases t with
  | doc fs => exact absurd rfl h3
  | array vs => exact absurd rfl h4
  | double b => simp only [BVal.tag]; simp [double_rep h, nums]
  | bool b => simp only [BVal.tag]; cases b <;> simp [boolean_rep h, nums]
  | datetime b =>
    obtain ⟨t, h1, h2⟩ := epochMs_time h
    simp only [BVal.tag]; simp [h1, h2, nums]
  | int32 b => simp only [BVal.tag]; simp [int32_rep h, nums]
  | timestamp b c => simp only [BVal.tag]; simp [timestamp_rep h, nums]
  | int64 b => simp only [BVal.tag]; simp [int64_rep h, nums]
  | _ => simp [BVal.tag, nums]

theorem readAll_own (w : World) : ∀ l : Row, readAll w (l.map fun x => (x.1, .own x.2)) = .ok l
  | [] => rfl
  | x :: l => by
    have := readAll_own w l
    unfold readAll at this ⊢
    simp only [List.map_cons]
    unfold mapRes
    rw [this]; rfl

/-- a value that is a document or an array was opened, or is raw -/
theorem rep_raw {v : Value} {key : Bytes} {t : BVal} (h : Rep v key t) (h3 : t.tag ≠ 3) (h4 : t.tag ≠ 4) (h15 : t.tag ≠ 0x0F) : v = .raw v.start v.offset v.data := by
  cases v with
  | raw s o d => rfl
  | withDoc s o d es =>
    simp only [Rep] at h
    cases t <;> simp_all [BVal.tag]

theorem view_offset {w : World} {k p : Nat} {v : Value} (h : viewVal w k p = .ok v) : v.offset = (w.vals p).offset := by
  cases k with
  | zero => simp [viewVal] at h
  | succ k =>
    unfold viewVal at h
    simp only at h
    cases hd : (w.vals p).d with
    | none => rw [hd] at h; simp only [Res.ok.injEq] at h; subst h; rfl
    | some d =>
      rw [hd] at h
      obtain ⟨es, h1, h2⟩ := Res.bind_eq_ok.mp h
      simp only [Res.ok.injEq] at h2; subst h2; rfl

theorem view_type {w : World} {k p : Nat} {v : Value} {key : Bytes} {t : BVal} (h : viewVal w k p = .ok v) (hr : Rep v key t) :
    type (.raw (w.vals p).start (w.vals p).offset (w.bytes (w.vals p).data)) = .ok t.tag := by
  obtain ⟨h1, h2⟩ := view_parts h
  have h3 := view_offset h
  have := type_rep hr
  unfold type at this ⊢
  rw [h1, h2, h3] at this
  exact this

/-- what is in a value after opening it -/
theorem view_inner {w : World} {k p d : Nat} {v : Value} (h : viewVal w k p = .ok v) (hd : (w.vals p).d = some d) :
    ∃ j s o data tree, mapRes (fun e => viewVal w j (w.elems e)) (w.docs d) = .ok tree ∧ v = .withDoc s o data tree := by
  cases k with
  | zero => simp [viewVal] at h
  | succ k =>
    unfold viewVal at h
    simp only at h
    rw [hd] at h
    obtain ⟨es, h1, h2⟩ := Res.bind_eq_ok.mp h
    simp only [Res.ok.injEq] at h2
    exact ⟨k, _, _, _, es, h1, h2.symm⟩

theorem value_ok {N n : Nat} (h31 : N ≤ 2147483648) (hN : N ≤ n) : ∀ fuel, ∀ M, M ≤ N → M ≤ fuel → ValueOk M n fuel
  | 0, M, _, hm => by intro w p k v key t _ _ _ _ h; omega
  | fuel + 1, M, hMN, hMf => by
    intro w p k v key t g hp hv hr hl
    have ht := view_type hv hr
    unfold Shared.extractValue
    rw [bind_ok_run (a := w.vals p) (w' := w) rfl, bind_ok_run (a := w.bytes (w.vals p).data) (w' := w) rfl, bind_ok_run (a := t.tag) (w' := w) (by rw [lift_run, ht])]
    by_cases h34 : t.tag = 0x04 ∨ t.tag = 0x03
    · rw [if_pos h34]
      have hopen : ∃ v', Model.openValue n v = .ok v' := by
        cases t with
        | doc fs =>
          obtain ⟨d, h1, _⟩ := mutableDocument_rep (fuel := n) hr (by omega) (by omega)
          unfold Model.openValue
          rw [type_rep hr, Res.bind_ok, if_pos (by rfl), h1]; exact ⟨_, rfl⟩
        | array vs =>
          obtain ⟨d, h1, _⟩ := mutableArray_rep (fuel := n) hr (by omega) (by omega)
          unfold Model.openValue
          rw [type_rep hr, Res.bind_ok, if_neg (show ¬ (BVal.array vs).tag = 0x03 by simp [BVal.tag]), if_pos (by rfl), h1]; exact ⟨_, rfl⟩
        | _ => simp [BVal.tag] at h34
      obtain ⟨v', ho⟩ := hopen
      obtain ⟨d, w1, o1, o2, o3⟩ := open_view g hp hv ho
      have hop := opened_open g hp o1
      have hr' := openValue_rep hr (by omega) (by omega) ho
      obtain ⟨j, s, o, data, tree, i1, rfl⟩ := view_inner o3 o2
      have hpd : p < w1.nv := hop.made (.val p) hp
      have hd : d < w1.nd := hop.good (.val p) (.doc d) hpd (.d o2)
      have he : ∀ e ∈ w1.docs d, e < w1.ne := fun e h => hop.good (.doc d) (.elem e) hd (.elem h)
      rw [bind_ok_run o1, bind_ok_run (a := w1.docs d) (w' := w1) rfl]
      have ih := value_ok h31 hN fuel
      cases t with
      | doc fs =>
        simp only [BVal.enc, wrapDoc_length] at hl
        simp only [Rep] at hr'
        obtain ⟨_, _, _, _, _, _, _, hr'⟩ := hr'
        have it := items_fields (N := fs.enc.length + 1) he i1 hr' (by omega)
        obtain ⟨w2, l, b1, b2, b3, b4⟩ := elems_ok (N := fs.enc.length + 1) (by omega) (by omega) (ih _ (by omega) (by omega)) _ _ _ hop.good it
        refine ⟨w2, l, b1, hop.trans b2, b3, ?_⟩
        rw [b4, nums_fvals]; rfl
      | array vs =>
        simp only [BVal.enc, wrapDoc_length] at hl
        simp only [Rep] at hr'
        obtain ⟨_, _, _, _, _, _, _, hr'⟩ := hr'
        have it := items_vals (N := (vs.encFrom 0).length + 1) (i := 0) he i1 hr' (by omega)
        obtain ⟨w2, l, b1, b2, b3, b4⟩ := elems_ok (N := (vs.encFrom 0).length + 1) (by omega) (by omega) (ih _ (by omega) (by omega)) _ _ _ hop.good it
        refine ⟨w2, l, b1, hop.trans b2, b3, ?_⟩
        rw [b4, nums_vvals]; rfl
      | _ => simp [BVal.tag] at h34
    · rw [if_neg h34]
      have h3 : t.tag ≠ 3 := fun h => h34 (.inr h)
      have h4 : t.tag ≠ 4 := fun h => h34 (.inl h)
      have hraw : t.tag ≠ 0x0F → v = .raw (w.vals p).start (w.vals p).offset (w.bytes (w.vals p).data) := by
        intro h15
        have := rep_raw hr h3 h4 h15
        rw [(view_parts hv).1, (view_parts hv).2, view_offset hv] at this
        exact this
      by_cases h112 : t.tag = 0x01 ∨ t.tag = 0x12
      · rw [if_pos h112]
        refine ⟨w, [(t.tag, .at p)], rfl, .refl g, ?_, ?_⟩
        · intro t' q h; simp only [List.mem_singleton, Prod.mk.injEq, Held.at.injEq] at h; rw [h.2]; exact hp
        · have hv' := hraw (by rcases h112 with h | h <;> rw [h] <;> decide)
          rw [hv'] at hr
          simp only [readAll, mapRes, Held.read, ht, Res.bind_ok]
          cases t with
          | double b => simp [BVal.tag, double_rep hr, nums]
          | int64 b => simp [BVal.tag, int64_rep hr, nums]
          | _ => simp [BVal.tag] at h112
      · rw [if_neg h112]
        have hle : Ftdc.extractValue 1 (.raw (w.vals p).start (w.vals p).offset (w.bytes (w.vals p).data)) = .ok (nums t) := by
          by_cases h15 : t.tag = 0x0F
          · unfold Ftdc.extractValue
            rw [ht]
            cases t <;> simp_all [BVal.tag, nums]
          · rw [← hraw h15]; exact leaf_ok hr h3 h4
        refine ⟨w, (nums t).map fun x => (x.1, .own x.2), ?_, .refl g, ?_, readAll_own w _⟩
        · rw [bind_ok_run (a := nums t) (w' := w) (by rw [lift_run, hle])]; rfl
        · intro t' q h; simp at h

/-- extraction from a document -/
theorem extract_ok {n d : Nat} {w : World} {fs : Fields} (g : Spec.Graph.Good w) (hs : Says w d fs) (hl : (encDoc fs).length < 2147483648) (hn : 2147483648 ≤ n) :
    ∃ w' l, Shared.extract n d w = (w', .ok l) ∧ Opened n w w' ∧ Bound w' l ∧ readAll w' l = .ok (numsF fs) := by
  obtain ⟨hm, k, tree, h1, h2⟩ := hs
  simp only [encDoc, wrapDoc_length] at hl
  have it := items_fields (N := fs.enc.length + 1) (fun e h => g (.doc d) (.elem e) hm (.elem h)) h1 h2 (by omega)
  obtain ⟨w2, l, b1, b2, b3, b4⟩ := elems_ok (N := fs.enc.length + 1) (n := n) (fuel := n) (by omega) (by omega)
    (value_ok (N := fs.enc.length + 1) (by omega) (by omega) n _ (Nat.le_refl _) (by omega)) _ _ _ g it
  refine ⟨w2, l, ?_, b2, b3, ?_⟩
  · unfold Shared.extract
    rw [bind_ok_run (a := w.docs d) (w' := w) rfl]
    exact b1
  · rw [b4, nums_fvals]

/-- opening values leaves what documents say -/
theorem says_opened {n d : Nat} {w w' : World} {fs : Fields} (g : Spec.Graph.Good w) (o : Opened n w w') (hs : Says w d fs) (hl : (encDoc fs).length < 2147483648)
    (hn : 2147483648 ≤ n) : Says w' d fs := by
  obtain ⟨hm, k, tree, h1, h2⟩ := hs
  simp only [encDoc, wrapDoc_length] at hl
  have it := items_fields (N := fs.enc.length + 1) (fun e h => g (.doc d) (.elem e) hm (.elem h)) h1 h2 (by omega)
  refine ⟨o.made (.doc d) hm, ?_⟩
  unfold viewDoc at h1 ⊢
  rw [o.docs d hm]
  have key : ∀ (es : List Nat) (tree : List Value) (fs : Fields), (∀ e ∈ es, e < w.ne) → mapRes (fun e => viewVal w k (w.elems e)) es = .ok tree → RepFields tree fs →
      fs.enc.length < 2147483648 → ∃ j tree', mapRes (fun e => viewVal w' j (w'.elems e)) es = .ok tree' ∧ RepFields tree' fs := by
    intro es
    induction es with
    | nil =>
      intro tree fs _ h hr _
      exact ⟨0, [], rfl, by simp only [mapRes, Res.ok.injEq] at h; subst h; exact hr⟩
    | cons e es ih =>
      intro tree fs hm h hr hl
      obtain ⟨v, tree, rfl, a1, a2⟩ := mapRes_cons h
      cases fs with
      | nil => simp [RepFields] at hr
      | cons key t fs =>
        simp only [RepFields] at hr
        rw [fieldsEnc_length] at hl
        have he := hm e (by simp)
        obtain ⟨k1, v1, b1, b2⟩ := o.views k _ v key t (g (.elem e) _ he (.value e)) a1 hr.1 (by omega) (by omega)
        obtain ⟨j, tree', c1, c2⟩ := ih tree fs (fun e he => hm e (by simp [he])) a2 hr.2 (by omega)
        refine ⟨Nat.max k1 j, v1 :: tree', ?_, b2, c2⟩
        unfold mapRes
        rw [o.elems e he, view_mono (Nat.le_max_left k1 j) b1, mapRes_mono (fun e _ y hy => view_mono (Nat.le_max_right k1 j) hy) c1]
        rfl
  exact key _ _ _ (fun e h => g (.doc d) (.elem e) hm (.elem h)) h1 h2 (by omega)

/-! ### the collector -/

/-- the collector `s` and the collector `c` on trees hold the same numbers; the reference may have changed -/
structure Sim (w : World) (s : Collector) (c : Ftdc.Better) : Prop where
  ref : s.reference.isSome = c.reference.isSome
  last : readAll w s.last = .ok c.last
  bound : Bound w s.last
  deltas : s.deltas = c.deltas
  num : s.numSamples = c.numSamples
  max : s.maxDeltas = c.maxDeltas

theorem mapRes_length {α β : Type} {f : α → Res β} : ∀ {l : List α} {x : List β}, mapRes f l = .ok x → x.length = l.length
  | [], x, h => by simp only [mapRes, Res.ok.injEq] at h; subst h; rfl
  | a :: l, x, h => by
    obtain ⟨v, x, rfl, _, h2⟩ := mapRes_cons h
    simp [mapRes_length h2]

theorem readAll_cons {w : World} {t : UInt8} {y : Held} {l : List (UInt8 × Held)} {r : Row} (h : readAll w ((t, y) :: l) = .ok r) :
    ∃ x r', r = (t, x) :: r' ∧ y.read w = .ok x ∧ readAll w l = .ok r' := by
  obtain ⟨v, r', rfl, h1, h2⟩ := mapRes_cons h
  obtain ⟨x, h3, h4⟩ := Res.bind_eq_ok.mp h1
  simp only [Res.ok.injEq] at h4
  subst h4
  exact ⟨x, r', rfl, h3, h2⟩

theorem addLoop_sim (fsub : Nat → Nat → Nat) {w : World} {max sample : Nat} : ∀ (cur prev : List (UInt8 × Held)) (i : Nat) (rc rp : Row) (deltas : List Int),
    readAll w cur = .ok rc → readAll w prev = .ok rp →
    Shared.addLoop fsub w max sample i cur prev deltas = Ftdc.addLoop fsub max sample i rc rp deltas
  | [], prev, i, rc, rp, deltas, h1, h2 => by
    simp only [readAll, mapRes, Res.ok.injEq] at h1; subst h1
    unfold Shared.addLoop Ftdc.addLoop; rfl
  | (t, x) :: cur, [], i, rc, rp, deltas, h1, h2 => by
    obtain ⟨a, rc, rfl, h3, h4⟩ := readAll_cons h1
    simp only [readAll, mapRes, Res.ok.injEq] at h2; subst h2
    unfold Shared.addLoop Ftdc.addLoop; rfl
  | (t, x) :: cur, (u, y) :: prev, i, rc, rp, deltas, h1, h2 => by
    obtain ⟨a, rc, rfl, h3, h4⟩ := readAll_cons h1
    obtain ⟨b, rp, rfl, h5, h6⟩ := readAll_cons h2
    unfold Shared.addLoop Ftdc.addLoop
    by_cases htu : t ≠ u
    · rw [if_pos htu, if_pos htu]
    · rw [if_neg htu, if_neg htu, h3, h5]
      simp only [Res.bind_ok, orPanics]
      cases Ftdc.extractDelta fsub a b with
      | ok delta =>
        simp only [Res.bind_ok]
        cases Ftdc.setAt deltas (Ftdc.getOffset max sample i) delta with
        | ok ds => simp only [Res.bind_ok]; exact addLoop_sim fsub cur prev (i + 1) rc rp ds h4 h6
        | _ => rfl
      | _ => rfl

/-- `Add` does what it does on trees -/
theorem add_sim {fsub : Nat → Nat → Nat} {w : World} {s : Collector} {c c' : Ftdc.Better} {e : Option Err} {d n : Nat} {tree : Doc} {fs : Fields} (g : Spec.Graph.Good w)
    (hs : Says w d fs) (hr : RepFields tree fs) (hl : (encDoc fs).length < 2147483648) (hn : 2147483648 ≤ n) (sim : Sim w s c) (h : c.add fsub n tree = .ok (c', e)) :
    ∃ w' s', s.add fsub n d w = (w', .ok (s', e)) ∧ Opened n w w' ∧ Sim w' s' c' ∧ s'.metadata = s.metadata ∧ s'.reference = some (s.reference.getD d) := by
  have hx : Ftdc.extract n tree = .ok (numsF fs) := by
    have h1 := hl
    simp only [encDoc, wrapDoc_length] at h1
    exact extract_rep n hr (by omega) (by omega)
  obtain ⟨w1, l, x1, x2, x3, x4⟩ := extract_ok g hs hl hn
  have hlen : (numsF fs).length = l.length := mapRes_length x4
  have hlast : c.last.length = s.last.length := mapRes_length sim.last
  have hlast1 : readAll w1 s.last = .ok c.last := by rw [readAll_opened g x2 sim.bound]; exact sim.last
  unfold Ftdc.Better.add at h
  unfold Collector.add
  cases hsr : s.reference with
  | none =>
    have hcr : c.reference = none := by have := sim.ref; rw [hsr] at this; simpa using this.symm
    rw [hcr] at h
    simp only [hx, Res.bind_ok, Res.ok.injEq, Prod.mk.injEq] at h
    obtain ⟨rfl, rfl⟩ := h
    simp only
    rw [bind_ok_run x1]
    exact ⟨w1, _, rfl, x2, ⟨rfl, x4, x3, by simp only [sim.max, hlen], sim.num, sim.max⟩, rfl, rfl⟩
  | some r =>
    obtain ⟨r', hcr⟩ : ∃ r', c.reference = some r' := by have := sim.ref; rw [hsr] at this; exact Option.isSome_iff_exists.mp this.symm
    rw [hcr] at h
    simp only at h ⊢
    by_cases hfull : c.numSamples ≥ c.maxDeltas
    · rw [if_pos hfull] at h
      simp only [Res.ok.injEq, Prod.mk.injEq] at h
      obtain ⟨rfl, rfl⟩ := h
      rw [if_pos (by rw [sim.num, sim.max]; exact hfull)]
      exact ⟨w, s, rfl, .refl g, sim, rfl, by rw [hsr]; rfl⟩
    rw [if_neg hfull, hx] at h
    rw [if_neg (by rw [sim.num, sim.max]; exact hfull), bind_ok_run x1]
    simp only [Res.bind_ok] at h
    by_cases hne : (numsF fs).length ≠ c.last.length
    · rw [if_pos hne] at h
      simp only [Res.ok.injEq, Prod.mk.injEq] at h
      obtain ⟨rfl, rfl⟩ := h
      rw [if_pos (by rw [← hlen, ← hlast]; exact hne)]
      exact ⟨w1, s, rfl, x2, ⟨sim.ref, hlast1, sim.bound.opened x2, sim.deltas, sim.num, sim.max⟩, rfl, by rw [hsr]; rfl⟩
    rw [if_neg hne] at h
    rw [if_neg (by rw [← hlen, ← hlast]; exact hne)]
    obtain ⟨⟨ds, e'⟩, h1, h2⟩ := Res.bind_eq_ok.mp h
    have hloop : Shared.addLoop fsub w1 s.maxDeltas s.numSamples 0 l s.last s.deltas = .ok (ds, e') := by
      rw [addLoop_sim fsub l s.last 0 _ _ _ x4 hlast1, sim.max, sim.num, sim.deltas]; exact h1
    rw [bind_ok_run (a := (ds, e')) (w' := w1) (by rw [look_run, hloop])]
    cases e' with
    | some e' =>
      simp only [Res.ok.injEq, Prod.mk.injEq] at h2
      obtain ⟨rfl, rfl⟩ := h2
      exact ⟨w1, _, rfl, x2, ⟨by simp, hlast1, sim.bound.opened x2, rfl, sim.num, sim.max⟩, rfl, by simp⟩
    | none =>
      simp only [Res.ok.injEq, Prod.mk.injEq] at h2
      obtain ⟨rfl, rfl⟩ := h2
      exact ⟨w1, _, rfl, x2, ⟨by simp, x4, x3, rfl, by simp [sim.num], sim.max⟩, rfl, by simp⟩

/-! ### programs -/

theorem says_frame {w w' : World} {d : Nat} {fs : Fields} (hm : ∀ o, Made w o → Made w' o) (h : ∀ o, Reach w (.doc d) o → Same w w' o)
    (hs : Says w d fs) : Says w' d fs := by
  obtain ⟨h1, k, tree, h2, h3⟩ := hs
  exact ⟨hm _ h1, k, tree, by rw [viewDoc_frame k d h]; exact h2, h3⟩

/-- a call that leaves the values of the last sample alone -/
theorem sim_call {w : World} {k : Call} {s : Collector} {c : Ftdc.Better} (g : Spec.Graph.Good w) (ha : Args w k) (hw : ∀ o, OfLast w s o → ¬ Writes w k o) (sim : Sim w s c) :
    Sim (k.run w) s c := by
  obtain ⟨_, h2, h3⟩ := run_frame g ha
  refine ⟨sim.ref, ?_, fun t p h => h2 (.val p) (sim.bound t p h), sim.deltas, sim.num, sim.max⟩
  rw [readAll_congr fun t p h => ?_]
  · exact sim.last
  · have hp := sim.bound t p h
    have e1 : w.vals p = (k.run w).vals p := h3 (.val p) hp (hw _ ⟨t, p, h, .inl rfl⟩)
    have e2 : w.bufs (w.vals p).data.buf = (k.run w).bufs (w.vals p).data.buf := h3 (.buf _) (g (.val p) _ hp (.data p)) (hw _ ⟨t, p, h, .inr rfl⟩)
    refine read_same (by rw [← e1]) (by rw [← e1]) ?_
    rw [← e1]; exact bytes_same e2

/-- the reference and the metadata are what they were when they were given -/
def Intact (w : World) (s : Collector) (kept : List Fields) (mfs : Fields) : Prop :=
  (∀ d, s.reference = some d → ∃ f0 rest, kept = f0 :: rest ∧ Says w d f0) ∧ ∀ m, s.metadata = some m → Says w m mfs

/-- a program whose documents all go into one chunk -/
theorem run_ok {fsub : Nat → Nat → Nat} {n max : Nat} {mfs : Fields} (hmfs : (encDoc mfs).length < 2147483648) (hn : 2147483648 ≤ n) {keep : World → Collector → Obj → Prop} (hk : ∀ w s o, OfLast w s o → keep w s o) :
    ∀ (steps : List Step) (w : World) (s : Collector) (c : Ftdc.Better) (d0 : Option Doc) (kept fss : List Fields), Spec.Graph.Good w → Adds fsub n keep w s steps fss →
    Sim w s c → State fsub max none c d0 kept → (∀ f ∈ kept ++ fss, (encDoc f).length < 2147483648) → (∀ f ∈ kept ++ fss, ∀ g ∈ kept ++ fss, f.metrics.SameShape g.metrics) →
    (kept ++ fss).length ≤ max + 1 →
    ∃ w' s' c' d0', Shared.run fsub n s steps w = (w', .ok (s', fss.map fun _ => none)) ∧ Spec.Graph.Good w' ∧ Sim w' s' c' ∧ State fsub max none c' d0' (kept ++ fss) ∧
      s'.metadata = s.metadata ∧ s'.reference = s.reference.or (firstAdded steps) ∧ (∀ f ∈ fss, f.WF) ∧
      ((∀ w s o, OfDocs w s o → keep w s o) → Intact w s kept mfs → Intact w' s' (kept ++ fss) mfs)
  | [], w, s, c, d0, kept, fss, g, ha, sim, st, _, _, _ => by
    simp only [Adds] at ha
    subst ha
    exact ⟨w, s, c, d0, rfl, g, sim, by simpa using st, rfl, by simp [firstAdded], by simp, fun _ h => by simpa using h⟩
  | .call k :: steps, w, s, c, d0, kept, fss, g, ha, sim, st, hl, hs, hx => by
    obtain ⟨h1, h2, h3⟩ := ha
    obtain ⟨g1, m1, f1⟩ := run_frame g h1
    obtain ⟨w', s', c', d0', a1, a2, a3, a4, a5, a6, a8, a7⟩ := run_ok hmfs hn hk steps (k.run w) s c d0 kept fss g1 h3 (sim_call g h1 (fun o ho => h2 o (hk _ _ o ho)) sim) st hl hs hx
    refine ⟨w', s', c', d0', a1, a2, a3, a4, a5, a6, a8, fun hd hi => a7 hd ?_⟩
    constructor
    · intro d hd0
      obtain ⟨f0, rest, e, hsay⟩ := hi.1 d hd0
      exact ⟨f0, rest, e, says_frame m1 (fun o ho => f1 o (reach_made g hsay.1 ho) (h2 o (hd _ _ o ⟨d, .inl hd0, ho⟩))) hsay⟩
    · intro d hd0
      have hsay := hi.2 d hd0
      exact says_frame m1 (fun o ho => f1 o (reach_made g hsay.1 ho) (h2 o (hd _ _ o ⟨d, .inr hd0, ho⟩))) hsay
  | .add d :: steps, w, s, c, d0, kept, fss, g, ha, sim, st, hl, hs, hx => by
    obtain ⟨fs, gss, rfl, hsay, hrest⟩ := ha
    obtain ⟨_, k, tree, ht1, ht2⟩ := id hsay
    have hfs : (encDoc fs).length < 2147483648 := hl fs (by simp)
    obtain ⟨c1, e, b1, b2, b3, _⟩ := state_add (fuel := n) st ht2 hfs (by omega)
    have he : e = none := b2.mpr fun f0 rest hk => by
      subst hk
      exact ⟨by simp at hx ⊢; omega, kinds_shape (hs f0 (by simp) fs (by simp))⟩
    subst he
    obtain ⟨w1, s1, d1, d2, d3, d4, d5⟩ := add_sim g hsay ht2 hfs hn sim b1
    have e1 : kept ++ [fs] ++ gss = kept ++ fs :: gss := by simp
    obtain ⟨w', s', c', d0', a1, a2, a3, a4, a5, a6, a8, a7⟩ := run_ok hmfs hn hk steps w1 s1 c1 _ (kept ++ [fs]) gss d2.good (hrest _ _ _ d1) d3 (b3 rfl)
      (by rw [e1]; exact hl) (by rw [e1]; exact hs) (by rw [e1]; exact hx)
    rw [e1] at a4 a7
    refine ⟨w', s', c', d0', ?_, a2, a3, a4, a5.trans d4, ?_, ?_, fun hd hi => a7 hd ?_⟩
    · unfold Shared.run
      rw [bind_ok_run d1]
      simp only
      rw [bind_ok_run a1]
      rfl
    · rw [a6, d5]
      cases s.reference <;> simp [firstAdded]
    · intro f hf
      rcases List.mem_cons.mp hf with rfl | hf
      · exact repFields_wf ht2
      · exact a8 f hf
    · constructor
      · intro x hx0
        rw [d5] at hx0
        cases hr : s.reference with
        | none =>
          rw [hr] at hx0
          simp only [Option.getD_none, Option.some.injEq] at hx0
          subst hx0
          have hc : c.reference = none := by have := sim.ref; rw [hr] at this; simpa using this.symm
          cases kept with
          | nil => exact ⟨fs, [], rfl, says_opened g d2 hsay hfs hn⟩
          | cons f rest =>
            cases d0 with
            | none => exact st.2.2.elim
            | some d0 => have := st.2.2.2.ref; rw [hc] at this; cases this
        | some r =>
          rw [hr] at hx0
          simp only [Option.getD_some, Option.some.injEq] at hx0
          subst hx0
          obtain ⟨f0, rest, rfl, h⟩ := hi.1 r hr
          exact ⟨f0, rest ++ [fs], rfl, says_opened g d2 h (hl f0 (by simp)) hn⟩
      · intro m hm
        rw [d4] at hm
        exact says_opened g d2 (hi.2 m hm) hmfs hn

end Birch.Proofs.Shared
