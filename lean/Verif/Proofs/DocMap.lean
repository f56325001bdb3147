import Verif.Spec.DocMap
import Verif.Proofs.Access
import Verif.Proofs.GoValue
import Verif.Proofs.Registry
import Verif.Proofs.Write

namespace Birch.Proofs
open Birch Model Spec

set_option linter.unusedSimpArgs false
set_option linter.unusedVariables false

/-! ### maps -/

theorem lookup_put {α : Type} (m : Assoc α) (k : Bytes) (a : α) (k' : Bytes) :
    (m.put k a).lookup k' = if k' = k then some a else m.lookup k' := by
  unfold Assoc.put
  by_cases h : k' = k
  · subst h; simp
  · have : (k' == k) = false := by simpa using h
    simp only [List.lookup_cons, this, if_neg h]
    induction m with
    | nil => rfl
    | cons p m ih =>
      obtain ⟨q, b⟩ := p
      by_cases hq : q = k
      · subst hq
        simp [ih, this, List.lookup_cons]
      · by_cases hk : k' = q
        · subst hk; simp [hq]
        · have h2 : (k' == q) = false := by simpa using hk
          simp [hq, List.lookup_cons, h2, ih]

/-- the fields of a document written into a map one after the other -/
def putAll : DocMap → Doc → Fields → DocMap
  | m, v :: d, .cons k _ fs => putAll (m.put k v) d fs
  | m, _, _ => m

theorem putAll_written : ∀ {d : Doc} {fs : Fields} (m : DocMap), RepFields d fs → Written m fs (putAll m d fs)
  | [], .nil, m, _ => by intro k; simp [Fields.last, putAll]
  | [], .cons _ _ _, _, h => by simp [RepFields] at h
  | _ :: _, .nil, _, h => by simp [RepFields] at h
  | v :: d, .cons k t fs, m, h => by
    intro k'
    have ih := putAll_written (m.put k v) h.2 k'
    simp only [Fields.last, putAll]
    cases hl : fs.last k' with
    | some t' => rw [hl] at ih; exact ih
    | none =>
      rw [hl] at ih
      simp only at ih ⊢
      rw [lookup_put] at ih
      by_cases hk : k = k'
      · subst hk; simp only [if_true] at ih ⊢; exact ⟨v, ih, h.1⟩
      · rw [if_neg (fun e => hk e.symm)] at ih; simp only [if_neg hk]; exact ih

/-! ### `UnmarshalDocument` -/

theorem unmarshalDocument_rep (fuel : Nat) : ∀ {d : Doc} {fs : Fields} (m : DocMap), RepFields d fs → fs.enc.length < 2147483648 → fs.enc.length < fuel →
    DocMap.unmarshalDocument fuel m d = (putAll m d fs, .ok ())
  | [], .nil, m, _, _, _ => by simp [DocMap.unmarshalDocument, putAll]
  | [], .cons _ _ _, _, h, _, _ => by simp [RepFields] at h
  | _ :: _, .nil, _, h, _, _ => by simp [RepFields] at h
  | v :: d, .cons k t fs, m, h, hl, hf => by
    rw [fieldsEnc_length] at hl hf
    unfold DocMap.unmarshalDocument
    rw [elemValidate_rep fuel h.1 (by omega) (by omega)]
    simp only [Res.bind_ok, key_rep h.1, putAll]
    exact unmarshalDocument_rep fuel _ h.2 (by omega) (by omega)

theorem unmarshalDocument_invalid (fuel : Nat) {v : Value} {e : Err} : ∀ {d1 : Doc} {fs : Fields} (m : DocMap) (d2 : Doc), RepFields d1 fs →
    elemValidate fuel v = .err e → fs.enc.length < 2147483648 → fs.enc.length < fuel →
    DocMap.unmarshalDocument fuel m (d1 ++ v :: d2) = (putAll m d1 fs, .err e)
  | [], .nil, m, d2, _, hv, _, _ => by simp [DocMap.unmarshalDocument, putAll, hv]
  | [], .cons _ _ _, _, _, h, _, _, _ => by simp [RepFields] at h
  | _ :: _, .nil, _, _, h, _, _, _ => by simp [RepFields] at h
  | w :: d, .cons k t fs, m, d2, h, hv, hl, hf => by
    rw [fieldsEnc_length] at hl hf
    rw [List.cons_append]
    unfold DocMap.unmarshalDocument
    rw [elemValidate_rep fuel h.1 (by omega) (by omega)]
    simp only [Res.bind_ok, key_rep h.1, putAll]
    exact unmarshalDocument_invalid fuel _ d2 h.2 hv (by omega) (by omega)

/-! ### reading element by element -/

def foldRes {σ : Type} (f : σ → Value → Res σ) : σ → Doc → Res σ
  | s, [] => .ok s
  | s, v :: d => do foldRes f (← f s v) d

attribute [local irreducible] i32 u32 u32i u64i i64

theorem eachLoop_enc : ∀ (fs : Fields) (wf : fs.WF) (hd post : Bytes) (end_ : Nat),
    hd.length + fs.enc.length ≤ end_ → end_ ≤ (hd ++ (fs.enc ++ post)).length → (hd ++ (fs.enc ++ post)).length < 2147483648 →
    ∃ d, RepFields d fs ∧ d.length ≤ fs.enc.length ∧ ∀ {σ : Type} (f : σ → Value → Res σ) (s s' : σ) (fuel : Nat), foldRes f s d = .ok s' →
      eachLoop f (fuel + d.length) (hd ++ (fs.enc ++ post)) hd.length end_ s = eachLoop f fuel (hd ++ (fs.enc ++ post)) (hd.length + fs.enc.length) end_ s'
  | .nil, wf, hd, post, end_, h1, h2, h3 => by
    refine ⟨[], by simp [RepFields], by simp, ?_⟩
    intro σ f s s' fuel h
    simp only [foldRes, Res.ok.injEq] at h
    subst h
    simp [Fields.enc]
  | .cons k t rest, wf, hd, post, end_, h1, h2, h3 => by
    obtain ⟨hk, ht, hr⟩ := wf
    have er : hd ++ ((Fields.cons k t rest).enc ++ post) = hd ++ t.tag :: (k ++ 0 :: (t.enc ++ (rest.enc ++ post))) := by simp [Fields.enc]
    rw [fieldsEnc_length] at h1
    rw [er] at h2 h3 ⊢
    obtain ⟨s1, s2, s3⟩ := field_step hk ht hd (rest.enc ++ post) end_ (by omega) h2 h3
    have h3' := h3
    simp only [List.length_append, List.length_cons] at h2 h3
    obtain ⟨d, hrep, hlen, hstep⟩ := eachLoop_enc rest hr (hd ++ t.tag :: (k ++ 0 :: t.enc)) post end_ (by simp; omega) (by simp; omega) (by simp; omega)
    refine ⟨.raw hd.length (hd.length + k.length + 2) (hd ++ t.tag :: (k ++ 0 :: (t.enc ++ (rest.enc ++ post)))) :: d, ?_, ?_, ?_⟩
    · exact ⟨by simp only [Rep]; exact ⟨hk, ht, h3', hd, rest.enc ++ post, rfl, rfl, rfl⟩, hrep⟩
    · rw [fieldsEnc_length]; simp; omega
    · intro σ f s s' fuel h
      simp only [foldRes, Res.bind_eq_ok] at h
      obtain ⟨s'', hs, h⟩ := h
      have := hstep f s'' s' fuel h
      have hn : iterNext (hd ++ t.tag :: (k ++ 0 :: (t.enc ++ (rest.enc ++ post)))) hd.length end_ =
          .ok (some (.raw hd.length (hd.length + k.length + 2) (hd ++ t.tag :: (k ++ 0 :: (t.enc ++ (rest.enc ++ post)))), hd.length + k.length + 2 + t.enc.length)) := by
        unfold iterNext
        rw [if_neg (by omega), s1]
        simp only [Res.bind_ok]
        rw [if_neg (tag_ne_zero t), u32_small (n := hd.length + 1) (by omega), s2]
        simp only [Res.bind_ok]
        rw [u32_small (n := hd.length + 1 + (k.length + 1)) (by omega),
          show hd.length + 1 + (k.length + 1) = hd.length + k.length + 2 by omega, s3]
        simp only [Res.bind_ok]
        rw [u32_small (by omega)]
      simp only [List.append_assoc, List.cons_append, List.length_append, List.length_cons] at this
      rw [List.length_cons, ← Nat.add_assoc, fieldsEnc_length,
        show hd.length + (k.length + 2 + t.enc.length + rest.enc.length) = hd.length + (k.length + (t.enc.length + 1) + 1) + rest.enc.length by omega, ← this]
      conv => lhs; unfold eachLoop
      rw [hn]
      simp only [hs]
      rw [show hd.length + k.length + 2 + t.enc.length = hd.length + (k.length + (t.enc.length + 1) + 1) by omega]

/-- reading a canonical document, followed by anything -/
theorem forEach_enc (fs : Fields) (wf : fs.WF) (post : Bytes) (hl : (encDoc fs ++ post).length < 2147483648) :
    ∃ d, RepFields d fs ∧ ∀ {σ : Type} (f : σ → Value → Res σ) (s s' : σ) (fuel : Nat), (encDoc fs).length < fuel → foldRes f s d = .ok s' →
      forEach f fuel (encDoc fs ++ post) s = (s', .ok ()) := by
  unfold forEach encDoc at *
  simp only [List.length_append, wrapDoc_length] at hl
  rw [iterEnd_wrapDoc _ _ (by omega)]
  have e : wrapDoc fs.enc ++ post = le32 (fs.enc.length + 5) ++ (fs.enc ++ 0 :: post) := by simp [wrapDoc]
  rw [e]
  obtain ⟨d, h1, h2, h3⟩ := eachLoop_enc fs wf (le32 (fs.enc.length + 5)) (0 :: post) (fs.enc.length + 5) (by simp; omega) (by simp; omega) (by simp; omega)
  refine ⟨d, h1, ?_⟩
  intro σ f s s' fuel hf h
  simp only [wrapDoc_length] at hf
  obtain ⟨n, rfl⟩ : ∃ n, fuel = (n + 1) + d.length := ⟨fuel - d.length - 1, by omega⟩
  have := h3 f s s' (n + 1) h
  simp only [le32_length] at this
  simp only
  rw [this]
  unfold eachLoop iterNext
  rw [if_neg (by omega)]
  have := idx_append (le32 (fs.enc.length + 5) ++ fs.enc) 0 post
  simp only [List.length_append, le32_length, List.append_assoc] at this
  rw [this]
  simp

/-- reading a document whose length field counts the fields but not the final zero byte -/
theorem forEach_unterminated (fs : Fields) (wf : fs.WF) (post : Bytes) (hne : fs ≠ .nil) (hl : fs.enc.length + 4 + post.length < 2147483648) :
    ∃ d, RepFields d fs ∧ ∀ {σ : Type} (f : σ → Value → Res σ) (s s' : σ) (fuel : Nat), fs.enc.length < fuel → foldRes f s d = .ok s' →
      forEach f fuel (le32 (fs.enc.length + 4) ++ (fs.enc ++ post)) s = (s', .err .invalidReadOnlyDocument) := by
  have hpos : 2 ≤ fs.enc.length := by
    cases fs with
    | nil => exact absurd rfl hne
    | cons k t rest => rw [fieldsEnc_length]; omega
  obtain ⟨d, h1, h2, h3⟩ := eachLoop_enc fs wf (le32 (fs.enc.length + 4)) post (fs.enc.length + 4) (by simp; omega) (by simp; omega) (by simp; omega)
  refine ⟨d, h1, ?_⟩
  intro σ f s s' fuel hf h
  unfold forEach iterEnd
  rw [if_neg (by simp; omega), readi32_le32_nat (by omega)]
  simp only [Res.bind_ok]
  rw [if_neg (by simp; omega), show u32i ((fs.enc.length + 4 : Nat) : Int) = fs.enc.length + 4 from u32i_nat (by omega)]
  obtain ⟨n, rfl⟩ : ∃ n, fuel = (n + 1) + d.length := ⟨fuel - d.length - 1, by omega⟩
  have := h3 f s s' (n + 1) h
  simp only [le32_length] at this
  simp only
  rw [this]
  unfold eachLoop iterNext
  rw [if_pos (by omega)]

theorem foldRes_put : ∀ {d : Doc} {fs : Fields} (m : DocMap), RepFields d fs →
    foldRes (fun m v => do .ok (Assoc.put m (← key v) v)) m d = .ok (putAll m d fs)
  | [], .nil, m, _ => by simp [foldRes, putAll]
  | [], .cons _ _ _, _, h => by simp [RepFields] at h
  | _ :: _, .nil, _, h => by simp [RepFields] at h
  | v :: d, .cons k t fs, m, h => by
    simp only [foldRes, key_rep h.1, Res.bind_ok, putAll]
    exact foldRes_put _ h.2

theorem foldRes_snoc : ∀ (d s : Doc), foldRes (fun d v => .ok (d ++ [v])) s d = .ok (s ++ d)
  | [], s => by simp [foldRes]
  | v :: d, s => by
    simp only [foldRes, Res.bind_ok]
    rw [foldRes_snoc d]
    simp

/-! ### marshaling -/

theorem validateLoop_rep (fuel : Nat) : ∀ {m : DocMap} {fs : Fields} (b : Bool), Entries m fs → fs.enc.length < 2147483648 → fs.enc.length < fuel →
    DocMap.validateLoop fuel b m = .ok b
  | [], .nil, b, _, _, _ => rfl
  | [], .cons _ _ _, _, h, _, _ => by simp [Entries] at h
  | _ :: _, .nil, _, h, _, _ => by simp [Entries] at h
  | (q, v) :: m, .cons k t fs, b, h, hl, hf => by
    rw [fieldsEnc_length] at hl hf
    unfold DocMap.validateLoop
    rw [elemValidate_rep fuel h.1 (by omega) (by omega), key_rep h.1]
    simp only [Res.bind_ok]
    exact validateLoop_rep fuel b h.2 (by omega) (by omega)

theorem validateLoop_append (fuel : Nat) : ∀ {m : DocMap} {fs : Fields} (b : Bool) (m2 : DocMap), Entries m fs → fs.enc.length < 2147483648 → fs.enc.length < fuel →
    DocMap.validateLoop fuel b (m ++ m2) = DocMap.validateLoop fuel b m2
  | [], .nil, b, _, _, _, _ => rfl
  | [], .cons _ _ _, _, _, h, _, _ => by simp [Entries] at h
  | _ :: _, .nil, _, _, h, _, _ => by simp [Entries] at h
  | (q, v) :: m, .cons k t fs, b, m2, h, hl, hf => by
    rw [fieldsEnc_length] at hl hf
    rw [List.cons_append]
    conv => lhs; unfold DocMap.validateLoop
    rw [elemValidate_rep fuel h.1 (by omega) (by omega), key_rep h.1]
    simp only [Res.bind_ok]
    exact validateLoop_append fuel b m2 h.2 (by omega) (by omega)

theorem entries_rep : ∀ {m : DocMap} {fs : Fields}, Entries m fs → RepFields (m.map Prod.snd) fs
  | [], .nil, _ => by simp [RepFields]
  | [], .cons _ _ _, h => by simp [Entries] at h
  | _ :: _, .nil, h => by simp [Entries] at h
  | (q, v) :: m, .cons k t fs, h => ⟨h.1, entries_rep h.2⟩

theorem marshalDocument_rep (fuel : Nat) {m : DocMap} {fs : Fields} (h : Entries m fs) (hl : fs.enc.length < 2147483648) (hf : fs.enc.length < fuel) :
    DocMap.marshalDocument fuel m = .ok (m.map Prod.snd) := by
  simp [DocMap.marshalDocument, DocMap.validate, validateLoop_rep fuel false h hl hf]

/-! ### both -/

/-- an entry of a map with the value its element stands for -/
abbrev Entry := Bytes × Value × BVal

def Entry.size : List Entry → Nat
  | [] => 0
  | x :: l => (x.1.length + 2 + x.2.2.enc.length) + Entry.size l

theorem Entry.size_filter (p : Entry → Bool) : ∀ l, Entry.size (l.filter p) ≤ Entry.size l
  | [] => Nat.le_refl _
  | x :: l => by
    have := Entry.size_filter p l
    by_cases h : p x <;> simp [h, Entry.size] <;> omega

theorem Entry.size_perm {l l' : List Entry} (h : l.Perm l') : Entry.size l = Entry.size l' := by
  induction h with
  | nil => rfl
  | cons x _ ih => simp only [Entry.size]; omega
  | swap x y l => simp only [Entry.size]; omega
  | trans _ _ h1 h2 => omega

def Entry.map (l : List Entry) : DocMap := l.map (fun x => (x.1, x.2.1))
def Entry.fields (l : List Entry) : Fields := Fields.ofList (l.map (fun x => (x.1, x.2.2)))

theorem perm_lift {α β : Type} (f : α → β) {a b : List β} (h : a.Perm b) : ∀ l : List α, b = l.map f → ∃ l' : List α, l'.Perm l ∧ a = l'.map f := by
  induction h with
  | nil => intro l e; exact ⟨l, .refl _, e⟩
  | cons x h ih =>
    intro l e
    cases l with
    | nil => simp at e
    | cons y l =>
      simp only [List.map_cons, List.cons.injEq] at e
      obtain ⟨l', h1, h2⟩ := ih l e.2
      exact ⟨y :: l', h1.cons y, by simp [e.1, h2]⟩
  | swap x y l0 =>
    intro l e
    match l, e with
    | [], e => simp at e
    | [_], e => simp at e
    | a :: b :: l, e =>
      simp only [List.map_cons, List.cons.injEq] at e
      exact ⟨b :: a :: l, .swap _ _ _, by simp [e.1, e.2.1, e.2.2]⟩
  | trans _ _ h1 h2 =>
    intro l e
    obtain ⟨l1, a1, b1⟩ := h2 l e
    obtain ⟨l2, a2, b2⟩ := h1 l1 b1
    exact ⟨l2, a2.trans a1, b2⟩

theorem entry_entries : ∀ {l : List Entry}, (∀ x ∈ l, Rep x.2.1 x.1 x.2.2) → Entries (Entry.map l) (Entry.fields l)
  | [], _ => trivial
  | x :: l, h => ⟨h x (by simp), entry_entries (fun y hy => h y (by simp [hy]))⟩

theorem entry_size : ∀ (l : List Entry), (Entry.fields l).enc.length = Entry.size l
  | [] => rfl
  | x :: l => by
    have := entry_size l
    simp only [Entry.fields, List.map_cons, Fields.ofList] at this ⊢
    rw [fieldsEnc_length, this, Entry.size]

theorem entry_keys : ∀ (l : List Entry), (Entry.fields l).keys = l.map (·.1)
  | [] => rfl
  | x :: l => by
    have := entry_keys l
    simp only [Entry.fields, List.map_cons, Fields.ofList, Fields.keys] at this ⊢
    rw [this]

theorem last_none : ∀ (fs : Fields) (k : Bytes), fs.last k = none ↔ k ∉ fs.keys
  | .nil, k => by simp [Fields.last, Fields.keys]
  | .cons k' t fs, k => by
    have := last_none fs k
    simp only [Fields.last, Fields.keys, List.mem_cons, not_or]
    cases h : fs.last k with
    | some t' => simp [h] at this ⊢; intro _; exact this
    | none =>
      simp only [h, true_iff] at this
      by_cases hk : k' = k
      · simp [hk]
      · simp [hk, this, Ne.symm hk]

theorem entry_last : ∀ {l : List Entry}, (l.map (·.1)).Nodup → ∀ {k : Bytes} {t : BVal}, (Entry.fields l).last k = some t ↔ ∃ v, (k, v, t) ∈ l
  | [], _, k, t => by simp [Entry.fields, Fields.ofList, Fields.last]
  | x :: l, h, k, t => by
    simp only [List.map_cons, List.nodup_cons] at h
    have ih := fun t => entry_last h.2 (k := k) (t := t)
    obtain ⟨k', v', t'⟩ := x
    have e : Entry.fields ((k', v', t') :: l) = .cons k' t' (Entry.fields l) := rfl
    rw [e]
    simp only [Fields.last, List.mem_cons, Prod.mk.injEq]
    cases hl : (Entry.fields l).last k with
    | some t'' =>
      rw [hl] at ih
      have hk : k ≠ k' := by
        rintro rfl
        obtain ⟨v, hv⟩ := (ih t'').mp rfl
        exact h.1 (List.mem_map.mpr ⟨_, hv, rfl⟩)
      rw [ih t]
      simp [hk]
    | none =>
      rw [hl] at ih
      have hno : ∀ v, (k, v, t) ∉ l := fun v hv => by simpa using (ih t).mpr ⟨v, hv⟩
      by_cases hk : k' = k
      · subst hk; simp [hno, eq_comm]
      · simp [hk, Ne.symm hk, hno]

/-- writing fields into a map, with the values the elements stand for -/
theorem putAll_entries : ∀ {d : Doc} {fs : Fields} (l : List Entry), RepFields d fs → (∀ x ∈ l, Rep x.2.1 x.1 x.2.2) → (l.map (·.1)).Nodup →
    ∃ l', putAll (Entry.map l) d fs = Entry.map l' ∧ (∀ x ∈ l', Rep x.2.1 x.1 x.2.2) ∧ (l'.map (·.1)).Nodup ∧
      Entry.size l' ≤ Entry.size l + fs.enc.length ∧
      ∀ k t, (∃ v, (k, v, t) ∈ l') ↔ fs.last k = some t ∨ fs.last k = none ∧ ∃ v, (k, v, t) ∈ l
  | [], .nil, l, _, h1, h2 => ⟨l, by simp [putAll], h1, h2, by omega, by simp [Fields.last]⟩
  | [], .cons _ _ _, _, h, _, _ => by simp [RepFields] at h
  | _ :: _, .nil, _, h, _, _ => by simp [RepFields] at h
  | v :: d, .cons k t fs, l, h, h1, h2 => by
    have hs := Entry.size_filter (fun x => x.1 != k) l
    obtain ⟨l', a, b, c, e, g⟩ := putAll_entries ((k, v, t) :: l.filter (fun x => x.1 != k)) h.2
      (by
        intro x hx
        rcases List.mem_cons.mp hx with rfl | hx
        · exact h.1
        · exact h1 x (List.mem_filter.mp hx).1)
      (by
        simp only [List.map_cons, List.nodup_cons]
        refine ⟨?_, (List.Sublist.map _ (List.filter_sublist (l := l))).nodup h2⟩
        simp)
    refine ⟨l', ?_, b, c, ?_, ?_⟩
    · rw [← a]
      simp only [putAll, Assoc.put, Entry.map, List.map_cons, List.filter_map]
      rfl
    · simp only [Entry.size] at e
      rw [fieldsEnc_length]; omega
    · intro k0 t0
      rw [g]
      simp only [Fields.last]
      cases hl : fs.last k0 with
      | some t' => simp
      | none =>
        by_cases hk : k = k0
        · subst hk; simp [eq_comm]
        · simp [hk, Ne.symm hk]

/-! ### `Document.Unmarshal` -/

theorem get_erase (k : Bytes) : ∀ (m : GoMap) (k' : Bytes), GoMap.get k' (m.erase k) = if k' = k then none else GoMap.get k' m
  | .nil, k' => by simp [GoMap.erase, GoMap.get]
  | .cons q g m, k' => by
    have ih := get_erase k m k'
    simp only [GoMap.erase]
    by_cases hq : q = k
    · subst hq
      simp only [if_true, ih, GoMap.get]
      by_cases hk : k' = q
      · simp [hk]
      · simp [hk, Ne.symm hk]
    · simp only [if_neg hq, GoMap.get, ih]
      by_cases hk : q = k'
      · subst hk; simp [hq]
      · simp [hk]

theorem get_push (k : Bytes) (g : Go) : ∀ (m : GoMap) (k' : Bytes), GoMap.get k' (m.push k g) = (GoMap.get k' m).or (if k = k' then some g else none)
  | .nil, k' => by simp [GoMap.push, GoMap.get]
  | .cons q g' m, k' => by
    simp only [GoMap.push, GoMap.get, get_push k g m k']
    by_cases hq : q = k' <;> simp [hq]

theorem get_assign (k : Bytes) (g : Go) (m : GoMap) (k' : Bytes) : GoMap.get k' (m.assign k g) = if k = k' then some g else GoMap.get k' m := by
  rw [GoMap.assign, get_push, get_erase]
  by_cases hk : k = k'
  · subst hk; simp
  · simp [hk, Ne.symm hk]

theorem exportLoop_get {f : Value → Res Go} {N : Nat} (hf : ∀ v k t, Rep v k t → t.NoDecimal → t.enc.length < N → f v = .ok (goOf t)) :
    ∀ {d : Doc} {fs : Fields} (out : GoMap), RepFields d fs → fs.NoDecimal → fs.enc.length < N →
      ∃ out', exportLoop f d out = .ok out' ∧ ∀ k, GoMap.get k out' = ((fs.last k).map goOf).or (GoMap.get k out)
  | [], .nil, out, _, _, _ => ⟨out, rfl, by simp [Fields.last]⟩
  | [], .cons _ _ _, _, h, _, _ => by simp [RepFields] at h
  | _ :: _, .nil, _, h, _, _ => by simp [RepFields] at h
  | v :: d, .cons k t fs, out, h, hd, hl => by
    rw [fieldsEnc_length] at hl
    obtain ⟨out', h1, h2⟩ := exportLoop_get hf (out.assign k (goOf t)) h.2 hd.2 (by omega)
    refine ⟨out', ?_, ?_⟩
    · unfold exportLoop
      rw [key_rep h.1, hf v k t h.1 hd.1 (by omega)]
      exact h1
    · intro k'
      rw [h2, get_assign]
      simp only [Fields.last]
      cases fs.last k' with
      | some t' => simp
      | none => by_cases hk : k = k' <;> simp [hk]

theorem unmarshalStrings_rep : ∀ {d : Doc} {fs : Fields} (out : Assoc Bytes), RepFields d fs →
    ∃ out', unmarshalStrings d out = .ok out' ∧ ∀ k, out'.lookup k = (fs.lastString k).or (out.lookup k)
  | [], .nil, out, _ => ⟨out, rfl, by simp [Fields.lastString]⟩
  | [], .cons _ _ _, _, h => by simp [RepFields] at h
  | _ :: _, .nil, _, h => by simp [RepFields] at h
  | v :: d, .cons k t fs, out, h => by
    unfold unmarshalStrings
    rw [Registry.stringOK_rep h.1, key_rep h.1]
    simp only [Res.bind_ok]
    cases t with
    | string s =>
      obtain ⟨out', h1, h2⟩ := unmarshalStrings_rep (out.put k s) h.2
      refine ⟨out', h1, fun k' => ?_⟩
      rw [h2, lookup_put]
      simp only [Fields.lastString]
      cases fs.lastString k' with
      | some s' => simp
      | none => by_cases hk : k = k' <;> simp [hk, eq_comm]
    | _ =>
      obtain ⟨out', h1, h2⟩ := unmarshalStrings_rep out h.2
      refine ⟨out', h1, fun k' => ?_⟩
      rw [h2]
      simp only [Fields.lastString]
      cases fs.lastString k' <;> rfl

/-! ### the two models of `Document.UnmarshalBSON` -/

theorem iterLoop_next (fuel : Nat) (r : Bytes) (pos end_ : Nat) :
    iterLoop (fuel + 1) r pos end_ = (do
      match ← iterNext r pos end_ with
      | none => .ok []
      | some (v, pos') => do
        let rest ← iterLoop fuel r pos' end_
        .ok (v :: rest)) := by
  conv => lhs; unfold iterLoop
  unfold iterNext
  by_cases h : pos ≥ end_
  · simp [h]
  · simp only [if_neg h]
    cases idx r pos with
    | ok t =>
      simp only [Res.bind_ok]
      by_cases ht : t = 0
      · simp [ht]
      · simp only [if_neg ht]
        cases readerKey r (u32 (pos + 1)) end_ with
        | ok n =>
          simp only [Res.bind_ok]
          cases rawSize r pos (u32 (u32 (pos + 1) + n)) <;> rfl
        | _ => rfl
    | _ => rfl

theorem eachLoop_iterLoop : ∀ (fuel : Nat) (r : Bytes) (pos end_ : Nat) (s : Doc),
    match iterLoop fuel r pos end_ with
    | .ok d => eachLoop (fun d v => .ok (d ++ [v])) fuel r pos end_ s = (s ++ d, .ok ())
    | .err e => (eachLoop (fun d v => .ok (d ++ [v])) fuel r pos end_ s).2 = .err e
    | .panic => (eachLoop (fun d v => .ok (d ++ [v])) fuel r pos end_ s).2 = .panic
    | .oof => (eachLoop (fun d v => .ok (d ++ [v])) fuel r pos end_ s).2 = .oof
  | 0, r, pos, end_, s => rfl
  | fuel + 1, r, pos, end_, s => by
    rw [iterLoop_next]
    unfold eachLoop
    cases iterNext r pos end_ with
    | ok x =>
      cases x with
      | none => simp
      | some x =>
        obtain ⟨v, pos'⟩ := x
        have := eachLoop_iterLoop fuel r pos' end_ (s ++ [v])
        simp only [Res.bind_ok]
        revert this
        cases iterLoop fuel r pos' end_ with
        | ok d => intro h; simpa using h
        | err e => intro h; exact h
        | panic => intro h; exact h
        | oof => intro h; exact h
    | err e => rfl
    | panic => rfl
    | oof => rfl

end Birch.Proofs
