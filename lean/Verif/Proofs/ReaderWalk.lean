import Verif.Model.ReaderWalk
import Verif.Spec.ReaderWalk
import Verif.Proofs.DocMap
import Verif.Proofs.Totality
import Verif.Proofs.Fuel
namespace Birch.Proofs.ReaderWalk
open Birch Birch.Model Birch.Model.ReaderWalk Birch.Spec Birch.Spec.ReaderWalk Birch.Proofs

attribute [local irreducible] i32 u32 u32i u64i i64

theorem at_range : ∀ (fuel : Nat) (r : Bytes) (pos end_ i : Nat),
    elementAtLoop fuel r pos end_ i = nth (range fuel ⟨r, pos, end_⟩ none).1 (range fuel ⟨r, pos, end_⟩ none).2 i
  | 0, r, pos, end_, i => by simp [elementAtLoop, range, nth]
  | fuel + 1, r, pos, end_, i => by
    unfold elementAtLoop range
    cases iterNext r pos end_ with
    | ok x =>
      cases x with
      | none => simp [nth]
      | some x =>
        obtain ⟨v, pos'⟩ := x
        simp only [reduceCtorEq, if_false, Option.map_none]
        cases i with
        | zero => simp [nth]
        | succ i =>
          have := at_range fuel r pos' end_ i
          simpa [nth] using this
    | _ => simp [nth]

theorem read_range : ∀ (fuel : Nat) (r : Bytes) (pos end_ : Nat),
    iterLoop fuel r pos end_ = (range fuel ⟨r, pos, end_⟩ none).2 >>= fun _ => .ok (range fuel ⟨r, pos, end_⟩ none).1
  | 0, r, pos, end_ => by simp [iterLoop, range]
  | fuel + 1, r, pos, end_ => by
    rw [iterLoop_next]
    unfold range
    cases iterNext r pos end_ with
    | ok x =>
      cases x with
      | none => simp
      | some x =>
        obtain ⟨v, pos'⟩ := x
        simp only [reduceCtorEq, if_false, Option.map_none, Res.bind_ok]
        rw [read_range fuel r pos' end_]
        cases (range fuel ⟨r, pos', end_⟩ none).2 <;> rfl
    | _ => rfl

/-- one loop over bytes that can be read -/
theorem range_read : ∀ (fuel : Nat) (r : Bytes) (pos end_ : Nat) (d : Doc) (stop : Option Nat), iterLoop fuel r pos end_ = .ok d →
    ∃ pos', range fuel ⟨r, pos, end_⟩ stop = (match stop with | none => d | some n => d.take (n + 1), .ok ⟨r, pos', end_⟩) ∧
      iterLoop fuel r pos' end_ = .ok (match stop with | none => [] | some n => d.drop (n + 1))
  | 0, r, pos, end_, d, stop, h => by simp [iterLoop] at h
  | fuel + 1, r, pos, end_, d, stop, h => by
    have h0 := h
    rw [iterLoop_next] at h
    unfold range
    cases hn : iterNext r pos end_ with
    | ok x =>
      rw [hn] at h
      cases x with
      | none =>
        simp only [Res.bind_ok, Res.ok.injEq] at h
        subst h
        refine ⟨pos, ?_, ?_⟩
        · cases stop <;> simp
        · rw [h0]; cases stop <;> simp
      | some x =>
        obtain ⟨v, pos'⟩ := x
        simp only [Res.bind_ok] at h
        obtain ⟨rest, h1, h2⟩ := Res.bind_eq_ok.mp h
        simp only [Res.ok.injEq] at h2
        subst h2
        simp only
        have up : ∀ p l, iterLoop fuel r p end_ = .ok l → iterLoop (fuel + 1) r p end_ = .ok l := fun p l hp => by
          rw [← hp]; exact iterLoop_mono _ _ _ _ _ (by omega) (by rw [hp]; simp)
        by_cases hs : stop = some 0
        · subst hs
          refine ⟨pos', by simp, ?_⟩
          simpa using up _ _ h1
        · rw [if_neg hs]
          obtain ⟨p, h3, h4⟩ := range_read fuel r pos' end_ rest (stop.map (· - 1)) h1
          refine ⟨p, ?_, ?_⟩
          · rw [h3]
            cases stop with
            | none => rfl
            | some n =>
              cases n with
              | zero => exact absurd rfl hs
              | succ n => rfl
          · have := up _ _ h4
            rw [this]
            cases stop with
            | none => rfl
            | some n =>
              cases n with
              | zero => exact absurd rfl hs
              | succ n => rfl
    | err e => rw [hn] at h; simp at h
    | panic => rw [hn] at h; simp at h
    | oof => rw [hn] at h; simp at h

theorem ranges_read (fuel : Nat) (r : Bytes) (end_ : Nat) : ∀ (stops : List (Option Nat)) (pos : Nat) (d : Doc), iterLoop fuel r pos end_ = .ok d →
    ∃ w, ranges fuel ⟨r, pos, end_⟩ stops = (segments d stops, .ok w)
  | [], pos, d, h => ⟨_, rfl⟩
  | stop :: stops, pos, d, h => by
    obtain ⟨p, h1, h2⟩ := range_read fuel r pos end_ d stop h
    obtain ⟨w, h3⟩ := ranges_read fuel r end_ stops p _ h2
    refine ⟨w, ?_⟩
    unfold ranges
    rw [h1]
    simp only [h3]
    cases stop <;> simp [segments]

/-! ### encoded fields -/

theorem readerKey_enc' {k : Bytes} (hk : NulFree k) (hd tl : Bytes) (end_ : Nat) (h1 : hd.length + k.length + 1 ≤ end_) :
    readerKey (hd ++ (k ++ 0 :: tl)) hd.length end_ = .ok (k.length + 1) := by
  have e : (((hd ++ (k ++ 0 :: tl)).take end_).drop hd.length).takeWhile (· ≠ 0) = k := by
    have : (hd ++ (k ++ 0 :: tl)).take end_ = hd ++ (k ++ 0 :: tl.take (end_ - hd.length - k.length - 1)) := by
      rw [List.take_append, List.take_of_length_le (by omega), List.take_append,
        List.take_of_length_le (by omega)]
      congr 2
      obtain ⟨m, hm⟩ : ∃ m, end_ - hd.length - k.length = m + 1 := ⟨end_ - hd.length - k.length - 1, by omega⟩
      rw [hm, List.take_succ_cons]; simp
    rw [this, List.drop_left, takeWhile_nulFree hk]
  unfold readerKey
  rw [e]
  simp only [List.length_append, List.length_cons]
  rw [if_neg (by omega), if_neg (by omega)]

/-- `Next` on an encoded field -/
theorem next_enc {k : Bytes} {t : BVal} (hk : NulFree k) (ht : t.WF) (hd post : Bytes) (end_ : Nat)
    (h1 : hd.length + k.length + t.enc.length + 2 ≤ end_) (h3 : (hd ++ t.tag :: (k ++ 0 :: (t.enc ++ post))).length < 2147483648) :
    iterNext (hd ++ t.tag :: (k ++ 0 :: (t.enc ++ post))) hd.length end_ =
      .ok (some (.raw hd.length (hd.length + k.length + 2) (hd ++ t.tag :: (k ++ 0 :: (t.enc ++ post))), hd.length + k.length + 2 + t.enc.length)) := by
  simp only [List.length_append, List.length_cons] at h3
  have s2 : readerKey (hd ++ t.tag :: (k ++ 0 :: (t.enc ++ post))) (hd.length + 1) end_ = .ok (k.length + 1) := by
    have := readerKey_enc' hk (hd ++ [t.tag]) (t.enc ++ post) end_ (by simp; omega)
    simpa using this
  have s3 : rawSize (hd ++ t.tag :: (k ++ 0 :: (t.enc ++ post))) hd.length (hd.length + k.length + 2) = .ok t.enc.length := by
    have := rawSize_enc t ht (hd ++ t.tag :: (k ++ [0])) post hd.length (by simp) (by simp; omega)
    simpa [Nat.add_assoc] using this
  unfold iterNext
  rw [if_neg (by omega), idx_append]
  simp only [Res.bind_ok]
  rw [if_neg (tag_ne_zero t), u32_small (n := hd.length + 1) (by omega), s2]
  simp only [Res.bind_ok]
  rw [u32_small (n := hd.length + 1 + (k.length + 1)) (by omega),
    show hd.length + 1 + (k.length + 1) = hd.length + k.length + 2 by omega, s3]
  simp only [Res.bind_ok]
  rw [u32_small (by omega)]

/-- a loop over encoded fields, whatever follows them and wherever the end is said to be -/
theorem range_enc : ∀ (fs : Fields) (_ : fs.WF) (hd post : Bytes) (end_ : Nat), hd.length + fs.enc.length ≤ end_ → (hd ++ (fs.enc ++ post)).length < 2147483648 →
    ∃ d, RepFields d fs ∧ d.length ≤ fs.enc.length ∧ ∀ fuel, range (fuel + d.length) ⟨hd ++ (fs.enc ++ post), hd.length, end_⟩ none =
      (d ++ (range fuel ⟨hd ++ (fs.enc ++ post), hd.length + fs.enc.length, end_⟩ none).1, (range fuel ⟨hd ++ (fs.enc ++ post), hd.length + fs.enc.length, end_⟩ none).2)
  | .nil, wf, hd, post, end_, h1, h3 => by
    refine ⟨[], by simp [RepFields], by simp, ?_⟩
    intro fuel
    simp [Fields.enc]
  | .cons k t rest, wf, hd, post, end_, h1, h3 => by
    obtain ⟨hk, ht, hr⟩ := wf
    have er : hd ++ ((Fields.cons k t rest).enc ++ post) = hd ++ t.tag :: (k ++ 0 :: (t.enc ++ (rest.enc ++ post))) := by simp [Fields.enc]
    rw [fieldsEnc_length] at h1
    rw [er] at h3 ⊢
    have hn := next_enc hk ht hd (rest.enc ++ post) end_ (by omega) h3
    have h3' := h3
    simp only [List.length_append, List.length_cons] at h3
    obtain ⟨d, hrep, hlen, hstep⟩ := range_enc rest hr (hd ++ t.tag :: (k ++ 0 :: t.enc)) post end_ (by simp; omega) (by simp; omega)
    refine ⟨.raw hd.length (hd.length + k.length + 2) (hd ++ t.tag :: (k ++ 0 :: (t.enc ++ (rest.enc ++ post)))) :: d, ?_, ?_, ?_⟩
    · exact ⟨by simp only [Rep]; exact ⟨hk, ht, h3', hd, rest.enc ++ post, rfl, rfl, rfl⟩, hrep⟩
    · rw [fieldsEnc_length]; simp; omega
    · intro fuel
      have := hstep fuel
      simp only [List.append_assoc, List.cons_append, List.length_append, List.length_cons] at this
      rw [List.length_cons, ← Nat.add_assoc, fieldsEnc_length]
      conv => lhs; unfold range
      rw [hn]
      simp only [reduceCtorEq, if_false, Option.map_none]
      rw [show hd.length + k.length + 2 + t.enc.length = hd.length + (k.length + (t.enc.length + 1) + 1) by omega, this,
        show hd.length + (k.length + (t.enc.length + 1) + 1) + rest.enc.length = hd.length + (k.length + 2 + t.enc.length + rest.enc.length) by omega]
      rfl

theorem rep_at : ∀ {d : Doc} {fs : Fields} {i : Nat} {k : Bytes} {t : BVal}, RepFields d fs → fs.toList[i]? = some (k, t) → ∃ v, d[i]? = some v ∧ Rep v k t
  | [], .nil, i, k, t, _, hi => by simp [Fields.toList] at hi
  | [], .cons _ _ _, _, _, _, h, _ => by simp [RepFields] at h
  | _ :: _, .nil, _, _, _, h, _ => by simp [RepFields] at h
  | v :: d, .cons k' t' fs, i, k, t, h, hi => by
    cases i with
    | zero =>
      simp only [Fields.toList, List.getElem?_cons_zero, Option.some.injEq, Prod.mk.injEq] at hi
      obtain ⟨rfl, rfl⟩ := hi
      exact ⟨v, rfl, h.1⟩
    | succ i =>
      simp only [Fields.toList, List.getElem?_cons_succ] at hi ⊢
      exact rep_at h.2 hi

theorem readerEnd_le32 {L : Nat} {body : Bytes} (h1 : 1 ≤ body.length) (h2 : L ≤ 4 + body.length) (h3 : 4 + body.length < 2147483648) :
    readerEnd (le32 L ++ body) = .ok L := by
  unfold readerEnd
  rw [if_neg (by simp; omega), readi32_le32_nat (by omega)]
  simp only [Res.bind_ok]
  rw [if_neg (by simp; omega), u32i_nat (by omega)]

theorem iterEnd_negative {L : Nat} {body : Bytes} (h1 : 1 ≤ body.length) (h2 : 2147483648 ≤ L) (h3 : L < 4294967296) :
    iterEnd (le32 L ++ body) = .ok L ∧ readerEnd (le32 L ++ body) = .err .invalidLength := by
  have e : u32i ((L : Int) - 4294967296) = L := by with_unfolding_all (unfold u32i; omega)
  have hr := readi32_le32_int (z := (L : Int) - 4294967296) (by omega) (by omega) body
  rw [e] at hr
  unfold iterEnd readerEnd
  rw [if_neg (by simp; omega), if_neg (by simp; omega), hr]
  simp only [Res.bind_ok]
  rw [if_neg (by simp; omega), if_pos (by right; omega), e]
  exact ⟨rfl, rfl⟩

theorem zero_at {a b : Bytes} (tl : Bytes) {n : Nat} (h : n = a.length + b.length) : (a ++ (b ++ 0 :: tl))[n]? = some 0 := by
  rw [← List.append_assoc, h, ← List.length_append, List.getElem?_append_right (Nat.le_refl _), Nat.sub_self]
  rfl

/-- what there is at the end of the fields -/
theorem range_end (fuel : Nat) (r : Bytes) (pos end_ : Nat) :
    (end_ ≤ pos → range (fuel + 1) ⟨r, pos, end_⟩ none = ([], .err .invalidReadOnlyDocument)) ∧
    (pos < end_ → r[pos]? = some 0 → range (fuel + 1) ⟨r, pos, end_⟩ none = ([], .ok ⟨r, pos, end_⟩)) ∧
    (pos < end_ → r.length ≤ pos → range (fuel + 1) ⟨r, pos, end_⟩ none = ([], .panic)) := by
  refine ⟨fun h => ?_, fun h h2 => ?_, fun h h2 => ?_⟩ <;> unfold range iterNext
  · simp only; rw [if_pos h]
  · simp only; rw [if_neg (by omega)]
    have : idx r pos = .ok 0 := by unfold idx; rw [h2]
    rw [this]; rfl
  · simp only; rw [if_neg (by omega)]
    have : idx r pos = .panic := by unfold idx; rw [List.getElem?_eq_none h2]
    rw [this]; rfl

/-! ### any bytes -/

theorem next_safe {r : Bytes} {end_ : Nat} (he : end_ ≤ r.length) (hl : r.length < 2147483648) (pos : Nat) :
    (∃ x, iterNext r pos end_ = .ok x) ∨ ∃ e, iterNext r pos end_ = .err e := by
  unfold iterNext
  by_cases hp : pos ≥ end_
  · exact .inr ⟨_, if_pos hp⟩
  rw [if_neg hp, idx_lt (by omega)]
  simp only [Res.bind_ok]
  by_cases ht : r[pos] = 0
  · exact .inl ⟨_, if_pos ht⟩
  rw [if_neg ht]
  obtain ⟨h1, h2⟩ := readerKey_spec (r := r) (pos := pos + 1) (end_ := end_) (by omega) he
  rw [u32_small (n := pos + 1) (by omega)]
  rcases h1 with ⟨n, h1⟩ | ⟨e, h1⟩
  · obtain ⟨k, rest, hn, hk, hd, hle⟩ := h2 n h1
    rw [h1]
    simp only [Res.bind_ok]
    rw [u32_small (by omega)]
    rcases rawSize_safe (data := r) (pos := pos) (off := pos + 1 + n) (by omega) (by omega) hl with ⟨m, hm⟩ | ⟨e, hm⟩
    · exact .inl ⟨_, by rw [hm]; rfl⟩
    · exact .inr ⟨e, by rw [hm]; rfl⟩
  · exact .inr ⟨e, by rw [h1]; rfl⟩

theorem at_returns {r : Bytes} {end_ : Nat} (he : end_ ≤ r.length) (hl : r.length < 2147483648) : ∀ (i pos fuel : Nat), i < fuel →
    ((∃ v, elementAtLoop fuel r pos end_ i = .ok v) ∨ ∃ e, elementAtLoop fuel r pos end_ i = .err e) ∧
      elementAtLoop fuel r pos end_ i = elementAtLoop (i + 1) r pos end_ i
  | i, pos, 0, h => by omega
  | i, pos, fuel + 1, h => by
    unfold elementAtLoop
    rcases next_safe he hl pos with ⟨x, hx⟩ | ⟨e, hx⟩
    · rw [hx]
      cases x with
      | none => exact ⟨.inr ⟨_, rfl⟩, rfl⟩
      | some x =>
        obtain ⟨v, pos'⟩ := x
        simp only
        cases i with
        | zero => exact ⟨.inl ⟨_, if_pos rfl⟩, rfl⟩
        | succ i =>
          rw [if_neg (by omega), if_neg (by omega)]
          exact at_returns he hl i pos' fuel (by omega)
    · rw [hx]; exact ⟨.inr ⟨_, rfl⟩, rfl⟩

end Birch.Proofs.ReaderWalk
