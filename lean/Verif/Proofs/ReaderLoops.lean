import Verif.Model.ReaderLoops
import Verif.Spec.ReaderLoops
import Verif.Proofs.ReaderWalk
namespace Birch.Proofs.ReaderLoops
open Birch Birch.Model Birch.Model.ReaderLoops Birch.Spec Birch.Spec.ReaderLoops Birch.Proofs

attribute [local irreducible] i32 u32 u32i u64i i64

/-- the result as it is where the size beside an error is left out -/
def strict : Nat × Option Err → Res Nat
  | (n, none) => .ok n
  | (_, some e) => .err e

theorem ite_bind {α β : Type} (c : Prop) [Decidable c] (a b : Res α) (f : α → Res β) : ((if c then a else b) >>= f) = if c then a >>= f else b >>= f := by
  split <;> rfl

theorem bind_bind {α β γ : Type} (x : Res α) (f : α → Res β) (g : β → Res γ) : ((x >>= f) >>= g) = (x >>= fun a => f a >>= g) := by
  cases x <;> rfl

theorem sized_rawSize (data : Bytes) (start offset : Nat) : rawSize data start offset = sized data start offset >>= strict := by
  unfold rawSize sized
  simp only [ite_bind, bind_bind, Res.bind_ok, Res.bind_panic, strict]

theorem keyed_readerKey (r : Bytes) (pos end_ : Nat) : readerKey r pos end_ = keyed r pos end_ >>= strict := by
  unfold readerKey keyed
  simp only [ite_bind, Res.bind_ok, Res.bind_panic, strict]


/-- no error is returned as a result -/
def NoErr {α : Type} (x : Res α) : Prop := ∀ e, x ≠ .err e

theorem noErr_ok {α : Type} (a : α) : NoErr (.ok a) := fun _ h => by cases h
theorem noErr_panic {α : Type} : NoErr (α := α) .panic := fun _ h => by cases h
theorem noErr_bind {α β : Type} {x : Res α} {f : α → Res β} (h : NoErr x) (hf : ∀ a, NoErr (f a)) : NoErr (x >>= f) := by
  cases x with
  | ok a => exact hf a
  | err e => exact absurd rfl (h e)
  | panic => exact noErr_panic
  | oof => intro e h; cases h
theorem noErr_ite {α : Type} {c : Prop} [Decidable c] {a b : Res α} (ha : NoErr a) (hb : NoErr b) : NoErr (if c then a else b) := by
  split <;> assumption
theorem noErr_idx (b : Bytes) (i : Nat) : NoErr (idx b i) := by
  unfold idx; split
  · exact noErr_ok _
  · exact noErr_panic
theorem noErr_slice (b : Bytes) (lo hi : Nat) : NoErr (slice b lo hi) := by
  unfold slice; exact noErr_ite (noErr_ok _) noErr_panic
theorem noErr_readi32 (b : Bytes) : NoErr (readi32 b) := by
  unfold readi32 rdU32
  refine noErr_bind ?_ (fun _ => noErr_ok _)
  split
  · exact noErr_ok _
  · exact noErr_panic

theorem noErr_keyed (r : Bytes) (pos end_ : Nat) : NoErr (keyed r pos end_) := by
  unfold keyed
  exact noErr_ite (noErr_ok _) (noErr_ite noErr_panic (noErr_ok _))

theorem noErr_sized (data : Bytes) (start offset : Nat) : NoErr (sized data start offset) := by
  unfold sized
  repeat' first
    | exact noErr_ok _
    | exact noErr_panic
    | exact noErr_idx _ _
    | exact noErr_slice _ _ _
    | exact noErr_readi32 _
    | apply noErr_ite
    | apply noErr_bind
    | intro _
    | split

/-- the iterator of the model that stops at errors -/
def walk (it : It) : ReaderWalk.Walk := ⟨it.r, it.pos, it.end_⟩

/-- `Next`, as far as it is the same in both models -/
theorem next_iterNext (it : It) :
    match iterNext it.r it.pos it.end_ with
    | .ok none => next it = .ok (it, none)
    | .ok (some (v, p)) => next it = .ok ({ it with pos := p }, some v)
    | .err e => ∃ p, next it = .ok ({ it with pos := p, err := some e }, none)
    | .panic => next it = .panic
    | .oof => next it = .oof := by
  unfold iterNext next
  by_cases h : it.pos ≥ it.end_
  · rw [if_pos h, if_pos h]; exact ⟨it.pos, rfl⟩
  rw [if_neg h, if_neg h]
  cases hi : idx it.r it.pos with
  | ok t =>
    simp only [Res.bind_ok]
    by_cases ht : t = 0
    · rw [if_pos ht, if_pos ht]
    rw [if_neg ht, if_neg ht, keyed_readerKey]
    cases hk : keyed it.r (u32 (it.pos + 1)) it.end_ with
    | ok x =>
      obtain ⟨n, e⟩ := x
      cases e with
      | some e => exact ⟨_, rfl⟩
      | none =>
        simp only [Res.bind_ok, strict]
        rw [sized_rawSize]
        cases hs : sized it.r it.pos (u32 (u32 (it.pos + 1) + n)) with
        | ok x =>
          obtain ⟨m, e⟩ := x
          cases e with
          | some e => exact ⟨_, rfl⟩
          | none => rfl
        | err e => exact absurd hs (noErr_sized _ _ _ e)
        | _ => rfl
    | err e => exact absurd hk (noErr_keyed _ _ _ e)
    | _ => rfl
  | err e => exact absurd hi (noErr_idx _ _ e)
  | _ => rfl

/-- a loop over an iterator that has no error is a loop of the model that stops at errors -/
theorem range_walk : ∀ (fuel : Nat) (it : It) (stop : Option Nat), it.err = none →
    match ReaderWalk.range fuel (walk it) stop with
    | (vs, .ok w) => range fuel it stop = (vs, .done, ⟨w.r, w.pos, w.end_, none⟩)
    | (vs, .err e) => ∃ p, range fuel it stop = (vs, .error e, ⟨it.r, p, it.end_, some e⟩)
    | (vs, .panic) => ∃ it', range fuel it stop = (vs, .panic, it')
    | (vs, .oof) => ∃ it', range fuel it stop = (vs, .oof, it')
  | 0, it, stop, h => ⟨it, rfl⟩
  | fuel + 1, it, stop, h => by
    have hn := next_iterNext it
    unfold ReaderWalk.range range
    simp only [walk]
    cases hi : iterNext it.r it.pos it.end_ with
    | ok x =>
      rw [hi] at hn
      cases x with
      | none =>
        simp only at hn
        rw [hn]
        simp only [close]
        rw [h]
        obtain ⟨r, p, e, er⟩ := it
        cases h; rfl
      | some x =>
        obtain ⟨v, p⟩ := x
        simp only at hn
        rw [hn]
        simp only
        by_cases hs : stop = some 0
        · rw [if_pos hs, if_pos hs]
          rw [h]; rfl
        · rw [if_neg hs, if_neg hs]
          have := range_walk fuel { it with pos := p } (stop.map (· - 1)) h
          simp only [walk] at this
          rcases hx : ReaderWalk.range fuel ⟨it.r, p, it.end_⟩ (stop.map (· - 1)) with ⟨vs, y⟩
          rw [hx] at this
          cases y with
          | ok w => simp only at this ⊢; rw [this]
          | err e => obtain ⟨q, this⟩ := this; exact ⟨q, by rw [this]⟩
          | panic => obtain ⟨q, this⟩ := this; exact ⟨q, by rw [this]⟩
          | oof => obtain ⟨q, this⟩ := this; exact ⟨q, by rw [this]⟩
    | err e =>
      rw [hi] at hn
      obtain ⟨p, hn⟩ := hn
      simp only
      rw [hn]
      exact ⟨p, rfl⟩
    | panic => rw [hi] at hn; simp only at hn ⊢; rw [hn]; exact ⟨_, rfl⟩
    | oof => rw [hi] at hn; simp only at hn ⊢; rw [hn]; exact ⟨_, rfl⟩

theorem next_err {it it' : It} {v : Option Value} (h : next it = .ok (it', v)) (he : it.err.isSome) : it'.err.isSome := by
  have hn := next_iterNext it
  cases hi : iterNext it.r it.pos it.end_ with
  | ok x =>
    rw [hi] at hn
    cases x with
    | none => simp only at hn; rw [hn] at h; cases h; exact he
    | some x => obtain ⟨w, p⟩ := x; simp only at hn; rw [hn] at h; cases h; exact he
  | err e => rw [hi] at hn; obtain ⟨p, hn⟩ := hn; rw [hn] at h; cases h; rfl
  | panic => rw [hi] at hn; simp only at hn; rw [hn] at h; cases h
  | oof => rw [hi] at hn; simp only at hn; rw [hn] at h; cases h

/-- the error stays, and no loop over an iterator with an error ends without one -/
theorem range_stale : ∀ (fuel : Nat) (it : It) (stop : Option Nat), it.err.isSome →
    (range fuel it stop).2.1 ≠ .done ∧ (range fuel it stop).2.2.err.isSome
  | 0, it, stop, h => ⟨by simp [range], h⟩
  | fuel + 1, it, stop, h => by
    unfold range
    split
    · rename_i it' hn
      have := next_err hn h
      refine ⟨?_, this⟩
      simp only [close]
      obtain ⟨e, he⟩ := Option.isSome_iff_exists.mp this
      rw [he]; simp
    · rename_i it' v hn
      have := next_err hn h
      split
      · simp [this]
      · exact range_stale fuel it' _ this
    all_goals exact ⟨by simp, h⟩

/-- leaving a loop over an iterator with an error -/
theorem range_break : ∀ (fuel : Nat) (it : It) (n : Nat), it.err.isSome →
    (n < (range fuel it none).1.length → (range fuel it (some n)).1 = (range fuel it none).1.take (n + 1) ∧ (range fuel it (some n)).2.1 = .calledAgain) ∧
    ((range fuel it none).1.length ≤ n → range fuel it (some n) = range fuel it none)
  | 0, it, n, h => ⟨by simp [range], by simp [range]⟩
  | fuel + 1, it, n, h => by
    unfold range
    cases hn : next it with
    | ok x =>
      obtain ⟨it', v⟩ := x
      have he := next_err hn h
      cases v with
      | none => simp
      | some v =>
        simp only [reduceCtorEq, if_false, Option.map_none]
        cases n with
        | zero => simp [he]
        | succ n =>
          have := range_break fuel it' n he
          simp only [Option.some.injEq, Nat.add_eq_zero_iff, Nat.one_ne_zero, and_false, if_false, Option.map_some, Nat.add_sub_cancel, List.length_cons]
          refine ⟨fun hl => ?_, fun hl => ?_⟩
          · obtain ⟨h1, h2⟩ := this.1 (by omega)
            exact ⟨by rw [h1]; rfl, h2⟩
          · rw [this.2 (by omega)]
    | _ => simp

/-- a loop over encoded fields, whatever follows them and wherever the end is said to be -/
theorem range_enc : ∀ (fs : Fields) (_ : fs.WF) (hd post : Bytes) (end_ : Nat), hd.length + fs.enc.length ≤ end_ → (hd ++ (fs.enc ++ post)).length < 2147483648 →
    ∃ d, RepFields d fs ∧ d.length ≤ fs.enc.length ∧ ∀ er fuel, range (fuel + d.length) ⟨hd ++ (fs.enc ++ post), hd.length, end_, er⟩ none =
      (d ++ (range fuel ⟨hd ++ (fs.enc ++ post), hd.length + fs.enc.length, end_, er⟩ none).1, (range fuel ⟨hd ++ (fs.enc ++ post), hd.length + fs.enc.length, end_, er⟩ none).2)
  | .nil, wf, hd, post, end_, h1, h3 => by
    refine ⟨[], by simp [RepFields], by simp, ?_⟩
    intro er fuel
    simp [Fields.enc]
  | .cons k t rest, wf, hd, post, end_, h1, h3 => by
    obtain ⟨hk, ht, hr⟩ := wf
    have er : hd ++ ((Fields.cons k t rest).enc ++ post) = hd ++ t.tag :: (k ++ 0 :: (t.enc ++ (rest.enc ++ post))) := by simp [Fields.enc]
    rw [fieldsEnc_length] at h1
    rw [er] at h3 ⊢
    have hn := ReaderWalk.next_enc hk ht hd (rest.enc ++ post) end_ (by omega) h3
    have h3' := h3
    simp only [List.length_append, List.length_cons] at h3
    obtain ⟨d, hrep, hlen, hstep⟩ := range_enc rest hr (hd ++ t.tag :: (k ++ 0 :: t.enc)) post end_ (by simp; omega) (by simp; omega)
    refine ⟨.raw hd.length (hd.length + k.length + 2) (hd ++ t.tag :: (k ++ 0 :: (t.enc ++ (rest.enc ++ post)))) :: d, ?_, ?_, ?_⟩
    · exact ⟨by simp only [Rep]; exact ⟨hk, ht, h3', hd, rest.enc ++ post, rfl, rfl, rfl⟩, hrep⟩
    · rw [fieldsEnc_length]; simp; omega
    · intro er fuel
      have := hstep er fuel
      simp only [List.append_assoc, List.cons_append, List.length_append, List.length_cons] at this
      rw [List.length_cons, ← Nat.add_assoc, fieldsEnc_length]
      have hx := next_iterNext ⟨hd ++ t.tag :: (k ++ 0 :: (t.enc ++ (rest.enc ++ post))), hd.length, end_, er⟩
      simp only at hx
      rw [hn] at hx
      simp only at hx
      conv => lhs; unfold range
      rw [hx]
      simp only [reduceCtorEq, if_false, Option.map_none]
      rw [show hd.length + k.length + 2 + t.enc.length = hd.length + (k.length + (t.enc.length + 1) + 1) by omega, this,
        show hd.length + (k.length + (t.enc.length + 1) + 1) + rest.enc.length = hd.length + (k.length + 2 + t.enc.length + rest.enc.length) by omega]
      rfl

theorem keyed_enc {k : Bytes} (hk : NulFree k) (hd tl : Bytes) (end_ : Nat) (h1 : hd.length + k.length + 1 ≤ end_) :
    keyed (hd ++ (k ++ 0 :: tl)) hd.length end_ = .ok (k.length + 1, none) := by
  have := ReaderWalk.readerKey_enc' hk hd tl end_ h1
  rw [keyed_readerKey] at this
  obtain ⟨⟨n, e⟩, h2, h3⟩ := Res.bind_eq_ok.mp this
  cases e with
  | some e => cases h3
  | none => cases h3; exact h2

/-- `Next` at a boolean that is neither 0 nor 1 -/
theorem next_boolean {k : Bytes} (hk : NulFree k) {v : UInt8} (h0 : v ≠ 0) (h1 : v ≠ 1) (hd tl : Bytes) (end_ : Nat) (er : Option Err)
    (h2 : hd.length + k.length + 3 ≤ end_) (h3 : (hd ++ 8 :: (k ++ 0 :: (v :: tl))).length < 2147483648) :
    next ⟨hd ++ 8 :: (k ++ 0 :: (v :: tl)), hd.length, end_, er⟩ =
      .ok (⟨hd ++ 8 :: (k ++ 0 :: (v :: tl)), hd.length + k.length + 3, end_, some .invalidBooleanType⟩, none) := by
  simp only [List.length_append, List.length_cons] at h3
  have s2 : keyed (hd ++ 8 :: (k ++ 0 :: (v :: tl))) (hd.length + 1) end_ = .ok (k.length + 1, none) := by
    have := keyed_enc hk (hd ++ [8]) (v :: tl) end_ (by simp; omega)
    simpa using this
  have s3 : idx (hd ++ 8 :: (k ++ 0 :: (v :: tl))) (hd.length + k.length + 2) = .ok v := by
    have := idx_append (hd ++ 8 :: (k ++ [0])) v tl
    simpa [Nat.add_assoc] using this
  unfold next
  simp only
  rw [if_neg (by omega), idx_append]
  simp only [Res.bind_ok]
  rw [if_neg (by decide), u32_small (n := hd.length + 1) (by omega), s2]
  simp only [Res.bind_ok]
  rw [u32_small (n := hd.length + 1 + (k.length + 1)) (by omega), show hd.length + 1 + (k.length + 1) = hd.length + k.length + 2 by omega]
  have s4 : sized (hd ++ 8 :: (k ++ 0 :: (v :: tl))) hd.length (hd.length + k.length + 2) = .ok (1, some .invalidBooleanType) := by
    unfold sized
    rw [if_neg (by simp), idx_append]
    simp only [Res.bind_ok]
    rw [if_neg (by decide), if_neg (by decide), if_neg (by decide), if_neg (by decide), if_neg (by decide), if_neg (by decide), if_pos (by decide),
      u32_small (by omega), if_neg (by simp; omega), s3]
    simp only [Res.bind_ok]
    rw [if_pos ⟨h0, h1⟩]
  rw [s4]
  simp only [Res.bind_ok]
  rw [u32_small (by omega)]

/-- `Next` at a binary of an unknown subtype -/
theorem next_binary {k : Bytes} (hk : NulFree k) {st : UInt8} (h0 : st > 5) (h1 : st < 128) (n : Nat) (hd tl : Bytes) (end_ : Nat) (er : Option Err)
    (h2 : hd.length + k.length + 7 ≤ end_) (h3 : (hd ++ 5 :: (k ++ 0 :: (le32 n ++ st :: tl))).length < 2147483648) :
    next ⟨hd ++ 5 :: (k ++ 0 :: (le32 n ++ st :: tl)), hd.length, end_, er⟩ =
      .ok (⟨hd ++ 5 :: (k ++ 0 :: (le32 n ++ st :: tl)), hd.length + k.length + 7, end_, some .invalidBinarySubtype⟩, none) := by
  simp only [List.length_append, List.length_cons, le32_length] at h3
  have s2 : keyed (hd ++ 5 :: (k ++ 0 :: (le32 n ++ st :: tl))) (hd.length + 1) end_ = .ok (k.length + 1, none) := by
    have := keyed_enc hk (hd ++ [5]) (le32 n ++ st :: tl) end_ (by simp; omega)
    simpa using this
  have s3 : idx (hd ++ 5 :: (k ++ 0 :: (le32 n ++ st :: tl))) (hd.length + k.length + 6) = .ok st := by
    have := idx_append (hd ++ 5 :: (k ++ 0 :: le32 n)) st tl
    simpa [Nat.add_assoc] using this
  have s5 : slice (hd ++ 5 :: (k ++ 0 :: (le32 n ++ st :: tl))) (hd.length + k.length + 2) (hd.length + k.length + 6) = .ok (le32 n) := by
    have := slice_mid (hd ++ 5 :: (k ++ [0])) (le32 n) (st :: tl) (lo := hd.length + k.length + 2) (hi := hd.length + k.length + 6) (by simp; omega) (by simp; omega)
    simpa [Nat.add_assoc] using this
  unfold next
  simp only
  rw [if_neg (by omega), idx_append]
  simp only [Res.bind_ok]
  rw [if_neg (by decide), u32_small (n := hd.length + 1) (by omega), s2]
  simp only [Res.bind_ok]
  rw [u32_small (n := hd.length + 1 + (k.length + 1)) (by omega), show hd.length + 1 + (k.length + 1) = hd.length + k.length + 2 by omega]
  have s4 : sized (hd ++ 5 :: (k ++ 0 :: (le32 n ++ st :: tl))) hd.length (hd.length + k.length + 2) = .ok (5, some .invalidBinarySubtype) := by
    obtain ⟨z, hz⟩ : ∃ z, readi32 (le32 n) = .ok z := ⟨_, rfl⟩
    unfold sized
    rw [if_neg (by simp), idx_append]
    simp only [Res.bind_ok]
    rw [if_neg (by decide), if_neg (by decide), if_neg (by decide), if_neg (by decide), if_pos (by decide),
      u32_small (n := hd.length + k.length + 2 + 5) (by omega), u32_small (n := hd.length + k.length + 2 + 4) (by omega), if_neg (by simp; omega), s5]
    simp only [Res.bind_ok, hz]
    rw [s3]
    simp only [Res.bind_ok]
    rw [if_pos ⟨h0, h1⟩]
  rw [s4]
  simp only [Res.bind_ok]
  rw [u32_small (by omega)]

/-- a loop of which the first `Next` is false -/
theorem range_stop {it it' : It} (h : next it = .ok (it', none)) (fuel : Nat) (stop : Option Nat) : range (fuel + 1) it stop = ([], close it', it') := by
  unfold range; rw [h]

theorem next_zero {r : Bytes} {pos end_ : Nat} {er : Option Err} (h : pos < end_) (h2 : r[pos]? = some 0) : next ⟨r, pos, end_, er⟩ = .ok (⟨r, pos, end_, er⟩, none) := by
  unfold next
  simp only
  rw [if_neg (by omega)]
  have : idx r pos = .ok 0 := by unfold idx; rw [h2]
  rw [this]; rfl

theorem next_past {r : Bytes} {pos end_ : Nat} {er : Option Err} (h : end_ ≤ pos) :
    next ⟨r, pos, end_, er⟩ = .ok (⟨r, pos, end_, some .invalidReadOnlyDocument⟩, none) := by
  unfold next
  simp only
  rw [if_pos h]

theorem takeWhile_all : ∀ {k : Bytes}, NulFree k → k.takeWhile (· ≠ 0) = k
  | [], _ => rfl
  | c :: k, h => by
    rw [List.takeWhile_cons_of_pos (by simpa using h c (by simp)), takeWhile_all fun x hx => h x (by simp [hx])]

/-- `Next` at a key that is not ended -/
theorem next_key {k : Bytes} (hk : NulFree k) {t : UInt8} (ht : t ≠ 0) (hd tl : Bytes) (er : Option Err) (h3 : (hd ++ t :: (k ++ tl)).length < 2147483648) :
    next ⟨hd ++ t :: (k ++ tl), hd.length, hd.length + k.length + 1, er⟩ =
      .ok (⟨hd ++ t :: (k ++ tl), hd.length + k.length + 1, hd.length + k.length + 1, some .invalidKey⟩, none) := by
  simp only [List.length_append, List.length_cons] at h3
  have s2 : keyed (hd ++ t :: (k ++ tl)) (hd.length + 1) (hd.length + k.length + 1) = .ok (k.length, some .invalidKey) := by
    have e : (((hd ++ t :: (k ++ tl)).take (hd.length + k.length + 1)).drop (hd.length + 1)).takeWhile (· ≠ 0) = k := by
      have e1 : (hd ++ t :: (k ++ tl)) = (hd ++ t :: k) ++ tl := by simp
      rw [e1, List.take_left' (by simp; omega), show hd ++ t :: k = (hd ++ [t]) ++ k by simp, List.drop_left' (by simp)]
      exact takeWhile_all hk
    unfold keyed
    rw [e]
    simp only
    rw [if_pos (by omega)]
  unfold next
  simp only
  rw [if_neg (by omega), idx_append]
  simp only [Res.bind_ok]
  rw [if_neg ht, u32_small (n := hd.length + 1) (by omega), s2]
  simp only [Res.bind_ok]
  rw [u32_small (by omega), show hd.length + 1 + k.length = hd.length + k.length + 1 by omega]

theorem len_takeWhile_le (b : Bytes) : (b.takeWhile (· ≠ 0)).length ≤ b.length := by
  induction b with
  | nil => simp
  | cons c b ih => by_cases h : c = 0 <;> simp [h] <;> simpa using ih

/-- the size beside an error -/
theorem sized_skipped {data : Bytes} {start off n : Nat} {t : UInt8} {e : Err} (hl : data.length < 2147483648) (ho : off ≤ data.length)
    (ht : idx data start = .ok t) (h : sized data start off = .ok (n, some e)) : n = skipped t (data.drop off) := by
  have hne : data ≠ [] := by rintro rfl; simp [idx] at ht
  unfold sized at h
  rw [if_neg hne, ht] at h
  simp only [Res.bind_ok] at h
  have hd : (data.drop off).length = data.length - off := by simp
  unfold skipped
  rw [hd]
  rw [u32_small (n := off + 4) (by omega), u32_small (n := off + 5) (by omega), u32_small (n := off + 1) (by omega)] at h
  by_cases c1 : t = 0x06 ∨ t = 0x0A ∨ t = 0xFF ∨ t = 0x7F
  · rw [if_pos c1] at h; cases h
  rw [if_neg c1] at h
  by_cases c2 : t = 0x01
  · subst c2
    simp only [if_true] at h
    split at h <;> cases h
    simp
  rw [if_neg c2] at h
  by_cases c3 : t = 0x02 ∨ t = 0x0D ∨ t = 0x0E
  · rw [if_pos c3] at h
    rw [if_pos (by rcases c3 with h | h | h <;> simp [h])]
    split at h
    · cases h; rw [if_pos (by omega)]
    · rw [if_neg (by omega)]
      obtain ⟨_, _, h⟩ := Res.bind_eq_ok.mp h
      obtain ⟨_, _, h⟩ := Res.bind_eq_ok.mp h
      split at h <;> cases h
      rfl
  rw [if_neg c3] at h
  by_cases c4 : t = 0x03 ∨ t = 0x04
  · rw [if_pos c4] at h
    rw [if_pos (by rcases c4 with h | h <;> simp [h])]
    split at h
    · cases h; rw [if_pos (by omega)]
    · rw [if_neg (by omega)]
      obtain ⟨_, _, h⟩ := Res.bind_eq_ok.mp h
      obtain ⟨_, _, h⟩ := Res.bind_eq_ok.mp h
      split at h
      · cases h; rfl
      · split at h <;> cases h
        rfl
  rw [if_neg c4] at h
  by_cases c5 : t = 0x05
  · subst c5
    simp only [if_true] at h
    simp only [show ¬ ((5 : UInt8) = 2 ∨ (5 : UInt8) = 3 ∨ (5 : UInt8) = 4 ∨ (5 : UInt8) = 12 ∨ (5 : UInt8) = 13 ∨ (5 : UInt8) = 14 ∨ (5 : UInt8) = 15) by decide, if_false, if_true]
    split at h
    · cases h; rw [if_pos (by omega)]
    · rw [if_neg (by omega)]
      obtain ⟨_, _, h⟩ := Res.bind_eq_ok.mp h
      obtain ⟨_, _, h⟩ := Res.bind_eq_ok.mp h
      obtain ⟨_, _, h⟩ := Res.bind_eq_ok.mp h
      split at h
      · cases h; rfl
      · split at h <;> cases h
        rfl
  rw [if_neg c5] at h
  by_cases c6 : t = 0x07
  · subst c6
    simp only [if_true] at h
    split at h <;> cases h
    simp
  rw [if_neg c6] at h
  by_cases c7 : t = 0x08
  · subst c7
    simp only [if_true] at h
    simp only [show ¬ ((8 : UInt8) = 2 ∨ (8 : UInt8) = 3 ∨ (8 : UInt8) = 4 ∨ (8 : UInt8) = 12 ∨ (8 : UInt8) = 13 ∨ (8 : UInt8) = 14 ∨ (8 : UInt8) = 15) by decide,
      show ¬ (8 : UInt8) = 5 by decide, if_false, if_true]
    split at h
    · cases h; rw [if_pos (by omega)]
    · rw [if_neg (by omega)]
      obtain ⟨_, _, h⟩ := Res.bind_eq_ok.mp h
      split at h <;> cases h
      rfl
  rw [if_neg c7] at h
  by_cases c8 : t = 0x09
  · subst c8
    simp only [if_true] at h
    split at h <;> cases h
    simp
  rw [if_neg c8] at h
  by_cases c9 : t = 0x0B
  · subst c9
    simp only [if_true] at h
    simp only [show ¬ ((11 : UInt8) = 2 ∨ (11 : UInt8) = 3 ∨ (11 : UInt8) = 4 ∨ (11 : UInt8) = 12 ∨ (11 : UInt8) = 13 ∨ (11 : UInt8) = 14 ∨ (11 : UInt8) = 15) by decide,
      show ¬ (11 : UInt8) = 5 by decide, show ¬ (11 : UInt8) = 8 by decide, if_false, if_true]
    have l1 := len_takeWhile_le (data.drop off)
    have l2 := len_takeWhile_le (data.drop (off + (cstrAt data off).length + 1))
    rw [if_neg (by omega)] at h
    simp only [List.length_drop] at l1 l2
    change (cstrAt data off).length ≤ _ at l1
    change (cstrAt data (off + (cstrAt data off).length + 1)).length ≤ _ at l2
    split at h
    · cases h; rw [u32_small (by omega)]; omega
    · split at h <;> cases h
      rw [u32_small (by omega)]; omega
  rw [if_neg c9] at h
  by_cases c10 : t = 0x0C
  · subst c10
    simp only [if_true] at h
    rw [if_pos (by decide)]
    split at h
    · cases h; rw [if_pos (by omega)]
    · rw [if_neg (by omega)]
      obtain ⟨_, _, h⟩ := Res.bind_eq_ok.mp h
      obtain ⟨_, _, h⟩ := Res.bind_eq_ok.mp h
      split at h <;> cases h
      rfl
  rw [if_neg c10] at h
  by_cases c11 : t = 0x0F
  · subst c11
    simp only [if_true] at h
    rw [if_pos (by decide)]
    split at h
    · cases h; rw [if_pos (by omega)]
    · rw [if_neg (by omega)]
      obtain ⟨_, _, h⟩ := Res.bind_eq_ok.mp h
      obtain ⟨_, _, h⟩ := Res.bind_eq_ok.mp h
      split at h <;> cases h
      rfl
  rw [if_neg c11] at h
  have c : n = 0 := by
    split at h
    · split at h <;> cases h
      rfl
    · split at h
      · split at h <;> cases h
        rfl
      · split at h
        · split at h <;> cases h
          rfl
        · cases h; rfl
  rw [c, if_neg (by rintro (h | h | h | h | h | h | h) <;> simp_all), if_neg c5, if_neg c7, if_neg c9]

/-- `Next` at a field with a bad value -/
theorem next_bad {k : Bytes} (hk : NulFree k) {t : UInt8} (ht : t ≠ 0) (hd rest : Bytes) (end_ : Nat) (er : Option Err) (it' : It)
    (h2 : hd.length + k.length + 2 ≤ end_) (h3 : (hd ++ t :: (k ++ 0 :: rest)).length < 2147483648)
    (h : next ⟨hd ++ t :: (k ++ 0 :: rest), hd.length, end_, er⟩ = .ok (it', none)) :
    ∃ e, it' = ⟨hd ++ t :: (k ++ 0 :: rest), hd.length + k.length + 2 + skipped t rest, end_, some e⟩ := by
  have h3' := h3
  simp only [List.length_append, List.length_cons] at h3
  have s2 : keyed (hd ++ t :: (k ++ 0 :: rest)) (hd.length + 1) end_ = .ok (k.length + 1, none) := by
    have := keyed_enc hk (hd ++ [t]) rest end_ (by simp; omega)
    simpa using this
  unfold next at h
  simp only at h
  rw [if_neg (by omega), idx_append] at h
  simp only [Res.bind_ok] at h
  rw [if_neg ht, u32_small (n := hd.length + 1) (by omega), s2] at h
  simp only [Res.bind_ok] at h
  rw [u32_small (n := hd.length + 1 + (k.length + 1)) (by omega), show hd.length + 1 + (k.length + 1) = hd.length + k.length + 2 by omega] at h
  obtain ⟨⟨m, e⟩, hs, h⟩ := Res.bind_eq_ok.mp h
  cases e with
  | none => cases h
  | some e =>
    have := sized_skipped h3' (by simp; omega) (idx_append _ _ _) hs
    rw [show hd ++ t :: (k ++ 0 :: rest) = (hd ++ t :: (k ++ [0])) ++ rest by simp, List.drop_left' (by simp; omega)] at this
    subst this
    have hm : skipped t rest ≤ rest.length := by
      unfold skipped
      repeat' split
      all_goals omega
    rw [u32_small (by omega)] at h
    cases h
    exact ⟨e, rfl⟩

end Birch.Proofs.ReaderLoops
