import Verif.Model.Search
import Verif.Spec.Path
import Verif.Proofs.Readers
import Verif.Proofs.Compare
import Verif.Proofs.Fuel

namespace Birch.Proofs
open Birch Model Spec

attribute [local irreducible] i32 u32 u32i u64i i64
set_option linter.unusedSimpArgs false
set_option linter.unusedVariables false

/-! ### numerals -/

theorem digit_eq (c : UInt8) : digit c = if c < 48 ∨ c > 57 then none else some ((c - 48).toNat) := by
  unfold digit
  by_cases h : 48 ≤ c.toNat ∧ c.toNat ≤ 57
  · have h1 : ¬ (c < 48 ∨ c > 57) := by
      simp only [UInt8.lt_iff_toNat_lt, gt_iff_lt]
      have e1 : (48 : UInt8).toNat = 48 := rfl
      have e2 : (57 : UInt8).toNat = 57 := rfl
      omega
    rw [if_pos h, if_neg h1, UInt8.toNat_sub_of_le _ _ (by rw [UInt8.le_iff_toNat_le]; exact h.1)]
    rfl
  · have h1 : (c < 48 ∨ c > 57) := by
      simp only [UInt8.lt_iff_toNat_lt, gt_iff_lt]
      have e1 : (48 : UInt8).toNat = 48 := rfl
      have e2 : (57 : UInt8).toNat = 57 := rfl
      omega
    rw [if_neg h, if_pos h1]

theorem foldl_none : ∀ s : Bytes, s.foldl addDigit (none : Option Nat) = none
  | [] => rfl
  | c :: s => by simp only [List.foldl_cons]; exact foldl_none s

theorem atoiDigits_eq : ∀ (s : Bytes) (acc : Nat), atoiDigits acc s = s.foldl addDigit (some acc)
  | [], acc => rfl
  | c :: s, acc => by
    simp only [List.foldl_cons]
    unfold atoiDigits
    rw [show addDigit (some acc) c = (digit c).map fun d => 10 * acc + d from rfl, digit_eq]
    by_cases h : c < 48 ∨ c > 57
    · rw [if_pos h, if_pos h]; exact (foldl_none s).symm
    · rw [if_neg h, if_neg h, atoiDigits_eq s, Nat.mul_comm]; rfl

theorem atoiDigits_digits {s : Bytes} (h : s ≠ []) : atoiDigits 0 s = digits s := by
  rw [atoiDigits_eq, digits, if_neg h]

theorem lookup_neg {a : Doc} (ha : a.length < 9223372036854775808) {n : Nat} (h1 : n ≤ 9223372036854775808) :
    lookupInt a (-(n : Int)) = if n = 0 then a[0]? else none := by
  unfold lookupInt
  by_cases h : n = 0
  · subst h; simp [u64i]
  · rw [if_neg h]
    apply List.getElem?_eq_none
    unfold u64i
    omega

theorem lookup_pos {a : Doc} {n : Nat} (h1 : n < 9223372036854775808) : lookupInt a (n : Int) = a[n]? := by
  unfold lookupInt
  rw [show u64i (n : Int) = n by unfold u64i; omega]

theorem atoi_pos {a : Doc} (ha : a.length < 9223372036854775808) (r : Bytes) :
    ((if r = [] then none else match atoiDigits 0 r with
      | none => none
      | some n => if n < 9223372036854775808 then some (n : Int) else none : Option Int)).bind (lookupInt a) =
      (digits r).bind (a[·]?) := by
  by_cases hr : r = []
  · subst hr; simp [digits]
  · rw [if_neg hr, atoiDigits_digits hr]
    cases digits r with
    | none => rfl
    | some n =>
      simp only [Option.bind_some]
      by_cases hn : n < 9223372036854775808
      · rw [if_pos hn]; exact lookup_pos hn
      · rw [if_neg hn]
        simp only [Option.bind_none]
        exact (List.getElem?_eq_none (by omega)).symm

theorem atoi_index {a : Doc} (ha : a.length < 9223372036854775808) (s : Bytes) :
    (atoi s).bind (lookupInt a) = (index s).bind (a[·]?) := by
  cases s with
  | nil => simp [atoi, index]
  | cons c r =>
    by_cases h1 : c = 45
    · subst h1
      simp only [atoi, index, if_neg (show ¬ (45 : UInt8) = 43 by decide), if_true]
      by_cases hr : r = []
      · subst hr; simp [digits]
      · rw [if_neg hr, atoiDigits_digits hr]
        cases digits r with
        | none => rfl
        | some n =>
          simp only []
          by_cases hn : n ≤ 9223372036854775808
          · rw [if_pos hn]
            simp only [Option.bind_some]
            rw [lookup_neg ha hn]
            cases n <;> simp
          · rw [if_neg hn]
            cases n with
            | zero => omega
            | succ n => rfl
    · by_cases h2 : c = 43
      · subst h2
        simp only [atoi, index, if_true, Bool.false_eq_true, if_false]
        exact atoi_pos ha r
      · have e : atoi (c :: r) = (if (c :: r) = [] then none else match atoiDigits 0 (c :: r) with
            | none => none
            | some n => if n < 9223372036854775808 then some (n : Int) else none) := by
          unfold atoi
          split
          next h =>
            split at h
            · simp_all
            · simp_all
            · cases h; rfl
        rw [e, index, if_neg h2, if_neg h1]
        exact atoi_pos ha (c :: r)

/-! ### one step -/

theorem findElem_rep (k : Bytes) : ∀ {d : Doc} {fs : Fields}, RepFields d fs →
    match fs.firstNamed k with
    | none => findElemForKey k d = .ok none
    | some t => ∃ v, findElemForKey k d = .ok (some v) ∧ Rep v k t ∧ t.enc.length ≤ fs.enc.length
  | [], .nil, _ => rfl
  | v :: d, .cons k' t fs, h => by
    simp only [RepFields] at h
    have ih := findElem_rep k h.2
    simp only [Fields.firstNamed, findElemForKey, key_rep h.1, Res.bind_ok]
    by_cases hk : k' = k
    · subst hk
      simp only [if_true]
      exact ⟨v, rfl, h.1, by rw [fieldsEnc_length]; omega⟩
    · rw [if_neg hk, if_neg hk]
      revert ih
      cases fs.firstNamed k with
      | none => exact id
      | some t' =>
        rintro ⟨w, h1, h2, h3⟩
        exact ⟨w, h1, h2, by rw [fieldsEnc_length]; omega⟩
  | _ :: _, .nil, h => by simp [RepFields] at h
  | [], .cons _ _ _, h => by simp [RepFields] at h

theorem getVal_rep : ∀ {a : Doc} {vs : Vals} (i j : Nat), RepVals a vs →
    match vs.get? i with
    | none => a[i]? = none
    | some t => ∃ v k, a[i]? = some v ∧ Rep v k t ∧ t.enc.length ≤ (vs.encFrom j).length
  | [], .nil, i, j, _ => by simp [Vals.get?]
  | v :: a, .cons t vs, 0, j, h => by
    simp only [RepVals] at h
    obtain ⟨⟨k, h1⟩, h2⟩ := h
    exact ⟨v, k, rfl, h1, by rw [encFrom_length]; omega⟩
  | v :: a, .cons t vs, i + 1, j, h => by
    simp only [RepVals] at h
    have ih := getVal_rep i (j + 1) h.2
    simp only [Vals.get?, List.getElem?_cons_succ]
    revert ih
    cases vs.get? i with
    | none => exact id
    | some t' =>
      rintro ⟨w, k, h1, h2, h3⟩
      exact ⟨w, k, h1, h2, by rw [encFrom_length]; omega⟩
  | _ :: _, .nil, _, _, h => by simp [RepVals] at h
  | [], .cons _ _, _, _, h => by simp [RepVals] at h

theorem repVals_length : ∀ {a : Doc} {vs : Vals} (j : Nat), RepVals a vs → a.length ≤ (vs.encFrom j).length
  | [], _, _, _ => by simp
  | v :: a, .cons t vs, j, h => by
    simp only [RepVals] at h
    have := repVals_length (j + 1) h.2
    rw [encFrom_length]; simp only [List.length_cons]; omega
  | _ :: _, .nil, _, h => by simp [RepVals] at h

theorem docOK_rep {fuel : Nat} {v : Value} {k : Bytes} {t : BVal} (h : Rep v k t)
    (hl : t.enc.length < 2147483648) (hf : t.enc.length < fuel) :
    match (generalizing := false) t with
    | .doc fs => ∃ d, mutableDocumentOK fuel v = .ok (some d) ∧ RepFields d fs
    | _ => mutableDocumentOK fuel v = .ok none := by
  have e : mutableDocumentOK fuel v = if t.tag ≠ 3 then .ok none else (mutableDocument fuel v >>= fun d => .ok (some d)) := by
    unfold mutableDocumentOK okVariant
    rw [if_neg (rep_offset h), (rep_key h).2.1]; rfl
  rw [e]
  cases t <;> try rfl
  obtain ⟨d, h1, h2⟩ := mutableDocument_rep h hl hf
  exact ⟨d, by rw [h1]; rfl, h2⟩

theorem arrOK_rep {fuel : Nat} {v : Value} {k : Bytes} {t : BVal} (h : Rep v k t)
    (hl : t.enc.length < 2147483648) (hf : t.enc.length < fuel) :
    match (generalizing := false) t with
    | .array vs => ∃ d, mutableArrayOK fuel v = .ok (some d) ∧ RepVals d vs
    | _ => mutableArrayOK fuel v = .ok none := by
  have e : mutableArrayOK fuel v = if t.tag ≠ 4 then .ok none else (mutableArray fuel v >>= fun d => .ok (some d)) := by
    unfold mutableArrayOK okVariant
    rw [if_neg (rep_offset h), (rep_key h).2.1]; rfl
  rw [e]
  cases t <;> try rfl
  obtain ⟨d, h1, h2⟩ := mutableArray_rep h hl hf
  exact ⟨d, by rw [h1]; rfl, h2⟩

/-- `v` is an element with key `k` and value `t`, up to the size limit on the buffer -/
def Gives (v : Value) (k : Bytes) (t : BVal) : Prop :=
  key v = .ok k ∧ type v = .ok t.tag ∧ (v.data.length < 2147483648 → Rep v k t)

theorem gives_rep {v : Value} {k : Bytes} {t : BVal} (h : Rep v k t) : Gives v k t := ⟨key_rep h, type_rep h, fun _ => h⟩

theorem index_nulFree {s : Bytes} {n : Nat} (h : index s = some n) : NulFree s := by
  have hd : ∀ r : Bytes, (digits r).isSome → NulFree r := by
    intro r
    unfold digits
    by_cases hr : r = []
    · subst hr; simp
    · rw [if_neg hr]
      generalize (some 0 : Option Nat) = acc
      clear hr
      induction r generalizing acc with
      | nil => simp [NulFree]
      | cons c r ih =>
        intro h
        simp only [List.foldl_cons] at h
        have hc := ih _ h
        have : c ≠ 0 := by
          rintro rfl
          have : addDigit acc 0 = none := by cases acc <;> rfl
          rw [this, foldl_none] at h
          simp at h
        intro x hx
        rcases List.mem_cons.1 hx with rfl | hx
        · exact this
        · exact hc x hx
  have hcons : ∀ (c : UInt8) (r : Bytes), c ≠ 0 → NulFree r → NulFree (c :: r) := by
    intro c r hc hr x hx
    rcases List.mem_cons.1 hx with rfl | hx
    · exact hc
    · exact hr x hx
  cases s with
  | nil => simp [NulFree]
  | cons c r =>
    unfold index at h
    simp only [] at h
    by_cases h1 : c = 43
    · rw [if_pos h1] at h; exact hcons _ _ (by subst h1; decide) (hd r (by simp [h]))
    · rw [if_neg h1] at h
      by_cases h2 : c = 45
      · rw [if_pos h2] at h
        refine hcons _ _ (by subst h2; decide) (hd r ?_)
        revert h
        cases digits r <;> simp
      · rw [if_neg h2] at h; exact hd _ (by simp [h])

/-- `EC.Value` keeps the value and changes the key -/
theorem convert_rep {v : Value} {k k' : Bytes} {t : BVal} (h : Rep v k t) (hk : NulFree k') (hl : k'.length < 2147483648) :
    ∃ w, convertValueToElem k' v = .ok (some w) ∧ Gives w k' t := by
  unfold convertValueToElem
  rw [if_neg (rep_offset h), (rep_key h).2.1]
  have hg : ∀ {w : Value} {tl : Bytes}, w.start = 0 → w.offset = k'.length + 2 → w.data = t.tag :: (k' ++ 0 :: tl) →
      (w.data.length < 2147483648 → Rep w k' t) → Gives w k' t := by
    intro w tl h0 h1 h2 h3
    refine ⟨?_, ?_, h3⟩
    · unfold key
      rw [if_neg (by rw [h1, h2]; simp), h0, h1, h2]
      exact slice_mid [t.tag] k' (0 :: tl) rfl (by simp; omega)
    · unfold type
      rw [if_neg (by rw [h1, h2]; simp), h0, h2]; rfl
  cases v with
  | raw s o data =>
    simp only [Rep] at h
    obtain ⟨hk0, wf, hl0, pre, post, rfl, rfl, rfl⟩ := h
    have e : slice (pre ++ t.tag :: (k ++ 0 :: (t.enc ++ post))) (pre.length + k.length + 2)
        (pre ++ t.tag :: (k ++ 0 :: (t.enc ++ post))).length = .ok (t.enc ++ post) := by
      have := slice_tail (pre ++ t.tag :: (k ++ [0])) (t.enc ++ post) (lo := pre.length + k.length + 2) (hi := (pre ++ t.tag :: (k ++ 0 :: (t.enc ++ post))).length)
        (by simp; omega) (by simp; omega)
      simpa using this
    simp only [Value.data, Value.offset]
    rw [e]
    simp only [Res.bind_ok]
    rw [u32_small (by omega)]
    refine ⟨_, rfl, hg rfl rfl rfl ?_⟩
    intro hl
    simp only [Rep]
    exact ⟨hk, wf, hl, [], post, by simp, rfl, by simp⟩
  | withDoc s o data d =>
    simp only [Rep] at h
    obtain ⟨hk0, hl0, pre, post, rfl, rfl, rfl, h⟩ := h
    have e : slice (pre ++ t.tag :: (k ++ 0 :: post)) (pre.length + k.length + 2)
        (pre ++ t.tag :: (k ++ 0 :: post)).length = .ok post := by
      have := slice_tail (pre ++ t.tag :: (k ++ [0])) post (lo := pre.length + k.length + 2) (hi := (pre ++ t.tag :: (k ++ 0 :: post)).length)
        (by simp; omega) (by simp; omega)
      simpa using this
    simp only [Value.data, Value.offset]
    rw [e]
    simp only [Res.bind_ok]
    rw [u32_small (by omega)]
    refine ⟨_, rfl, hg rfl rfl rfl ?_⟩
    intro hl
    simp only [Rep]
    exact ⟨hk, hl, [], post, by simp, rfl, by simp, h⟩

/-! ### paths -/

theorem follow_doc (pos : Bytes → Option Nat) (k : Bytes) (ks : List Bytes) (fs : Fields) :
    BVal.follow pos (k :: ks) (.doc fs) = (fs.firstNamed k).bind (BVal.follow pos ks) := rfl

theorem follow_array (pos : Bytes → Option Nat) (k : Bytes) (ks : List Bytes) (vs : Vals) :
    BVal.follow pos (k :: ks) (.array vs) = ((pos k).bind vs.get?).bind (BVal.follow pos ks) := rfl

theorem follow_leaf (pos : Bytes → Option Nat) (k : Bytes) (ks : List Bytes) (t : BVal) (h1 : ∀ fs, t ≠ .doc fs)
    (h2 : ∀ vs, t ≠ .array vs) : BVal.follow pos (k :: ks) t = none := by
  cases t <;> first | rfl | exact absurd rfl (h1 _) | exact absurd rfl (h2 _)

/-- the value of an array at the position written `k` -/
theorem lookup_rep {a : Doc} {vs : Vals} (h : RepVals a vs) (hl : (vs.encFrom 0).length < 2147483648) (k : Bytes) :
    match (index k).bind vs.get? with
    | none => (atoi k).bind (lookupInt a) = none
    | some t => NulFree k ∧ ∃ v k', (atoi k).bind (lookupInt a) = some v ∧ Rep v k' t ∧ t.enc.length ≤ (vs.encFrom 0).length := by
  have hlen := repVals_length 0 h
  rw [atoi_index (by omega)]
  cases hi : index k with
  | none => rfl
  | some i =>
    simp only [Option.bind_some]
    have := getVal_rep i 0 h
    revert this
    cases vs.get? i with
    | none => exact id
    | some t => exact fun h => ⟨index_nulFree hi, h⟩

mutual
theorem search_rep (fuel : Nat) : ∀ (path : List Bytes) {d : Doc} {fs : Fields}, (∀ k ∈ path, k.length < 2147483648) → RepFields d fs →
    fs.enc.length + 5 < 2147483648 → fs.enc.length + 5 < fuel → path ≠ [] →
    match BVal.follow index path (.doc fs) with
    | none => search fuel path d = .err .elementNotFound
    | some t => ∃ v k, path.getLast? = some k ∧ search fuel path d = .ok v ∧ Gives v k t
  | [], _, _, _, _, _, _, h => absurd rfl h
  | [k], d, fs, hp, h, hl, hf, _ => by
    have h1 := findElem_rep k h
    rw [follow_doc]
    simp only [search]
    revert h1
    cases fs.firstNamed k with
    | none => intro h1; rw [h1]; rfl
    | some t => 
      rintro ⟨v, h1, h2, h3⟩
      exact ⟨v, k, rfl, by rw [h1]; rfl, gives_rep h2⟩
  | k :: k' :: ks, d, fs, hp, h, hl, hf, _ => by
    have h1 := findElem_rep k h
    rw [follow_doc]
    simp only [search]
    revert h1
    cases fs.firstNamed k with
    | none => intro h1; rw [h1]; rfl
    | some t =>
      rintro ⟨v, h1, h2, h3⟩
      rw [h1]
      simp only [Res.bind_ok, Option.bind_some]
      have hd := docOK_rep (fuel := fuel) h2 (by omega) (by omega)
      have ha := arrOK_rep (fuel := fuel) h2 (by omega) (by omega)
      have hp' : ∀ x ∈ k' :: ks, x.length < 2147483648 := fun x hx => hp x (List.mem_cons_of_mem _ hx)
      cases t with
      | doc fs' =>
        obtain ⟨sd, hd1, hd2⟩ := hd
        rw [hd1]
        simp only [BVal.enc, wrapDoc_length] at h3
        exact search_rep fuel (k' :: ks) hp' hd2 (by omega) (by omega) (by simp)
      | array vs =>
        simp only [BVal.enc, wrapDoc_length] at h3
        obtain ⟨ar, ha1, ha2⟩ := ha
        rw [hd, ha1]
        simp only [Res.bind_ok]
        have := findStrKey_rep fuel (k' :: ks) hp' ha2 (by omega) (by omega) (by simp)
        revert this
        cases BVal.follow index (k' :: ks) (.array vs) with
        | none => intro e; rw [e]; rfl
        | some t' =>
          rintro ⟨w, k0, hk0, e, hw⟩
          exact ⟨w, k0, by simpa using hk0, by rw [e]; rfl, hw⟩
      | _ =>
        rw [follow_leaf _ _ _ _ (by intro _ h; cases h) (by intro _ h; cases h), hd, ha]; rfl
theorem findStrKey_rep (fuel : Nat) : ∀ (path : List Bytes) {a : Doc} {vs : Vals}, (∀ k ∈ path, k.length < 2147483648) → RepVals a vs →
    (vs.encFrom 0).length + 5 < 2147483648 → (vs.encFrom 0).length + 5 < fuel → path ≠ [] →
    match BVal.follow index path (.array vs) with
    | none => findStrKey fuel path a = .ok none
    | some t => ∃ v k, path.getLast? = some k ∧ findStrKey fuel path a = .ok (some v) ∧ Gives v k t
  | [], _, _, _, _, _, _, h => absurd rfl h
  | [k], a, vs, hp, h, hl, hf, _ => by
    have h1 := lookup_rep h (by omega) k
    rw [follow_array]
    simp only [findStrKey]
    revert h1
    cases (index k).bind vs.get? with
    | none =>
      intro h1
      simp only [Option.bind_none]
      cases hi : atoi k with
      | none => rfl
      | some i => rw [hi] at h1; simp only [Option.bind_some] at h1; simp only [h1]
    | some t =>
      rintro ⟨hn, v, k', h1, h2, h3⟩
      cases hi : atoi k with
      | none => rw [hi] at h1; cases h1
      | some i =>
        rw [hi] at h1; simp only [Option.bind_some] at h1; simp only [h1]
        obtain ⟨w, e, hw⟩ := convert_rep h2 hn (hp k (by simp))
        exact ⟨w, k, rfl, e, hw⟩
  | k :: k' :: ks, a, vs, hp, h, hl, hf, _ => by
    have h1 := lookup_rep h (by omega) k
    rw [follow_array]
    simp only [findStrKey]
    revert h1
    cases (index k).bind vs.get? with
    | none =>
      intro h1
      simp only [Option.bind_none]
      cases hi : atoi k with
      | none => rfl
      | some i => rw [hi] at h1; simp only [Option.bind_some] at h1; simp only [h1]
    | some t =>
      rintro ⟨hn, v, k1, h1, h2, h3⟩
      cases hi : atoi k with
      | none => rw [hi] at h1; cases h1
      | some i =>
        rw [hi] at h1; simp only [Option.bind_some] at h1; simp only [h1, Option.bind_some]
        have hd := docOK_rep (fuel := fuel) h2 (by omega) (by omega)
        have ha := arrOK_rep (fuel := fuel) h2 (by omega) (by omega)
        have hp' : ∀ x ∈ k' :: ks, x.length < 2147483648 := fun x hx => hp x (List.mem_cons_of_mem _ hx)
        cases t with
        | doc fs' =>
          obtain ⟨sd, hd1, hd2⟩ := hd
          rw [hd1]
          simp only [BVal.enc, wrapDoc_length] at h3
          simp only [Res.bind_ok]
          have := search_rep fuel (k' :: ks) hp' hd2 (by omega) (by omega) (by simp)
          revert this
          cases BVal.follow index (k' :: ks) (.doc fs') with
          | none => intro e; simp only [e, ha, Res.bind_ok]
          | some t' =>
            rintro ⟨w, k0, hk0, e, hw⟩
            exact ⟨w, k0, by simpa using hk0, by simp only [e], hw⟩
        | array vs' =>
          simp only [BVal.enc, wrapDoc_length] at h3
          obtain ⟨ar, ha1, ha2⟩ := ha
          rw [hd, ha1]
          simp only [Res.bind_ok]
          have := findStrKey_rep fuel (k' :: ks) hp' ha2 (by omega) (by omega) (by simp)
          revert this
          cases BVal.follow index (k' :: ks) (.array vs') with
          | none => exact id
          | some t' =>
            rintro ⟨w, k0, hk0, e, hw⟩
            exact ⟨w, k0, by simpa using hk0, e, hw⟩
        | _ =>
          rw [follow_leaf _ _ _ _ (by intro _ h; cases h) (by intro _ h; cases h), hd, ha]; rfl
end

/-! ### more fuel changes nothing -/

theorem okVariant_mono {α : Type} {x : UInt8} {f g : Value → Res α} {v : Value} (h : f v ≠ .oof → g v = f v)
    (h0 : okVariant x f v ≠ .oof) : okVariant x g v = okVariant x f v := by
  unfold okVariant at *
  by_cases h1 : v.offset = 0 ∨ v.data = []
  · rw [if_pos h1, if_pos h1]
  · rw [if_neg h1] at h0 ⊢
    rw [if_neg h1]
    refine bind_mono (fun _ => rfl) (fun t _ h2 => ?_) h0
    by_cases h3 : t ≠ x
    · rw [if_pos h3, if_pos h3]
    · rw [if_neg h3] at h2 ⊢
      rw [if_neg h3]
      exact bind_mono h (fun _ _ _ => rfl) h2

theorem docOK_mono {n m : Nat} {v : Value} (h : n ≤ m) (h0 : mutableDocumentOK n v ≠ .oof) : mutableDocumentOK m v = mutableDocumentOK n v :=
  okVariant_mono (fun h1 => mutableDocument_mono h h1) h0

theorem arrOK_mono {n m : Nat} {v : Value} (h : n ≤ m) (h0 : mutableArrayOK n v ≠ .oof) : mutableArrayOK m v = mutableArrayOK n v :=
  okVariant_mono (fun h1 => mutableArray_mono h h1) h0

mutual
theorem search_mono {n m : Nat} (h : n ≤ m) : ∀ (path : List Bytes) (d : Doc), search n path d ≠ .oof → search m path d = search n path d
  | [], d, _ => rfl
  | [k], d, _ => rfl
  | k :: k' :: ks, d, h0 => by
    simp only [search] at h0 ⊢
    refine bind_mono (fun _ => rfl) (fun r _ h1 => ?_) h0
    cases r with
    | none => rfl
    | some e =>
      refine bind_mono (fun h2 => docOK_mono h h2) (fun r _ h1 => ?_) h1
      cases r with
      | some sd => exact search_mono h (k' :: ks) sd h1
      | none =>
        refine bind_mono (fun h2 => arrOK_mono h h2) (fun r _ h1 => ?_) h1
        cases r with
        | none => rfl
        | some ar => exact bind_mono (fun h2 => findStrKey_mono h (k' :: ks) ar h2) (fun _ _ _ => rfl) h1
theorem findStrKey_mono {n m : Nat} (h : n ≤ m) : ∀ (path : List Bytes) (d : Doc), findStrKey n path d ≠ .oof →
    findStrKey m path d = findStrKey n path d
  | [], d, _ => rfl
  | [k], d, _ => rfl
  | k :: k' :: ks, a, h0 => by
    simp only [findStrKey] at h0 ⊢
    cases hi : atoi k with
    | none => rfl
    | some i =>
      rw [hi] at h0
      simp only [] at h0 ⊢
      cases hv : lookupInt a i with
      | none => rfl
      | some val =>
        rw [hv] at h0
        simp only [] at h0 ⊢
        have via : ∀ {P : Res (Option Value)}, (do
            match ← mutableArrayOK n val with
            | some sar => findStrKey n (k' :: ks) sar
            | none => Res.ok none) ≠ .oof → (do
            match ← mutableArrayOK m val with
            | some sar => findStrKey m (k' :: ks) sar
            | none => Res.ok none) = (do
            match ← mutableArrayOK n val with
            | some sar => findStrKey n (k' :: ks) sar
            | none => Res.ok none) := by
          intro _ h1
          refine bind_mono (fun h2 => arrOK_mono h h2) (fun r _ h1 => ?_) h1
          cases r with
          | none => rfl
          | some ar => exact findStrKey_mono h (k' :: ks) ar h1
        refine bind_mono (fun h2 => docOK_mono h h2) (fun r _ h1 => ?_) h0
        cases r with
        | none => exact via (P := .oof) h1
        | some sd =>
          simp only [] at h1 ⊢
          have hs : search m (k' :: ks) sd = search n (k' :: ks) sd := by
            apply search_mono h
            intro e; rw [e] at h1; exact h1 rfl
          rw [hs]
          cases hh : search n (k' :: ks) sd with
          | ok a => rfl
          | err e => rw [hh] at h1; exact via (P := .oof) h1
          | panic => rfl
          | oof => rfl
end

end Birch.Proofs
