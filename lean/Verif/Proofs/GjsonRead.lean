import Verif.Proofs.GjsonValid

/-
Reading a text of the grammar (helper lemmas).
-/

namespace Birch.Proofs.Gjson
open Birch Model.Json Model.Gjson Spec.JsonText

/-- the result for a value; `raw` is its text -/
def res (raw : Bytes) : J → Result
  | .null => .null
  | .bool b => .bool b
  | .num t => .num t
  | .str s => .str s
  | .arr _ => .json raw
  | .obj _ => .json raw

mutual
/-- the conversion as a function -/
def conv (S : Strconv) : J → Res JVal
  | .null => .ok .null
  | .bool b => .ok (.bool b)
  | .num t => number S t
  | .str s => .ok (.str s)
  | .arr vs => do .ok (.arr (← convVals S vs))
  | .obj es => do .ok (.obj (← convElems S es))
def convVals (S : Strconv) : Js → Res JVals
  | .nil => .ok .nil
  | .cons v r => do
    let x ← conv S v
    .ok (.cons x (← convVals S r))
def convElems (S : Strconv) : Jes → Res JElems
  | .nil => .ok .nil
  | .cons k v r => do
    let x ← conv S v
    .ok (.cons k x (← convElems S r))
end

/-! ### single values -/

theorem val_head' {lax : Bool} {t : Bytes} {j : J} (h : Val lax t j) : ∃ c r, t = c :: r ∧ ¬ c ≤ 32 ∧ c ≠ 44 ∧ c ≠ 58 := by
  cases h with
  | num h =>
    obtain ⟨c, r, e, hc⟩ := number_head h
    refine ⟨c, r, e, ?_⟩
    rcases hc with rfl | hc
    · decide
    · rw [digit_nat] at hc
      simp only [UInt8.le_iff_toNat_le, ne_eq, ← UInt8.toNat_inj]
      simp
      omega
  | _ => exact ⟨_, _, rfl, by decide, by decide, by decide⟩

theorem num_not {c : UInt8} (hc : c = 45 ∨ Digit c) :
    ¬ (c = 123 ∨ c = 91) ∧ ¬ c ≤ 32 ∧ c ≠ 34 ∧ ¬ (c = 93 ∨ c = 125) ∧ c ≠ 110 ∧ c ≠ 116 ∧ c ≠ 102 := by
  rcases hc with rfl | hc
  · decide
  · rw [digit_nat] at hc
    simp only [UInt8.le_iff_toNat_le, ne_eq, ← UInt8.toNat_inj]
    simp
    omega

theorem parseAny_val {lax : Bool} {t : Bytes} {j : J} (h : Val lax t j) {r : Bytes} (hr : Delim r) : parseAny (t ++ r) = some (res t j, r) := by
  have L : ∀ t : Bytes, (∀ c ∈ t, 97 ≤ c ∧ c ≤ 122) → (parseLiteral (t ++ r)).2 = r := fun t ht => by rw [parseLiteral_append ht hr]
  cases h with
  | null => have := L [117, 108, 108] (by decide); simp [parseAny, res, isDigit] at this ⊢; exact this
  | tru => have := L [114, 117, 101] (by decide); simp [parseAny, res, isDigit] at this ⊢; exact this
  | fals => have := L [97, 108, 115, 101] (by decide); simp [parseAny, res, isDigit] at this ⊢; exact this
  | num h =>
    have hch := number_chars h
    obtain ⟨c, t, rfl, hc⟩ := number_head h
    obtain ⟨h1, h2, h3, _⟩ := num_not hc
    have hd : c = 45 ∨ isDigit c = true := hc.imp id (isDigit_iff c).mpr
    have := parseNumber_append (fun x hx => hch x (List.mem_cons_of_mem _ hx)) hr
    simp only [List.cons_append, parseAny, h1, h2, h3, hd, if_true, if_false, this, res]
  | @str s u h =>
    have := parseString_esc (chars_esc h) r [] rfl
    simp only [List.cons_append, List.append_assoc, List.nil_append, List.reverse_nil] at this ⊢
    simp only [parseAny, this, decoded h, res]
    simp
  | emptyArr h =>
    have := squash_close (.flat (flat_ws h)) (.inr rfl) r
    simp [parseAny, this, res]
  | arr h =>
    have := squash_close (items_bal h) (.inr rfl) r
    simp [parseAny, this, res]
  | emptyObj h =>
    have := squash_close (.flat (flat_ws h)) (.inl rfl) r
    simp [parseAny, this, res]
  | obj h =>
    have := squash_close (members_bal h) (.inl rfl) r
    simp [parseAny, this, res]

theorem tostr_str {lax : Bool} {s u : Bytes} (h : Chars lax s u) (r : Bytes) :
    (tostr (s ++ 34 :: r)).2 = u ∧ (r ≠ [] → (tostr (s ++ 34 :: r)).1 = s.length + 1) := by
  have := parseString_esc (chars_esc h) r [] rfl
  have hd := decoded h
  unfold tostr
  rw [this]
  by_cases hm : 92 ∈ s
  · simp only [hm, decide_true, if_true] at hd
    simp only [hm, decide_true, List.reverse_nil, List.nil_append]
    exact ⟨hd, fun hr => by rw [if_neg hr]⟩
  · simp only [hm, decide_false, Bool.false_eq_true, if_false] at hd
    simp only [hm, decide_false, List.reverse_nil, List.nil_append]
    exact ⟨hd, fun _ => trivial⟩

theorem arrayItems_val {lax : Bool} {t : Bytes} {j : J} (h : Val lax t j) {r : Bytes} (hr : Delim r) (hne : r ≠ []) (f : Nat) :
    arrayItems (f + 1) (t ++ r) = res t j :: arrayItems f r := by
  have L : ∀ t : Bytes, (∀ c ∈ t, 97 ≤ c ∧ c ≤ 122) → (parseLiteral (t ++ r)).2 = r := fun t ht => by rw [parseLiteral_append ht hr]
  cases h with
  | null => have := L [117, 108, 108] (by decide); simp [arrayItems, res] at this ⊢; rw [this]
  | tru => have := L [114, 117, 101] (by decide); simp [arrayItems, res] at this ⊢; rw [this]
  | fals => have := L [97, 108, 115, 101] (by decide); simp [arrayItems, res] at this ⊢; rw [this]
  | num h =>
    have hch := number_chars h
    obtain ⟨c, t, rfl, hc⟩ := number_head h
    obtain ⟨h1, h2, h3, h4, h5, h6, h7⟩ := num_not hc
    have hd : isDigit c = true ∨ c = 45 := hc.symm.imp (isDigit_iff c).mpr id
    have := tonum_append (fun x hx => hch x (List.mem_cons_of_mem _ hx)) hr
    simp only [List.cons_append, arrayItems, h1, h2, h3, h4, h5, h6, h7, hd, if_true, if_false, this, res]
  | @str s u h =>
    obtain ⟨h1, h2⟩ := tostr_str h r
    simp only [List.cons_append, List.append_assoc, List.nil_append]
    have : List.drop (s.length + 1) (s ++ 34 :: r) = r := by
      rw [show s ++ 34 :: r = (s ++ [34]) ++ r by simp]
      rw [List.drop_append_of_le_length (by simp)]
      simp
    simp [arrayItems, res, h1, h2 hne, this]
  | emptyArr h =>
    have := squash_close (.flat (flat_ws h)) (.inr rfl) r
    simp [arrayItems, this, res]
  | arr h =>
    have := squash_close (items_bal h) (.inr rfl) r
    simp [arrayItems, this, res]
  | emptyObj h =>
    have := squash_close (.flat (flat_ws h)) (.inl rfl) r
    simp [arrayItems, this, res]
  | obj h =>
    have := squash_close (members_bal h) (.inl rfl) r
    simp [arrayItems, this, res]

theorem arrayItems_ws {w : Bytes} (hw : Ws w) (r : Bytes) (f : Nat) : arrayItems (f + w.length) (w ++ r) = arrayItems f r := by
  induction w with
  | nil => rfl
  | cons c w ih =>
    obtain ⟨h, h'⟩ := ws_cons hw
    rw [List.length_cons, List.cons_append, ← Nat.add_assoc, arrayItems, if_pos (ws_le h)]
    exact ih h'

theorem arrayItems_end (f : Nat) (r : Bytes) : arrayItems f (93 :: r) = [] := by
  cases f <;> simp [arrayItems]

theorem arrayItems_comma (f : Nat) (r : Bytes) : arrayItems (f + 1) (44 :: r) = arrayItems f r := by
  simp [arrayItems, isDigit]

theorem forEach_skip {p : Bytes} (hp : ∀ c ∈ p, c ≠ 34) (r : Bytes) (f : Nat) : forEach (f + p.length) (p ++ r) = forEach f r := by
  induction p with
  | nil => rfl
  | cons c p ih =>
    rw [List.length_cons, List.cons_append, ← Nat.add_assoc, forEach, if_pos (hp c (List.mem_cons_self ..))]
    exact ih (fun x hx => hp x (List.mem_cons_of_mem _ hx))

theorem forEach_none {p : Bytes} (hp : ∀ c ∈ p, c ≠ 34) (f : Nat) : forEach f p = [] := by
  induction p generalizing f with
  | nil => cases f <;> rfl
  | cons c p ih =>
    cases f with
    | zero => rfl
    | succ f =>
      rw [forEach, if_pos (hp c (List.mem_cons_self ..))]
      exact ih (fun x hx => hp x (List.mem_cons_of_mem _ hx)) f

theorem skipColon_ws {w : Bytes} (hw : Ws w) (r : Bytes) : skipColon (w ++ r) = skipColon r := by
  induction w with
  | nil => rfl
  | cons c w ih =>
    obtain ⟨h, h'⟩ := ws_cons hw
    rw [List.cons_append, skipColon, if_pos (.inl (ws_le h))]
    exact ih h'

theorem skipColon_val {lax : Bool} {t : Bytes} {j : J} (h : Val lax t j) {w1 w2 : Bytes} (h1 : Ws w1) (h2 : Ws w2) (r : Bytes) :
    skipColon (w1 ++ 58 :: (w2 ++ (t ++ r))) = t ++ r := by
  rw [skipColon_ws h1, skipColon, if_pos (by simp), skipColon_ws h2]
  obtain ⟨c, x, rfl, a, b, d⟩ := val_head' h
  rw [List.cons_append, skipColon, if_neg]
  rintro (h | h | h)
  · exact a h
  · exact b h
  · exact d h

theorem ws_noquote {w : Bytes} (hw : Ws w) : ∀ c ∈ w, c ≠ 34 := fun c hc => (flat_ws hw c hc).1

/-- one key and value -/
theorem forEach_member {lax : Bool} {w s k w1 w2 t : Bytes} {j : J} (h1 : Ws w) (h2 : Chars lax s k) (h3 : Ws w1) (h4 : Ws w2) (h5 : Val lax t j)
    {r : Bytes} (hr : Delim r) (f : Nat) :
    forEach (f + 1 + w.length) (w ++ 34 :: (s ++ 34 :: (w1 ++ 58 :: (w2 ++ (t ++ r))))) = (k, res t j) :: forEach f (r.drop 1) := by
  rw [forEach_skip (ws_noquote h1)]
  have hp := parseString_esc (chars_esc h2) (w1 ++ 58 :: (w2 ++ (t ++ r))) [] rfl
  rw [List.reverse_nil, List.nil_append] at hp
  rw [forEach, if_neg (by simp), hp]
  simp only [skipColon_val h5 h3 h4, parseAny_val h5 hr, decoded h2]

/-! ### nested values -/

mutual
theorem val_get (S : Strconv) {lax : Bool} {t : Bytes} {j : J} : Val lax t j → ∀ {n : Nat} {w : Bytes}, Ws w → t.length ≤ n →
    getValue S n (res (t ++ w) j) = conv S j
  | .null, n + 1, _, _, _ => by simp [res, getValue, conv]
  | .tru, n + 1, _, _, _ => by simp [res, getValue, conv]
  | .fals, n + 1, _, _, _ => by simp [res, getValue, conv]
  | .num h, n, _, _, hn => by
    obtain ⟨c, r, e, _⟩ := number_head h
    rw [e, List.length_cons] at hn
    obtain ⟨n, rfl⟩ : ∃ k, n = k + 1 := ⟨n - 1, by omega⟩
    simp [res, getValue, conv]
  | .str h, n + 1, _, _, _ => by simp [res, getValue, conv]
  | .emptyArr (w := v) h, n + 1, w, hw, hn => by
    have : arrayItems (v ++ 93 :: w).length (v ++ 93 :: w) = [] := by
      rw [List.length_append, Nat.add_comm, arrayItems_ws h, arrayItems_end]
    simp only [List.cons_append, List.append_assoc, List.nil_append, res, getValue, if_true, this, conv, collectVals, convVals]
  | .arr (t := ts) h, n + 1, w, hw, hn => by
    have := items_get S h (n := n) (w := w) (f := (ts ++ 93 :: w).length) (by simp at hn; omega) (by simp)
    simp only [List.cons_append, List.append_assoc, List.nil_append, res, getValue, if_true, this, conv]
  | .emptyObj (w := v) h, n + 1, w, hw, hn => by
    have : forEach (v ++ 125 :: w).length (v ++ 125 :: w) = [] := by
      apply forEach_none
      intro c hc
      rcases List.mem_append.mp hc with hc | hc
      · exact ws_noquote h c hc
      · rcases List.mem_cons.mp hc with rfl | hc
        · decide
        · exact ws_noquote hw c hc
    simp only [List.cons_append, List.append_assoc, List.nil_append, res, getValue, this, conv, collectElems, convElems]
    simp
  | .obj (t := ts) h, n + 1, w, hw, hn => by
    have := members_get S h (n := n) (w := w) (f := (ts ++ 125 :: w).length) hw (by simp at hn; omega) (by simp)
    simp only [List.cons_append, List.append_assoc, List.nil_append, res, getValue, this, conv]
    simp
theorem items_get (S : Strconv) {lax : Bool} {t : Bytes} {vs : Js} : Items lax t vs → ∀ {n f : Nat} {w : Bytes}, t.length ≤ n → t.length < f →
    collectVals (getValue S n) (arrayItems f (t ++ 93 :: w)) = convVals S vs
  | .last (w := w0) (t := t) (w' := w') h1 h2 h3, n, f, w, hn, hf => by
    simp only [List.length_append] at hn hf
    obtain ⟨f, rfl⟩ : ∃ k, f = k + 1 + w'.length + 1 + w0.length := ⟨f - 1 - w'.length - 1 - w0.length, by
      obtain ⟨c, x, e, _⟩ := val_head h2
      rw [e, List.length_cons] at hf
      omega⟩
    simp only [List.append_assoc]
    rw [arrayItems_ws h1, arrayItems_val h2 (.ws h3 (delim_close (.inr (.inl rfl)) _)) (by simp), arrayItems_ws h3, arrayItems_end]
    have := val_get S h2 (n := n) ws_nil (by omega)
    rw [List.append_nil] at this
    simp only [collectVals, convVals, this]
  | .cons (w := w0) (t := t) (w' := w') (ts := ts) h1 h2 h3 h4, n, f, w, hn, hf => by
    simp only [List.length_append, List.length_cons] at hn hf
    obtain ⟨c, x, e, _⟩ := val_head h2
    have hl : 1 ≤ t.length := by rw [e, List.length_cons]; omega
    obtain ⟨f, rfl⟩ : ∃ k, f = k + 1 + w'.length + 1 + w0.length := ⟨f - 1 - w'.length - 1 - w0.length, by omega⟩
    simp only [List.append_assoc, List.cons_append]
    rw [arrayItems_ws h1, arrayItems_val h2 (.ws h3 (delim_close (.inl rfl) _)) (by simp), arrayItems_ws h3, arrayItems_comma]
    have := val_get S h2 (n := n) ws_nil (by omega)
    rw [List.append_nil] at this
    have ih := items_get S h4 (n := n) (f := f) (w := w) (by omega) (by omega)
    simp only [collectVals, convVals, this, ih]
theorem members_get (S : Strconv) {lax : Bool} {t : Bytes} {es : Jes} : Members lax t es → ∀ {n f : Nat} {w : Bytes}, Ws w → t.length ≤ n → t.length < f →
    collectElems (getValue S n) (forEach f (t ++ 125 :: w)) = convElems S es
  | .last (w := w0) (s := s) (w1 := w1) (w2 := w2) (t := t) (w3 := w3) h1 h2 h3 h4 h5 h6, n, f, w, hw, hn, hf => by
    simp only [List.length_append, List.length_cons] at hn hf
    obtain ⟨f, rfl⟩ : ∃ k, f = k + 1 + w0.length := ⟨f - 1 - w0.length, by omega⟩
    simp only [List.append_assoc, List.cons_append]
    rw [forEach_member h1 h2 h3 h4 h5 (.ws h6 (delim_close (.inr (.inr rfl)) _)), forEach_none]
    · have := val_get S h5 (n := n) ws_nil (by omega)
      rw [List.append_nil] at this
      simp only [collectElems, convElems, this]
    · intro c hc
      rcases List.mem_append.mp (List.mem_of_mem_drop hc) with hc | hc
      · exact ws_noquote h6 c hc
      · rcases List.mem_cons.mp hc with rfl | hc
        · decide
        · exact ws_noquote hw c hc
  | .cons (w := w0) (s := s) (w1 := w1) (w2 := w2) (t := t) (w3 := w3) (ts := ts) h1 h2 h3 h4 h5 h6 h7, n, f, w, hw, hn, hf => by
    simp only [List.length_append, List.length_cons] at hn hf
    obtain ⟨f, rfl⟩ : ∃ k, f = k + w3.length + 1 + w0.length := ⟨f - w3.length - 1 - w0.length, by omega⟩
    simp only [List.append_assoc, List.cons_append]
    rw [forEach_member h1 h2 h3 h4 h5 (.ws h6 (delim_close (.inl rfl) _))]
    have hd : (w3 ++ 44 :: (ts ++ 125 :: w)).drop 1 = (w3 ++ [44]).drop 1 ++ (ts ++ 125 :: w) := by
      rw [← List.drop_append_of_le_length (by simp)]
      simp
    have hq : ∀ c ∈ (w3 ++ [44]).drop 1, c ≠ 34 := by
      intro c hc
      rcases List.mem_append.mp (List.mem_of_mem_drop hc) with hc | hc
      · exact ws_noquote h6 c hc
      · rw [List.mem_singleton.mp hc]; decide
    have hlen : ((w3 ++ [44]).drop 1).length = w3.length := by simp
    have hs := forEach_skip hq (ts ++ 125 :: w) f
    rw [hlen] at hs
    rw [hd, hs]
    have := val_get S h5 (n := n) ws_nil (by omega)
    rw [List.append_nil] at this
    have ih := members_get S h7 (n := n) (f := f) hw (by omega) (by omega)
    simp only [collectElems, convElems, this, ih]
end

/-! ### the whole text -/

theorem parseTop_ws {w : Bytes} (hw : Ws w) (r : Bytes) : parseTop (w ++ r) = parseTop r := by
  induction w with
  | nil => rfl
  | cons c w ih =>
    obtain ⟨h, h'⟩ := ws_cons hw
    have hb : ¬ (c = 123 ∨ c = 91) := by rcases h with rfl | rfl | rfl | rfl <;> decide
    rw [List.cons_append, parseTop, if_neg hb, if_pos (ws_le h)]
    exact ih h'

theorem parseTop_val {lax : Bool} {t : Bytes} {j : J} (h : Val lax t j) {w : Bytes} (hw : Ws w) : parseTop (t ++ w) = res (t ++ w) j := by
  have hr : Delim w := by rw [← List.append_nil w]; exact .ws hw .nil
  cases h with
  | null => simp [parseTop, res, isDigit]
  | tru => simp [parseTop, res, isDigit]
  | fals => simp [parseTop, res, isDigit]
  | num h =>
    have hch := number_chars h
    obtain ⟨c, t, rfl, hc⟩ := number_head h
    obtain ⟨h1, h2, h3, h4, h5, h6, h7⟩ := num_not hc
    have hd : isDigit c = true ∨ c = 45 := hc.symm.imp (isDigit_iff c).mpr id
    have := tonum_append (fun x hx => hch x (List.mem_cons_of_mem _ hx)) hr
    simp only [List.cons_append, parseTop, h1, h2, hd, if_true, if_false, this, res]
  | @str s u h =>
    obtain ⟨h1, h2⟩ := tostr_str h w
    simp [parseTop, res, h1, isDigit]
  | _ => simp [parseTop, res]

theorem parse_text {lax : Bool} {t : Bytes} {j : J} (h : Text lax t j) (hl : t.getLast? ≠ some 45) :
    ∃ t' w, Ws w ∧ Val lax t' j ∧ t'.length ≤ t.length ∧ parse t = .ok (res (t' ++ w) j) := by
  have hv := validate_text h hl
  obtain ⟨w, t', w', rfl, hw, hv', hw'⟩ := h
  refine ⟨t', w', hw', hv', by simp only [List.length_append]; omega, ?_⟩
  unfold parse
  rw [if_pos hv, parseTop_ws hw, parseTop_val hv' hw']

theorem parse_none {t : Bytes} (h : ¬ ((∃ j, Text true t j) ∧ t.getLast? ≠ some 45)) : parse t = .err .other := by
  unfold parse
  rw [if_neg]
  exact fun hv => h (validate_complete hv)

theorem unmarshalValue_text (S : Strconv) {lax : Bool} {t : Bytes} {j : J} (h : Text lax t j) (hl : t.getLast? ≠ some 45) {n : Nat} (hn : t.length ≤ n) :
    unmarshalValue S n t = conv S j := by
  obtain ⟨t', w, hw, hv, hlen, hp⟩ := parse_text h hl
  unfold unmarshalValue
  rw [hp, Res.bind_ok, val_get S hv hw (by omega)]

theorem unmarshalDocument_obj (S : Strconv) {lax : Bool} {t : Bytes} {es : Jes} (h : Text lax t (.obj es)) (hl : t.getLast? ≠ some 45) {n : Nat}
    (hn : t.length ≤ n) : unmarshalDocument S n t = convElems S es := by
  obtain ⟨t', w, hw, hv, hlen, hp⟩ := parse_text h hl
  have hg := val_get S hv hw (n := n + 1) (by omega)
  unfold unmarshalDocument
  rw [hp, Res.bind_ok]
  rw [conv] at hg
  cases hv with
  | emptyObj hv =>
    simp only [res, getValue, List.cons_append] at hg ⊢
    simp only [convElems, Res.bind_ok] at hg ⊢
    have hn : ¬ ((123 : UInt8) = 91) := by decide
    simp only [if_true, hn, if_false] at hg ⊢
    cases hx : collectElems (getValue S n) (forEach _ _) with
    | ok x => rw [hx] at hg; cases hg; rfl
    | err x => rw [hx] at hg; cases hg
    | panic => rw [hx] at hg; cases hg
    | oof => rw [hx] at hg; cases hg
  | obj hv =>
    simp only [res, getValue, List.cons_append] at hg ⊢
    have hn : ¬ ((123 : UInt8) = 91) := by decide
    simp only [if_true, hn, if_false] at hg ⊢
    revert hg
    cases collectElems (getValue S n) (forEach _ _) <;> cases convElems S es <;> simp

theorem unmarshalArray_arr (S : Strconv) {lax : Bool} {t : Bytes} {vs : Js} (h : Text lax t (.arr vs)) (hl : t.getLast? ≠ some 45) {n : Nat}
    (hn : t.length ≤ n) : unmarshalArray S n t = convVals S vs := by
  obtain ⟨t', w, hw, hv, hlen, hp⟩ := parse_text h hl
  have hg := val_get S hv hw (n := n + 1) (by omega)
  unfold unmarshalArray
  rw [hp, Res.bind_ok]
  rw [conv] at hg
  cases hv with
  | emptyArr hv =>
    simp only [res, getValue, List.cons_append] at hg ⊢
    simp only [if_true] at hg ⊢
    revert hg
    cases collectVals (getValue S n) (arrayItems _ _) <;> simp [convVals]
  | arr hv =>
    simp only [res, getValue, List.cons_append] at hg ⊢
    simp only [if_true] at hg ⊢
    revert hg
    cases collectVals (getValue S n) (arrayItems _ _) <;> cases convVals S vs <;> simp

theorem unmarshalDocument_other (S : Strconv) {lax : Bool} {t : Bytes} {j : J} (h : Text lax t j) (hl : t.getLast? ≠ some 45) (hj : ∀ es, j ≠ .obj es) (n : Nat) :
    unmarshalDocument S n t = .err .other := by
  obtain ⟨t', w, hw, hv, hlen, hp⟩ := parse_text h hl
  unfold unmarshalDocument
  rw [hp, Res.bind_ok]
  cases hv with
  | emptyObj => exact absurd rfl (hj _)
  | obj => exact absurd rfl (hj _)
  | _ => simp [res]

theorem unmarshalArray_other (S : Strconv) {lax : Bool} {t : Bytes} {j : J} (h : Text lax t j) (hl : t.getLast? ≠ some 45) (hj : ∀ vs, j ≠ .arr vs) (n : Nat) :
    unmarshalArray S n t = .err .other := by
  obtain ⟨t', w, hw, hv, hlen, hp⟩ := parse_text h hl
  unfold unmarshalArray
  rw [hp, Res.bind_ok]
  cases hv with
  | emptyArr => exact absurd rfl (hj _)
  | arr => exact absurd rfl (hj _)
  | _ => simp [res]

/-! ### conversion -/

theorem parseDigits_eq {ds : Bytes} (h : ∀ c ∈ ds, Digit c) (n : Nat) :
    parseDigits n ds = some (ds.foldl (fun v c => v * 10 + (c.toNat - 48)) n) := by
  induction ds generalizing n with
  | nil => rfl
  | cons c ds ih =>
    rw [parseDigits, if_pos ((isDigit_iff c).mpr (h c (List.mem_cons_self ..))), ih (fun x hx => h x (List.mem_cons_of_mem _ hx))]
    rfl

theorem parseDigits_digits {ds : Bytes} {n m : Nat} (h : parseDigits n ds = some m) : ∀ c ∈ ds, Digit c := by
  induction ds generalizing n with
  | nil => intro c hc; cases hc
  | cons c ds ih =>
    rw [parseDigits] at h
    split at h
    · next hd =>
      intro x hx
      rcases List.mem_cons.mp hx with rfl | hx
      · exact (isDigit_iff _).mp hd
      · exact ih h x hx
    · cases h

theorem digit_not_sign {d : UInt8} (h : Digit d) : d ≠ 45 ∧ d ≠ 43 := by
  rw [digit_nat] at h
  constructor <;> (rintro rfl; revert h; decide)

theorem parseInt_eq {s : Bytes} {i : Int} : parseInt s = some i ↔ Int64Text s i := by
  have key : ∀ (neg : Bool) (ds : Bytes),
      (if ds = [] then none else match parseDigits 0 ds with
        | none => none
        | some n => if neg then (if n ≤ 2 ^ 63 then some (-(n : Int)) else none) else if n < 2 ^ 63 then some (n : Int) else none) = some i ↔
      Digits ds ∧ (if neg then natValue ds ≤ 2 ^ 63 ∧ i = -(natValue ds : Int) else natValue ds < 2 ^ 63 ∧ i = natValue ds) := by
    intro neg ds
    by_cases hne : ds = []
    · simp [hne, Digits]
    · rw [if_neg hne]
      by_cases hd : ∀ c ∈ ds, Digit c
      · rw [parseDigits_eq hd]
        have : Digits ds := ⟨hne, hd⟩
        cases neg
        · simp only [this, natValue, true_and]
          simp only [Bool.false_eq_true, if_false]
          split
          · next h => simp only [h, true_and, Option.some.injEq]; exact eq_comm
          · next h => simp [h]
        · simp only [this, natValue, true_and, if_true]
          split
          · next h => simp only [h, true_and, Option.some.injEq]; exact eq_comm
          · next h => simp [h]
      · cases hp : parseDigits 0 ds with
        | none => simp [Digits, hd]
        | some m => exact absurd (parseDigits_digits hp) hd
  cases s with
  | nil =>
    rw [show parseInt [] = none from rfl]
    constructor
    · intro h; cases h
    · intro h; cases h with | pos h _ => exact absurd rfl h.1
  | cons c r =>
    by_cases h45 : c = 45
    · subst h45
      rw [show parseInt (45 :: r) = (if r = [] then none else match parseDigits 0 r with
        | none => none
        | some n => if true then (if n ≤ 2 ^ 63 then some (-(n : Int)) else none) else if n < 2 ^ 63 then some (n : Int) else none) from rfl, key true r]
      simp only [if_true]
      constructor
      · rintro ⟨h1, h2, rfl⟩; exact .neg h1 h2
      · intro h
        cases h with
        | pos h _ => exact absurd rfl (digit_not_sign (h.2 45 (List.mem_cons_self ..))).1
        | neg h h' => exact ⟨h, h', rfl⟩
    · by_cases h43 : c = 43
      · subst h43
        rw [show parseInt (43 :: r) = (if r = [] then none else match parseDigits 0 r with
          | none => none
          | some n => if false then (if n ≤ 2 ^ 63 then some (-(n : Int)) else none) else if n < 2 ^ 63 then some (n : Int) else none) from rfl, key false r]
        simp only [Bool.false_eq_true, if_false]
        constructor
        · rintro ⟨h1, h2, rfl⟩; exact .plus h1 h2
        · intro h
          cases h with
          | pos h _ => exact absurd rfl (digit_not_sign (h.2 43 (List.mem_cons_self ..))).2
          | plus h h' => exact ⟨h, h', rfl⟩
      · have : parseInt (c :: r) = (if c :: r = [] then none else match parseDigits 0 (c :: r) with
          | none => none
          | some n => if false then (if n ≤ 2 ^ 63 then some (-(n : Int)) else none) else if n < 2 ^ 63 then some (n : Int) else none) := by
          unfold parseInt
          simp only [h45, h43, if_false]
          rfl
        rw [this, key false (c :: r)]
        simp only [Bool.false_eq_true, if_false]
        constructor
        · rintro ⟨h1, h2, rfl⟩; exact .pos h1 h2
        · intro h
          cases h with
          | pos h h' => exact ⟨h, h', rfl⟩
          | plus => exact absurd rfl h43
          | neg => exact absurd rfl h45

theorem integral_iff (raw : Bytes) : Integral raw ↔ ∃ c r, raw = c :: r ∧ (if c = 45 then r else c :: r).all isDigit = true := by
  constructor
  · rintro (⟨h1, h2⟩ | ⟨ds, rfl, h⟩)
    · cases raw with
      | nil => exact absurd rfl h1
      | cons c r =>
        refine ⟨c, r, rfl, ?_⟩
        rw [if_neg (digit_not_sign (h2 c (List.mem_cons_self ..))).1, List.all_eq_true]
        exact fun x hx => (isDigit_iff x).mpr (h2 x hx)
    · exact ⟨45, ds, rfl, by rw [if_pos rfl, List.all_eq_true]; exact fun x hx => (isDigit_iff x).mpr (h x hx)⟩
  · rintro ⟨c, r, rfl, h⟩
    split at h
    · next hc => subst hc; exact .inr ⟨r, rfl, fun x hx => (isDigit_iff x).mp (List.all_eq_true.mp h x hx)⟩
    · exact .inl ⟨by simp, fun x hx => (isDigit_iff x).mp (List.all_eq_true.mp h x hx)⟩

theorem numString_written (S : Strconv) (raw s : Bytes) : Written S raw s ↔ numString S raw = s := by
  classical
  have hi := integral_iff raw
  have : numString S raw = if Integral raw then raw else S.formatFloat (S.parseFloat raw).1 := by
    unfold numString
    cases raw with
    | nil =>
      have : ¬ Integral [] := by rw [hi]; rintro ⟨c, r, h, _⟩; cases h
      rw [if_neg this]
    | cons c r =>
      simp only
      by_cases h : (if c = 45 then r else c :: r).all isDigit = true
      · rw [if_pos h, if_pos (hi.mpr ⟨c, r, rfl, h⟩)]
      · rw [if_neg h, if_neg (fun k => by obtain ⟨_, _, e, k⟩ := hi.mp k; cases e; exact h k)]
  rw [this]
  constructor
  · intro h
    cases h with
    | integral h => rw [if_pos h]
    | float h => rw [if_neg h]
  · intro h
    split at h
    · next k => subst h; exact .integral k
    · next k => subst h; exact .float k

theorem number_conv (S : Strconv) (t : Bytes) (v : JVal) : Conv S (.num t) v ↔ number S t = .ok v := by
  unfold number
  constructor
  · intro h
    cases h with
    | int hw hi =>
      rw [(numString_written S _ _).mp hw, parseInt_eq.mpr hi]
    | @dbl _ s f hw hi hf =>
      rw [(numString_written S _ _).mp hw]
      cases hp : parseInt s with
      | some i => exact absurd ⟨i, parseInt_eq.mp hp⟩ hi
      | none => simp [hf]
  · intro h
    have hw := (numString_written S t _).mpr rfl
    split at h
    · next i hp => cases h; exact .int hw (parseInt_eq.mp hp)
    · next hp =>
      split at h
      next f ok hf =>
      split at h
      · next ho =>
        cases h
        refine .dbl hw ?_ (by rw [hf, ho])
        rintro ⟨i, hi⟩
        rw [parseInt_eq.mpr hi] at hp
        cases hp
      · cases h

mutual
theorem conv_iff (S : Strconv) : ∀ (j : J) (v : JVal), Conv S j v ↔ conv S j = .ok v
  | .null, v => by
    rw [conv]
    constructor
    · intro h; cases h; rfl
    · intro h; cases h; exact .null
  | .bool b, v => by
    rw [conv]
    constructor
    · intro h; cases h; rfl
    · intro h; cases h; exact .bool
  | .num t, v => by rw [conv]; exact number_conv S t v
  | .str s, v => by
    rw [conv]
    constructor
    · intro h; cases h; rfl
    · intro h; cases h; exact .str
  | .arr vs, v => by
    rw [conv]
    constructor
    · intro h
      cases h with
      | arr h => rw [(convVals_iff S vs _).mp h]; rfl
    · intro h
      obtain ⟨a, h1, h2⟩ := Res.bind_eq_ok.mp h
      cases h2
      exact .arr ((convVals_iff S vs a).mpr h1)
  | .obj es, v => by
    rw [conv]
    constructor
    · intro h
      cases h with
      | obj h => rw [(convElems_iff S es _).mp h]; rfl
    · intro h
      obtain ⟨a, h1, h2⟩ := Res.bind_eq_ok.mp h
      cases h2
      exact .obj ((convElems_iff S es a).mpr h1)
theorem convVals_iff (S : Strconv) : ∀ (vs : Js) (a : JVals), ConvVals S vs a ↔ convVals S vs = .ok a
  | .nil, a => by
    rw [convVals]
    constructor
    · intro h; cases h; rfl
    · intro h; cases h; exact .nil
  | .cons v r, a => by
    rw [convVals]
    constructor
    · intro h
      cases h with
      | cons h1 h2 => rw [(conv_iff S v _).mp h1, Res.bind_ok, (convVals_iff S r _).mp h2]; rfl
    · intro h
      obtain ⟨x, h1, h2⟩ := Res.bind_eq_ok.mp h
      obtain ⟨y, h3, h4⟩ := Res.bind_eq_ok.mp h2
      cases h4
      exact .cons ((conv_iff S v x).mpr h1) ((convVals_iff S r y).mpr h3)
theorem convElems_iff (S : Strconv) : ∀ (es : Jes) (a : JElems), ConvElems S es a ↔ convElems S es = .ok a
  | .nil, a => by
    rw [convElems]
    constructor
    · intro h; cases h; rfl
    · intro h; cases h; exact .nil
  | .cons k v r, a => by
    rw [convElems]
    constructor
    · intro h
      cases h with
      | cons h1 h2 => rw [(conv_iff S v _).mp h1, Res.bind_ok, (convElems_iff S r _).mp h2]; rfl
    · intro h
      obtain ⟨x, h1, h2⟩ := Res.bind_eq_ok.mp h
      obtain ⟨y, h3, h4⟩ := Res.bind_eq_ok.mp h2
      cases h4
      exact .cons ((conv_iff S v x).mpr h1) ((convElems_iff S r y).mpr h3)
end

theorem number_total (S : Strconv) (t : Bytes) : (∃ v, number S t = .ok v) ∨ number S t = .err .other := by
  unfold number
  split
  · exact .inl ⟨_, rfl⟩
  · split
    split
    · exact .inl ⟨_, rfl⟩
    · exact .inr rfl

mutual
theorem conv_total (S : Strconv) : ∀ j : J, (∃ v, conv S j = .ok v) ∨ conv S j = .err .other
  | .null => .inl ⟨_, by rw [conv]⟩
  | .bool b => .inl ⟨_, by rw [conv]⟩
  | .num t => by rw [conv]; exact number_total S t
  | .str s => .inl ⟨_, by rw [conv]⟩
  | .arr vs => by
    rw [conv]
    rcases convVals_total S vs with ⟨a, h⟩ | h
    · exact .inl ⟨_, by rw [h]; rfl⟩
    · exact .inr (by rw [h]; rfl)
  | .obj es => by
    rw [conv]
    rcases convElems_total S es with ⟨a, h⟩ | h
    · exact .inl ⟨_, by rw [h]; rfl⟩
    · exact .inr (by rw [h]; rfl)
theorem convVals_total (S : Strconv) : ∀ vs : Js, (∃ v, convVals S vs = .ok v) ∨ convVals S vs = .err .other
  | .nil => .inl ⟨_, by rw [convVals]⟩
  | .cons v r => by
    rw [convVals]
    rcases conv_total S v with ⟨x, h⟩ | h
    · rcases convVals_total S r with ⟨y, h'⟩ | h'
      · exact .inl ⟨_, by rw [h, h']; rfl⟩
      · exact .inr (by rw [h, h']; rfl)
    · exact .inr (by rw [h]; rfl)
theorem convElems_total (S : Strconv) : ∀ es : Jes, (∃ v, convElems S es = .ok v) ∨ convElems S es = .err .other
  | .nil => .inl ⟨_, by rw [convElems]⟩
  | .cons k v r => by
    rw [convElems]
    rcases conv_total S v with ⟨x, h⟩ | h
    · rcases convElems_total S r with ⟨y, h'⟩ | h'
      · exact .inl ⟨_, by rw [h, h']; rfl⟩
      · exact .inr (by rw [h, h']; rfl)
    · exact .inr (by rw [h]; rfl)
end

end Birch.Proofs.Gjson
