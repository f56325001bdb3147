import Verif.Proofs.ExtJson

/-
When `UnmarshalJSON` of extended JSON does not panic.
-/

namespace Birch.Proofs.ExtJson
open Birch Spec Spec.ExtJson Model Model.Json Model.Gjson Model.ExtJson Proofs Proofs.Gjson

/-- a value or an error -/
def Clean {α : Type} (r : Res α) : Prop := (∃ v, r = .ok v) ∨ ∃ e, r = .err e

theorem clean_ok {α : Type} (v : α) : Clean (.ok v) := .inl ⟨v, rfl⟩
theorem clean_err {α : Type} (e : Err) : Clean (.err e : Res α) := .inr ⟨e, rfl⟩

theorem clean_bind {α β : Type} {r : Res α} {f : α → Res β} (h : Clean r) (hf : ∀ v, r = .ok v → Clean (f v)) : Clean (r >>= f) := by
  rcases h with ⟨v, rfl⟩ | ⟨e, rfl⟩
  · exact hf v rfl
  · exact clean_err e

theorem clean_errOr {α β : Type} {f : α → Res β} {o : Option α} (hf : ∀ v, o = some v → Clean (f v)) : Clean (errOr f o) := by
  cases o with
  | none => exact clean_err _
  | some v => exact hf v rfl

theorem clean_collect : ∀ cs : List (Res Value), (∀ c ∈ cs, Clean c) → Clean (collect cs)
  | [], _ => clean_ok _
  | c :: cs, h => clean_bind (h c (by simp)) fun v _ => clean_bind (clean_collect cs fun c hc => h c (by simp [hc])) fun _ _ => clean_ok _

/-! ### the constructors -/

theorem clean_header {α : Type} {t : UInt8} {k : Bytes} {f : Bytes → α} (h : k.length < 2 ^ 28) : Clean (do Res.ok (f (← EC.header t k))) := by
  rw [header_ok t k (by omega)]
  exact clean_ok _

theorem clean_subDocument {k : Bytes} (d : Doc) (h : k.length < 2 ^ 28) : Clean (EC.subDocument k d) := clean_header h
theorem clean_array {k : Bytes} (d : Doc) (h : k.length < 2 ^ 28) : Clean (EC.array k d) := clean_header h
theorem clean_double {k : Bytes} (b : Nat) (h : k.length < 2 ^ 28) : Clean (EC.double k b) :=
  .inl ⟨_, mkElem_good (element_good 1 k (double_atomic b).good) (by simp; omega) (by simp; omega)⟩
theorem clean_string {k s : Bytes} (h : k.length < 2 ^ 28) (hs : s.length < 2 ^ 28) : Clean (EC.string k s) :=
  .inl ⟨_, mkElem_good (element_good 2 k (string_good s)) (by simp [encString_length]; omega) (by simp [encString_length]; omega)⟩
theorem clean_symbol {k s : Bytes} (h : k.length < 2 ^ 28) (hs : s.length < 2 ^ 28) : Clean (EC.symbol k s) :=
  .inl ⟨_, mkElem_good (element_good 14 k (string_good s)) (by simp [encString_length]; omega) (by simp [encString_length]; omega)⟩
theorem clean_javaScript {k s : Bytes} (h : k.length < 2 ^ 28) (hs : s.length < 2 ^ 28) : Clean (EC.javaScript k s) :=
  .inl ⟨_, mkElem_good (element_good 13 k (string_good s)) (by simp [encString_length]; omega) (by simp [encString_length]; omega)⟩
theorem clean_binary {k s : Bytes} (h : k.length < 2 ^ 28) (hs : s.length < 2 ^ 28) : Clean (EC.binary k s) :=
  .inl ⟨_, mkElem_good (element_good 5 k (binary_atomic s 0).good) (by simp [BVal.enc]; omega) (by simp [BVal.enc]; omega)⟩
theorem clean_boolean {k : Bytes} (b : Bool) (h : k.length < 2 ^ 28) : Clean (EC.boolean k b) :=
  .inl ⟨_, mkElem_good (element_good 8 k (boolean_atomic b).good) (by simp; omega) (by simp; omega)⟩
theorem clean_dateTime {k : Bytes} (b : Int) (h : k.length < 2 ^ 28) : Clean (EC.dateTime k b) :=
  .inl ⟨_, mkElem_good (element_good 9 k (int64_atomic b).good) (by simp; omega) (by simp; omega)⟩
theorem clean_objectID {k id : Bytes} (h : k.length < 2 ^ 28) (hi : id.length = 12) : Clean (EC.objectID k id) :=
  .inl ⟨_, mkElem_good (element_good 7 k (byteSlice_atomic id).good) (by omega) (by omega)⟩
theorem clean_regex {k p o : Bytes} (h : k.length < 2 ^ 28) (hp : p.length < 2 ^ 28) (ho : o.length < 2 ^ 28) : Clean (EC.regex k p o) :=
  .inl ⟨_, mkElem_good (regexElement_good k p o) (by simp [BVal.enc]; omega) (by simp [BVal.enc]; omega)⟩
theorem clean_dbPointer {k ns id : Bytes} (h : k.length < 2 ^ 28) (hn : ns.length < 2 ^ 28) (hi : id.length = 12) : Clean (EC.dbPointer k ns id) :=
  .inl ⟨_, mkElem_good (element_good 12 k (dbpointer_good ns id)) (by simp [BVal.enc, encString_length]; omega) (by simp [BVal.enc, encString_length]; omega)⟩
theorem clean_int {k : Bytes} (i : Int) (h : k.length < 2 ^ 28) : Clean (EC.int k i) := by
  unfold EC.int
  split
  · exact .inl ⟨_, mkElem_good (element_good 16 k (int32_atomic _).good) (by simp; omega) (by simp; omega)⟩
  · exact .inl ⟨_, mkElem_good (element_good 18 k (int64_atomic _).good) (by simp; omega) (by simp; omega)⟩
theorem clean_timestamp {k : Bytes} (t i : Nat) (h : k.length < 2 ^ 28) : Clean (EC.timestamp k t i) :=
  .inl ⟨_, mkElem_good (element_good 17 k (timestamp_good t i)) (by simp [BVal.enc]; omega) (by simp [BVal.enc]; omega)⟩
theorem clean_decimal {k : Bytes} (a b : Nat) (h : k.length < 2 ^ 28) : Clean (EC.decimal128 k a b) :=
  .inl ⟨_, mkElem_good (element_good 19 k (decimal128_good a b)) (by simp [BVal.enc]; omega) (by simp [BVal.enc]; omega)⟩
theorem clean_code {k c : Bytes} (d : Doc) (h : k.length < 2 ^ 28) (hc : c.length < 2 ^ 28) : Clean (EC.codeWithScope k c d) := by
  obtain ⟨l, -, h⟩ := codeWithScope_ok (k := k) (c := c) d (by omega)
  exact .inl ⟨_, h⟩

theorem fromHex_length {s id : Bytes} (h : ObjectID.fromHex s = some id) : id.length = 12 := by
  unfold ObjectID.fromHex at h
  cases hd : hexDecode s with
  | none => rw [hd] at h; cases h
  | some b =>
    rw [hd] at h
    simp at h
    obtain ⟨h1, rfl⟩ := h
    exact h1

/-! ### strings are not longer than the text -/

mutual
/-- the keys and strings are shorter than `n` -/
def Small (n : Nat) : JVal → Prop
  | .str s => s.length < n
  | .obj d => SmallElems n d
  | .arr a => SmallVals n a
  | _ => True
def SmallElems (n : Nat) : JElems → Prop
  | .nil => True
  | .cons k v r => k.length < n ∧ Small n v ∧ SmallElems n r
def SmallVals (n : Nat) : JVals → Prop
  | .nil => True
  | .cons v r => Small n v ∧ SmallVals n r
end

theorem chars_length {lax : Bool} {s u : Bytes} (h : JsonText.Chars lax s u) : u.length ≤ s.length := by
  have hu : ∀ n, (JsonText.utf8 n).length ≤ 4 := fun n => by unfold JsonText.utf8; (repeat' split) <;> simp
  have hx : ∀ {h n}, JsonText.Hex4 h n → h.length = 4 := by
    rintro h n ⟨a, b, c, d, _, _, _, _, rfl, -⟩; rfl
  induction h with
  | nil => simp
  | plain _ _ _ _ ih => simp; omega
  | short _ _ ih => simp; omega
  | @point h n s u h1 _ _ _ ih => have := hu n; have := hx h1; simp; omega
  | @pair h n h' n' s u h1 _ h2 _ _ ih => have := hu (0x10000 + (n - 0xD800) * 1024 + (n' - 0xDC00)); have := hx h1; simp only [List.length_append, List.length_cons]; omega
  | @mismatch h n h' n' s u _ h1 _ h2 _ _ ih => have := hu 0xFFFD; have := hx h1; simp only [List.length_append, List.length_cons]; omega
  | @lone h n s u _ h1 _ _ _ ih => have := hu 0xFFFD; have := hx h1; simp only [List.length_append, List.length_cons]; omega

mutual
theorem small_val {S : Strconv} {lax : Bool} {n : Nat} : ∀ {t : Bytes} {j : JsonText.J} {w : JVal}, JsonText.Val lax t j → JsonText.Conv S j w → t.length < n → Small n w
  | _, _, _, .null, c, _ => by cases c; trivial
  | _, _, _, .tru, c, _ => by cases c; trivial
  | _, _, _, .fals, c, _ => by cases c; trivial
  | _, _, _, .num _, c, _ => by cases c <;> trivial
  | _, _, _, .str h, c, hl => by
    cases c
    have := chars_length h
    simp at hl
    show _ < _
    omega
  | _, _, _, .emptyArr _, c, _ => by cases c with | arr c => cases c; trivial
  | _, _, _, .arr h, c, hl => by cases c with | arr c => exact small_items h c (by simp at hl; omega)
  | _, _, _, .emptyObj _, c, _ => by cases c with | obj c => cases c; trivial
  | _, _, _, .obj h, c, hl => by cases c with | obj c => exact small_members h c (by simp at hl; omega)
theorem small_items {S : Strconv} {lax : Bool} {n : Nat} : ∀ {t : Bytes} {js : JsonText.Js} {ws : JVals}, JsonText.Items lax t js → JsonText.ConvVals S js ws → t.length < n → SmallVals n ws
  | _, _, _, .last _ h _, c, hl => by cases c with | cons c1 c2 => cases c2; exact ⟨small_val h c1 (by simp at hl; omega), trivial⟩
  | _, _, _, .cons _ h _ hs, c, hl => by cases c with | cons c1 c2 => exact ⟨small_val h c1 (by simp at hl; omega), small_items hs c2 (by simp at hl; omega)⟩
theorem small_members {S : Strconv} {lax : Bool} {n : Nat} : ∀ {t : Bytes} {es : JsonText.Jes} {ws : JElems}, JsonText.Members lax t es → JsonText.ConvElems S es ws → t.length < n → SmallElems n ws
  | _, _, _, .last _ hc _ _ h _, c, hl => by
    have := chars_length hc
    cases c with | cons c1 c2 => cases c2; exact ⟨by simp at hl; omega, small_val h c1 (by simp at hl; omega), trivial⟩
  | _, _, _, .cons _ hc _ _ h _ hs, c, hl => by
    have := chars_length hc
    cases c with | cons c1 c2 => exact ⟨by simp at hl; omega, small_val h c1 (by simp at hl; omega), small_members hs c2 (by simp at hl; omega)⟩
end

/-! ### the conversion -/

theorem clean_timestampLoop : ∀ (n : Nat) (d : JElems) (a : Int × Int), Clean (timestampLoop n d a)
  | 0, _, _ => clean_ok _
  | _ + 1, .nil, _ => clean_ok _
  | n + 1, .cons k v r, (t, i) => by
    rw [timestampLoop.eq_def]
    dsimp only
    split
    · split
      · exact clean_timestampLoop n r _
      · exact clean_err _
    · split
      · split
        · exact clean_timestampLoop n r _
        · exact clean_err _
      · exact clean_timestampLoop n r _

theorem pairLoop_small (a b : Bytes) {m : Nat} : ∀ (n : Nat) (d : JElems) (p : Bytes × Bytes), SmallElems m d → p.1.length < m → p.2.length < m →
    Clean (pairLoop a b n d p) ∧ ∀ q, pairLoop a b n d p = .ok q → q.1.length < m ∧ q.2.length < m
  | 0, _, _, _, h1, h2 => ⟨clean_ok _, fun q hq => by cases hq; exact ⟨h1, h2⟩⟩
  | _ + 1, .nil, _, _, h1, h2 => ⟨clean_ok _, fun q hq => by cases hq; exact ⟨h1, h2⟩⟩
  | n + 1, .cons k v r, (x, y), hd, h1, h2 => by
    rw [pairLoop.eq_def]
    dsimp only
    obtain ⟨-, hv, hr⟩ := hd
    split
    · split
      · exact pairLoop_small a b n r _ hr hv h2
      · exact ⟨clean_err _, nofun⟩
    · split
      · split
        · exact pairLoop_small a b n r _ hr h1 hv
        · exact ⟨clean_err _, nofun⟩
      · exact pairLoop_small a b n r _ hr h1 h2

theorem scope_open' {k : Bytes} {d : Doc} (h : k.length < 2 ^ 28) : (EC.subDocument k d).bind (mutableDocument 0) = .ok d := by
  unfold EC.subDocument
  rw [header_ok 3 k (by omega), u32_small (by omega)]
  rfl

mutual
theorem clean_conv {S : Strconv} {C : Clock} : ∀ (j : JsonText.J) (w : JVal) (k : Bytes), JsonText.Conv S j w → Tame j → Small (2 ^ 28) w → k.length < 2 ^ 28 → Clean (convert C k w)
  | .null, _, k, c, _, _, hk => by cases c; rw [convert]; exact clean_header hk
  | .bool b, _, k, c, _, _, hk => by cases c; rw [convert]; exact clean_boolean b hk
  | .num t, _, k, c, _, _, hk => by
    cases c with
    | int => rw [convert]; exact clean_int _ hk
    | dbl => rw [convert]; exact clean_double _ hk
  | .str s, _, k, c, _, hs, hk => by cases c; rw [convert]; exact clean_string hk hs
  | .arr vs, _, k, c, ht, hs, hk => by
    cases c with
    | arr c => rw [convert]; exact clean_bind (clean_collect _ (clean_vals vs _ c ht hs)) fun _ _ => clean_array _ hk
  | .obj .nil, _, k, c, ht, hs, hk => by
    cases c with
    | obj c => cases c; rw [convert]; exact clean_bind (clean_ok _) fun _ _ => clean_subDocument _ hk
  | .obj (.cons k0 v r), _, k, c, ht, hs, hk => by
    cases c with
    | obj c =>
    cases c with
    | @cons _ _ w _ ws c1 c2 =>
    simp only [Tame] at ht
    obtain ⟨hstr, hobj, hfree, hcode⟩ := ht
    obtain ⟨hk0, hw, hws⟩ := hs
    rw [convert]
    have str : IsStr v → ∃ s, w = .str s ∧ s.length < 2 ^ 28 := fun h => by
      cases c1 with
      | @str s => exact ⟨s, rfl, hw⟩
      | _ => cases h
    have obj : IsObj v → ∃ d, w = .obj d ∧ SmallElems (2 ^ 28) d := fun h => by
      cases c1 with
      | @obj _ d => exact ⟨d, rfl, hw⟩
      | _ => cases h
    by_cases hr : k0 ∈ reserved
    · by_cases hc : k0 = ascii "$code"
      · have e : k0 = kCode := hc.trans (by decide)
        cases c1 with
        | @str s =>
          subst e
          rw [object.eq_def]
          simp only [show kCode ≠ kMinKey by decide, show kCode ≠ kMaxKey by decide, show kCode ≠ kDecimal by decide, show kCode ≠ kTimestamp by decide, show kCode ≠ kSymbol by decide,
            if_false, if_true]
          have hcode := hcode hc trivial
          cases r with
          | nil => cases c2; exact clean_javaScript hk hw
          | cons k1 v1 r1 =>
            cases c2 with
            | @cons _ _ w1 _ ws1 d1 d2 =>
            obtain ⟨hk1, hw1, -⟩ := hws
            dsimp only
            split
            · exact clean_javaScript hk hw
            · split
              · next hsc =>
                have hsc : k1 = ascii "$scope" := hsc.trans (by decide)
                simp only [TameScope] at hcode
                obtain ⟨hp, ht⟩ := hcode hsc
                have hclean := clean_conv (C := C) v1 w1 k1 d1 ht hw1 hk1
                simp only [convertElems]
                refine clean_bind hclean fun scope hscope => clean_bind ?_ fun _ _ => clean_code _ hk hw
                -- the scope is a document
                cases d1 with
                | @obj es ws d1 =>
                  have hf : Free ws := by
                    cases d1 with
                    | nil => trivial
                    | cons => exact hp
                  rw [convert, object_default hf] at hscope
                  cases hcol : collect (convertElems C ws) with
                  | ok d =>
                    rw [hcol] at hscope
                    have := scope_open' (k := k1) (d := d) hk1
                    rw [show EC.subDocument k1 d = .ok scope from hscope] at this
                    exact .inl ⟨d, this⟩
                  | _ => rw [hcol] at hscope; cases hscope
                | _ => cases hp
              · exact clean_err _
        | _ =>
          subst e
          rw [object.eq_def]
          simp only [show kCode ≠ kMinKey by decide, show kCode ≠ kMaxKey by decide, show kCode ≠ kDecimal by decide, show kCode ≠ kTimestamp by decide, show kCode ≠ kSymbol by decide,
            if_false, if_true]
          exact clean_err _
      · have e : reserved = [kMinKey, kMaxKey, kDecimal, kTimestamp, kSymbol, kCode, kDbPointer, kRegex, kDate, kOid, kUndefined, kBinary] := by decide +kernel
        rw [e] at hr
        simp only [List.mem_cons, List.not_mem_nil, or_false] at hr
        rcases hr with rfl | rfl | rfl | rfl | rfl | rfl | rfl | rfl | rfl | rfl | rfl | rfl
        · exact clean_header hk
        · exact clean_header hk
        · obtain ⟨s, rfl, hs⟩ := str (hstr (by decide))
          exact clean_errOr fun x _ => clean_decimal _ _ hk
        · obtain ⟨d, rfl, hd⟩ := obj (hobj (by decide))
          refine clean_bind (clean_ok d) fun d' hd' => ?_
          exact clean_bind (clean_timestampLoop 3 d' (0, 0)) fun _ _ => clean_timestamp _ _ hk
        · obtain ⟨s, rfl, hs⟩ := str (hstr (by decide))
          exact clean_symbol hk hs
        · exact absurd (by decide) hc
        · obtain ⟨d, rfl, hd⟩ := obj (hobj (by decide))
          have hp := pairLoop_small kRef kId 2 d ([], []) hd (by simp) (by simp)
          refine clean_bind (clean_ok d) fun d' hd' => ?_
          obtain rfl : d = d' := by cases hd'; rfl
          refine clean_bind hp.1 fun q hq => ?_
          have := (hp.2 q hq).1
          dsimp only
          split
          · exact clean_err _
          · exact clean_errOr fun id hid => clean_dbPointer hk this (fromHex_length hid)
        · obtain ⟨d, rfl, hd⟩ := obj (hobj (by decide))
          have hp := pairLoop_small kPattern kOptions 2 d ([], []) hd (by simp) (by simp)
          refine clean_bind (clean_ok d) fun d' hd' => ?_
          obtain rfl : d = d' := by cases hd'; rfl
          refine clean_bind hp.1 fun q hq => ?_
          have := hp.2 q hq
          exact clean_regex hk this.1 this.2
        · obtain ⟨s, rfl, hs⟩ := str (hstr (by decide))
          exact clean_errOr fun x _ => clean_dateTime _ hk
        · obtain ⟨s, rfl, hs⟩ := str (hstr (by decide))
          exact clean_errOr fun x hx => clean_objectID hk (fromHex_length hx)
        · exact clean_header hk
        · obtain ⟨s, rfl, hs⟩ := str (hstr (by decide))
          exact clean_binary hk hs
    · rw [object_default (es := .cons k0 w ws) hr]
      obtain ⟨h1, h2⟩ := hfree hr
      refine clean_bind (clean_collect _ ?_) fun _ _ => clean_subDocument _ hk
      rw [convertElems]
      intro c hc
      rcases List.mem_cons.mp hc with rfl | hc
      · exact clean_conv v w k0 c1 h1 hw hk0
      · exact clean_fields r ws c2 h2 hws c hc
theorem clean_vals {S : Strconv} {C : Clock} : ∀ (js : JsonText.Js) (ws : JVals), JsonText.ConvVals S js ws → TameVals js → SmallVals (2 ^ 28) ws → ∀ c ∈ convertVals C ws, Clean c
  | .nil, _, c, _, _ => by cases c; simp [convertVals]
  | .cons v r, _, c, ht, hs => by
    cases c with
    | @cons _ w _ ws c1 c2 =>
    rw [convertVals]
    intro c hc
    rcases List.mem_cons.mp hc with rfl | hc
    · exact clean_conv v w [] c1 ht.1 hs.1 (by simp)
    · exact clean_vals r ws c2 ht.2 hs.2 c hc
theorem clean_fields {S : Strconv} {C : Clock} : ∀ (es : JsonText.Jes) (ws : JElems), JsonText.ConvElems S es ws → TameFields es → SmallElems (2 ^ 28) ws → ∀ c ∈ convertElems C ws, Clean c
  | .nil, _, c, _, _ => by cases c; simp [convertElems]
  | .cons k v r, _, c, ht, hs => by
    cases c with
    | @cons _ _ w _ ws c1 c2 =>
    rw [convertElems]
    intro c hc
    rcases List.mem_cons.mp hc with rfl | hc
    · exact clean_conv v w k c1 ht.1 hs.2.1 hs.1
    · exact clean_fields r ws c2 ht.2 hs.2.2 c hc
end

theorem clean_appendAll : ∀ (cs : List (Res Value)) (d : Doc), (∀ c ∈ cs, Clean c) → ∃ added e, appendAll d cs = .ok (d ++ added, e)
  | [], d, _ => ⟨[], none, by simp [appendAll]⟩
  | c :: cs, d, h => by
    rcases h c (by simp) with ⟨v, rfl⟩ | ⟨e, rfl⟩
    · obtain ⟨a, e, h⟩ := clean_appendAll cs (d ++ [v]) fun c hc => h c (by simp [hc])
      exact ⟨v :: a, e, by rw [appendAll, h]; simp⟩
    · exact ⟨[], some e, by simp [appendAll]⟩

end Birch.Proofs.ExtJson
