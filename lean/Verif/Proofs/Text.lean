import Verif.Spec.Text
import Verif.Proofs.GoValue
import Verif.Proofs.ReaderWalk
import Verif.Proofs.ExtJson
import Verif.Proofs.ValueReader
/- Lemmas about the texts of documents. -/
namespace Birch.Proofs.Text
open Birch Birch.Model Birch.Model.Text Birch.Spec

def styleOf : Verb → Spec.Text.Style
  | .v => Spec.Text.plain
  | .s => Spec.Text.broken

theorem join_eq (sep : String) : ∀ l : List Bytes, join (ascii sep) l = Spec.Text.separated sep l
  | [] => rfl
  | [t] => by simp [join, Spec.Text.separated]
  | t :: u :: r => by
    have := join_eq sep (u :: r)
    simp only [Spec.Text.separated] at this ⊢
    simp [join, this]

theorem strLe_eq : ∀ a b : Bytes, strLe a b = Spec.Text.before a b
  | [], b => by simp [strLe, Spec.Text.before]
  | x :: a, [] => by simp [strLe, Spec.Text.before]
  | x :: a, y :: b => by
    have ih := strLe_eq a b
    unfold Spec.Text.before at ih ⊢
    rw [strLe, ih, Bool.eq_iff_iff]
    simp only [List.map_cons, Bool.or_eq_true, Bool.and_eq_true, decide_eq_true_eq, beq_iff_eq, List.cons_le_cons_iff, UInt8.toNat_inj, UInt8.lt_iff_toNat_lt]

theorem number_eq (i : Int) : Json.formatInt i = Spec.Text.number i := by
  unfold Json.formatInt Spec.Text.number
  split
  · rw [itoa_eq, show (-i).toNat = i.natAbs by omega]; rfl
  · rw [itoa_eq, show i.toNat = i.natAbs by omega]; rfl

theorem simple_eq (verb : Verb) (name : String) (t : Bytes) : noString verb (ascii name) t = (styleOf verb).simple name t := by
  cases verb <;> rfl

theorem bytes_eq (verb : Verb) (b : Bytes) : byteSlice verb b = (styleOf verb).bytes b := by
  cases verb
  · simp only [byteSlice, styleOf, Spec.Text.plain, join_eq, number_eq]
  · rfl

theorem oid_eq (id : Bytes) : oidText id = Spec.Text.objectID id := by
  unfold oidText Spec.Text.objectID
  rw [Proofs.ExtJson.hexText_eq]

mutual
theorem text_eq (F : Fmt) (verb : Verb) : ∀ t : BVal, t.NoDecimal → text F verb (goOf t) = Spec.Text.inner F (styleOf verb) t
  | .double b, _ => by simp [goOf, text, Spec.Text.inner, simple_eq]
  | .string s, _ => by simp [goOf, text, Spec.Text.inner]
  | .doc fs, h => by
    have := entries_eq F verb fs h
    simp only [goOf, text, Spec.Text.inner, mapText, this, join_eq, strLe_eq]
  | .array vs, h => by
    have := texts_eq F verb vs h
    simp only [goOf, text, Spec.Text.inner, this, join_eq]
  | .binary _ b, _ => by simp [goOf, text, Spec.Text.inner, bytes_eq]
  | .undefined, _ => by simp [goOf, text, Spec.Text.inner]
  | .oid id, _ => by simp [goOf, text, Spec.Text.inner, oid_eq]
  | .bool b, _ => by cases b <;> simp [goOf, text, Spec.Text.inner, simple_eq]
  | .datetime ms, _ => by simp [goOf, text, Spec.Text.inner]
  | .null, _ => by simp [goOf, text, Spec.Text.inner]
  | .regex p o, _ => by simp [goOf, text, Spec.Text.inner]
  | .dbpointer ns id, _ => by simp [goOf, text, Spec.Text.inner, oid_eq]
  | .js c, _ => by simp [goOf, text, Spec.Text.inner]
  | .symbol s, _ => by simp [goOf, text, Spec.Text.inner]
  | .codeScope c fs, _ => by simp [goOf, text, Spec.Text.inner]
  | .int32 i, _ => by simp only [goOf, text, Spec.Text.inner, goInt, simple_eq, number_eq]
  | .timestamp t i, _ => by simp only [goOf, text, Spec.Text.inner, simple_eq, number_eq]
  | .int64 i, _ => by simp only [goOf, text, Spec.Text.inner, goInt, simple_eq, number_eq]
  | .decimal _ _, h => by simp [BVal.NoDecimal] at h
  | .minKey, _ => by simp [goOf, text, Spec.Text.inner]
  | .maxKey, _ => by simp [goOf, text, Spec.Text.inner]
theorem entries_eq (F : Fmt) (verb : Verb) : ∀ fs : Fields, fs.NoDecimal → entries F verb (goOfFields fs) = Spec.Text.innerFields F (styleOf verb) fs
  | .nil, _ => by simp [goOfFields, entries, Spec.Text.innerFields]
  | .cons k t rest, h => by
    have h1 := text_eq F verb t h.1
    have h2 := entries_eq F verb rest h.2
    unfold goOfFields Spec.Text.innerFields
    by_cases hk : k ∈ rest.keys
    · rw [if_pos hk, if_pos hk, h2]
    · rw [if_neg hk, if_neg hk, entries, h1, h2]
theorem texts_eq (F : Fmt) (verb : Verb) : ∀ vs : Vals, vs.NoDecimal → texts F verb (goOfVals vs) = Spec.Text.innerVals F (styleOf verb) vs
  | .nil, _ => by simp [goOfVals, texts, Spec.Text.innerVals]
  | .cons t rest, h => by simp [goOfVals, texts, Spec.Text.innerVals, text_eq F verb t h.1, texts_eq F verb rest h.2]
end

theorem typeName_eq (t : BVal) : typeName t.tag = Spec.Text.kind t := by cases t <;> rfl

theorem value_eq (F : Fmt) (t : BVal) (h : t.NoDecimal) : arg F .v (quoted F t.tag (goOf t)) = Spec.Text.value F t := by
  have e := text_eq F .v t h
  cases t <;> first
    | exact e
    | simpa [BVal.tag, goOf, quoted, arg, Spec.Text.value] using e
    | simp [BVal.tag, goOf, quoted, arg, text, Spec.Text.value]

theorem item_eq (F : Fmt) (t : BVal) (h : t.NoDecimal) : arg F .s (goOf t) = Spec.Text.item F t := by
  have e := text_eq F .s t h
  cases t <;> first
    | exact e
    | rfl

theorem elemString_rep (F : Fmt) {v : Value} {k : Bytes} {t : BVal} (h : Rep v k t) (hd : t.NoDecimal) (hl : t.enc.length < 2147483648) {fuel : Nat} (hf : t.enc.length < fuel) :
    elemString F fuel v = .ok (Spec.Text.element F k t) := by
  unfold elemString
  rw [valueInterface_rep fuel v k t h hd hl hf, type_rep h, key_rep h]
  simp only [Res.bind_ok, value_eq F t hd, typeName_eq]
  rfl

/-- texts after others -/
def tail (sep : String) (l : List Bytes) : Bytes := l.flatMap (ascii sep ++ ·)

theorem separated_cons (sep : String) (t : Bytes) (l : List Bytes) : Spec.Text.separated sep (t :: l) = t ++ tail sep l := by
  unfold Spec.Text.separated tail
  induction l generalizing t with
  | nil => simp
  | cons u r ih => rw [List.intersperse_cons_cons, List.flatten_cons, List.flatten_cons, ih]; simp

/-- what `f` makes of each element -/
def Prints (f : Value → Res Bytes) : Doc → List Bytes → Prop
  | [], [] => True
  | v :: d, t :: l => f v = .ok t ∧ Prints f d l
  | _, _ => False

theorem loop_tail {f : Value → Res Bytes} : ∀ {d : Doc} {l : List Bytes} (i : Nat), Prints f d l → loop f (i + 1) d = .ok (tail ", " l)
  | [], [], _, _ => rfl
  | [], _ :: _, _, h => h.elim
  | _ :: _, [], _, h => h.elim
  | v :: d, t :: l, i, h => by
    unfold loop
    rw [h.1, loop_tail (i + 1) h.2]
    simp [tail]

theorem loop_eq {f : Value → Res Bytes} : ∀ {d : Doc} {l : List Bytes}, Prints f d l → loop f 0 d = .ok (Spec.Text.separated ", " l)
  | [], [], _ => rfl
  | [], _ :: _, h => h.elim
  | _ :: _, [], h => h.elim
  | v :: d, t :: l, h => by
    unfold loop
    rw [h.1, loop_tail 0 h.2, separated_cons]
    simp

theorem prints_elements (F : Fmt) {f : Value → Res Bytes} {N : Nat}
    (hf : ∀ v k t, Rep v k t → t.NoDecimal → t.enc.length < N → f v = .ok (Spec.Text.element F k t)) :
    ∀ {d : Doc} {fs : Fields}, RepFields d fs → fs.NoDecimal → fs.enc.length < N → Prints f d (Spec.Text.elements F fs)
  | [], .nil, _, _, _ => trivial
  | [], .cons _ _ _, h, _, _ => by simp [RepFields] at h
  | _ :: _, .nil, h, _, _ => by simp [RepFields] at h
  | v :: d, .cons k t fs, h, hd, hl => by
    rw [fieldsEnc_length] at hl
    exact ⟨hf v k t h.1 hd.1 (by omega), prints_elements F hf h.2 hd.2 (by omega)⟩

theorem prints_items (F : Fmt) {f : Value → Res Bytes} {N : Nat}
    (hf : ∀ v k t, Rep v k t → t.NoDecimal → t.enc.length < N → f v = .ok (Spec.Text.item F t)) :
    ∀ {d : Doc} {vs : Vals} (i : Nat), RepVals d vs → vs.NoDecimal → (vs.encFrom i).length < N → Prints f d (Spec.Text.items F vs)
  | [], .nil, _, _, _, _ => trivial
  | [], .cons _ _, _, h, _, _ => by simp [RepVals] at h
  | _ :: _, .nil, _, h, _, _ => by simp [RepVals] at h
  | v :: d, .cons t vs, i, h, hd, hl => by
    rw [encFrom_length] at hl
    obtain ⟨⟨k, h1⟩, h2⟩ := h
    exact ⟨hf v k t h1 hd.1 (by omega), prints_items F hf (i + 1) h2 hd.2 (by omega)⟩

theorem docString_rep (F : Fmt) {d : Doc} {fs : Fields} (h : RepFields d fs) (hd : fs.NoDecimal) (hl : fs.enc.length < 2147483648) {fuel : Nat} (hf : fs.enc.length < fuel) :
    docString F fuel d = .ok (Spec.Text.document "bson.Document" F fs) := by
  unfold docString
  rw [loop_eq (prints_elements F (N := fs.enc.length + 1) (fun v k t hr hd ht => elemString_rep F hr hd (by omega) (by omega)) h hd (by omega))]
  simp [Spec.Text.document, ascii]

theorem arrString_rep (F : Fmt) {d : Doc} {vs : Vals} (h : RepVals d vs) (hd : vs.NoDecimal) (hl : (vs.encFrom 0).length < 2147483648) {fuel : Nat}
    (hf : (vs.encFrom 0).length < fuel) : arrString F fuel d = .ok (Spec.Text.array F vs) := by
  unfold arrString
  rw [loop_eq (prints_items F (N := (vs.encFrom 0).length + 1) (fun v k t hr hd ht => by
    rw [valueInterface_rep fuel v k t hr hd (by omega) (by omega)]
    simp only [Res.bind_ok, item_eq F t hd]) 0 h hd (by omega))]
  simp [Spec.Text.array]

/-! ### readers -/

/-- the loop of `Reader.String` prints what a loop over the iterator gets -/
theorem readerLoop_range (f : Value → Res Bytes) : ∀ (fuel : Nat) (r : Bytes) (pos end_ i : Nat) (vs : List Value) (en : Res ReaderWalk.Walk),
    ReaderWalk.range fuel ⟨r, pos, end_⟩ none = (vs, en) → en ≠ .panic → en ≠ .oof → readerLoop f fuel r pos end_ i = loop f i vs
  | 0, r, pos, end_, i, vs, en, h, _, h2 => by
    simp only [ReaderWalk.range, Prod.mk.injEq] at h
    exact absurd h.2.symm h2
  | fuel + 1, r, pos, end_, i, vs, en, h, h1, h2 => by
    unfold ReaderWalk.range at h
    unfold readerLoop
    simp only at h
    cases hn : iterNext r pos end_ with
    | ok o =>
      rw [hn] at h
      cases o with
      | none => simp only [Prod.mk.injEq] at h; obtain ⟨rfl, rfl⟩ := h; rfl
      | some x =>
        obtain ⟨v, pos'⟩ := x
        simp only [reduceCtorEq, if_false, Option.map_none, Prod.mk.injEq] at h
        obtain ⟨h3, h4⟩ := h
        subst h3
        have := readerLoop_range f fuel r pos' end_ (i + 1) (ReaderWalk.range fuel ⟨r, pos', end_⟩ none).1 en (by rw [← h4]) h1 h2
        simp only
        rw [this]
        rfl
    | err e => rw [hn] at h; simp only [Prod.mk.injEq] at h; obtain ⟨rfl, rfl⟩ := h; rfl
    | panic => rw [hn] at h; simp only [Prod.mk.injEq] at h; exact absurd h.2.symm h1
    | oof => rw [hn] at h; simp only [Prod.mk.injEq] at h; exact absurd h.2.symm h2

theorem printElem_ok {F : Fmt} {fuel : Nat} {v : Value} {t : Bytes} (h : elemString F fuel v = .ok t) : printElem F fuel v = .ok t := by
  unfold printElem; rw [h]

theorem printElem_noPanic (F : Fmt) (fuel : Nat) (v : Value) : (∃ t, printElem F fuel v = .ok t) ∨ printElem F fuel v = .oof := by
  unfold printElem
  cases elemString F fuel v <;> simp

theorem readerLoop_noPanic {f : Value → Res Bytes} (hf : ∀ v, (∃ t, f v = .ok t) ∨ f v = .oof) {r : Bytes} {end_ : Nat} (he : end_ ≤ r.length) (hl : r.length < 2147483648) :
    ∀ (fuel pos i : Nat), (∃ t, readerLoop f fuel r pos end_ i = .ok t) ∨ readerLoop f fuel r pos end_ i = .oof
  | 0, _, _ => .inr rfl
  | fuel + 1, pos, i => by
    unfold readerLoop
    rcases Proofs.ReaderWalk.next_safe he hl pos with ⟨o, h⟩ | ⟨e, h⟩
    · rw [h]
      cases o with
      | none => exact .inl ⟨_, rfl⟩
      | some x =>
        obtain ⟨v, pos'⟩ := x
        simp only
        rcases hf v with ⟨t, ht⟩ | ht
        · rw [ht]
          rcases readerLoop_noPanic hf he hl fuel pos' (i + 1) with ⟨u, hu⟩ | hu
          · rw [hu]; exact .inl ⟨_, rfl⟩
          · rw [hu]; exact .inr rfl
        · rw [ht]; exact .inr rfl
    · rw [h]; exact .inl ⟨_, rfl⟩

/-! ### reading texts back -/

/-- two texts that end at the first `c` -/
theorem cut_at {c : UInt8} : ∀ {a b x y : Bytes}, c ∉ a → c ∉ b → a ++ c :: x = b ++ c :: y → a = b ∧ x = y
  | [], [], x, y, _, _, h => by simpa using h
  | [], b0 :: b, x, y, _, hb, h => by
    simp only [List.nil_append, List.cons_append, List.cons.injEq] at h
    exact absurd (by simp [h.1]) hb
  | a0 :: a, [], x, y, ha, _, h => by
    simp only [List.nil_append, List.cons_append, List.cons.injEq] at h
    exact absurd (by simp [h.1]) ha
  | a0 :: a, b0 :: b, x, y, ha, hb, h => by
    simp only [List.cons_append, List.cons.injEq] at h
    obtain ⟨h1, h2⟩ := cut_at (fun m => ha (by simp [m])) (fun m => hb (by simp [m])) h.2
    exact ⟨by rw [h.1, h1], h2⟩

theorem decimalKey_digit {n : Nat} {c : UInt8} (h : c ∈ decimalKey n) : 48 ≤ c.toNat ∧ c.toNat ≤ 57 := by
  unfold decimalKey at h
  obtain ⟨d, h1, rfl⟩ := List.mem_map.mp h
  have := Nat.isDigit_of_mem_toDigits (by decide) (by decide) h1
  simp only [Char.isDigit, Bool.and_eq_true, decide_eq_true_eq, UInt32.le_iff_toNat_le] at this
  simp at this
  rw [UInt8.toNat_ofNat_of_lt' (by show d.toNat < 256; omega)]
  exact this

theorem number_char {i : Int} {c : UInt8} (h : c ∈ Spec.Text.number i) : c.toNat = 45 ∨ 48 ≤ c.toNat ∧ c.toNat ≤ 57 := by
  unfold Spec.Text.number at h
  rcases List.mem_append.mp h with h | h
  · split at h
    · left
      simp [ascii] at h
      rw [h]; rfl
    · simp at h
  · exact .inr (decimalKey_digit h)

theorem number_inj {i j : Int} (h : Spec.Text.number i = Spec.Text.number j) : i = j := by
  unfold Spec.Text.number at h
  have nm : ∀ {a b : Nat}, ascii "-" ++ decimalKey a ≠ decimalKey b := fun {a b} h => by
    have : (45 : UInt8) ∈ decimalKey b := by rw [← h]; simp [ascii]
    have := decimalKey_digit this
    simp at this
  split at h <;> split at h
  · have := decimalKey_inj' (List.append_cancel_left h); omega
  · exact absurd h nm
  · exact absurd h.symm nm
  · have := decimalKey_inj' h; omega

theorem hexText_inj {a b : Bytes} (ha : a.length = 12) (hb : b.length = 12) (h : Spec.ExtJson.hexText a = Spec.ExtJson.hexText b) : a = b := by
  rw [← Proofs.ExtJson.hexText_eq, ← Proofs.ExtJson.hexText_eq] at h
  have := Proofs.ExtJson.fromHex_hex ha
  rw [h, Proofs.ExtJson.fromHex_hex hb] at this
  exact (Option.some.inj this).symm

theorem hexText_length (a : Bytes) : (Spec.ExtJson.hexText a).length = 2 * a.length := by
  unfold Spec.ExtJson.hexText
  induction a with
  | nil => rfl
  | cons c r ih => simp [ih]; omega

theorem kind_bracket (t : BVal) : 0x5D ∉ Spec.Text.kind t := by cases t <;> simp only [Spec.Text.kind] <;> decide

theorem number_cut {i j : Int} {c : UInt8} (h1 : c.toNat ≠ 45) (h2 : ¬ (48 ≤ c.toNat ∧ c.toNat ≤ 57)) {x y : Bytes}
    (h : Spec.Text.number i ++ c :: x = Spec.Text.number j ++ c :: y) : i = j ∧ x = y := by
  have nc : ∀ i, c ∉ Spec.Text.number i := fun i m => by
    rcases number_char m with h | h
    · exact h1 h
    · exact h2 h
  obtain ⟨h3, h4⟩ := cut_at (nc i) (nc j) h
  exact ⟨number_inj h3, h4⟩

theorem value_cut {F : Fmt} (hq : Spec.Text.Quotes F.quote) {t u : BVal} (ht : Spec.Text.Legible t) (hu : Spec.Text.Legible u) (wt : t.WF) (wu : u.WF)
    (hk : Spec.Text.kind t = Spec.Text.kind u) {x y : Bytes} (h : Spec.Text.value F t ++ 0x7D :: x = Spec.Text.value F u ++ 0x7D :: y) : t = u ∧ x = y := by
  cases t <;> first | exact ht.elim | skip
  all_goals cases u <;> first | exact hu.elim | exact absurd hk (by simp only [Spec.Text.kind]; decide) | skip
  case string.string s s' =>
    obtain ⟨rfl, h2⟩ := hq _ _ _ _ h
    exact ⟨rfl, by simpa using h2⟩
  case undefined.undefined => exact ⟨rfl, by simpa using h⟩
  case oid.oid a b =>
    simp only [Spec.Text.value, Spec.Text.inner, Spec.Text.objectID, List.append_assoc] at h
    have h := List.append_cancel_left h
    obtain ⟨h1, h2⟩ := List.append_inj h (by rw [hexText_length, hexText_length, wt, wu])
    exact ⟨by rw [hexText_inj wt wu h1], by simpa using h2⟩
  case bool.bool a b =>
    have e : ∀ b, Spec.Text.value F (.bool b) = ascii (if b then "true" else "false") := fun b => rfl
    rw [e, e] at h
    cases a <;> cases b <;> simp [ascii] at h
    · exact ⟨rfl, h⟩
    · exact ⟨rfl, h⟩
  case null.null => exact ⟨rfl, by simpa using h⟩
  case int32.int32 i j =>
    obtain ⟨rfl, h2⟩ := number_cut (by decide) (by decide) (show Spec.Text.number i ++ 0x7D :: x = Spec.Text.number j ++ 0x7D :: y from h)
    exact ⟨rfl, h2⟩
  case timestamp.timestamp a i b j =>
    have e : ∀ a i x, Spec.Text.value F (.timestamp a i) ++ 0x7D :: x = 0x7B :: (Spec.Text.number a ++ 0x20 :: (Spec.Text.number i ++ 0x7D :: 0x7D :: x)) := by
      intro a i x
      simp [Spec.Text.value, Spec.Text.inner, Spec.Text.plain, ascii]
    rw [e, e, List.cons.injEq] at h
    obtain ⟨h1, h2⟩ := number_cut (by decide) (by decide) h.2
    obtain ⟨h3, h4⟩ := number_cut (by decide) (by decide) h2
    refine ⟨?_, by simpa using h4⟩
    rw [Int.ofNat_inj.mp h1, Int.ofNat_inj.mp h3]
  case int64.int64 i j =>
    obtain ⟨rfl, h2⟩ := number_cut (by decide) (by decide) (show Spec.Text.number i ++ 0x7D :: x = Spec.Text.number j ++ 0x7D :: y from h)
    exact ⟨rfl, h2⟩
  case minKey.minKey => exact ⟨rfl, by simpa using h⟩
  case maxKey.maxKey => exact ⟨rfl, by simpa using h⟩

theorem element_cut {F : Fmt} (hq : Spec.Text.Quotes F.quote) {k l : Bytes} {t u : BVal} (hk : 0x22 ∉ k) (hl : 0x22 ∉ l) (ht : Spec.Text.Legible t) (hu : Spec.Text.Legible u)
    (wt : t.WF) (wu : u.WF) {x y : Bytes} (h : Spec.Text.element F k t ++ x = Spec.Text.element F l u ++ y) : k = l ∧ t = u ∧ x = y := by
  have e : ∀ (k : Bytes) (t : BVal) (x : Bytes), Spec.Text.element F k t ++ x =
      ascii "bson.Element{[" ++ (Spec.Text.kind t ++ 0x5D :: 0x22 :: (k ++ 0x22 :: 0x3A :: 0x20 :: (Spec.Text.value F t ++ 0x7D :: x))) := by
    intro k t x
    simp [Spec.Text.element, ascii]
  rw [e, e] at h
  obtain ⟨h1, h2⟩ := cut_at (kind_bracket t) (kind_bracket u) (List.append_cancel_left h)
  simp only [List.cons.injEq, true_and] at h2
  obtain ⟨h3, h4⟩ := cut_at hk hl h2
  simp only [List.cons.injEq, true_and] at h4
  obtain ⟨h5, h6⟩ := value_cut hq ht hu wt wu h1 h4
  exact ⟨h3, h5, h6⟩

theorem tail_inj {F : Fmt} (hq : Spec.Text.Quotes F.quote) : ∀ {fs gs : Fields}, Spec.Text.LegibleFields fs → Spec.Text.LegibleFields gs → fs.WF → gs.WF →
    tail ", " (Spec.Text.elements F fs) ++ ascii "}" = tail ", " (Spec.Text.elements F gs) ++ ascii "}" → fs = gs
  | .nil, .nil, _, _, _, _, _ => rfl
  | .nil, .cons _ _ _, _, _, _, _, h => by simp [Spec.Text.elements, tail, ascii] at h
  | .cons _ _ _, .nil, _, _, _, _, h => by simp [Spec.Text.elements, tail, ascii] at h
  | .cons k t fs, .cons l u gs, hf, hg, wf, wg, h => by
    have e : ∀ (k : Bytes) (t : BVal) (fs : Fields), tail ", " (Spec.Text.elements F (.cons k t fs)) ++ ascii "}" =
        ascii ", " ++ (Spec.Text.element F k t ++ (tail ", " (Spec.Text.elements F fs) ++ ascii "}")) := by
      intro k t fs; simp [Spec.Text.elements, tail]
    rw [e, e] at h
    obtain ⟨rfl, rfl, h3⟩ := element_cut hq hf.1 hg.1 hf.2.1 hg.2.1 wf.2.1 wg.2.1 (List.append_cancel_left h)
    rw [tail_inj hq hf.2.2 hg.2.2 wf.2.2 wg.2.2 h3]

theorem separated_inj {F : Fmt} (hq : Spec.Text.Quotes F.quote) : ∀ {fs gs : Fields}, Spec.Text.LegibleFields fs → Spec.Text.LegibleFields gs → fs.WF → gs.WF →
    Spec.Text.separated ", " (Spec.Text.elements F fs) ++ ascii "}" = Spec.Text.separated ", " (Spec.Text.elements F gs) ++ ascii "}" → fs = gs
  | .nil, .nil, _, _, _, _, _ => rfl
  | .nil, .cons _ _ _, _, _, _, _, h => by
    rw [Spec.Text.elements, Spec.Text.elements, separated_cons] at h
    simp [Spec.Text.separated, Spec.Text.element, ascii] at h
  | .cons _ _ _, .nil, _, _, _, _, h => by
    rw [Spec.Text.elements, Spec.Text.elements, separated_cons] at h
    simp [Spec.Text.separated, Spec.Text.element, ascii] at h
  | .cons k t fs, .cons l u gs, hf, hg, wf, wg, h => by
    rw [Spec.Text.elements, Spec.Text.elements, separated_cons, separated_cons, List.append_assoc, List.append_assoc] at h
    obtain ⟨rfl, rfl, h3⟩ := element_cut hq hf.1 hg.1 hf.2.1 hg.2.1 wf.2.1 wg.2.1 h
    rw [tail_inj hq hf.2.2 hg.2.2 wf.2.2 wg.2.2 h3]

/-! ### what is lost -/

theorem innerFields_nodup (F : Fmt) (S : Spec.Text.Style) : ∀ fs : Fields, fs.keys.Nodup → Spec.Text.innerFields F S fs = fs.toList.map fun p => (p.1, Spec.Text.inner F S p.2)
  | .nil, _ => rfl
  | .cons k t rest, h => by
    simp only [Fields.keys, List.nodup_cons] at h
    simp [Spec.Text.innerFields, Fields.toList, h.1, innerFields_nodup F S rest h.2]

theorem keys_toList : ∀ fs : Fields, fs.keys = fs.toList.map (·.1)
  | .nil => rfl
  | .cons k t rest => by simp [Fields.keys, Fields.toList, keys_toList rest]

theorem nodup_fst {α β : Type} : ∀ {l : List (α × β)}, (l.map (·.1)).Nodup → ∀ {p q : α × β}, p ∈ l → q ∈ l → p.1 = q.1 → p = q
  | [], _, _, _, hp, _, _ => by cases hp
  | x :: l, hn, p, q, hp, hq, h => by
    rw [List.map_cons, List.nodup_cons] at hn
    rcases List.mem_cons.mp hp with e1 | h1 <;> rcases List.mem_cons.mp hq with e2 | h2
    · rw [e1, e2]
    · exact (hn.1 (List.mem_map.mpr ⟨q, h2, by rw [← h, e1]⟩)).elim
    · exact (hn.1 (List.mem_map.mpr ⟨p, h1, by rw [h, e2]⟩)).elim
    · exact nodup_fst hn.2 h1 h2 h

theorem before_antisymm {a b : Bytes} (h1 : Spec.Text.before a b) (h2 : Spec.Text.before b a) : a = b := by
  unfold Spec.Text.before at h1 h2
  simp only [decide_eq_true_eq] at h1 h2
  have := List.le_antisymm h1 h2
  exact (List.map_inj_right (fun x y h => UInt8.toNat_inj.mp h)).mp this

theorem inner_perm (F : Fmt) (S : Spec.Text.Style) {fs gs : Fields} (hp : fs.toList.Perm gs.toList) (hn : fs.keys.Nodup) :
    Spec.Text.inner F S (.doc fs) = Spec.Text.inner F S (.doc gs) := by
  have hn' : gs.keys.Nodup := by rw [keys_toList] at hn ⊢; exact (hp.map _).nodup_iff.mp hn
  have hk : (Spec.Text.innerFields F S fs).mergeSort (fun a b => Spec.Text.before a.1 b.1) = (Spec.Text.innerFields F S gs).mergeSort (fun a b => Spec.Text.before a.1 b.1) := by
    rw [innerFields_nodup F S fs hn, innerFields_nodup F S gs hn']
    have hp' := hp.map fun p : Bytes × BVal => (p.1, Spec.Text.inner F S p.2)
    have trans : ∀ a b c : Bytes × Bytes, Spec.Text.before a.1 b.1 → Spec.Text.before b.1 c.1 → Spec.Text.before a.1 c.1 := by
      intro a b c h1 h2
      unfold Spec.Text.before at *
      simp only [decide_eq_true_eq] at *
      exact List.le_trans h1 h2
    have total : ∀ a b : Bytes × Bytes, (Spec.Text.before a.1 b.1 || Spec.Text.before b.1 a.1) = true := by
      intro a b
      unfold Spec.Text.before
      simp only [Bool.or_eq_true, decide_eq_true_eq]
      exact List.le_total _ _
    refine List.Perm.eq_of_pairwise (le := fun a b => Spec.Text.before a.1 b.1) ?_ (List.pairwise_mergeSort trans total _) (List.pairwise_mergeSort trans total _)
      (((List.mergeSort_perm _ _).trans hp').trans (List.mergeSort_perm _ _).symm)
    intro a b ha hb h1 h2
    have hab := before_antisymm h1 h2
    rw [List.mem_mergeSort] at ha hb
    rw [← hp'.mem_iff] at hb
    obtain ⟨p, hp1, rfl⟩ := List.mem_map.mp ha
    obtain ⟨q, hq1, rfl⟩ := List.mem_map.mp hb
    have : p = q := by
      rw [keys_toList] at hn
      exact nodup_fst hn hp1 hq1 hab
    rw [this]
  simp only [Spec.Text.inner, hk]

theorem separated_infix (sep : String) {x : Bytes} : ∀ {l : List Bytes}, x ∈ l → x <:+: Spec.Text.separated sep l
  | [y], h => by
    obtain rfl := List.mem_singleton.mp h
    simp [Spec.Text.separated]
  | y :: z :: l, h => by
    have e : Spec.Text.separated sep (y :: z :: l) = y ++ (ascii sep ++ Spec.Text.separated sep (z :: l)) := by
      simp [Spec.Text.separated]
    rw [e]
    rcases List.mem_cons.mp h with rfl | h
    · exact (List.prefix_append _ _).isInfix
    · exact (separated_infix sep h).trans ((List.suffix_append _ _).trans (List.suffix_append _ _)).isInfix

theorem item_mem (F : Fmt) {t : BVal} : ∀ {vs : Vals}, t ∈ vs.toList → Spec.Text.item F t ∈ Spec.Text.items F vs
  | .cons u vs, h => by
    rcases List.mem_cons.mp h with rfl | h
    · exact List.mem_cons_self
    · exact List.mem_cons_of_mem _ (item_mem F h)

theorem item_infix (F : Fmt) {t : BVal} {vs : Vals} (h : t ∈ vs.toList) : Spec.Text.item F t <:+: Spec.Text.array F vs := by
  unfold Spec.Text.array
  obtain ⟨a, b, e⟩ := separated_infix ", " (item_mem F h)
  exact ⟨ascii "bson.Array[" ++ a, b ++ ascii "]", by rw [← e]; simp⟩

end Birch.Proofs.Text
