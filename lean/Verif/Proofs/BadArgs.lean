import Verif.Spec.BadArgs
import Verif.Proofs.Construct

/- Marshalling elements with NUL bytes in keys and regular expressions. -/

namespace Birch.Proofs
open Birch Model Spec

theorem beforeNul_split (s : Bytes) : (NulFree s ∧ beforeNul s = s) ∨ ∃ b, s = beforeNul s ++ 0 :: b ∧ NulFree (beforeNul s) := by
  induction s with
  | nil => exact .inl ⟨by simp [NulFree], rfl⟩
  | cons c s ih =>
    by_cases hc : c = 0
    · subst hc
      exact .inr ⟨s, by simp [beforeNul], by simp [beforeNul, NulFree]⟩
    · have e : beforeNul (c :: s) = c :: beforeNul s := by simp [beforeNul, hc]
      rw [e]
      rcases ih with ⟨h1, h2⟩ | ⟨b, h1, h2⟩
      · left
        exact ⟨by
          intro x hx
          rcases List.mem_cons.mp hx with rfl | hx
          · exact hc
          · exact h1 x hx, by rw [h2]⟩
      · right
        exact ⟨b, by rw [List.cons_append, ← h1], by
          intro x hx
          rcases List.mem_cons.mp hx with rfl | hx
          · exact hc
          · exact h2 x hx⟩

theorem beforeNul_append {a : Bytes} (h : NulFree a) (b : Bytes) : beforeNul (a ++ 0 :: b) = a := takeWhile_nulFree h b

theorem beforeNul_le (s : Bytes) : (beforeNul s).length ≤ s.length := by
  rcases beforeNul_split s with ⟨_, h⟩ | ⟨b, h, _⟩
  · rw [h]; exact Nat.le_refl _
  · have := congrArg List.length h
    simp at this; omega

/-- the key of an element, with or without NUL bytes -/
theorem elemKeyLen_cut (k tl : Bytes) (x : UInt8) (hl : (x :: (k ++ 0 :: tl)).length < 2147483648) :
    elemKeyLen (x :: (k ++ 0 :: tl)) 0 (k.length + 2) = .ok ((beforeNul k).length + 1) := by
  rcases beforeNul_split k with ⟨hk, e⟩ | ⟨b, e, hk⟩
  · have := elemKeyLen_rep hk [] tl x (by simpa using hl)
    rw [e]; simpa using this
  · generalize beforeNul k = a at *
    subst e
    unfold elemKeyLen
    simp only [List.length_cons, List.length_append] at hl
    rw [if_neg (by simp)]
    have e1 : (((x :: (a ++ 0 :: b ++ 0 :: tl)).take (min ((a ++ 0 :: b).length + 2) (x :: (a ++ 0 :: b ++ 0 :: tl)).length)).drop (0 + 1)).takeWhile (· ≠ 0) = a := by
      have h1 : min ((a ++ 0 :: b).length + 2) (x :: (a ++ 0 :: b ++ 0 :: tl)).length = (a ++ 0 :: b).length + 2 := by simp; omega
      have h2 : x :: (a ++ 0 :: b ++ 0 :: tl) = (x :: (a ++ 0 :: b ++ [0])) ++ tl := by simp
      rw [h1, h2, List.take_left' (by simp; omega)]
      have := takeWhile_nulFree hk (b ++ [0])
      simpa using this
    simp only [e1]
    have e2 : min ((a ++ 0 :: b).length + 2) (x :: (a ++ 0 :: b ++ 0 :: tl)).length = a.length + b.length + 3 := by simp; omega
    have e3 : (x :: (a ++ 0 :: b ++ 0 :: tl)).length = a.length + b.length + tl.length + 3 := by simp; omega
    have e4 : (x :: (a ++ 0 :: b ++ 0 :: tl))[0 + 1 + a.length]? = some 0 := by
      rw [show 0 + 1 + a.length = a.length + 1 by omega, List.getElem?_cons_succ]
      simp
    rw [e2, e3, e4, if_neg (by omega), if_pos (by omega), if_pos rfl]

/-- an element that MarshalBSON writes as the bytes `e` -/
structure Emits (fuel : Nat) (v : Value) (e : Bytes) : Prop where
  size : ∃ k n, elemKeyLen v.data v.start v.offset = .ok k ∧ valueValidate fuel false v = .ok n ∧ 1 + k + n = e.length
  write : ∀ s b, s + e.length ≤ b.length → elemWrite fuel true s b v = .ok (e.length, splice b s e)

theorem emits_validate {fuel : Nat} {v : Value} {e : Bytes} (h : Emits fuel v e) (hl : e.length < 2147483648) : elemValidate fuel v = .ok e.length := by
  obtain ⟨k, n, h1, h2, h3⟩ := h.size
  unfold elemValidate
  rw [h1, h2]
  simp only [Res.bind_ok]
  rw [u32_small (by omega), h3]

/-- the elements of a document and what each of them is written as -/
inductive EmitsAll (fuel : Nat) : List Value → List Bytes → Prop
  | nil : EmitsAll fuel [] []
  | cons {v d e es} : Emits fuel v e → EmitsAll fuel d es → EmitsAll fuel (v :: d) (e :: es)

theorem elemsValidate_emits {fuel : Nat} {d : List Value} {es : List Bytes} (h : EmitsAll fuel d es) : ∀ (size : Nat) (more : List Value),
    size + es.flatten.length < 2147483648 → elemsValidate fuel size (d ++ more) = elemsValidate fuel (size + es.flatten.length) more := by
  induction h with
  | nil => intro size more _; rfl
  | @cons v d e es h hd ih =>
    intro size more hl
    simp only [List.flatten_cons, List.length_append] at hl ⊢
    obtain ⟨k, n, h1, h2, h3⟩ := h.size
    rw [List.cons_append]
    conv => lhs; unfold elemsValidate
    rw [h1, h2]
    simp only [Res.bind_ok]
    rw [u32_small (n := 1 + k + n) (by omega), u32_small (by omega), h3, ih _ more (by omega), Nat.add_assoc]

theorem elemsWrite_emits {fuel : Nat} {d : List Value} {es : List Bytes} (h : EmitsAll fuel d es) : ∀ (s : Nat) (b : Bytes),
    s + es.flatten.length ≤ b.length → elemsWrite fuel s b d = .ok (es.flatten.length, splice b s es.flatten) := by
  induction h with
  | nil => intro s b _; simp [elemsWrite, splice_nil]
  | @cons v d e es h hd ih =>
    intro s b hb
    simp only [List.flatten_cons, List.length_append] at hb ⊢
    unfold elemsWrite
    rw [h.write s b (by omega)]
    simp only [Res.bind_ok]
    rw [ih _ _ (by rw [splice_length (by omega)]; omega)]
    simp only [Res.bind_ok]
    rw [splice_splice rfl (by omega)]

theorem docMarshal_emits {fuel : Nat} {d : Doc} {es : List Bytes} (h : EmitsAll fuel d es) (hl : es.flatten.length + 5 < 2147483648) :
    docMarshal fuel d = .ok (wrapDoc es.flatten) := by
  unfold docMarshal docWrite docValidate
  have := elemsValidate_emits h 5 [] (by omega)
  rw [List.append_nil] at this
  rw [this]
  simp only [elemsValidate, Res.bind_ok]
  rw [Nat.add_comm 5, frameWrite_splice (x := es.flatten) (by omega) (by simp)
    (by intro b' hb'; exact elemsWrite_emits h _ b' (by rw [List.length_replicate] at hb'; omega))]
  simp only [Res.bind_ok]
  rw [splice_all (by simp)]

/-- a scalar element with any key whose value begins with a value of the specification -/
theorem emits_raw {fuel : Nat} {t : BVal} (k post : Bytes) (wf : t.WF) (ht : t.tag ≠ 0x0F)
    (hl : k.length + 2 + t.enc.length + post.length < 2147483648) (hf : t.enc.length < fuel) :
    Emits fuel (.raw 0 (k.length + 2) (t.tag :: (k ++ 0 :: (t.enc ++ post))))
      ((t.tag :: (k ++ 0 :: (t.enc ++ post))).take ((beforeNul k).length + 2 + t.enc.length)) := by
  have hle := beforeNul_le k
  have h1 := elemKeyLen_cut k (t.enc ++ post) t.tag (by simp; omega)
  have h2 : rawValidate fuel (t.tag :: (k ++ 0 :: (t.enc ++ post))) 0 (k.length + 2) = .ok t.enc.length := by
    have := rawValidate_enc fuel t wf (t.tag :: (k ++ [0])) post 0 (by simp) (by simp; omega) hf
    simpa using this
  have hlen : ((t.tag :: (k ++ 0 :: (t.enc ++ post))).take ((beforeNul k).length + 2 + t.enc.length)).length = (beforeNul k).length + 2 + t.enc.length := by
    rw [List.length_take, Nat.min_eq_left (by simp; omega)]
  refine ⟨⟨_, _, h1, by simpa [valueValidate] using h2, by rw [hlen]; omega⟩, ?_⟩
  intro s b hb
  rw [hlen] at hb ⊢
  unfold elemWrite
  have hv : elemValidate fuel (.raw 0 (k.length + 2) (t.tag :: (k ++ 0 :: (t.enc ++ post)))) = .ok ((beforeNul k).length + 2 + t.enc.length) := by
    unfold elemValidate
    simp only [Value.data, Value.start, Value.offset, valueValidate, Bool.false_eq_true, if_false]
    rw [h1, h2]
    simp only [Res.bind_ok]
    rw [u32_small (by omega)]
    congr 1; omega
  have hp : writePrep true 0 (k.length + 2) s ((beforeNul k).length + 2 + t.enc.length) b = .ok 0 := by
    unfold writePrep
    simp only [if_true]
    rw [if_neg (by unfold u64i; omega)]
  rw [hv]
  simp only [Res.bind_ok]
  rw [hp]
  simp only [Res.bind_ok]
  unfold rawWrite
  rw [if_neg (by simp), show idx (t.tag :: (k ++ 0 :: (t.enc ++ post))) 0 = .ok t.tag from rfl]
  simp only [Res.bind_ok]
  rw [if_neg ht, u32_small (by omega), Nat.zero_add]
  have hs : slice (t.tag :: (k ++ 0 :: (t.enc ++ post))) 0 ((beforeNul k).length + 2 + t.enc.length) =
      .ok ((t.tag :: (k ++ 0 :: (t.enc ++ post))).take ((beforeNul k).length + 2 + t.enc.length)) := by
    unfold slice
    rw [if_pos ⟨Nat.zero_le _, by simp; omega⟩]
    simp
  rw [hs]
  simp only [Res.bind_ok]
  rw [copyAt_splice (by rw [hlen]; omega), hlen]
  rfl

/-- what the scalar constructors build -/
theorem buildVal_scalar (k : Bytes) (t : BVal) (h : t.Scalar) (hl : k.length + 2 + t.enc.length < 2147483648) :
    buildVal k t = .ok (.raw 0 (k.length + 2) (t.tag :: (k ++ 0 :: t.enc))) := by
  have hd : ∀ x : UInt8, (do Res.ok (Value.raw 0 (u32 (1 + k.length + 1)) (← EC.header x k))) = Res.ok (.raw 0 (k.length + 2) (x :: (k ++ [0]))) := by
    intro x
    rw [header_ok x k (by omega), u32_small (by omega), show 1 + k.length + 1 = k.length + 2 by omega]; rfl
  cases t with
  | double b => exact mkElem_good (element_good 1 k (double_atomic b).good) (by simp [BVal.enc]; omega) hl
  | string s => exact mkElem_good (element_good 2 k (string_good s)) (by simp [BVal.enc, encString_length]; omega) hl
  | doc fs => exact h.elim
  | array vs => exact h.elim
  | binary st b => exact mkElem_good (element_good 5 k (binary_atomic b st).good) (by simp only [BVal.enc]; split <;> simp <;> omega) hl
  | undefined => exact hd 6
  | oid id => exact mkElem_good (element_good 7 k (byteSlice_atomic id).good) (by simp only [BVal.Scalar] at h; simp [BVal.enc]; omega) hl
  | bool b => exact mkElem_good (element_good 8 k (boolean_atomic b).good) (by simp [BVal.enc]; omega) hl
  | datetime b => exact mkElem_good (element_good 9 k (int64_atomic b).good) (by simp [BVal.enc]; omega) hl
  | null => exact hd 10
  | regex p o => exact mkElem_good (regexElement_good k p o) (by simp [BVal.enc]; omega) hl
  | dbpointer ns id =>
    exact mkElem_good (element_good 12 k (dbpointer_good ns id)) (by simp only [BVal.Scalar] at h; simp [BVal.enc, encString_length]; omega) hl
  | js s => exact mkElem_good (element_good 13 k (string_good s)) (by simp [BVal.enc, encString_length]; omega) hl
  | symbol s => exact mkElem_good (element_good 14 k (string_good s)) (by simp [BVal.enc, encString_length]; omega) hl
  | codeScope c fs => exact h.elim
  | int32 i => exact mkElem_good (element_good 16 k (int32_atomic i).good) (by simp [BVal.enc]; omega) hl
  | timestamp t i => exact mkElem_good (element_good 17 k (timestamp_good t i)) (by simp [BVal.enc]; omega) hl
  | int64 i => exact mkElem_good (element_good 18 k (int64_atomic i).good) (by simp [BVal.enc]; omega) hl
  | decimal a b => exact mkElem_good (element_good 19 k (decimal128_good a b)) (by simp [BVal.enc]; omega) hl
  | minKey => exact hd 255
  | maxKey => exact hd 127

theorem stored_enc (t : BVal) : ∃ post, t.enc = t.stored.enc ++ post := by
  cases t with
  | regex p o =>
    obtain ⟨r, h1, h2⟩ : ∃ r, p ++ [0] = beforeNul (p ++ [0]) ++ 0 :: r ∧ NulFree (beforeNul (p ++ [0])) := by
      rcases beforeNul_split (p ++ [0]) with ⟨h, _⟩ | h
      · exact absurd rfl (h 0 (by simp))
      · exact h
    have h3 : (p ++ [0] ++ o ++ [0]).drop ((beforeNul (p ++ [0])).length + 1) = r ++ o ++ [0] := by
      have h0 : p ++ [0] ++ o ++ [0] = (beforeNul (p ++ [0]) ++ [0]) ++ (r ++ o ++ [0]) := by
        have := congrArg (· ++ o ++ [0]) h1
        simpa using this
      rw [h0, List.drop_left' (by simp)]
    obtain ⟨q, h4, h5⟩ : ∃ q, r ++ o ++ [0] = beforeNul (r ++ o ++ [0]) ++ 0 :: q ∧ NulFree (beforeNul (r ++ o ++ [0])) := by
      rcases beforeNul_split (r ++ o ++ [0]) with ⟨h, _⟩ | h
      · exact absurd rfl (h 0 (by simp))
      · exact h
    refine ⟨q, ?_⟩
    simp only [BVal.stored, BVal.enc, h3]
    rw [show p ++ [0] ++ o ++ [0] = beforeNul (p ++ [0]) ++ 0 :: (r ++ o ++ [0]) by
      have := congrArg (· ++ o ++ [0]) h1
      simpa using this]
    conv => lhs; rw [h4]
    simp
  | _ => exact ⟨[], by simp [BVal.stored]⟩

theorem stored_tag (t : BVal) : t.stored.tag = t.tag := by cases t <;> rfl

theorem scalar_tag {t : BVal} (h : t.Scalar) : t.tag ≠ 0x0F := by cases t <;> first | exact h.elim | decide | (simp [BVal.tag])

theorem emits_scalar {fuel : Nat} (k : Bytes) (t : BVal) (h : t.Scalar) (wf : t.stored.WF) (hl : k.length + 2 + t.enc.length < 2147483648) (hf : t.enc.length < fuel) :
    Emits fuel (.raw 0 (k.length + 2) (t.tag :: (k ++ 0 :: t.enc))) (emitted k t) := by
  obtain ⟨post, hp⟩ := stored_enc t
  have hlen := congrArg List.length hp
  simp only [List.length_append] at hlen
  have := emits_raw (fuel := fuel) (t := t.stored) k post wf (by rw [stored_tag]; exact scalar_tag h) (by omega) (by omega)
  rw [stored_tag, ← hp] at this
  unfold emitted
  rw [show [t.tag] ++ k ++ [0] ++ t.enc = t.tag :: (k ++ 0 :: t.enc) by simp,
    show 1 + (beforeNul k).length + 1 + t.stored.enc.length = (beforeNul k).length + 2 + t.stored.enc.length by omega]
  exact this

theorem emitted_length (k : Bytes) (t : BVal) : (emitted k t).length = (beforeNul k).length + 2 + t.stored.enc.length := by
  obtain ⟨post, hp⟩ := stored_enc t
  have hlen := congrArg List.length hp
  have := beforeNul_le k
  simp only [List.length_append] at hlen
  unfold emitted
  rw [List.length_take, Nat.min_eq_left (by simp; omega)]
  omega

theorem buildDoc_scalar {fuel : Nat} : ∀ (fs : Fields), fs.Scalar → fs.Stored → fs.bytes < 2147483000 → fs.bytes < fuel →
    ∃ d es, buildDoc fs = .ok d ∧ EmitsAll fuel d es ∧ es.flatten = fs.emitted ∧ fs.emitted.length ≤ fs.bytes
  | .nil, _, _, _, _ => ⟨[], [], rfl, .nil, rfl, by simp [Fields.emitted, Fields.bytes]⟩
  | .cons k t fs, h, w, hl, hf => by
    simp only [Fields.bytes] at hl hf
    obtain ⟨d, es, h1, h2, h3, h4⟩ := buildDoc_scalar (fuel := fuel) fs h.2 w.2 (by omega) (by omega)
    refine ⟨.raw 0 (k.length + 2) (t.tag :: (k ++ 0 :: t.enc)) :: d, emitted k t :: es, ?_, .cons (emits_scalar k t h.1 w.1 (by omega) (by omega)) h2, by simp [Fields.emitted, h3], ?_⟩
    · simp only [buildDoc]
      rw [buildVal_scalar k t h.1 (by omega), h1]; rfl
    · have := beforeNul_le k
      obtain ⟨post, hp⟩ := stored_enc t
      have hlen := congrArg List.length hp
      simp only [List.length_append] at hlen
      simp only [Fields.emitted, Fields.bytes, List.length_append, emitted_length]
      omega

theorem buildDoc_append : ∀ (fs gs : Fields) (d e : Doc), buildDoc fs = .ok d → buildDoc gs = .ok e → buildDoc (fs.append gs) = .ok (d ++ e)
  | .nil, gs, d, e, h1, h2 => by cases h1; exact h2
  | .cons k t fs, gs, d, e, h1, h2 => by
    simp only [buildDoc, Fields.append] at h1 ⊢
    obtain ⟨v, hv, h1⟩ := Res.bind_eq_ok.mp h1
    obtain ⟨d', hd, h1⟩ := Res.bind_eq_ok.mp h1
    cases h1
    rw [hv, buildDoc_append fs gs d' e hd h2]; rfl

/-- a subtype the specification does not define -/
theorem rawValidate_subtype {fuel : Nat} (k b : Bytes) (st : UInt8) (h1 : 5 < st) (h2 : st < 0x80) (hl : k.length + 2 + (BVal.binary st b).enc.length < 2147483648) :
    rawValidate fuel (5 :: (k ++ 0 :: (BVal.binary st b).enc)) 0 (k.length + 2) = .err .invalidBinarySubtype := by
  have hne : st ≠ 2 := by rintro rfl; exact absurd h1 (by decide)
  have e : (BVal.binary st b).enc = le32 b.length ++ st :: b := by simp [BVal.enc, hne]
  rw [e] at hl ⊢
  simp only [List.length_append, List.length_cons, le32_length] at hl
  have hs : rawSize (5 :: (k ++ 0 :: (le32 b.length ++ st :: b))) 0 (k.length + 2) = .err .invalidBinarySubtype := by
    unfold rawSize
    rw [if_neg (by simp), show idx (5 :: (k ++ 0 :: (le32 b.length ++ st :: b))) 0 = .ok 5 from rfl]
    simp only [Res.bind_ok]
    rw [if_neg (by decide), if_neg (by decide), if_neg (by decide), if_neg (by decide), if_pos (by decide),
      u32_small (n := k.length + 2 + 5) (by omega), if_neg (by simp; omega), u32_small (n := k.length + 2 + 4) (by omega)]
    have s1 : slice (5 :: (k ++ 0 :: (le32 b.length ++ st :: b))) (k.length + 2) (k.length + 2 + 4) = .ok (le32 b.length) := by
      have := slice_mid (5 :: (k ++ [0])) (le32 b.length) (st :: b) (lo := k.length + 2) (hi := k.length + 2 + 4) (by simp) (by simp)
      simpa using this
    have s2 : idx (5 :: (k ++ 0 :: (le32 b.length ++ st :: b))) (k.length + 2 + 4) = .ok st := by
      have := idx_append (5 :: (k ++ 0 :: le32 b.length)) st b
      simpa [Nat.add_assoc] using this
    rw [s1]
    simp only [Res.bind_ok]
    rw [readi32_le32_nat' (by omega)]
    simp only [Res.bind_ok]
    rw [s2]
    simp only [Res.bind_ok]
    rw [if_pos ⟨h1, h2⟩]
  unfold rawValidate
  rw [if_neg (by simp), show idx (5 :: (k ++ 0 :: (le32 b.length ++ st :: b))) 0 = .ok 5 from rfl]
  simp only [Res.bind_ok]
  rw [if_neg (by decide), if_neg (by decide), if_neg (by decide), hs]

end Birch.Proofs
