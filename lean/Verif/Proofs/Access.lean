import Verif.Proofs.Construct
import Verif.Spec.Decimals

/- Reading documents back: the iterator and the accessors on represented values. -/

namespace Birch.Proofs
open Birch Model Spec

set_option linter.unusedSimpArgs false
set_option linter.unusedVariables false

theorem twos64_eq (z : Int) : twos64 z = u64i z := rfl
theorem twos32_eq (z : Int) : twos32 z = u32i z := rfl

attribute [local irreducible] i32 u32 u32i u64i i64

/-! ### the iterator -/

theorem iterLoop_enc (fuel : Nat) : ∀ (fs : Fields) (wf : fs.WF) (hd post : Bytes) (end_ : Nat),
    fs.enc.length < fuel → hd.length + fs.enc.length + 1 ≤ end_ →
    end_ ≤ (hd ++ (fs.enc ++ 0 :: post)).length →
    (hd ++ (fs.enc ++ 0 :: post)).length < 2147483648 →
    ∃ d, iterLoop fuel (hd ++ (fs.enc ++ 0 :: post)) hd.length end_ = .ok d ∧ RepFields d fs := by
  induction fuel with
  | zero => intro _ _ _ _ _ h; omega
  | succ fuel ih =>
    intro fs wf hd post end_ hf h1 h2 h3
    unfold iterLoop
    cases fs with
    | nil =>
      simp only [Fields.enc, List.nil_append, List.length_nil, List.length_append, List.length_cons] at *
      rw [if_neg (by omega), idx_append]
      simp only [Res.bind_ok]
      rw [if_pos trivial]
      exact ⟨[], rfl, by simp [RepFields]⟩
    | cons k t rest =>
      obtain ⟨hk, ht, hr⟩ := wf
      have er : hd ++ ((Fields.cons k t rest).enc ++ 0 :: post) = hd ++ t.tag :: (k ++ 0 :: (t.enc ++ (rest.enc ++ 0 :: post))) := by
        simp [Fields.enc]
      rw [fieldsEnc_length] at hf h1
      rw [er] at h2 h3 ⊢
      obtain ⟨s1, s2, s3⟩ := field_step hk ht hd (rest.enc ++ 0 :: post) end_ (by omega) h2 h3
      have h3' := h3
      simp only [List.length_append, List.length_cons] at h2 h3
      rw [if_neg (by omega), s1]
      simp only [Res.bind_ok]
      rw [if_neg (tag_ne_zero t), u32_small (n := hd.length + 1) (by omega), s2]
      simp only [Res.bind_ok]
      rw [u32_small (n := hd.length + 1 + (k.length + 1)) (by omega),
        show hd.length + 1 + (k.length + 1) = hd.length + k.length + 2 by omega, s3]
      simp only [Res.bind_ok]
      rw [u32_small (by omega)]
      obtain ⟨d, hd', hrep⟩ := ih rest hr (hd ++ t.tag :: (k ++ 0 :: t.enc)) post end_ (by omega)
          (by simp; omega) (by simp; omega) (by simp; omega)
      simp only [List.append_assoc, List.cons_append, List.length_append, List.length_cons] at hd'
      rw [show hd.length + k.length + 2 + t.enc.length = hd.length + (k.length + (t.enc.length + 1) + 1) by omega, hd']
      simp only [Res.bind_ok]
      refine ⟨_, rfl, ?_⟩
      simp only [RepFields]
      refine ⟨?_, hrep⟩
      simp only [Rep]
      exact ⟨hk, ht, h3', hd, rest.enc ++ 0 :: post, rfl, rfl, rfl⟩

/-- `ReadDocument` on canonical bytes followed by anything yields the document -/
theorem readDocument_enc (fuel : Nat) (fs : Fields) (wf : fs.WF) (post : Bytes)
    (hf : (encDoc fs).length < fuel) (hl : (encDoc fs ++ post).length < 2147483648) :
    ∃ d, readDocument fuel (encDoc fs ++ post) = .ok d ∧ RepFields d fs := by
  unfold readDocument encDoc at *
  simp only [List.length_append, wrapDoc_length] at *
  rw [iterEnd_wrapDoc _ _ (by omega)]
  simp only [Res.bind_ok]
  obtain ⟨d, h, hr⟩ := iterLoop_enc fuel fs wf (le32 (fs.enc.length + 5)) post (fs.enc.length + 5) (by omega)
    (by simp; omega) (by simp; omega) (by simp; omega)
  have e : wrapDoc fs.enc ++ post = le32 (fs.enc.length + 5) ++ (fs.enc ++ 0 :: post) := by simp [wrapDoc]
  rw [e]
  exact ⟨d, h, hr⟩

theorem repVals_of_fields : ∀ (d : Doc) (i : Nat) (vs : Vals), RepFields d (toFields i vs) → RepVals d vs
  | [], _, .nil, _ => by simp [RepVals]
  | [], _, .cons _ _, h => by simp [toFields, RepFields] at h
  | _ :: _, _, .nil, h => by simp [toFields, RepFields] at h
  | v :: d, i, .cons t vs, h => by
    simp only [toFields, RepFields] at h
    simp only [RepVals]
    exact ⟨⟨_, h.1⟩, repVals_of_fields d (i + 1) vs h.2⟩

/-! ### accessors -/

theorem rep_offset {v : Value} {k : Bytes} {t : BVal} (h : Rep v k t) : ¬ (v.offset = 0 ∨ v.data = []) := by
  cases v with
  | raw s o data =>
    simp only [Rep] at h
    obtain ⟨hk, wf, hl, pre, post, rfl, rfl, rfl⟩ := h
    simp [Value.offset, Value.data]
  | withDoc s o data d =>
    simp only [Rep] at h
    obtain ⟨hk, hl, pre, post, rfl, rfl, rfl, _⟩ := h
    simp [Value.offset, Value.data]

theorem type_rep {v : Value} {k : Bytes} {t : BVal} (h : Rep v k t) : type v = .ok t.tag := by
  unfold type
  rw [if_neg (rep_offset h), (rep_key h).2.1]

theorem expect_rep {v : Value} {k : Bytes} {t : BVal} (h : Rep v k t) (x : UInt8) :
    expect x v = if t.tag = x then .ok () else .panic := by
  unfold expect
  rw [if_neg (rep_offset h), (rep_key h).2.1]
  simp only [Res.bind_ok]
  by_cases hx : t.tag = x <;> simp [hx]

theorem key_rep {v : Value} {k : Bytes} {t : BVal} (h : Rep v k t) : key v = .ok k := by
  have key1 : ∀ (pre tl : Bytes) (x : UInt8), slice (pre ++ x :: (k ++ 0 :: tl)) (pre.length + 1) (pre.length + k.length + 2 - 1) = .ok k := by
    intro pre tl x
    have := slice_mid (pre ++ [x]) k (0 :: tl) (lo := pre.length + 1) (hi := pre.length + k.length + 2 - 1) (by simp) (by simp; omega)
    simpa using this
  unfold key
  rw [if_neg (rep_offset h)]
  cases v with
  | raw s o data =>
    simp only [Rep] at h
    obtain ⟨hk, wf, hl, pre, post, rfl, rfl, rfl⟩ := h
    exact key1 _ _ _
  | withDoc s o data d =>
    simp only [Rep] at h
    obtain ⟨hk, hl, pre, post, rfl, rfl, rfl, _⟩ := h
    exact key1 _ _ _

/-- the bytes of a scalar value -/
theorem rep_scalar {v : Value} {k : Bytes} {t : BVal} (h : Rep v k t)
    (ht : t.tag ≠ 3 ∧ t.tag ≠ 4 ∧ t.tag ≠ 15) : ∃ hd post, v.data = hd ++ (t.enc ++ post) ∧ v.offset = hd.length ∧
      hd.length + t.enc.length + post.length < 2147483648 ∧ t.WF := by
  cases v with
  | raw s o data =>
    simp only [Rep] at h
    obtain ⟨hk, wf, hl, pre, post, rfl, rfl, rfl⟩ := h
    refine ⟨pre ++ t.tag :: (k ++ [0]), post, by simp [Value.data], by simp [Value.offset]; omega, by simp at hl ⊢; omega, wf⟩
  | withDoc s o data d =>
    simp only [Rep] at h
    obtain ⟨hk, hl, pre, post, rfl, rfl, rfl, h⟩ := h
    cases t <;> first | exact h.elim | simp [BVal.tag] at ht

theorem expect_ok {v : Value} {k : Bytes} {t : BVal} (h : Rep v k t) {x : UInt8} (hx : t.tag = x) :
    expect x v = .ok () := by rw [expect_rep h, if_pos hx]

theorem double_rep {v : Value} {k : Bytes} {b : Nat} (h : Rep v k (.double b)) : double v = .ok b := by
  unfold double getUint64
  rw [expect_ok h (by rfl)]
  obtain ⟨hd, post, e1, e2, hl, wf⟩ := rep_scalar h (by simp [BVal.tag])
  simp only [BVal.enc, le64_length, BVal.WF] at *
  rw [e1, e2, u32_small (by omega), slice_mid _ _ _ rfl (by simp)]
  simp only [Res.bind_ok]
  exact rdU64_le64' wf

theorem getString_rep {v : Value} {s hd post : Bytes} (e1 : v.data = hd ++ (encString s ++ post)) (e2 : v.offset = hd.length)
    (hl : hd.length + (encString s).length + post.length < 2147483648) : getString v = .ok s := by
  simp only [encString_length] at hl
  unfold getString
  rw [e1, e2]
  have s1 : slice (hd ++ (encString s ++ post)) hd.length (u32 (hd.length + 4)) = .ok (le32 (s.length + 1)) := by
    rw [encString, List.append_assoc, List.append_assoc]
    exact slice_rd4 _ _ _ (by omega)
  rw [s1]
  simp only [Res.bind_ok]
  rw [readi32_le32_nat' (by omega)]
  simp only [Res.bind_ok]
  rw [i32_of_nat (n := hd.length) (by omega), i32_small (by omega) (by omega), u32_small (by omega)]
  have := sliceI_mid (hd ++ le32 (s.length + 1)) s (0 :: post) (lo := hd.length + 4)
    (hi := (hd.length : Int) + 4 + ((s.length + 1 : Nat) : Int) - 1) (by simp) (by simp; omega)
  simpa [encString] using this

theorem stringValue_rep {v : Value} {k s : Bytes} (h : Rep v k (.string s)) : stringValue v = .ok s := by
  obtain ⟨hd, post, e1, e2, hl, wf⟩ := rep_scalar h (by simp [BVal.tag])
  unfold stringValue; rw [expect_ok h (by rfl)]; exact getString_rep e1 e2 hl

theorem javaScript_rep {v : Value} {k s : Bytes} (h : Rep v k (.js s)) : javaScript v = .ok s := by
  obtain ⟨hd, post, e1, e2, hl, wf⟩ := rep_scalar h (by simp [BVal.tag])
  unfold javaScript; rw [expect_ok h (by rfl)]; exact getString_rep e1 e2 hl

theorem symbol_rep {v : Value} {k s : Bytes} (h : Rep v k (.symbol s)) : symbol v = .ok s := by
  obtain ⟨hd, post, e1, e2, hl, wf⟩ := rep_scalar h (by simp [BVal.tag])
  unfold symbol; rw [expect_ok h (by rfl)]; exact getString_rep e1 e2 hl

theorem binary_rep {v : Value} {k b : Bytes} {st : UInt8} (h : Rep v k (.binary st b)) : binary v = .ok (st, b) := by
  obtain ⟨hd, post, e1, e2, hl, wf⟩ := rep_scalar h (by simp [BVal.tag])
  unfold binary; rw [expect_ok h (by rfl)]
  by_cases hst : st = 2
  · subst hst
    have e : (BVal.binary 2 b).enc = le32 (b.length + 4) ++ (2 :: (le32 b.length ++ b)) := by simp [BVal.enc]
    rw [e] at e1 hl
    simp at hl
    have s1 : slice v.data hd.length (hd.length + 4) = .ok (le32 (b.length + 4)) := by
      rw [e1, List.append_assoc]; exact slice_mid _ _ _ rfl (by simp)
    have s2 : idx v.data (hd.length + 4) = .ok 2 := by
      have := idx_append (hd ++ le32 (b.length + 4)) 2 ((le32 b.length ++ b) ++ post)
      rw [e1]; simpa using this
    have s3 : slice v.data (hd.length + 5) (hd.length + 9) = .ok (le32 b.length) := by
      have := slice_mid (hd ++ (le32 (b.length + 4) ++ [2])) (le32 b.length) (b ++ post) (lo := hd.length + 5) (hi := hd.length + 9) (by simp) (by simp)
      rw [e1]; simpa using this
    have s4 : sliceI v.data (hd.length + 9) ((hd.length : Int) + 9 + (b.length : Int)) = .ok b := by
      have := sliceI_mid (hd ++ (le32 (b.length + 4) ++ 2 :: le32 b.length)) b post (lo := hd.length + 9) (hi := (hd.length : Int) + 9 + (b.length : Int)) (by simp) (by simp)
      rw [e1]; simpa using this
    rw [e2, u32_small (n := hd.length + 4) (by omega), u32_small (n := hd.length + 5) (by omega), u32_small (n := hd.length + 9) (by omega), s1]
    simp only [Res.bind_ok]
    rw [readi32_le32_nat' (by omega)]
    simp only [Res.bind_ok]
    rw [s2]
    simp only [Res.bind_ok]
    rw [if_pos trivial, s3]
    simp only [Res.bind_ok]
    rw [readi32_le32_nat' (by omega)]
    simp only [Res.bind_ok]
    rw [if_neg (by omega), i32_of_nat (n := hd.length) (by omega), i32_small (by omega) (by omega), s4]
    simp
  · have e : (BVal.binary st b).enc = le32 b.length ++ (st :: b) := by simp [BVal.enc, hst]
    rw [e] at e1 hl
    simp at hl
    have s1 : slice v.data hd.length (hd.length + 4) = .ok (le32 b.length) := by
      rw [e1, List.append_assoc]; exact slice_mid _ _ _ rfl (by simp)
    have s2 : idx v.data (hd.length + 4) = .ok st := by
      have := idx_append (hd ++ le32 b.length) st (b ++ post)
      rw [e1]; simpa using this
    have s4 : sliceI v.data (hd.length + 5) ((hd.length : Int) + 5 + (b.length : Int)) = .ok b := by
      have := sliceI_mid (hd ++ (le32 b.length ++ [st])) b post (lo := hd.length + 5) (hi := (hd.length : Int) + 5 + (b.length : Int)) (by simp) (by simp)
      rw [e1]; simpa using this
    rw [e2, u32_small (n := hd.length + 4) (by omega), u32_small (n := hd.length + 5) (by omega), u32_small (n := hd.length + 9) (by omega), s1]
    simp only [Res.bind_ok]
    rw [readi32_le32_nat' (by omega)]
    simp only [Res.bind_ok]
    rw [s2]
    simp only [Res.bind_ok]
    rw [if_neg hst, if_neg (by omega), i32_of_nat (n := hd.length) (by omega), i32_small (by omega) (by omega), s4]
    simp

theorem objectID_rep {v : Value} {k b : Bytes} (h : Rep v k (.oid b)) : objectID v = .ok b := by
  unfold objectID
  rw [expect_ok h (by rfl)]
  obtain ⟨hd, post, e1, e2, hl, wf⟩ := rep_scalar h (by simp [BVal.tag])
  simp only [BVal.enc, BVal.WF] at *
  rw [e1, e2, u32_small (by omega)]
  simp only [Res.bind_ok]
  exact slice_mid _ _ _ rfl (by omega)

theorem boolean_rep {v : Value} {k : Bytes} {b : Bool} (h : Rep v k (.bool b)) : boolean v = .ok b := by
  unfold boolean
  rw [expect_ok h (by rfl)]
  obtain ⟨hd, post, e1, e2, hl, wf⟩ := rep_scalar h (by simp [BVal.tag])
  simp only [BVal.enc] at *
  rw [e1, e2, List.singleton_append, idx_append]
  cases b <;> simp

theorem getInt_rep {v : Value} {hd post : Bytes} {z : Int} (e1 : v.data = hd ++ (le64 (twos64 z) ++ post)) (e2 : v.offset = hd.length)
    (hl : hd.length + (le64 (twos64 z)).length + post.length < 2147483648)
    (wf : -9223372036854775808 ≤ z ∧ z < 9223372036854775808) : ∃ n : Nat, getUint64 v = .ok n ∧ i64 n = z := by
  unfold getUint64
  simp only [le64_length] at hl
  rw [e1, e2, u32_small (by omega), slice_mid _ _ _ rfl (by simp)]
  simp only [Res.bind_ok]
  rw [twos64_eq, rdU64_le64' (u64i_lt z)]
  exact ⟨_, rfl, i64_u64i wf.1 wf.2⟩

theorem dateTime_rep {v : Value} {k : Bytes} {b : Int} (h : Rep v k (.datetime b)) : dateTime v = .ok b := by
  unfold dateTime
  rw [expect_ok h (by rfl)]
  obtain ⟨hd, post, e1, e2, hl, wf⟩ := rep_scalar h (by simp [BVal.tag])
  obtain ⟨n, hn, hz⟩ := getInt_rep e1 e2 hl wf
  simp only [Res.bind_ok, hn, hz]

theorem int64_rep {v : Value} {k : Bytes} {b : Int} (h : Rep v k (.int64 b)) : int64 v = .ok b := by
  unfold int64
  rw [expect_ok h (by rfl)]
  obtain ⟨hd, post, e1, e2, hl, wf⟩ := rep_scalar h (by simp [BVal.tag])
  obtain ⟨n, hn, hz⟩ := getInt_rep e1 e2 hl wf
  simp only [Res.bind_ok, hn, hz]

theorem int32_rep {v : Value} {k : Bytes} {b : Int} (h : Rep v k (.int32 b)) : int32 v = .ok b := by
  unfold int32
  rw [expect_ok h (by rfl)]
  obtain ⟨hd, post, e1, e2, hl, wf⟩ := rep_scalar h (by simp [BVal.tag])
  simp only [BVal.enc, le32_length, BVal.WF] at *
  rw [e1, e2, u32_small (by omega), slice_mid _ _ _ rfl (by simp)]
  simp only [Res.bind_ok]
  have := readi32_le32_int wf.1 wf.2 []
  rw [twos32_eq]
  simpa using this

theorem timestamp_rep {v : Value} {k : Bytes} {t i : Nat} (h : Rep v k (.timestamp t i)) : timestamp v = .ok (t, i) := by
  unfold timestamp
  rw [expect_ok h (by rfl)]
  obtain ⟨hd, post, e1, e2, hl, wf⟩ := rep_scalar h (by simp [BVal.tag])
  simp only [BVal.enc, le32_length, List.length_append, BVal.WF] at *
  have s1 : slice v.data (hd.length + 4) (hd.length + 8) = .ok (le32 t) := by
    have := slice_mid (hd ++ le32 i) (le32 t) post (lo := hd.length + 4) (hi := hd.length + 8) (by simp) (by simp)
    rw [e1]; simpa using this
  have s2 : slice v.data hd.length (hd.length + 4) = .ok (le32 i) := by
    rw [e1, List.append_assoc]; exact slice_mid _ _ _ rfl (by simp)
  rw [e2, u32_small (n := hd.length + 4) (by omega), u32_small (n := hd.length + 8) (by omega), s1, s2]
  simp only [Res.bind_ok]
  rw [rdU32_le32' wf.1, rdU32_le32' wf.2]
  simp only [Res.bind_ok]

/-- the accessor returns the two halves exchanged -/
theorem decimal128_rep {v : Value} {k : Bytes} {h l : Nat} (hr : Rep v k (.decimal h l)) : decimal128 v = .ok (l, h) := by
  unfold decimal128
  rw [expect_ok hr (by rfl)]
  obtain ⟨hd, post, e1, e2, hl, wf⟩ := rep_scalar hr (by simp [BVal.tag])
  simp only [BVal.enc, le64_length, List.length_append, BVal.WF] at *
  have s1 : slice v.data (hd.length + 8) (hd.length + 16) = .ok (le64 h) := by
    have := slice_mid (hd ++ le64 l) (le64 h) post (lo := hd.length + 8) (hi := hd.length + 16) (by simp) (by simp)
    rw [e1]; simpa using this
  have s2 : slice v.data hd.length (hd.length + 8) = .ok (le64 l) := by
    rw [e1, List.append_assoc]; exact slice_mid _ _ _ rfl (by simp)
  rw [e2, u32_small (n := hd.length + 8) (by omega), u32_small (n := hd.length + 16) (by omega), s1, s2]
  simp only [Res.bind_ok]
  rw [rdU64_le64' wf.1, rdU64_le64' wf.2]
  simp only [Res.bind_ok]

theorem scanNul_enc {s : Bytes} (hs : NulFree s) (hd tl : Bytes) {i : Nat} (hi : i = hd.length) :
    scanNul (hd ++ (s ++ 0 :: tl)) i = .ok (i + s.length) := by
  subst hi
  unfold scanNul
  rw [cstrAt_append hs]
  simp

theorem regex_rep {v : Value} {k p o : Bytes} (h : Rep v k (.regex p o)) : regex v = .ok (p, o) := by
  unfold regex
  rw [expect_ok h (by rfl)]
  obtain ⟨hd, post, e1, e2, hl, wf⟩ := rep_scalar h (by simp [BVal.tag])
  simp only [BVal.enc, BVal.WF] at *
  have d1 : v.data = hd ++ (p ++ 0 :: (o ++ 0 :: post)) := by rw [e1]; simp
  have d2 : v.data = (hd ++ p ++ [0]) ++ (o ++ 0 :: post) := by rw [e1]; simp
  have s1 : scanNul v.data hd.length = .ok (hd.length + p.length) := by rw [d1]; exact scanNul_enc wf.1 _ _ rfl
  have s2 : scanNul v.data (hd.length + p.length + 1) = .ok (hd.length + p.length + 1 + o.length) := by
    rw [d2]; exact scanNul_enc wf.2 _ _ (by simp; omega)
  have s3 : slice v.data hd.length (hd.length + p.length) = .ok p := by rw [d1]; exact slice_mid _ _ _ rfl rfl
  have s4 : slice v.data (hd.length + p.length + 1) (hd.length + p.length + 1 + o.length) = .ok o := by
    rw [d2]; exact slice_mid _ _ _ (by simp; omega) (by simp; omega)
  rw [e2, s1]
  simp only [Res.bind_ok, s2, s3, s4]

theorem dbPointer_rep {v : Value} {k ns id : Bytes} (h : Rep v k (.dbpointer ns id)) : dbPointer v = .ok (ns, id) := by
  unfold dbPointer
  rw [expect_ok h (by rfl)]
  obtain ⟨hd, post, e1, e2, hl, wf⟩ := rep_scalar h (by simp [BVal.tag])
  simp only [BVal.enc, BVal.WF, List.length_append, encString_length] at *
  have s1 : slice v.data hd.length (hd.length + 4) = .ok (le32 (ns.length + 1)) := by
    rw [e1, encString, List.append_assoc, List.append_assoc, List.append_assoc]; exact slice_mid _ _ _ rfl (by simp)
  have s2 : slice v.data (hd.length + ns.length + 5) (hd.length + ns.length + 17) = .ok id := by
    have := slice_mid (hd ++ encString ns) id post (lo := hd.length + ns.length + 5) (hi := hd.length + ns.length + 17) (by simp [encString_length]; omega) (by simp [encString_length]; omega)
    rw [e1]; simpa using this
  have s3 : sliceI v.data (hd.length + 4) ((hd.length : Int) + 4 + ((ns.length + 1 : Nat) : Int) - 1) = .ok ns := by
    have := sliceI_mid (hd ++ le32 (ns.length + 1)) ns (0 :: (id ++ post)) (lo := hd.length + 4)
      (hi := (hd.length : Int) + 4 + ((ns.length + 1 : Nat) : Int) - 1) (by simp) (by simp; omega)
    rw [e1]; simpa [encString] using this
  rw [e2, u32_small (n := hd.length + 4) (by omega), s1]
  simp only [Res.bind_ok]
  rw [readi32_le32_nat' (by omega)]
  simp only [Res.bind_ok]
  rw [u32i_nat (by omega), u32_small (n := hd.length + 4 + (ns.length + 1)) (by omega), u32_small (n := hd.length + 4 + (ns.length + 1) + 12) (by omega),
    show hd.length + 4 + (ns.length + 1) = hd.length + ns.length + 5 by omega, show hd.length + ns.length + 5 + 12 = hd.length + ns.length + 17 by omega, s2]
  simp only [Res.bind_ok]
  rw [i32_of_nat (n := hd.length) (by omega), i32_small (by omega) (by omega), s3]
  simp only [Res.bind_ok]

/-! ### nested documents -/

/-- parsing a raw nested document or array -/
theorem getDoc_raw {fuel : Nat} {hd post : Bytes} {fs : Fields} (wf : fs.WF)
    (hl : hd.length + (fs.enc.length + 5) + post.length < 2147483648) (hf : fs.enc.length + 5 < fuel) (s : Nat) :
    ∃ d, getDoc fuel (.raw s hd.length (hd ++ (wrapDoc fs.enc ++ post))) = .ok d ∧ RepFields d fs := by
  obtain ⟨d, h, hr⟩ := readDocument_enc fuel fs wf [] (by simp [encDoc]; omega) (by simp [encDoc]; omega)
  refine ⟨d, ?_, hr⟩
  unfold getDoc
  have s1 : slice (hd ++ (wrapDoc fs.enc ++ post)) hd.length (hd.length + 4) = .ok (le32 (fs.enc.length + 5)) := by
    rw [wrapDoc, List.append_assoc, List.append_assoc]; exact slice_mid _ _ _ rfl (by simp)
  have s2 : slice (hd ++ (wrapDoc fs.enc ++ post)) hd.length (hd.length + (fs.enc.length + 5)) = .ok (wrapDoc fs.enc) :=
    slice_mid _ _ _ rfl (by simp)
  simp only
  rw [u32_small (n := hd.length + 4) (by omega), s1]
  simp only [Res.bind_ok]
  rw [rdU32_le32' (by omega)]
  simp only [Res.bind_ok]
  rw [i32_of_nat (by omega), u32i_nat (by omega), u32_small (by omega), s2]
  simp only [Res.bind_ok]
  rw [List.append_nil, encDoc] at h
  rw [h]; rfl

theorem raw_form {pre k tl : Bytes} {x : UInt8} : pre ++ x :: (k ++ 0 :: tl) = (pre ++ x :: (k ++ [0])) ++ tl := by simp
theorem raw_len {pre k : Bytes} {x : UInt8} : pre.length + k.length + 2 = (pre ++ x :: (k ++ [0])).length := by simp; omega

theorem mutableDocument_rep {fuel : Nat} {v : Value} {k : Bytes} {fs : Fields} (h : Rep v k (.doc fs))
    (hl : (BVal.doc fs).enc.length < 2147483648) (hf : (BVal.doc fs).enc.length < fuel) :
    ∃ d, mutableDocument fuel v = .ok d ∧ RepFields d fs := by
  unfold mutableDocument
  rw [expect_ok h (by rfl)]
  simp only [BVal.enc, wrapDoc_length] at hl hf
  simp only [Res.bind_ok]
  cases v with
  | raw s o data =>
    simp only [Rep] at h
    obtain ⟨hk, wf, hl, pre, post, rfl, rfl, rfl⟩ := h
    simp only [BVal.enc, List.length_append, List.length_cons, wrapDoc_length] at hl
    rw [raw_form, raw_len (x := (BVal.doc fs).tag)]
    exact getDoc_raw wf (by simp; omega) hf _
  | withDoc s o data d =>
    simp only [Rep] at h
    obtain ⟨hk, hl, pre, post, rfl, rfl, rfl, h⟩ := h
    exact ⟨d, rfl, h⟩

theorem mutableArray_rep {fuel : Nat} {v : Value} {k : Bytes} {vs : Vals} (h : Rep v k (.array vs))
    (hl : (BVal.array vs).enc.length < 2147483648) (hf : (BVal.array vs).enc.length < fuel) :
    ∃ d, mutableArray fuel v = .ok d ∧ RepVals d vs := by
  unfold mutableArray
  rw [expect_ok h (by rfl)]
  simp only [BVal.enc, wrapDoc_length] at hl hf
  simp only [Res.bind_ok]
  cases v with
  | raw s o data =>
    simp only [Rep] at h
    obtain ⟨hk, wf, hl, pre, post, rfl, rfl, rfl⟩ := h
    simp only [BVal.enc, List.length_append, List.length_cons, wrapDoc_length] at hl
    rw [raw_form, raw_len (x := (BVal.array vs).tag)]
    simp only [BVal.enc]
    rw [← toFields_enc] at hl hf ⊢
    obtain ⟨d, h1, h2⟩ := getDoc_raw (fuel := fuel) (hd := pre ++ (BVal.array vs).tag :: (k ++ [0])) (post := post) (toFields_wf 0 vs wf) (by simp; omega) hf pre.length
    exact ⟨d, h1, repVals_of_fields _ _ _ h2⟩
  | withDoc s o data d =>
    simp only [Rep] at h
    obtain ⟨hk, hl, pre, post, rfl, rfl, rfl, h⟩ := h
    exact ⟨d, rfl, h⟩

theorem mutableCode_rep {fuel : Nat} {v : Value} {k c : Bytes} {fs : Fields} (h : Rep v k (.codeScope c fs))
    (hl : (BVal.codeScope c fs).enc.length < 2147483648) (hf : (BVal.codeScope c fs).enc.length < fuel) :
    ∃ d, mutableCodeWithScope fuel v = .ok (c, d) ∧ RepFields d fs := by
  unfold mutableCodeWithScope getCode
  rw [expect_ok h (by rfl)]
  have hn : (BVal.codeScope c fs).enc.length = c.length + fs.enc.length + 14 := by simp [BVal.enc]; omega
  rw [hn] at hl hf
  simp only [Res.bind_ok]
  -- both representations carry: 4 bytes, then the code string
  have code : ∃ (hd l tl : Bytes), v.data = hd ++ (l ++ (encString c ++ tl)) ∧ v.offset = hd.length ∧ l.length = 4 ∧
      hd.length + 4 + c.length + 5 < 2147483648 := by
    cases v with
    | raw s o data =>
      simp only [Rep] at h
      obtain ⟨hk, wf, hl, pre, post, rfl, rfl, rfl⟩ := h
      simp only [List.length_append, List.length_cons, hn] at hl
      refine ⟨pre ++ (BVal.codeScope c fs).tag :: (k ++ [0]), le32 (c.length + 5 + (fs.enc.length + 5) + 4), wrapDoc fs.enc ++ post, ?_, ?_, by simp, by simp; omega⟩
      · simp [Value.data, BVal.enc]
      · simp [Value.offset]; omega
    | withDoc s o data d =>
      simp only [Rep] at h
      obtain ⟨hk, hl, pre, post, rfl, rfl, rfl, ⟨l, post', h4, rfl⟩, h⟩ := h
      simp only [List.length_append, List.length_cons, encString_length] at hl
      exact ⟨pre ++ (BVal.codeScope c fs).tag :: (k ++ [0]), l, post', by simp [Value.data], by simp [Value.offset]; omega, h4, by simp; omega⟩
  obtain ⟨hd, l, tl, e1, e2, h4, hlen⟩ := code
  have s0 : slice v.data hd.length (hd.length + 4) = .ok l := by rw [e1]; exact slice_mid _ _ _ rfl (by omega)
  have s1 : slice v.data (hd.length + 4) (hd.length + 8) = .ok (le32 (c.length + 1)) := by
    have := slice_mid (hd ++ l) (le32 (c.length + 1)) (c ++ 0 :: tl) (lo := hd.length + 4) (hi := hd.length + 8) (by simp [h4]) (by simp [h4])
    rw [e1]; simpa [encString] using this
  have s2 : slice v.data (hd.length + 8) (hd.length + 8 + c.length) = .ok c := by
    have := slice_mid (hd ++ (l ++ le32 (c.length + 1))) c (0 :: tl) (lo := hd.length + 8) (hi := hd.length + 8 + c.length) (by simp [h4]) (by simp [h4])
    rw [e1]; simpa [encString] using this
  have s3 : ∃ n, rdU32 l = .ok n := by
    match l, h4 with
    | [a, b, c, d], _ => exact ⟨_, rfl⟩
  obtain ⟨n, s3⟩ := s3
  rw [e2, u32_small (n := hd.length + 4) (by omega), u32_small (n := hd.length + 8) (by omega), s0]
  simp only [Res.bind_ok]
  rw [s3, s1]
  simp only [Res.bind_ok]
  rw [readi32_le32_nat' (by omega)]
  simp only [Res.bind_ok]
  rw [u32i_nat (n := c.length + 1) (by omega), u32i_small (by omega) (by omega),
    show ((hd.length : Int) + 8 + ((c.length + 1 : Nat) : Int) - 1).toNat = hd.length + 8 + c.length by omega, s2]
  simp only [Res.bind_ok]
  cases v with
  | raw s o data =>
    simp only [Rep] at h
    simp only [Value.data, Value.offset] at e1 e2 s0 s1 s2
    obtain ⟨hk, wf, hl', pre, post, hdata, hs, ho⟩ := h
    have hpre : hd = pre ++ (BVal.codeScope c fs).tag :: (k ++ [0]) ∧ l = le32 (c.length + 5 + (fs.enc.length + 5) + 4) ∧ tl = wrapDoc fs.enc ++ post := by
      have : hd ++ (l ++ (encString c ++ tl)) = (pre ++ (BVal.codeScope c fs).tag :: (k ++ [0])) ++ (le32 (c.length + 5 + (fs.enc.length + 5) + 4) ++ (encString c ++ (wrapDoc fs.enc ++ post))) := by
        rw [← e1, hdata]; simp [BVal.enc]
      obtain ⟨a, b⟩ := List.append_inj this (by rw [← e2, ho]; simp; omega)
      obtain ⟨b, c'⟩ := List.append_inj b (by simp [h4])
      exact ⟨a, b, List.append_cancel_left c'⟩
    obtain ⟨_, rfl, rfl⟩ := hpre
    rw [rdU32_le32' (by omega)] at s3
    obtain rfl : c.length + 5 + (fs.enc.length + 5) + 4 = n := by simpa using s3
    have hl2 : hd.length + 4 + c.length + 5 + fs.enc.length + 5 < 2147483648 := by
      rw [e1] at hl'; simp [encString_length] at hl'; omega
    simp only
    rw [e2, u32i_nat (n := c.length + 1) (by omega), u32_small (n := hd.length + 8 + (c.length + 1)) (by omega), i32_of_nat (by omega), u32i_nat (by omega), u32_small (by omega)]
    have s5 : slice data (hd.length + 8 + (c.length + 1)) (hd.length + (c.length + 5 + (fs.enc.length + 5) + 4)) = .ok (encDoc fs) := by
      have := slice_mid (hd ++ (le32 (c.length + 5 + (fs.enc.length + 5) + 4) ++ encString c)) (encDoc fs) post
        (lo := hd.length + 8 + (c.length + 1)) (hi := hd.length + (c.length + 5 + (fs.enc.length + 5) + 4)) (by simp [encString_length]; omega) (by simp [encString_length, encDoc]; omega)
      rw [e1]; simpa [encDoc] using this
    rw [s5]
    obtain ⟨d, h1, hr⟩ := readDocument_enc fuel fs wf [] (by simp [encDoc]; omega) (by simp [encDoc]; omega)
    rw [List.append_nil] at h1
    simp only [Res.bind_ok]
    rw [h1]
    exact ⟨d, rfl, hr⟩
  | withDoc s o data d =>
    simp only [Rep] at h
    obtain ⟨hk, hl, pre, post, rfl, rfl, rfl, _, h⟩ := h
    exact ⟨d, rfl, h⟩

/-- the element header and, for code-with-scope, the code string are in the data of both forms -/
theorem rep_shape {v : Value} {k : Bytes} {t : BVal} (h : Rep v k t) : NulFree k ∧ v.data.length < 2147483648 ∧
    ∃ pre post, v.data = pre ++ t.tag :: (k ++ 0 :: post) ∧ v.start = pre.length ∧ v.offset = pre.length + k.length + 2 ∧
      ∀ c fs, t = .codeScope c fs → ∃ l post', l.length = 4 ∧ post = l ++ (encString c ++ post') := by
  cases v with
  | raw s o data =>
    simp only [Rep] at h
    obtain ⟨hk, wf, hl, pre, post, rfl, rfl, rfl⟩ := h
    refine ⟨hk, hl, pre, t.enc ++ post, rfl, rfl, rfl, ?_⟩
    rintro c fs rfl
    exact ⟨le32 (c.length + 5 + (fs.enc.length + 5) + 4), wrapDoc fs.enc ++ post, rfl, by simp [BVal.enc]⟩
  | withDoc s o data d =>
    simp only [Rep] at h
    obtain ⟨hk, hl, pre, post, rfl, rfl, rfl, h⟩ := h
    refine ⟨hk, hl, pre, post, rfl, rfl, rfl, ?_⟩
    rintro c fs rfl
    exact h.1

/-- opening a nested value keeps what it represents -/
theorem openValue_rep {fuel : Nat} {v v' : Value} {k : Bytes} {t : BVal} (h : Rep v k t)
    (hl : t.enc.length < 2147483648) (hf : t.enc.length < fuel) (ho : openValue fuel v = .ok v') : Rep v' k t := by
  obtain ⟨hk, hd, pre, post, e1, e2, e3, hc⟩ := rep_shape h
  unfold openValue at ho
  rw [type_rep h] at ho
  simp only [Res.bind_ok] at ho
  cases t with
  | doc fs =>
    obtain ⟨d, h1, h2⟩ := mutableDocument_rep h hl hf
    rw [if_pos (by rfl), h1] at ho
    simp only [Res.bind_ok, Res.ok.injEq] at ho
    subst ho
    simp only [Rep]
    exact ⟨hk, hd, pre, post, e1, e2, e3, h2⟩
  | array vs =>
    obtain ⟨d, h1, h2⟩ := mutableArray_rep h hl hf
    rw [if_neg (by rw [show (BVal.array vs).tag = 4 from rfl]; decide), if_pos (by rfl), h1] at ho
    simp only [Res.bind_ok, Res.ok.injEq] at ho
    subst ho
    simp only [Rep]
    exact ⟨hk, hd, pre, post, e1, e2, e3, h2⟩
  | codeScope c fs =>
    obtain ⟨d, h1, h2⟩ := mutableCode_rep h hl hf
    rw [if_neg (by rw [show (BVal.codeScope c fs).tag = 15 from rfl]; decide),
      if_neg (by rw [show (BVal.codeScope c fs).tag = 15 from rfl]; decide), if_pos (by rfl), h1] at ho
    simp only [Res.bind_ok, Res.ok.injEq] at ho
    subst ho
    simp only [Rep]
    exact ⟨hk, hd, pre, post, e1, e2, e3, hc c fs rfl, h2⟩
  | _ => simp [BVal.tag] at ho

/-! ### reading everything back -/

theorem obsFields_rep {g : Value → Res BVal} {N : Nat}
    (hg : ∀ v k t, Rep v k t → t.enc.length < N → g v = .ok t.swapDec) :
    ∀ (d : Doc) (fs : Fields), RepFields d fs → fs.enc.length < N → obsFields g d = .ok fs.swapDec
  | [], .nil, _, _ => by simp [obsFields, Fields.swapDec]
  | [], .cons _ _ _, h, _ => by simp [RepFields] at h
  | _ :: _, .nil, h, _ => by simp [RepFields] at h
  | v :: d, .cons k t fs, h, hl => by
    simp only [RepFields] at h
    rw [fieldsEnc_length] at hl
    unfold obsFields
    rw [key_rep h.1, hg v k t h.1 (by omega), obsFields_rep hg d fs h.2 (by omega)]
    simp [Fields.swapDec]

theorem obsVals_rep {g : Value → Res BVal} {N : Nat}
    (hg : ∀ v k t, Rep v k t → t.enc.length < N → g v = .ok t.swapDec) :
    ∀ (d : Doc) (vs : Vals) (i : Nat), RepVals d vs → (vs.encFrom i).length < N → obsVals g d = .ok vs.swapDec
  | [], .nil, _, _, _ => by simp [obsVals, Vals.swapDec]
  | [], .cons _ _, _, h, _ => by simp [RepVals] at h
  | _ :: _, .nil, _, h, _ => by simp [RepVals] at h
  | v :: d, .cons t vs, i, h, hl => by
    simp only [RepVals] at h
    obtain ⟨⟨k, h1⟩, h2⟩ := h
    rw [encFrom_length] at hl
    unfold obsVals
    rw [hg v k t h1 (by omega), obsVals_rep hg d vs (i + 1) h2 (by omega)]
    simp [Vals.swapDec]

theorem obsVal_rep : ∀ (fuel : Nat) (v : Value) (k : Bytes) (t : BVal), Rep v k t → t.enc.length < 2147483648 →
    t.enc.length < fuel → obsVal fuel v = .ok t.swapDec
  | 0, _, _, _, _, _, h => by omega
  | fuel + 1, v, k, t, h, hl, hf => by
    have ih := obsVal_rep fuel
    unfold obsVal
    rw [type_rep h]
    simp only [Res.bind_ok]
    cases t with
    | double b => simp only [BVal.tag]; simp [double_rep h, BVal.swapDec]
    | string b => simp only [BVal.tag]; simp [stringValue_rep h, BVal.swapDec]
    | doc fs =>
      obtain ⟨d, h1, h2⟩ := mutableDocument_rep h hl hf
      simp only [BVal.enc, wrapDoc_length] at hl hf
      have := obsFields_rep (g := obsVal fuel) (N := min 2147483648 fuel) (fun v k t hr ht => ih v k t hr (by omega) (by omega)) d fs h2 (by omega)
      simp only [BVal.tag]; simp [h1, this, BVal.swapDec]
    | array vs =>
      obtain ⟨d, h1, h2⟩ := mutableArray_rep h hl hf
      simp only [BVal.enc, wrapDoc_length] at hl hf
      have := obsVals_rep (g := obsVal fuel) (N := min 2147483648 fuel) (fun v k t hr ht => ih v k t hr (by omega) (by omega)) d vs 0 h2 (by omega)
      simp only [BVal.tag]; simp [h1, this, BVal.swapDec]
    | binary st b => simp only [BVal.tag]; simp [binary_rep h, BVal.swapDec]
    | undefined => simp only [BVal.tag]; simp [BVal.swapDec]
    | oid b => simp only [BVal.tag]; simp [objectID_rep h, BVal.swapDec]
    | bool b => simp only [BVal.tag]; simp [boolean_rep h, BVal.swapDec]
    | datetime b => simp only [BVal.tag]; simp [dateTime_rep h, BVal.swapDec]
    | null => simp only [BVal.tag]; simp [BVal.swapDec]
    | regex p o => simp only [BVal.tag]; simp [regex_rep h, BVal.swapDec]
    | dbpointer n i => simp only [BVal.tag]; simp [dbPointer_rep h, BVal.swapDec]
    | js b => simp only [BVal.tag]; simp [javaScript_rep h, BVal.swapDec]
    | symbol b => simp only [BVal.tag]; simp [symbol_rep h, BVal.swapDec]
    | codeScope c fs =>
      obtain ⟨d, h1, h2⟩ := mutableCode_rep h hl hf
      have hn : (BVal.codeScope c fs).enc.length = c.length + fs.enc.length + 14 := by simp [BVal.enc]; omega
      rw [hn] at hl hf
      have := obsFields_rep (g := obsVal fuel) (N := min 2147483648 fuel) (fun v k t hr ht => ih v k t hr (by omega) (by omega)) d fs h2 (by omega)
      simp only [BVal.tag]; simp [h1, this, BVal.swapDec]
    | int32 b => simp only [BVal.tag]; simp [int32_rep h, BVal.swapDec]
    | timestamp b c => simp only [BVal.tag]; simp [timestamp_rep h, BVal.swapDec]
    | int64 b => simp only [BVal.tag]; simp [int64_rep h, BVal.swapDec]
    | decimal b c => simp only [BVal.tag]; simp [decimal128_rep h, BVal.swapDec]
    | minKey => simp only [BVal.tag]; simp [BVal.swapDec]
    | maxKey => simp only [BVal.tag]; simp [BVal.swapDec]

/-- reading back a represented document -/
theorem obsDoc_rep (fuel : Nat) {d : Doc} {fs : Fields} (h : RepFields d fs) (hl : (encDoc fs).length < 2147483648)
    (hf : (encDoc fs).length < fuel) : obsDoc fuel d = .ok fs.swapDec := by
  simp only [encDoc, wrapDoc_length] at hl hf
  exact obsFields_rep (N := min 2147483648 fuel) (fun v k t hr ht => obsVal_rep fuel v k t hr (by omega) (by omega)) d fs h (by omega)

mutual
theorem BVal.swapDec_eq : ∀ (t : BVal), t.NoDecimal → t.swapDec = t
  | .decimal _ _, h => by simp [BVal.NoDecimal] at h
  | .doc fs, h => by simp [BVal.swapDec, Fields.swapDec_eq fs h]
  | .array vs, h => by simp [BVal.swapDec, Vals.swapDec_eq vs h]
  | .codeScope c fs, h => by simp [BVal.swapDec, Fields.swapDec_eq fs h]
  | .double _, _ | .string _, _ | .binary _ _, _ | .undefined, _ | .oid _, _ | .bool _, _ | .datetime _, _
  | .null, _ | .regex _ _, _ | .dbpointer _ _, _ | .js _, _ | .symbol _, _ | .int32 _, _ | .timestamp _ _, _
  | .int64 _, _ | .minKey, _ | .maxKey, _ => rfl
theorem Fields.swapDec_eq : ∀ (fs : Fields), fs.NoDecimal → fs.swapDec = fs
  | .nil, _ => rfl
  | .cons k v rest, h => by simp only [Fields.NoDecimal] at h; simp [Fields.swapDec, BVal.swapDec_eq v h.1, Fields.swapDec_eq rest h.2]
theorem Vals.swapDec_eq : ∀ (vs : Vals), vs.NoDecimal → vs.swapDec = vs
  | .nil, _ => rfl
  | .cons v rest, h => by simp only [Vals.NoDecimal] at h; simp [Vals.swapDec, BVal.swapDec_eq v h.1, Vals.swapDec_eq rest h.2]
end

end Birch.Proofs
