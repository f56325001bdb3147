import Verif.Proofs.Rep

/- The writers on represented values. -/

namespace Birch.Proofs
open Birch Model Spec

set_option linter.unusedSimpArgs false
set_option linter.unusedVariables false
attribute [local irreducible] i32 u32 u32i u64i i64

theorem writePrep_ok {key : Bool} {vs vo s size : Nat} {b : Bytes}
    (h1 : vs < vo) (h2 : vo - vs ≤ size + 1)
    (h : (if key then s + size else s + size + 1 - (vo - vs)) ≤ b.length) :
    writePrep key vs vo s size b = .ok (if key then vs else vo) := by
  unfold writePrep
  have : ¬ b.length < u64i (if key then (s : Int) + size else (s : Int) + size - ((vo : Int) - vs - 1)) := by
    cases key <;> simp only [u64i, if_true, if_false, Bool.false_eq_true] at h ⊢ <;> omega
  simp only
  rw [if_neg this]

theorem int32_splice {s : Nat} {b : Bytes} {z : Int} {n : Nat} (h0 : z = n) (hn : n < 2147483648)
    (h : s + 4 ≤ b.length) : encRes (Elements.int32 s b z) = .ok (4, splice b s (le32 n)) := by
  subst h0
  unfold Elements.int32 encRes
  rw [if_neg (by omega), copyAt_splice (by simp; omega), u32i_nat (by omega)]
  rfl

theorem byte_splice {s : Nat} {b : Bytes} {x : UInt8} 
    (h : s + 1 ≤ b.length) : encRes (Elements.byte s b x) = .ok (1, splice b s [x]) := by
  unfold Elements.byte Elements.setByte encRes
  rw [if_neg (by omega), if_pos (by omega), set_splice (by omega)]
  rfl

theorem setByte_splice {s : Nat} {b : Bytes} {x : UInt8} 
    (h : s + 1 ≤ b.length) : Elements.setByte b s x = .ok (splice b s [x]) := by
  unfold Elements.setByte
  rw [if_pos (by omega), set_splice (by omega)]

/-- the frame around a body that writes exactly `x` -/
theorem frameWrite_splice {s : Nat} {b x : Bytes} {body : Nat → Bytes → Res (Nat × Bytes)}
    (hl : x.length + 5 < 2147483648) (h : s + x.length + 5 ≤ b.length)
    (hb : ∀ b', b'.length = b.length → body (s + 4) b' = .ok (x.length, splice b' (s + 4) x)) :
    frameWrite s (x.length + 5) b body = .ok (x.length + 5, splice b s (wrapDoc x)) := by
  unfold frameWrite
  rw [if_neg (by omega), int32_splice (n := x.length + 5) (i32_of_nat (by omega)) (by omega) (by omega)]
  simp only [Res.bind_ok]
  have l1 : (splice b s (le32 (x.length + 5))).length = b.length := splice_length (by simp; omega)
  rw [hb _ l1]
  simp only [Res.bind_ok]
  rw [splice_splice (by simp) (by omega)]
  have l2 : (splice b s (le32 (x.length + 5) ++ x)).length = b.length := splice_length (by simp; omega)
  rw [byte_splice (by omega)]
  simp only [Res.bind_ok]
  rw [splice_splice (by simp; omega) (by simp; omega)]
  simp [wrapDoc]; omega

/-- overwriting bytes with themselves -/
theorem splice_self (hd x tl : Bytes) {s : Nat} (hs : s = hd.length) : splice (hd ++ (x ++ tl)) s x = hd ++ (x ++ tl) := by
  subst hs
  unfold splice
  rw [List.take_left, ← List.length_append, ← List.append_assoc, List.drop_left]

theorem splice_mid (hd x y tl : Bytes) {s : Nat} (hs : s = hd.length) (h : x.length = y.length) :
    splice (hd ++ (x ++ tl)) s y = hd ++ (y ++ tl) := by
  subst hs
  unfold splice
  rw [List.take_left, ← h, ← List.length_append, ← List.append_assoc, List.drop_left]; simp

theorem scope_len {a b c f : Nat} (h : a + b + c + f + 16 < 2147483648) :
    i32 (i32 (i32 ((a + b + c + 11 : Nat) : Int) + ((f + 5 : Nat) : Int)) - i32 ((a + b + 2 : Nat) : Int))
      = ((c + f + 14 : Nat) : Int) := by
  rw [i32_small (z := ((a + b + c + 11 : Nat) : Int)) (by omega) (by omega),
    i32_small (z := ((a + b + 2 : Nat) : Int)) (by omega) (by omega),
    i32_small (z := ((a + b + c + 11 : Nat) : Int) + ((f + 5 : Nat) : Int)) (by omega) (by omega),
    i32_small (by omega) (by omega)]
  omega

theorem scope_len1 {c : Nat} (h : c + 10 < 2147483648) :
    i32 (8 + ((c + 1 : Nat) : Int)) = ((c + 9 : Nat) : Int) := by
  have h1 : (8 + ((c + 1 : Nat) : Int)) = ((c + 9 : Nat) : Int) := by omega
  rw [h1]
  exact i32_of_nat (by omega)
theorem scope_len2 {c f : Nat} (h : c + f + 14 < 2147483648) :
    i32 (((c + 9 : Nat) : Int) + i32 ((5 + f : Nat) : Int)) = ((c + f + 14 : Nat) : Int) := by
  rw [i32_of_nat (n := 5 + f) (by omega)]
  have h1 : ((c + 9 : Nat) : Int) + ((5 + f : Nat) : Int) = ((c + f + 14 : Nat) : Int) := by omega
  rw [h1]
  exact i32_of_nat (by omega)

/-- copying a raw value -/
theorem rawWrite_splice {t : BVal} (pre k post : Bytes) (wf : t.WF) (key : Bool) (s : Nat) (b : Bytes)
    (hd : (pre ++ t.tag :: (k ++ 0 :: (t.enc ++ post))).length < 2147483648)
    (hb : s + (if key then k.length + 2 else 0) + t.enc.length ≤ b.length) :
    rawWrite (if key then pre.length else pre.length + k.length + 2) pre.length (pre.length + k.length + 2)
      (k.length + 2 + t.enc.length) s (pre ++ t.tag :: (k ++ 0 :: (t.enc ++ post))) b =
      .ok ((if key then k.length + 2 else 0) + t.enc.length,
        splice b s ((if key then t.tag :: (k ++ [0]) else []) ++ t.enc)) := by
  have fin : (slice (pre ++ t.tag :: (k ++ 0 :: (t.enc ++ post))) (if key then pre.length else pre.length + k.length + 2)
        (u32 (pre.length + (k.length + 2 + t.enc.length))) >>= fun x => copyAt b s x) = 
      .ok ((if key then k.length + 2 else 0) + t.enc.length,
        splice b s ((if key then t.tag :: (k ++ [0]) else []) ++ t.enc)) := by
    simp only [List.length_append, List.length_cons] at hd
    rw [u32_small (by omega)]
    cases key
    · have := slice_mid (pre ++ t.tag :: (k ++ [0])) t.enc post (lo := pre.length + k.length + 2)
        (hi := pre.length + (k.length + 2 + t.enc.length)) (by simp; omega) (by simp; omega)
      simp only [List.append_assoc, List.cons_append, List.nil_append] at this
      simp only [Bool.false_eq_true, if_false] at hb ⊢
      rw [this]
      simp only [Res.bind_ok]
      rw [copyAt_splice (by omega)]
      simp
    · have := slice_mid pre (t.tag :: (k ++ 0 :: t.enc)) post (lo := pre.length)
        (hi := pre.length + (k.length + 2 + t.enc.length)) (by simp) (by simp; omega)
      simp only [List.append_assoc, List.cons_append, List.nil_append] at this
      simp only [if_true] at hb ⊢
      rw [this]
      simp only [Res.bind_ok]
      rw [copyAt_splice (by simp; omega)]
      simp; omega
  unfold rawWrite
  rw [if_neg (by simp), idx_append]
  simp only [Res.bind_ok]
  by_cases h15 : t.tag = 0x0F
  · rw [if_pos h15]
    cases t with
    | codeScope c fs =>
      have hn : (BVal.codeScope c fs).enc.length = c.length + fs.enc.length + 14 := by
        simp [BVal.enc]; omega
      have e0 : (BVal.codeScope c fs).enc = le32 (c.length + fs.enc.length + 14) ++ (le32 (c.length + 1) ++ (c ++ (0 :: (le32 (fs.enc.length + 5) ++ (fs.enc ++ [0]))))) := by
        simp [BVal.enc, encString, wrapDoc]; congr 1; omega
      have hd' := hd
      simp only [List.length_append, List.length_cons, hn] at hd'
      have s1 : slice (pre ++ (BVal.codeScope c fs).tag :: (k ++ 0 :: ((BVal.codeScope c fs).enc ++ post)))
          (pre.length + k.length + 6) (pre.length + k.length + 10) = .ok (le32 (c.length + 1)) := by
        have := slice_mid (pre ++ (BVal.codeScope c fs).tag :: (k ++ 0 :: le32 (c.length + fs.enc.length + 14)))
          (le32 (c.length + 1)) ((c ++ (0 :: (le32 (fs.enc.length + 5) ++ (fs.enc ++ [0])))) ++ post)
          (lo := pre.length + k.length + 6) (hi := pre.length + k.length + 10) (by simp; omega) (by simp; omega)
        rw [e0]
        simpa using this
      have s2 : slice (pre ++ (BVal.codeScope c fs).tag :: (k ++ 0 :: ((BVal.codeScope c fs).enc ++ post)))
          (pre.length + k.length + c.length + 11) (pre.length + k.length + c.length + 15) = .ok (le32 (fs.enc.length + 5)) := by
        have := slice_mid (pre ++ (BVal.codeScope c fs).tag :: (k ++ 0 :: (le32 (c.length + fs.enc.length + 14) ++ (le32 (c.length + 1) ++ (c ++ [0])))))
          (le32 (fs.enc.length + 5)) ((fs.enc ++ [0]) ++ post)
          (lo := pre.length + k.length + c.length + 11) (hi := pre.length + k.length + c.length + 15) (by simp; omega) (by simp; omega)
        rw [e0]
        simpa using this
      have s3 : encRes (Elements.int32 (pre.length + k.length + 2) (pre ++ (BVal.codeScope c fs).tag :: (k ++ 0 :: ((BVal.codeScope c fs).enc ++ post)))
          ((c.length + fs.enc.length + 14 : Nat) : Int)) = .ok (4, pre ++ (BVal.codeScope c fs).tag :: (k ++ 0 :: ((BVal.codeScope c fs).enc ++ post))) := by
        rw [int32_splice (n := c.length + fs.enc.length + 14) (Eq.refl _) (by omega) (by simp only [List.length_append, List.length_cons, hn]; omega), e0]
        have := splice_self (pre ++ (BVal.codeScope c fs).tag :: (k ++ [0])) (le32 (c.length + fs.enc.length + 14))
          ((le32 (c.length + 1) ++ (c ++ (0 :: (le32 (fs.enc.length + 5) ++ (fs.enc ++ [0]))))) ++ post) 
          (s := pre.length + k.length + 2) (by simp; omega)
        simp only [List.append_assoc, List.cons_append, List.nil_append] at this ⊢
        rw [this]
      generalize (pre ++ (BVal.codeScope c fs).tag :: (k ++ 0 :: ((BVal.codeScope c fs).enc ++ post))) = D at *
      rw [u32_small (n := pre.length + k.length + 2 + 4) (by omega), u32_small (n := pre.length + k.length + 2 + 4 + 4) (by omega),
        show pre.length + k.length + 2 + 4 = pre.length + k.length + 6 by omega, 
        show pre.length + k.length + 6 + 4 = pre.length + k.length + 10 by omega, s1]
      simp only [Res.bind_ok]
      rw [readi32_le32_nat' (by omega)]
      simp only [Res.bind_ok]
      rw [u32i_nat (by omega), show u32 (pre.length + k.length + 10 + (c.length + 1)) = pre.length + k.length + c.length + 11 by simp only [u32]; omega,
        u32_small (n := pre.length + k.length + c.length + 11 + 4) (by omega), s2]
      simp only [Res.bind_ok]
      rw [readi32_le32_nat' (by omega)]
      simp only [Res.bind_ok]
      rw [scope_len (by omega), s3]
      simp only [Res.bind_ok]
      exact fin
    | _ => simp [BVal.tag] at h15
  · rw [if_neg h15]
    exact fin

/-- the part `tag key NUL` of an element -/
def hdr (key : Bool) (x : UInt8) (k : Bytes) : Bytes := if key then x :: (k ++ [0]) else []

theorem asTooSmall_ok {α : Type} (a : α) : asTooSmall (.ok a : Res α) = .ok a := rfl

mutual
/-- an element writes its type byte and key (if asked to) followed by the encoded value.
    Without the key one byte more than needed must be available. -/
theorem elemWrite_rep (fuel : Nat) (key : Bool) : ∀ (v : Value) (k : Bytes) (t : BVal) (s : Nat) (b : Bytes),
    Rep v k t → t.enc.length < 2147483648 → t.enc.length < fuel →
    s + (if key then k.length + 2 else 1) + t.enc.length ≤ b.length →
    elemWrite fuel key s b v = .ok ((hdr key t.tag k ++ t.enc).length, splice b s (hdr key t.tag k ++ t.enc))
  | .raw vs vo data, k, t, s, b, h, hl, hf, hb => by
    have hv := elemValidate_rep fuel h hl hf
    have hkl := rep_keyLen h
    simp only [Rep] at h
    obtain ⟨hk, wf, hd, pre, post, rfl, rfl, rfl⟩ := h
    unfold elemWrite
    rw [hv]
    simp only [Res.bind_ok]
    rw [writePrep_ok (by omega) (by omega) (by cases key <;> simp at hb ⊢ <;> omega)]
    simp only [Res.bind_ok]
    rw [rawWrite_splice pre k post wf key s b hd (by cases key <;> simp at hb ⊢ <;> omega)]
    rw [asTooSmall_ok]
    cases key <;> simp [hdr]; omega
  | .withDoc vs vo data d, k, t, s, b, h, hl, hf, hb => by
    have hv := elemValidate_rep fuel h hl hf
    have hkl := rep_keyLen h
    simp only [Rep] at h
    obtain ⟨hk, hd, pre, post, rfl, rfl, rfl, h⟩ := h
    unfold elemWrite
    rw [hv]
    simp only [Res.bind_ok]
    rw [writePrep_ok (by omega) (by omega) (by cases key <;> simp at hb ⊢ <;> omega)]
    simp only [Res.bind_ok]
    rw [if_neg (by simp), idx_append]
    simp only [Res.bind_ok]
    have fr : ∀ (x : Bytes) (body : Nat → Bytes → Res (Nat × Bytes)), t.enc = wrapDoc x →
        (∀ p b', p + x.length + 1 ≤ b'.length → body p b' = .ok (x.length, splice b' p x)) →
        (if key = true then do
          let x ← slice (pre ++ t.tag :: (k ++ 0 :: post)) (if key = true then pre.length else pre.length + k.length + 2) (pre.length + k.length + 2)
          let __x ← copyAt b s x
          let __y ← frameWrite (s + __x.1) (u32i (((k.length + 2 + t.enc.length : Nat) : Int) - (((pre.length + k.length + 2 : Nat) : Int) - (pre.length : Int)))) __x.2 body
          Res.ok (__x.1 + __y.1, __y.2)
        else frameWrite s (u32i (((k.length + 2 + t.enc.length : Nat) : Int) - (((pre.length + k.length + 2 : Nat) : Int) - (pre.length : Int)))) b body) =
        .ok ((hdr key t.tag k ++ t.enc).length, splice b s (hdr key t.tag k ++ t.enc)) := by
      intro x body he hbody
      have hx : t.enc.length = x.length + 5 := by rw [he]; simp
      rw [show u32i (((k.length + 2 + t.enc.length : Nat) : Int) - (((pre.length + k.length + 2 : Nat) : Int) - (pre.length : Int))) = x.length + 5 by
        simp only [u32i]; omega]
      cases key
      · simp only [Bool.false_eq_true, if_false] at hb ⊢
        rw [frameWrite_splice (by omega) (by omega) (by intro b' hb'; exact hbody _ _ (by omega))]
        simp [hdr, he]
      · simp only [if_true] at hb ⊢
        have := slice_mid pre (t.tag :: (k ++ [0])) post (lo := pre.length) (hi := pre.length + k.length + 2) rfl (by simp; omega)
        simp only [List.append_assoc, List.cons_append, List.nil_append] at this
        rw [this]
        simp only [Res.bind_ok]
        rw [copyAt_splice (by simp; omega)]
        simp only [Res.bind_ok]
        have l1 : (splice b s (t.tag :: (k ++ [0]))).length = b.length := splice_length (by simp; omega)
        rw [frameWrite_splice (by omega) (by simp [l1]; omega) (by intro b' hb'; exact hbody _ _ (by simp at hb' ⊢; omega)),
          splice_splice (by simp) (by simp; omega)]
        simp [hdr, he]; omega
    cases t with
    | doc fs =>
      rw [if_pos (by rfl)]
      have := fr fs.enc (fun p b => elemsWrite fuel p b d) rfl (by
        intro p b' hp
        have hx : (BVal.doc fs).enc.length = fs.enc.length + 5 := by simp [BVal.enc]
        exact fieldsWrite_rep fuel d fs p b' h (by omega) (by omega) (by omega))
      rw [this, asTooSmall_ok]
    | array vs =>
      rw [if_neg (by rw [show (BVal.array vs).tag = 4 from rfl]; decide), if_pos (by rfl)]
      have := fr (vs.encFrom 0) (fun p b => valsWrite fuel 0 p b d) rfl (by
        intro p b' hp
        have hx : (BVal.array vs).enc.length = (vs.encFrom 0).length + 5 := by simp [BVal.enc]
        exact valsWrite_rep fuel d vs 0 p b' h (by omega) (by omega) (by omega))
      rw [this, asTooSmall_ok]
    | codeScope c fs =>
      clear fr hv
      obtain ⟨⟨l, post', h4, rfl⟩, h⟩ := h
      have hn : (BVal.codeScope c fs).enc.length = c.length + fs.enc.length + 14 := by
        simp [BVal.enc]; omega
      have e0 : (BVal.codeScope c fs).enc = le32 (c.length + fs.enc.length + 14) ++ (encString c ++ wrapDoc fs.enc) := by
        simp [BVal.enc, encString, wrapDoc]; congr 1; omega
      have hd' := hd
      simp only [List.length_append, List.length_cons, encString_length, h4] at hd'
      have s1 : slice (pre ++ (BVal.codeScope c fs).tag :: (k ++ 0 :: (l ++ (encString c ++ post'))))
          (pre.length + k.length + 6) (pre.length + k.length + 10) = .ok (le32 (c.length + 1)) := by
        have := slice_mid (pre ++ (BVal.codeScope c fs).tag :: (k ++ 0 :: l))
          (le32 (c.length + 1)) (c ++ 0 :: post')
          (lo := pre.length + k.length + 6) (hi := pre.length + k.length + 10) (by simp; omega) (by simp; omega)
        simpa [encString] using this
      have q : c.length + fs.enc.length + 14 < 2147483648 := by rw [← hn]; exact hl
      have s2 := elemsValidate_rep fuel d fs 5 h (by omega) (by omega)
      have s3 : encRes (Elements.int32 (pre.length + k.length + 2) (pre ++ (BVal.codeScope c fs).tag :: (k ++ 0 :: (l ++ (encString c ++ post'))))
          ((c.length + fs.enc.length + 14 : Nat) : Int)) = .ok (4, pre ++ (BVal.codeScope c fs).tag :: (k ++ 0 :: (le32 (c.length + fs.enc.length + 14) ++ (encString c ++ post')))) := by
        rw [int32_splice (n := c.length + fs.enc.length + 14) (Eq.refl _) (by omega) (by simp only [List.length_append, List.length_cons, encString_length, h4]; omega)]
        have := splice_mid (pre ++ (BVal.codeScope c fs).tag :: (k ++ [0])) l (le32 (c.length + fs.enc.length + 14))
          (encString c ++ post') (s := pre.length + k.length + 2) (by simp; omega) (by simp [h4])
        simp only [List.append_assoc, List.cons_append, List.nil_append] at this ⊢
        rw [this]
      have s4 : slice (pre ++ (BVal.codeScope c fs).tag :: (k ++ 0 :: (le32 (c.length + fs.enc.length + 14) ++ (encString c ++ post'))))
          (if key = true then pre.length else pre.length + k.length + 2) (pre.length + k.length + 2 + (c.length + 9)) =
          .ok (hdr key (BVal.codeScope c fs).tag k ++ (le32 (c.length + fs.enc.length + 14) ++ encString c)) := by
        cases key
        · have := slice_mid (pre ++ (BVal.codeScope c fs).tag :: (k ++ [0])) (le32 (c.length + fs.enc.length + 14) ++ encString c) post'
            (lo := pre.length + k.length + 2) (hi := pre.length + k.length + 2 + (c.length + 9)) (by simp; omega) (by simp [encString_length]; omega)
          simpa [hdr] using this
        · have := slice_mid pre ((BVal.codeScope c fs).tag :: (k ++ 0 :: (le32 (c.length + fs.enc.length + 14) ++ encString c))) post'
            (lo := pre.length) (hi := pre.length + k.length + 2 + (c.length + 9)) (by simp) (by simp [encString_length]; omega)
          simpa [hdr] using this
      have hh : (hdr key (BVal.codeScope c fs).tag k).length = (if key then k.length + 2 else 0) := by
        cases key <;> simp [hdr]
      generalize (pre ++ (BVal.codeScope c fs).tag :: (k ++ 0 :: (l ++ (encString c ++ post')))) = D at *
      generalize (pre ++ (BVal.codeScope c fs).tag :: (k ++ 0 :: (le32 (c.length + fs.enc.length + 14) ++ (encString c ++ post')))) = D' at *
      rw [if_neg (by rw [show (BVal.codeScope c fs).tag = 15 from rfl]; decide), if_neg (by rw [show (BVal.codeScope c fs).tag = 15 from rfl]; decide), if_pos (by rfl)]
      rw [u32_small (n := pre.length + k.length + 2 + 4) (by omega), u32_small (n := pre.length + k.length + 2 + 4 + 4) (by omega),
        show pre.length + k.length + 2 + 4 = pre.length + k.length + 6 by omega,
        show pre.length + k.length + 6 + 4 = pre.length + k.length + 10 by omega, s1]
      simp only [Res.bind_ok]
      rw [readi32_le32_nat' (by omega)]
      simp only [Res.bind_ok]
      unfold docValidate
      rw [s2]
      simp only [Res.bind_ok]
      rw [scope_len1 (Nat.lt_of_le_of_lt (Nat.add_le_add (Nat.le_add_right _ _) (by decide)) q), scope_len2 q, s3]
      simp only [Res.bind_ok]
      rw [u32i_nat (by omega), u32_small (by omega), s4]
      simp only [Res.bind_ok]
      have hb' : s + (hdr key (BVal.codeScope c fs).tag k).length + (c.length + fs.enc.length + 14) ≤ b.length := by
        rw [hh]; cases key <;> simp at hb ⊢ <;> omega
      rw [copyAt_splice (by simp [encString_length]; omega)]
      simp only [Res.bind_ok]
      rw [Nat.add_comm 5 fs.enc.length]
      have l1 : (splice b s (hdr key (BVal.codeScope c fs).tag k ++ (le32 (c.length + fs.enc.length + 14) ++ encString c))).length = b.length :=
        splice_length (by simp [encString_length]; omega)
      rw [frameWrite_splice (x := fs.enc) (by omega) (by simp [l1, encString_length]; omega)
        (by intro b' hb'
            simp only [l1] at hb'
            exact fieldsWrite_rep fuel d fs _ b' h (by omega) (by omega) (by simp [hb', encString_length]; omega)),
        splice_splice (by simp) (by simp [encString_length]; omega)]
      simp only [Res.bind_ok]
      rw [asTooSmall_ok, e0]
      simp; omega
    | _ => exact h.elim
theorem fieldsWrite_rep (fuel : Nat) : ∀ (d : List Value) (fs : Fields) (s : Nat) (b : Bytes),
    RepFields d fs → fs.enc.length < 2147483648 → fs.enc.length < fuel → s + fs.enc.length ≤ b.length →
    elemsWrite fuel s b d = .ok (fs.enc.length, splice b s fs.enc)
  | [], .nil, s, b, h, _, _, _ => by simp [elemsWrite, Fields.enc, splice_nil]
  | [], .cons _ _ _, _, _, h, _, _, _ => by simp [RepFields] at h
  | _ :: _, .nil, _, _, h, _, _, _ => by simp [RepFields] at h
  | v :: d, .cons k t fs, s, b, h, hl, hf, hb => by
    simp only [RepFields] at h
    rw [fieldsEnc_length] at hl hf hb
    unfold elemsWrite
    rw [elemWrite_rep fuel true v k t s b h.1 (by omega) (by omega) (by simp; omega)]
    have e : (hdr true t.tag k ++ t.enc).length = k.length + 2 + t.enc.length := by simp [hdr]; omega
    simp only [Res.bind_ok]
    rw [e, fieldsWrite_rep fuel d fs _ _ h.2 (by omega) (by omega) (by rw [splice_length (by omega)]; omega)]
    simp only [Res.bind_ok]
    rw [splice_splice (by omega) (by omega), fieldsEnc_length]
    simp [hdr, Fields.enc]
theorem valsWrite_rep (fuel : Nat) : ∀ (d : List Value) (vs : Vals) (i s : Nat) (b : Bytes),
    RepVals d vs → (vs.encFrom i).length < 2147483648 → (vs.encFrom i).length < fuel →
    s + (vs.encFrom i).length + 1 ≤ b.length →
    valsWrite fuel i s b d = .ok ((vs.encFrom i).length, splice b s (vs.encFrom i))
  | [], .nil, i, s, b, h, _, _, _ => by simp [valsWrite, Vals.encFrom, splice_nil]
  | [], .cons _ _, _, _, _, h, _, _, _ => by simp [RepVals] at h
  | _ :: _, .nil, _, _, _, h, _, _, _ => by simp [RepVals] at h
  | v :: d, .cons t vs, i, s, b, h, hl, hf, hb => by
    simp only [RepVals] at h
    obtain ⟨⟨k, h1⟩, h2⟩ := h
    rw [encFrom_length] at hl hf hb
    unfold valsWrite
    rw [(rep_key h1).2.1]
    simp only [Res.bind_ok]
    rw [setByte_splice (by omega), itoa_eq]
    simp only [Res.bind_ok]
    rw [copyAt_splice (by rw [splice_length (by simp; omega)]; simp; omega)]
    simp only [Res.bind_ok]
    rw [splice_splice (by simp) (by simp; omega)]
    rw [elemWrite_rep fuel false v k t _ _ h1 (by omega) (by omega) (by rw [splice_length (by simp; omega)]; simp; omega)]
    have e : (hdr false t.tag k ++ t.enc).length = t.enc.length := by simp [hdr]
    simp only [Res.bind_ok]
    rw [splice_splice (by simp; omega) (by simp [hdr]; omega), e]
    have e2 : ([t.tag] ++ (decimalKey i ++ [0]) ++ (hdr false t.tag k ++ t.enc)).length = (decimalKey i).length + 2 + t.enc.length := by
      simp [hdr]; omega
    rw [valsWrite_rep fuel d vs _ _ _ h2 (by omega) (by omega) (by rw [splice_length (by omega)]; simp; omega)]
    simp only [Res.bind_ok]
    rw [splice_splice (by simp [hdr]; omega) (by simp; omega), encFrom_length]
    simp [hdr, Vals.encFrom]; omega
end

/-- `MarshalBSON` of a represented document -/
theorem docMarshal_rep (fuel : Nat) {d : Doc} {fs : Fields} (h : RepFields d fs)
    (hl : (encDoc fs).length < 2147483648) (hf : (encDoc fs).length < fuel) :
    docMarshal fuel d = .ok (encDoc fs) := by
  simp only [encDoc, wrapDoc_length] at *
  unfold docMarshal docWrite docValidate
  rw [elemsValidate_rep fuel d fs 5 h (by omega) (by omega)]
  simp only [Res.bind_ok]
  rw [Nat.add_comm 5, frameWrite_splice (x := fs.enc) (by omega) (by simp)
    (by intro b' hb'; exact fieldsWrite_rep fuel d fs _ b' h (by omega) (by omega) (by simp at hb'; omega))]
  simp only [Res.bind_ok]
  rw [splice_all (by simp)]

/-- `MarshalBSON` of a represented array -/
theorem arrMarshal_rep (fuel : Nat) {d : Doc} {vs : Vals} (h : RepVals d vs)
    (hl : (wrapDoc (vs.encFrom 0)).length < 2147483648) (hf : (wrapDoc (vs.encFrom 0)).length < fuel) :
    arrMarshal fuel d = .ok (wrapDoc (vs.encFrom 0)) := by
  simp only [wrapDoc_length] at *
  unfold arrMarshal arrWrite arrValidate
  rw [arrElemsValidate_rep fuel d vs 5 0 h (by omega) (by omega)]
  simp only [Res.bind_ok]
  rw [Nat.add_comm 5, frameWrite_splice (x := vs.encFrom 0) (by omega) (by simp)
    (by intro b' hb'; exact valsWrite_rep fuel d vs _ _ b' h (by omega) (by omega) (by simp at hb'; omega))]
  simp only [Res.bind_ok]
  rw [splice_all (by simp)]

/-- `MarshalBSON` of a represented element -/
theorem elemMarshal_rep (fuel : Nat) {v : Value} {k : Bytes} {t : BVal} (h : Rep v k t)
    (hl : t.enc.length < 2147483648) (hf : t.enc.length < fuel) :
    elemMarshal fuel v = .ok (t.tag :: (k ++ 0 :: t.enc)) := by
  unfold elemMarshal
  rw [elemValidate_rep fuel h hl hf]
  simp only [Res.bind_ok]
  rw [elemWrite_rep fuel true v k t 0 _ h hl hf (by simp)]
  simp only [Res.bind_ok]
  rw [splice_all (by simp [hdr]; omega)]
  simp [hdr]

end Birch.Proofs
