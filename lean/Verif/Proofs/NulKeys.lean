import Verif.Spec.NulKeys
import Verif.Proofs.BadArgsExact

/- Marshalling documents with NUL bytes in keys at any depth. -/

namespace Birch.Proofs
open Birch Model Spec

/-! ### sizes -/

mutual
/-- the size that `Validate` computes -/
def BVal.sz : BVal → Nat
  | .doc fs => Fields.sz fs + 5
  | .array vs => Vals.sz 0 vs + 5
  | .codeScope c fs => c.length + 9 + (Fields.sz fs + 5)
  | t => t.stored.enc.length
def Fields.sz : Fields → Nat
  | .nil => 0
  | .cons k t rest => (beforeNul k).length + 2 + BVal.sz t + Fields.sz rest
def Vals.sz : Nat → Vals → Nat
  | _, .nil => 0
  | i, .cons t rest => (decimalKey i).length + 2 + BVal.sz t + Vals.sz (i + 1) rest
end

open Classical in
/-- the size of the key that is written -/
noncomputable def keySize (k : Bytes) (t : BVal) : Nat := if t.Nested then k.length else (beforeNul k).length

mutual
/-- the size that is written -/
noncomputable def BVal.wl : BVal → Nat
  | .doc fs => Fields.wl fs + 5
  | .array vs => Vals.wl 0 vs + 5
  | .codeScope c fs => c.length + 9 + (Fields.wl fs + 5)
  | t => t.stored.enc.length
noncomputable def Fields.wl : Fields → Nat
  | .nil => 0
  | .cons k t rest => keySize k t + 2 + BVal.wl t + Fields.wl rest
noncomputable def Vals.wl : Nat → Vals → Nat
  | _, .nil => 0
  | i, .cons t rest => (decimalKey i).length + 2 + BVal.wl t + Vals.wl (i + 1) rest
end

theorem keySize_le (k : Bytes) (t : BVal) : (beforeNul k).length ≤ keySize k t ∧ keySize k t ≤ k.length ∧ ((beforeNul k).length = keySize k t ↔ (t.Nested → NulFree k)) := by
  have := beforeNul_le k
  unfold keySize
  split
  · rename_i h
    exact ⟨this, Nat.le_refl _, by rw [beforeNul_eq_iff]; exact ⟨fun a _ => a, fun a => a h⟩⟩
  · rename_i h
    exact ⟨Nat.le_refl _, this, ⟨fun _ a => absurd a h, fun _ => rfl⟩⟩

mutual
theorem val_sizes : ∀ t : BVal, BVal.sz t ≤ BVal.wl t ∧ BVal.wl t ≤ t.enc.length ∧ (BVal.sz t = BVal.wl t ↔ t.Clean)
  | .doc fs => by
    have := fields_sizes fs
    simp only [BVal.sz, BVal.wl, BVal.Clean, BVal.enc, wrapDoc_length]
    exact ⟨by omega, by omega, by rw [← this.2.2]; omega⟩
  | .array vs => by
    have := vals_sizes 0 vs
    simp only [BVal.sz, BVal.wl, BVal.Clean, BVal.enc, wrapDoc_length]
    exact ⟨by omega, by omega, by rw [← this.2.2]; omega⟩
  | .codeScope c fs => by
    have := fields_sizes fs
    have e : (BVal.codeScope c fs).enc.length = c.length + fs.enc.length + 14 := by simp [BVal.enc]; omega
    simp only [BVal.sz, BVal.wl, BVal.Clean, e]
    exact ⟨by omega, by omega, by rw [← this.2.2]; omega⟩
  | .regex p o => by
    obtain ⟨post, h⟩ := stored_enc (.regex p o)
    have := congrArg List.length h
    simp only [List.length_append] at this
    simp only [BVal.sz, BVal.wl, BVal.Clean]
    exact ⟨Nat.le_refl _, by omega, by simp⟩
  | .double _ | .string _ | .binary _ _ | .undefined | .oid _ | .bool _ | .datetime _ | .null | .dbpointer _ _ | .js _ | .symbol _ | .int32 _ | .timestamp _ _ | .int64 _
  | .decimal _ _ | .minKey | .maxKey => by simp [BVal.sz, BVal.wl, BVal.Clean, BVal.stored]
theorem fields_sizes : ∀ fs : Fields, Fields.sz fs ≤ Fields.wl fs ∧ Fields.wl fs ≤ fs.enc.length ∧ (Fields.sz fs = Fields.wl fs ↔ fs.Clean)
  | .nil => by simp [Fields.sz, Fields.wl, Fields.Clean]
  | .cons k t fs => by
    have h1 := val_sizes t
    have h2 := fields_sizes fs
    have h3 := keySize_le k t
    simp only [Fields.sz, Fields.wl, Fields.Clean, Fields.enc, List.length_append, List.length_cons, List.length_nil]
    exact ⟨by omega, by omega, by rw [← h1.2.2, ← h2.2.2, ← h3.2.2]; omega⟩
theorem vals_sizes : ∀ (i : Nat) (vs : Vals), Vals.sz i vs ≤ Vals.wl i vs ∧ Vals.wl i vs ≤ (vs.encFrom i).length ∧ (Vals.sz i vs = Vals.wl i vs ↔ vs.Clean)
  | i, .nil => by simp [Vals.sz, Vals.wl, Vals.Clean]
  | i, .cons t vs => by
    have h1 := val_sizes t
    have h2 := vals_sizes (i + 1) vs
    simp only [Vals.sz, Vals.wl, Vals.Clean, encFrom_length]
    exact ⟨by omega, by omega, by rw [← h1.2.2, ← h2.2.2]; omega⟩
end

mutual
/-- the computed size is that of the encoding if and only if all arguments were right -/
theorem val_exact : ∀ t : BVal, t.StoredAll → BVal.sz t ≤ t.enc.length ∧ (BVal.sz t = t.enc.length ↔ t.WF)
  | .doc fs, h => by
    have := fields_exact fs h
    simp only [BVal.sz, BVal.WF, BVal.enc, wrapDoc_length]
    exact ⟨by omega, by rw [← this.2]; omega⟩
  | .array vs, h => by
    have := vals_exact 0 vs h
    simp only [BVal.sz, BVal.WF, BVal.enc, wrapDoc_length]
    exact ⟨by omega, by rw [← this.2]; omega⟩
  | .codeScope c fs, h => by
    have := fields_exact fs h
    have e : (BVal.codeScope c fs).enc.length = c.length + fs.enc.length + 14 := by simp [BVal.enc]; omega
    simp only [BVal.sz, BVal.WF, e]
    exact ⟨by omega, by rw [← this.2]; omega⟩
  | .regex p o, h => by simpa only [BVal.sz] using stored_size (.regex p o) h
  | .double _, h | .string _, h | .binary _ _, h | .undefined, h | .oid _, h | .bool _, h | .datetime _, h | .null, h | .dbpointer _ _, h | .js _, h | .symbol _, h | .int32 _, h
  | .timestamp _ _, h | .int64 _, h | .decimal _ _, h | .minKey, h | .maxKey, h => ⟨Nat.le_refl _, fun _ => h, fun _ => rfl⟩
theorem fields_exact : ∀ fs : Fields, fs.StoredAll → Fields.sz fs ≤ fs.enc.length ∧ (Fields.sz fs = fs.enc.length ↔ fs.WF)
  | .nil, _ => by simp [Fields.sz, Fields.WF, Fields.enc]
  | .cons k t fs, h => by
    have h1 := val_exact t h.1
    have h2 := fields_exact fs h.2
    have h3 := beforeNul_le k
    simp only [Fields.sz, Fields.WF, Fields.enc, List.length_append, List.length_cons, List.length_nil]
    exact ⟨by omega, by rw [← h1.2, ← h2.2, ← beforeNul_eq_iff]; omega⟩
theorem vals_exact : ∀ (i : Nat) (vs : Vals), vs.StoredAll → Vals.sz i vs ≤ (vs.encFrom i).length ∧ (Vals.sz i vs = (vs.encFrom i).length ↔ vs.WF)
  | i, .nil, _ => by simp [Vals.sz, Vals.WF, Vals.encFrom]
  | i, .cons t vs, h => by
    have h1 := val_exact t h.1
    have h2 := vals_exact (i + 1) vs h.2
    simp only [Vals.sz, Vals.WF, encFrom_length]
    exact ⟨by omega, by rw [← h1.2, ← h2.2]; omega⟩
end

/-! ### writing -/

/-- an error, or, under `P`, a panic -/
def Bad {α : Type} (P : Prop) (r : Res α) : Prop := r = .err .tooSmall ∨ (P ∧ r = .panic)

/-- Writing `n` bytes at `s` either fails, and not if `c` and there is room for them and `e` more, or writes them into the buffer. -/
def Out (P c : Prop) (e s n : Nat) (b : Bytes) (r : Res (Nat × Bytes)) : Prop :=
  (Bad P r ∧ ¬ (c ∧ s + n + e ≤ b.length)) ∨ ∃ b', r = .ok (n, b') ∧ b'.length = b.length ∧ s + n ≤ b.length

theorem Out.more {P c : Prop} {e e' s n : Nat} {b : Bytes} {r : Res (Nat × Bytes)} (h : Out P c e s n b r) (he : e ≤ e') : Out P c e' s n b r := by
  rcases h with ⟨h1, h2⟩ | h
  · exact .inl ⟨h1, fun h => h2 ⟨h.1, by omega⟩⟩
  · exact .inr h

theorem Out.asTooSmall {P c : Prop} {e s n : Nat} {b : Bytes} {r : Res (Nat × Bytes)} (h : Out P c e s n b r) : Out P c e s n b (Model.asTooSmall r) := by
  rcases h with ⟨rfl | ⟨p, rfl⟩, h2⟩ | ⟨b', rfl, h⟩
  · exact .inl ⟨.inl rfl, h2⟩
  · exact .inl ⟨.inr ⟨p, rfl⟩, h2⟩
  · exact .inr ⟨b', rfl, h⟩

theorem copyAt_length {b x : Bytes} {s : Nat} (h : s ≤ b.length) : ∃ b', copyAt b s x = .ok (min x.length (b.length - s), b') ∧ b'.length = b.length := by
  unfold copyAt
  rw [if_pos h]
  exact ⟨_, rfl, by simp; omega⟩

theorem frame_small {s size : Nat} {b : Bytes} {body : Nat → Bytes → Res (Nat × Bytes)} (h : b.length < s + 4) : frameWrite s size b body = .err .tooSmall := by
  unfold frameWrite
  split
  · rfl
  · rw [show encRes (Elements.int32 s b (i32 size)) = .err .tooSmall by unfold Elements.int32 encRes; rw [if_pos h]; rfl]
    rfl

theorem frame_out {P c : Prop} {s size n : Nat} {b : Bytes} {body : Nat → Bytes → Res (Nat × Bytes)} (hc : c → size = n + 5)
    (hb : ∀ b', b'.length = b.length → s + 4 ≤ b.length → Out P c 1 (s + 4) n b' (body (s + 4) b')) : Out P c 0 s (n + 5) b (frameWrite s size b body) := by
  by_cases h4 : b.length < s + 4
  · rw [frame_small h4]
    exact .inl ⟨.inl rfl, by omega⟩
  · unfold frameWrite
    split
    · exact .inl ⟨.inl rfl, fun h => by have := hc h.1; omega⟩
    · obtain ⟨b1, h1, l1⟩ := copyAt_length (b := b) (x := le32 (u32i (i32 size))) (s := s) (by omega)
      rw [show encRes (Elements.int32 s b (i32 size)) = .ok (4, b1) by unfold Elements.int32 encRes; rw [if_neg h4, h1]; rfl]
      simp only [Res.bind_ok]
      rcases hb b1 l1 (by omega) with ⟨h2 | ⟨p, h2⟩, h3⟩ | ⟨b2, h2, l2, h3⟩
      · rw [h2]
        exact .inl ⟨.inl rfl, fun h => h3 ⟨h.1, by omega⟩⟩
      · rw [h2]
        exact .inl ⟨.inr ⟨p, rfl⟩, fun h => h3 ⟨h.1, by omega⟩⟩
      · rw [h2]
        simp only [Res.bind_ok]
        by_cases h5 : b2.length < s + 4 + n + 1
        · rw [show encRes (Elements.byte (s + 4 + n) b2 0) = .err .tooSmall by unfold Elements.byte encRes; rw [if_pos h5]; rfl]
          exact .inl ⟨.inl rfl, fun h => by omega⟩
        · rw [byte_splice (by omega)]
          exact .inr ⟨_, by simp only [Res.bind_ok]; rw [show 4 + n + 1 = n + 5 by omega], by rw [splice_length (by simp; omega)]; omega, by omega⟩

/-- a header and a frame -/
theorem header_out {P c : Prop} {s size n : Nat} {b hdr : Bytes} {body : Nat → Bytes → Res (Nat × Bytes)} (hs : s ≤ b.length) (hc : c → size = n + 5)
    (hb : ∀ p b', b'.length = b.length → p ≤ b.length → Out P c 1 p n b' (body p b')) :
    Out P c 0 s (hdr.length + (n + 5)) b (do
      let (m, b) ← copyAt b s hdr
      let (m', b) ← frameWrite (s + m) size b body
      .ok (m + m', b)) := by
  obtain ⟨b1, h1, l1⟩ := copyAt_length (b := b) (x := hdr) hs
  rw [h1]
  simp only [Res.bind_ok]
  by_cases h : hdr.length ≤ b.length - s
  · rw [Nat.min_eq_left h]
    rcases frame_out (P := P) (c := c) (s := s + hdr.length) (b := b1) hc (fun b' l h => hb _ b' (by omega) (by omega)) with ⟨h2 | ⟨p, h2⟩, h3⟩ | ⟨b2, h2, l2, h3⟩
    · rw [h2]
      exact .inl ⟨.inl rfl, fun h => h3 ⟨h.1, by omega⟩⟩
    · rw [h2]
      exact .inl ⟨.inr ⟨p, rfl⟩, fun h => h3 ⟨h.1, by omega⟩⟩
    · rw [h2]
      exact .inr ⟨b2, rfl, by omega, by omega⟩
  · rw [Nat.min_eq_right (by omega), frame_small (by omega)]
    exact .inl ⟨.inl rfl, fun h => by omega⟩

theorem writePrep_keyed {vo s size : Nat} {b : Bytes} (h : s + size < 18446744073709551616) :
    writePrep true 0 vo s size b = if b.length < s + size then .err .tooSmall else .ok 0 := by
  unfold writePrep
  simp only [if_true]
  rw [show u64i ((s : Int) + size) = s + size by unfold u64i; omega]

theorem writePrep_bare {s size : Nat} {b : Bytes} (h : s + size < 18446744073709551616) (h1 : 1 ≤ size) :
    writePrep false 0 2 s size b = if b.length < s + size - 1 then .err .tooSmall else .ok 2 := by
  unfold writePrep
  simp only [Bool.false_eq_true, if_false]
  rw [show u64i ((s : Int) + size - ((2 : Nat) - (0 : Nat) - 1)) = s + size - 1 by unfold u64i; omega]

/-- a value that the constructors built -/
structure Writes (fuel : Nat) (P : Prop) (v : Value) (k : Bytes) (t : BVal) : Prop where
  start : v.start = 0
  offset : v.offset = k.length + 2
  first : idx v.data 0 = .ok t.tag
  klen : elemKeyLen v.data v.start v.offset = .ok ((beforeNul k).length + 1)
  valid : valueValidate fuel false v = .ok (BVal.sz t)
  out : ∀ s b, s < 1099511627776 → b.length < 549755813888 → Out P ((t.Nested → NulFree k) ∧ t.Clean) 1 s (keySize k t + 2 + BVal.wl t) b (elemWrite fuel true s b v)
  bare : k = [] → ∀ s b, s < 1099511627776 → b.length < 549755813888 → Out P t.Clean 1 s (BVal.wl t) b (elemWrite fuel false s b v)

inductive WritesFields (fuel : Nat) (P : Prop) : Doc → Fields → Prop
  | nil : WritesFields fuel P [] .nil
  | cons {v k t d fs} : Writes fuel P v k t → WritesFields fuel P d fs → WritesFields fuel P (v :: d) (.cons k t fs)

inductive WritesVals (fuel : Nat) (P : Prop) : Doc → Vals → Prop
  | nil : WritesVals fuel P [] .nil
  | cons {v t d vs} : Writes fuel P v [] t → WritesVals fuel P d vs → WritesVals fuel P (v :: d) (.cons t vs)

theorem Writes.size {fuel : Nat} {P : Prop} {v : Value} {k : Bytes} {t : BVal} (h : Writes fuel P v k t) (hl : (beforeNul k).length + 2 + BVal.sz t < 4294967296) :
    elemValidate fuel v = .ok ((beforeNul k).length + 2 + BVal.sz t) := by
  unfold elemValidate
  rw [h.klen, h.valid]
  simp only [Res.bind_ok]
  rw [u32_small (by omega)]
  congr 1; omega

theorem fields_valid {fuel : Nat} {P : Prop} {d : Doc} {fs : Fields} (h : WritesFields fuel P d fs) : ∀ n, n + Fields.sz fs < 4294967296 →
    elemsValidate fuel n d = .ok (n + Fields.sz fs) := by
  induction h with
  | nil => intro n _; simp [elemsValidate, Fields.sz]
  | @cons v k t d fs h1 h2 ih =>
    intro n hn
    simp only [Fields.sz] at hn ⊢
    unfold elemsValidate
    rw [h1.klen, h1.valid]
    simp only [Res.bind_ok]
    rw [u32_small (n := 1 + ((beforeNul k).length + 1) + BVal.sz t) (by omega), u32_small (by omega), ih _ (by omega)]
    congr 1; omega

theorem vals_valid {fuel : Nat} {P : Prop} {d : Doc} {vs : Vals} (h : WritesVals fuel P d vs) : ∀ n i, n + Vals.sz i vs < 4294967296 →
    arrElemsValidate fuel n i d = .ok (n + Vals.sz i vs) := by
  induction h with
  | nil => intro n i _; simp [arrElemsValidate, Vals.sz]
  | @cons v t d vs h1 h2 ih =>
    intro n i hn
    simp only [Vals.sz] at hn ⊢
    unfold arrElemsValidate
    rw [h1.valid]
    simp only [Res.bind_ok]
    rw [itoa_eq, u32_small (by omega), ih _ _ (by omega)]
    congr 1; omega

theorem fields_out {fuel : Nat} {P : Prop} {d : Doc} {fs : Fields} (h : WritesFields fuel P d fs) : ∀ s b, s ≤ b.length → b.length < 549755813888 →
    Out P fs.Clean 1 s (Fields.wl fs) b (elemsWrite fuel s b d) := by
  induction h with
  | nil => intro s b h1 _; exact .inr ⟨b, by simp [elemsWrite, Fields.wl], rfl, by simp only [Fields.wl]; omega⟩
  | @cons v k t d fs h1 h2 ih =>
    intro s b hs hb
    simp only [Fields.wl, Fields.Clean]
    unfold elemsWrite
    rcases h1.out s b (by omega) hb with ⟨h2 | ⟨p, h2⟩, h3⟩ | ⟨b1, h2, l1, h3⟩
    · rw [h2]
      exact .inl ⟨.inl rfl, fun h => h3 ⟨⟨h.1.1, h.1.2.1⟩, by omega⟩⟩
    · rw [h2]
      exact .inl ⟨.inr ⟨p, rfl⟩, fun h => h3 ⟨⟨h.1.1, h.1.2.1⟩, by omega⟩⟩
    · rw [h2]
      simp only [Res.bind_ok]
      rcases ih (s + (keySize k t + 2 + BVal.wl t)) b1 (by omega) (by omega) with ⟨h4 | ⟨p, h4⟩, h5⟩ | ⟨b2, h4, l2, h5⟩
      · rw [h4]
        exact .inl ⟨.inl rfl, fun h => h5 ⟨h.1.2.2, by omega⟩⟩
      · rw [h4]
        exact .inl ⟨.inr ⟨p, rfl⟩, fun h => h5 ⟨h.1.2.2, by omega⟩⟩
      · rw [h4]
        exact .inr ⟨b2, rfl, by omega, by omega⟩

theorem vals_out {fuel : Nat} {P : Prop} (hP : P) {d : Doc} {vs : Vals} (h : WritesVals fuel P d vs) : ∀ i s b, s ≤ b.length → b.length < 549755813888 → Vals.wl i vs < 4294967296 →
    Out P vs.Clean 1 s (Vals.wl i vs) b (valsWrite fuel i s b d) := by
  induction h with
  | nil => intro i s b h1 _ _; exact .inr ⟨b, by simp [valsWrite, Vals.wl], rfl, by simp only [Vals.wl]; omega⟩
  | @cons v t d vs h1 h2 ih =>
    intro i s b hs hb hl
    simp only [Vals.wl, Vals.Clean] at hl ⊢
    unfold valsWrite
    rw [h1.start, h1.first]
    simp only [Res.bind_ok]
    by_cases h0 : s < b.length
    · rw [setByte_splice (by omega), itoa_eq]
      simp only [Res.bind_ok]
      have l0 : (splice b s [t.tag]).length = b.length := splice_length (by simp; omega)
      obtain ⟨b0, e0, l0'⟩ := copyAt_length (b := splice b s [t.tag]) (x := decimalKey i ++ [0]) (s := s + 1) (by omega)
      rw [e0]
      simp only [Res.bind_ok]
      have lk : (decimalKey i ++ [0]).length = (decimalKey i).length + 1 := by simp
      rw [lk]
      rcases h1.bare rfl (s + 1 + ((decimalKey i).length + 1)) b0 (by omega) (by omega) with ⟨h2 | ⟨p, h2⟩, h3⟩ | ⟨b1, h2, l1, h3⟩
      · rw [h2]
        exact .inl ⟨.inl rfl, fun h => h3 ⟨h.1.1, by omega⟩⟩
      · rw [h2]
        exact .inl ⟨.inr ⟨p, rfl⟩, fun h => h3 ⟨h.1.1, by omega⟩⟩
      · rw [h2]
        simp only [Res.bind_ok]
        rcases ih (i + 1) (s + 1 + ((decimalKey i).length + 1) + BVal.wl t) b1 (by omega) (by omega) (by omega) with ⟨h4 | ⟨p, h4⟩, h5⟩ | ⟨b2, h4, l2, h5⟩
        · rw [h4]
          exact .inl ⟨.inl rfl, fun h => h5 ⟨h.1.2, by omega⟩⟩
        · rw [h4]
          exact .inl ⟨.inr ⟨p, rfl⟩, fun h => h5 ⟨h.1.2, by omega⟩⟩
        · rw [h4]
          exact .inr ⟨b2, by simp only [Res.bind_ok]; congr 2; omega, by omega, by omega⟩
    · have : Elements.setByte b s t.tag = .panic := by unfold Elements.setByte; rw [if_neg h0]
      rw [this]
      exact .inl ⟨.inr ⟨hP, rfl⟩, by omega⟩

theorem tag_keyLen (k : Bytes) (x : UInt8) (tl : Bytes) (h : (x :: (k ++ 0 :: tl)).length < 2147483648) (d : Doc) :
    elemKeyLen (Value.withDoc 0 (k.length + 2) (x :: (k ++ 0 :: tl)) d).data (Value.withDoc 0 (k.length + 2) (x :: (k ++ 0 :: tl)) d).start
      (Value.withDoc 0 (k.length + 2) (x :: (k ++ 0 :: tl)) d).offset = .ok ((beforeNul k).length + 1) := elemKeyLen_cut k tl x h

/-- documents and arrays -/
theorem framed_writes {fuel : Nat} {P : Prop} (k : Bytes) (d : Doc) (t : BVal) (n m : Nat) (c : Prop) (body : Nat → Bytes → Res (Nat × Bytes)) (ht : t.Nested)
    (hsz : BVal.sz t = m + 5) (hwl : BVal.wl t = n + 5) (hle : m ≤ n) (hcl : t.Clean ↔ c) (hc : c → m = n) (hk : k.length + 2 + (n + 5) < 2147483648)
    (hv : valueValidate fuel false (.withDoc 0 (k.length + 2) (t.tag :: (k ++ [0])) d) = .ok (m + 5))
    (hb : ∀ p b, p ≤ b.length → b.length < 549755813888 → Out P c 1 p n b (body p b))
    (hw : ∀ key s b, elemWrite fuel key s b (.withDoc 0 (k.length + 2) (t.tag :: (k ++ [0])) d) = (do
      let size ← elemValidate fuel (.withDoc 0 (k.length + 2) (t.tag :: (k ++ [0])) d)
      asTooSmall do
        let sw ← writePrep key 0 (k.length + 2) s size b
        let size := u32i ((size : Int) - (((k.length + 2 : Nat) : Int) - (0 : Nat)))
        if key then do
          let (n, b) ← copyAt b s (← slice (t.tag :: (k ++ [0])) sw (k.length + 2))
          let (m, b) ← frameWrite (s + n) size b body
          .ok (n + m, b)
        else frameWrite s size b body)) :
    Writes fuel P (.withDoc 0 (k.length + 2) (t.tag :: (k ++ [0])) d) k t := by
  have hbn := beforeNul_le k
  have hkl := tag_keyLen k t.tag [] (by simp; omega) d
  have hval : elemValidate fuel (.withDoc 0 (k.length + 2) (t.tag :: (k ++ [0])) d) = .ok ((beforeNul k).length + 2 + (m + 5)) := by
    unfold elemValidate
    rw [hkl, hv]
    simp only [Res.bind_ok]
    rw [u32_small (by omega)]
    congr 1; omega
  refine ⟨rfl, rfl, rfl, hkl, by rw [hsz]; exact hv, ?_, ?_⟩
  · intro s b hs hbl
    have hks : keySize k t = k.length := by unfold keySize; rw [if_pos ht]
    rw [hw, hval, hks, hwl]
    simp only [Res.bind_ok, if_true]
    rw [writePrep_keyed (by omega)]
    by_cases hp : b.length < s + ((beforeNul k).length + 2 + (m + 5))
    · rw [if_pos hp]
      exact .inl ⟨.inl rfl, by omega⟩
    · rw [if_neg hp]
      simp only [Res.bind_ok]
      have hsl : slice (t.tag :: (k ++ [0])) 0 (k.length + 2) = .ok (t.tag :: (k ++ [0])) := by
        unfold slice
        rw [if_pos ⟨Nat.zero_le _, by simp⟩, List.take_of_length_le (by simp)]; rfl
      rw [hsl]
      simp only [Res.bind_ok]
      refine Out.asTooSmall (Out.more (e := 0) ?_ (by omega))
      have := header_out (P := P) (c := (t.Nested → NulFree k) ∧ t.Clean) (s := s) (n := n) (b := b) (hdr := t.tag :: (k ++ [0])) (body := body)
        (size := u32i ((((beforeNul k).length + 2 + (m + 5) : Nat) : Int) - (((k.length + 2 : Nat) : Int) - (0 : Nat)))) (by omega)
        (by
          intro h
          have h1 := (beforeNul_eq_iff k).mpr (h.1 ht)
          have h2 := hc (hcl.mp h.2)
          rw [h1, show ((k.length + 2 + (m + 5) : Nat) : Int) - (((k.length + 2 : Nat) : Int) - (0 : Nat)) = ((m + 5 : Nat) : Int) by omega, u32i_nat (by omega)]
          omega)
        (by
          intro p b' hb' hp'
          rcases hb p b' (by omega) (by omega) with ⟨h1, h2⟩ | h
          · exact .inl ⟨h1, fun h => h2 ⟨hcl.mp h.1.2, h.2⟩⟩
          · exact .inr h)
      rw [show (t.tag :: (k ++ [0])).length = k.length + 2 by simp] at this
      exact this
  · rintro rfl s b hs hbl
    rw [hw, hval, hwl]
    simp only [Res.bind_ok, Bool.false_eq_true, if_false, List.length_nil, Nat.zero_add, beforeNul, List.takeWhile_nil]
    rw [writePrep_bare (by omega) (by omega)]
    by_cases hp : b.length < s + (2 + (m + 5)) - 1
    · rw [if_pos hp]
      exact .inl ⟨.inl rfl, by omega⟩
    · rw [if_neg hp]
      simp only [Res.bind_ok]
      refine Out.asTooSmall (Out.more (e := 0) ?_ (by omega))
      refine frame_out ?_ ?_
      · intro h
        have h2 := hc (hcl.mp h)
        rw [show ((2 + (m + 5) : Nat) : Int) - (((2 : Nat) : Int) - (0 : Nat)) = ((m + 5 : Nat) : Int) by omega, u32i_nat (by omega)]
        omega
      · intro b' hb' hp'
        rcases hb (s + 4) b' (by omega) (by omega) with ⟨h1, h2⟩ | h
        · exact .inl ⟨h1, fun h => h2 ⟨hcl.mp h.1, h.2⟩⟩
        · exact .inr h

/-- scalars -/
theorem scalar_writes {fuel : Nat} {P : Prop} (k : Bytes) (t : BVal) (hs : t.Scalar) (hn : ¬ t.Nested) (hz : BVal.sz t = t.stored.enc.length) (hz' : BVal.wl t = t.stored.enc.length)
    (wf : t.stored.WF) (hl : k.length + 2 + t.enc.length < 2147483648) (hf : t.enc.length < fuel) :
    Writes fuel P (.raw 0 (k.length + 2) (t.tag :: (k ++ 0 :: t.enc))) k t := by
  obtain ⟨post, hp⟩ := stored_enc t
  have hlen := congrArg List.length hp
  simp only [List.length_append] at hlen
  have hbn := beforeNul_le k
  have hkl := elemKeyLen_cut k t.enc t.tag (by simp; omega)
  have hv : rawValidate fuel (t.tag :: (k ++ 0 :: t.enc)) 0 (k.length + 2) = .ok t.stored.enc.length := by
    have := rawValidate_enc fuel t.stored wf (t.tag :: (k ++ [0])) post 0 (by simp [stored_tag]) (by simp; omega) (by omega)
    rw [hp]
    simpa using this
  have hval : elemValidate fuel (.raw 0 (k.length + 2) (t.tag :: (k ++ 0 :: t.enc))) = .ok ((beforeNul k).length + 2 + t.stored.enc.length) := by
    unfold elemValidate
    simp only [Value.data, Value.start, Value.offset, valueValidate, Bool.false_eq_true, if_false]
    rw [hkl, hv]
    simp only [Res.bind_ok]
    rw [u32_small (by omega)]
    congr 1; omega
  refine ⟨rfl, rfl, rfl, hkl, by rw [hz]; simpa [valueValidate] using hv, ?_, ?_⟩
  · intro s b hsl hbl
    have hks : keySize k t = (beforeNul k).length := by unfold keySize; rw [if_neg hn]
    rw [hks, hz']
    by_cases h : s + ((beforeNul k).length + 2 + t.stored.enc.length) ≤ b.length
    · have := (emits_scalar (fuel := fuel) k t hs wf hl hf).write s b (by rw [emitted_length]; omega)
      rw [emitted_length] at this
      exact .inr ⟨_, this, splice_length (by rw [emitted_length]; omega), h⟩
    · have : elemWrite fuel true s b (.raw 0 (k.length + 2) (t.tag :: (k ++ 0 :: t.enc))) = .err .tooSmall := by
        unfold elemWrite
        rw [hval]
        simp only [Res.bind_ok]
        rw [writePrep_keyed (by omega), if_pos (by omega)]
        rfl
      exact .inl ⟨.inl this, by omega⟩
  · rintro rfl s b hsl hbl
    simp only [List.length_nil, Nat.zero_add, beforeNul, List.takeWhile_nil, List.nil_append] at hval ⊢
    rw [hz']
    unfold elemWrite
    rw [hval]
    simp only [Res.bind_ok]
    rw [writePrep_bare (by omega) (by omega)]
    by_cases h : b.length < s + (2 + t.stored.enc.length) - 1
    · rw [if_pos h]
      exact .inl ⟨.inl rfl, by omega⟩
    · rw [if_neg h]
      simp only [Res.bind_ok]
      unfold rawWrite
      rw [if_neg (by simp), show idx (t.tag :: 0 :: t.enc) 0 = .ok t.tag from rfl]
      simp only [Res.bind_ok]
      rw [if_neg (scalar_tag hs), u32_small (by omega), Nat.zero_add]
      have hsl : slice (t.tag :: 0 :: t.enc) 2 (2 + t.stored.enc.length) = .ok t.stored.enc := by
        have := slice_mid [t.tag, 0] t.stored.enc post (lo := 2) (hi := 2 + t.stored.enc.length) rfl (by simp)
        rw [hp]
        simpa using this
      rw [hsl]
      simp only [Res.bind_ok]
      rw [copyAt_splice (by omega), asTooSmall_ok]
      exact .inr ⟨_, rfl, splice_length (by omega), by omega⟩

/-- code with scope -/
theorem scope_writes {fuel : Nat} {P : Prop} (k c l : Bytes) (d : Doc) (fs : Fields) (h4 : l.length = 4) (h : WritesFields fuel P d fs)
    (hl : k.length + 2 + (c.length + fs.enc.length + 14) < 2147483000) :
    Writes fuel P (.withDoc 0 (k.length + 2) (0x0F :: (k ++ 0 :: (l ++ encString c))) d) k (.codeScope c fs) := by
  have hbn := beforeNul_le k
  obtain ⟨hs1, hs2, hs3⟩ := fields_sizes fs
  have hkl := tag_keyLen k 0x0F (l ++ encString c) (by simp [encString_length, h4]; omega) d
  have hfv := fields_valid h 5 (by omega)
  have hsz : BVal.sz (.codeScope c fs) = c.length + 9 + (Fields.sz fs + 5) := by simp [BVal.sz]
  have hwl : BVal.wl (.codeScope c fs) = c.length + 9 + (Fields.wl fs + 5) := by simp [BVal.wl]
  have hks : keySize k (.codeScope c fs) = k.length := by unfold keySize; rw [if_pos (show (BVal.codeScope c fs).Nested from trivial)]
  have hlen : (0x0F :: (k ++ 0 :: (l ++ encString c)) : Bytes).length = k.length + 2 + 4 + (c.length + 5) := by simp [encString_length, h4]; omega
  have s1 : slice (0x0F :: (k ++ 0 :: (l ++ encString c))) (k.length + 6) (k.length + 10) = .ok (le32 (c.length + 1)) := by
    have := slice_mid (0x0F :: (k ++ 0 :: l)) (le32 (c.length + 1)) (c ++ [0]) (lo := k.length + 6) (hi := k.length + 10) (by simp [h4]) (by simp [h4])
    simpa [encString] using this
  have s2 : idx (0x0F :: (k ++ 0 :: (l ++ encString c))) (k.length + 2 + 8 + c.length) = .ok 0 := by
    have := idx_append (0x0F :: (k ++ 0 :: (l ++ (le32 (c.length + 1) ++ c)))) 0 []
    rw [show (0x0F :: (k ++ 0 :: (l ++ (le32 (c.length + 1) ++ c))) : Bytes).length = k.length + 2 + 8 + c.length by simp [h4]; omega] at this
    simpa [encString] using this
  have hv : valueValidate fuel false (.withDoc 0 (k.length + 2) (0x0F :: (k ++ 0 :: (l ++ encString c))) d) = .ok (c.length + 9 + (Fields.sz fs + 5)) := by
    unfold valueValidate
    rw [if_neg (by simp), show idx (0x0F :: (k ++ 0 :: (l ++ encString c))) 0 = .ok 0x0F from rfl]
    simp only [Res.bind_ok]
    rw [if_neg (by decide), if_neg (by decide), if_pos trivial, u32_small (n := k.length + 2 + 8) (by omega), u32_small (n := k.length + 2 + 4) (by omega), if_neg (by omega),
      show k.length + 2 + 4 = k.length + 6 by omega, show k.length + 2 + 8 = k.length + 10 by omega, s1]
    simp only [Res.bind_ok]
    rw [readi32_le32_nat' (by omega)]
    simp only [Res.bind_ok]
    rw [if_neg (by omega), u32i_nat (by omega)]
    simp only [Bool.false_eq_true, if_false]
    rw [show ((k.length + 2 : Nat) : Int) + 8 + ((c.length + 1 : Nat) : Int) - 1 = ((k.length + 2 + 8 + c.length : Nat) : Int) by omega, u32i_nat (by omega), s2]
    simp only [Res.bind_ok]
    rw [if_neg (by decide), hfv]
    simp only [Res.bind_ok]
    rw [u32_small (by omega)]
    congr 1; omega
  have hval : elemValidate fuel (.withDoc 0 (k.length + 2) (0x0F :: (k ++ 0 :: (l ++ encString c))) d) = .ok ((beforeNul k).length + 2 + (c.length + 9 + (Fields.sz fs + 5))) := by
    unfold elemValidate
    rw [hkl, hv]
    simp only [Res.bind_ok]
    rw [u32_small (by omega)]
    congr 1; omega
  have s3 : encRes (Elements.int32 (k.length + 2) (0x0F :: (k ++ 0 :: (l ++ encString c))) ((c.length + Fields.sz fs + 14 : Nat) : Int)) =
      .ok (4, splice (0x0F :: (k ++ 0 :: (l ++ encString c))) (k.length + 2) (le32 (c.length + Fields.sz fs + 14))) :=
    int32_splice (n := c.length + Fields.sz fs + 14) (Eq.refl _) (by omega) (by rw [hlen]; omega)
  have l3 : (splice (0x0F :: (k ++ 0 :: (l ++ encString c))) (k.length + 2) (le32 (c.length + Fields.sz fs + 14))).length = k.length + 2 + 4 + (c.length + 5) := by
    rw [splice_length (by rw [hlen]; simp), hlen]
  generalize splice (0x0F :: (k ++ 0 :: (l ++ encString c))) (k.length + 2) (le32 (c.length + Fields.sz fs + 14)) = D' at *
  have core : ∀ (sw s : Nat) (b : Bytes), s ≤ b.length → b.length < 549755813888 → sw ≤ k.length + 2 →
      Out P fs.Clean 0 s (k.length + 2 + (c.length + 9) - sw + (Fields.wl fs + 5)) b (do
        let cl ← readi32 (← slice (0x0F :: (k ++ 0 :: (l ++ encString c))) (u32 (k.length + 2 + 4)) (u32 (u32 (k.length + 2 + 4) + 4)))
        let lws := i32 (8 + cl)
        let sl ← docValidate fuel d
        let (_, data) ← encRes (Elements.int32 (k.length + 2) (0x0F :: (k ++ 0 :: (l ++ encString c))) (i32 (lws + i32 sl)))
        let (n, b) ← copyAt b s (← slice data sw (u32 (k.length + 2 + u32i lws)))
        let (m, b) ← frameWrite (s + n) sl b (fun p b => elemsWrite fuel p b d)
        .ok (n + m, b)) := by
    intro sw s b hs hbl hsw
    rw [u32_small (n := k.length + 2 + 4) (by omega), u32_small (n := k.length + 2 + 4 + 4) (by omega), show k.length + 2 + 4 = k.length + 6 by omega,
      show k.length + 6 + 4 = k.length + 10 by omega, s1]
    simp only [Res.bind_ok]
    rw [readi32_le32_nat' (by omega)]
    simp only [Res.bind_ok]
    unfold docValidate
    rw [hfv]
    simp only [Res.bind_ok]
    rw [scope_len1 (by omega), scope_len2 (c := c.length) (f := Fields.sz fs) (by omega), s3]
    simp only [Res.bind_ok]
    rw [u32i_nat (by omega), u32_small (by omega)]
    have hsl : slice D' sw (k.length + 2 + (c.length + 9)) = .ok ((D'.take (k.length + 2 + (c.length + 9))).drop sw) := by
      unfold slice
      rw [if_pos ⟨by omega, by omega⟩]
    rw [hsl]
    simp only [Res.bind_ok]
    have hh : ((D'.take (k.length + 2 + (c.length + 9))).drop sw).length = k.length + 2 + (c.length + 9) - sw := by
      rw [List.length_drop, List.length_take, Nat.min_eq_left (by omega)]
    rw [← hh]
    exact header_out hs (fun h => by have := hs3.mpr h; omega) (fun p b' hb' hp => fields_out h p b' (by omega) (by omega))
  refine ⟨rfl, rfl, rfl, hkl, by rw [hsz]; exact hv, ?_, ?_⟩
  · intro s b hsl hbl
    rw [hks, hwl]
    unfold elemWrite
    rw [hval]
    simp only [Res.bind_ok]
    rw [writePrep_keyed (by omega)]
    by_cases hp : b.length < s + ((beforeNul k).length + 2 + (c.length + 9 + (Fields.sz fs + 5)))
    · rw [if_pos hp]
      exact .inl ⟨.inl rfl, by omega⟩
    · rw [if_neg hp]
      simp only [Res.bind_ok]
      rw [if_neg (by simp), show idx (0x0F :: (k ++ 0 :: (l ++ encString c))) 0 = .ok 0x0F from rfl]
      simp only [Res.bind_ok]
      rw [if_neg (by decide), if_neg (by decide), if_pos trivial]
      refine Out.asTooSmall (Out.more (e := 0) ?_ (by omega))
      have := core 0 s b (by omega) hbl (by omega)
      rw [show k.length + 2 + (c.length + 9) - 0 + (Fields.wl fs + 5) = k.length + 2 + (c.length + 9 + (Fields.wl fs + 5)) by omega] at this
      rcases this with ⟨h1, h2⟩ | h
      · exact .inl ⟨h1, fun h => h2 ⟨h.1.2, h.2⟩⟩
      · exact .inr h
  · rintro rfl s b hsl hbl
    rw [hwl]
    unfold elemWrite
    rw [hval]
    simp only [Res.bind_ok, List.length_nil, Nat.zero_add, beforeNul, List.takeWhile_nil, List.nil_append] at core ⊢
    rw [writePrep_bare (by omega) (by omega)]
    by_cases hp : b.length < s + (2 + (c.length + 9 + (Fields.sz fs + 5))) - 1
    · rw [if_pos hp]
      exact .inl ⟨.inl rfl, by omega⟩
    · rw [if_neg hp]
      simp only [Res.bind_ok]
      rw [if_neg (by simp), show idx (0x0F :: 0 :: (l ++ encString c)) 0 = .ok 0x0F from rfl]
      simp only [Res.bind_ok]
      rw [if_neg (by decide), if_neg (by decide), if_pos trivial]
      refine Out.asTooSmall (Out.more (e := 0) ?_ (by omega))
      have := core 2 s b (by omega) hbl (by omega)
      rw [show 2 + (c.length + 9) - 2 + (Fields.wl fs + 5) = c.length + 9 + (Fields.wl fs + 5) by omega] at this
      exact this

theorem scalar_of {t : BVal} (hn : ¬ t.Nested) (h : t.StoredAll) : t.Scalar ∧ t.stored.WF ∧ BVal.sz t = t.stored.enc.length ∧ BVal.wl t = t.stored.enc.length := by
  cases t <;> first | exact absurd trivial hn | exact ⟨trivial, h, by simp [BVal.sz], by simp [BVal.wl]⟩ | exact ⟨h, h, by simp [BVal.sz], by simp [BVal.wl]⟩

theorem scalar_built {fuel : Nat} {P : Prop} (k : Bytes) (t : BVal) (h : t.StoredAll) (hn : ¬ t.Nested) (hl : k.length + 2 + t.enc.length < 2147483000) (hf : t.enc.length < fuel) :
    ∃ v, buildVal k t = .ok v ∧ Writes fuel P v k t := by
  obtain ⟨h1, h2, h3, h4⟩ := scalar_of hn h
  exact ⟨_, buildVal_scalar k t h1 (by omega), scalar_writes k t h1 hn h3 h4 h2 (by omega) hf⟩

mutual
theorem build_writes {fuel : Nat} {P : Prop} : ∀ (k : Bytes) (t : BVal), t.StoredAll → (¬ P → t.NoArray) → k.length + 2 + t.enc.length < 2147483000 → t.enc.length < fuel →
    ∃ v, buildVal k t = .ok v ∧ Writes fuel P v k t
  | k, .doc fs, h, hP, hl, hf => by
    have e : (BVal.doc fs).enc.length = fs.enc.length + 5 := by simp [BVal.enc]
    have hz := fields_sizes fs
    obtain ⟨d, h1, h2⟩ := build_fields (fuel := fuel) (P := P) fs h hP (by omega) (by omega)
    refine ⟨.withDoc 0 (k.length + 2) (3 :: (k ++ [0])) d, ?_, ?_⟩
    · simp only [buildVal]
      rw [h1]
      simp only [Res.bind_ok]
      unfold EC.subDocument
      rw [header_ok 3 k (by omega), u32_small (by omega), show 1 + k.length + 1 = k.length + 2 by omega]; rfl
    · refine framed_writes k d (.doc fs) (Fields.wl fs) (Fields.sz fs) fs.Clean (fun p b => elemsWrite fuel p b d) trivial (by simp [BVal.sz]) (by simp [BVal.wl]) hz.1 Iff.rfl hz.2.2.mpr
        (by omega) ?_ (fun p b h3 h4 => fields_out h2 p b h3 h4) ?_
      · unfold valueValidate
        rw [if_neg (by simp), show idx ((BVal.doc fs).tag :: (k ++ [0])) 0 = .ok 3 from rfl]
        simp only [Res.bind_ok]
        rw [if_pos trivial, fields_valid h2 5 (by omega)]
        congr 1; omega
      · intro key s b
        rw [show (BVal.doc fs).tag = 3 from rfl]
        have hi : idx (3 :: (k ++ [0])) 0 = .ok 3 := rfl
        have hne : (k.length + 2 = 0 ∨ 3 :: (k ++ [0]) = ([] : Bytes)) = False := by simp
        conv => lhs; unfold elemWrite
        simp only [hne, if_false, hi, Res.bind_ok, if_true]
  | k, .array vs, h, hP, hl, hf => by
    have e : (BVal.array vs).enc.length = (vs.encFrom 0).length + 5 := by simp [BVal.enc]
    have hz := vals_sizes 0 vs
    have hp : P := Classical.byContradiction fun hn => hP hn
    obtain ⟨d, h1, h2⟩ := build_vals (fuel := fuel) (P := P) hp 0 vs h (by omega) (by omega)
    refine ⟨.withDoc 0 (k.length + 2) (4 :: (k ++ [0])) d, ?_, ?_⟩
    · simp only [buildVal]
      rw [h1]
      simp only [Res.bind_ok]
      unfold EC.array
      rw [header_ok 4 k (by omega), u32_small (by omega), show 1 + k.length + 1 = k.length + 2 by omega]; rfl
    · refine framed_writes k d (.array vs) (Vals.wl 0 vs) (Vals.sz 0 vs) vs.Clean (fun p b => valsWrite fuel 0 p b d) trivial (by simp [BVal.sz]) (by simp [BVal.wl]) hz.1 Iff.rfl hz.2.2.mpr
        (by omega) ?_ (fun p b h3 h4 => vals_out hp h2 0 p b h3 h4 (by omega)) ?_
      · unfold valueValidate
        rw [if_neg (by simp), show idx ((BVal.array vs).tag :: (k ++ [0])) 0 = .ok 4 from rfl]
        simp only [Res.bind_ok]
        rw [if_neg (by decide), if_pos trivial, vals_valid h2 5 0 (by omega)]
        congr 1; omega
      · intro key s b
        rw [show (BVal.array vs).tag = 4 from rfl]
        have hi : idx (4 :: (k ++ [0])) 0 = .ok 4 := rfl
        have hne : (k.length + 2 = 0 ∨ 4 :: (k ++ [0]) = ([] : Bytes)) = False := by simp
        conv => lhs; unfold elemWrite
        simp only [hne, if_false, hi, Res.bind_ok, if_true, show ((4 : UInt8) = 3) = False by decide]
  | k, .codeScope c fs, h, hP, hl, hf => by
    have e : (BVal.codeScope c fs).enc.length = c.length + fs.enc.length + 14 := by simp [BVal.enc]; omega
    obtain ⟨d, h1, h2⟩ := build_fields (fuel := fuel) (P := P) fs h hP (by omega) (by omega)
    obtain ⟨l, h4, h5⟩ := codeWithScope_ok (k := k) (c := c) d (by omega)
    exact ⟨_, by simp only [buildVal]; rw [h1]; exact h5, scope_writes k c l d fs h4 h2 (by omega)⟩
  | k, .double x, h, _, hl, hf => scalar_built k _ h not_false hl hf
  | k, .string x, h, _, hl, hf => scalar_built k _ h not_false hl hf
  | k, .binary st x, h, _, hl, hf => scalar_built k _ h not_false hl hf
  | k, .undefined, h, _, hl, hf => scalar_built k _ h not_false hl hf
  | k, .oid x, h, _, hl, hf => scalar_built k _ h not_false hl hf
  | k, .bool x, h, _, hl, hf => scalar_built k _ h not_false hl hf
  | k, .datetime x, h, _, hl, hf => scalar_built k _ h not_false hl hf
  | k, .null, h, _, hl, hf => scalar_built k _ h not_false hl hf
  | k, .regex x y, h, _, hl, hf => scalar_built k _ h not_false hl hf
  | k, .dbpointer x y, h, _, hl, hf => scalar_built k _ h not_false hl hf
  | k, .js x, h, _, hl, hf => scalar_built k _ h not_false hl hf
  | k, .symbol x, h, _, hl, hf => scalar_built k _ h not_false hl hf
  | k, .int32 x, h, _, hl, hf => scalar_built k _ h not_false hl hf
  | k, .timestamp x y, h, _, hl, hf => scalar_built k _ h not_false hl hf
  | k, .int64 x, h, _, hl, hf => scalar_built k _ h not_false hl hf
  | k, .decimal x y, h, _, hl, hf => scalar_built k _ h not_false hl hf
  | k, .minKey, h, _, hl, hf => scalar_built k _ h not_false hl hf
  | k, .maxKey, h, _, hl, hf => scalar_built k _ h not_false hl hf
theorem build_fields {fuel : Nat} {P : Prop} : ∀ (fs : Fields), fs.StoredAll → (¬ P → fs.NoArray) → fs.enc.length < 2147483000 → fs.enc.length < fuel →
    ∃ d, buildDoc fs = .ok d ∧ WritesFields fuel P d fs
  | .nil, _, _, _, _ => ⟨[], rfl, .nil⟩
  | .cons k t fs, h, hP, hl, hf => by
    simp only [Fields.enc, List.length_append, List.length_cons, List.length_nil] at hl hf
    obtain ⟨v, h1, h2⟩ := build_writes (fuel := fuel) (P := P) k t h.1 (fun hn => (hP hn).1) (by omega) (by omega)
    obtain ⟨d, h3, h4⟩ := build_fields (fuel := fuel) (P := P) fs h.2 (fun hn => (hP hn).2) (by omega) (by omega)
    exact ⟨v :: d, by simp only [buildDoc]; rw [h1, h3]; rfl, .cons h2 h4⟩
theorem build_vals {fuel : Nat} {P : Prop} (hp : P) : ∀ (i : Nat) (vs : Vals), vs.StoredAll → (vs.encFrom i).length < 2147483000 → (vs.encFrom i).length < fuel →
    ∃ d, buildArr vs = .ok d ∧ WritesVals fuel P d vs
  | _, .nil, _, _, _ => ⟨[], rfl, .nil⟩
  | i, .cons t vs, h, hl, hf => by
    rw [encFrom_length] at hl hf
    obtain ⟨v, h1, h2⟩ := build_writes (fuel := fuel) (P := P) [] t h.1 (fun hn => absurd hp hn) (by simp; omega) (by omega)
    obtain ⟨d, h3, h4⟩ := build_vals (fuel := fuel) hp (i + 1) vs h.2 (by omega) (by omega)
    exact ⟨v :: d, by simp only [buildArr]; rw [h1, h3]; rfl, .cons h2 h4⟩
end

/-- what `MarshalBSON` does with any document -/
theorem docMarshal_writes {fuel : Nat} {P : Prop} {d : Doc} {fs : Fields} (h : WritesFields fuel P d fs) (hl : fs.enc.length < 2147483000) :
    (fs.Clean ∧ ∃ bs, docMarshal fuel d = .ok bs ∧ bs.length = Fields.sz fs + 5) ∨ (¬ fs.Clean ∧ Bad P (docMarshal fuel d)) := by
  have hz := fields_sizes fs
  unfold docMarshal docWrite docValidate
  rw [fields_valid h 5 (by omega)]
  simp only [Res.bind_ok]
  have := frame_out (P := P) (c := fs.Clean) (s := 0) (size := 5 + Fields.sz fs) (n := Fields.wl fs) (b := List.replicate (5 + Fields.sz fs) 0) (body := fun p b => elemsWrite fuel p b d)
    (fun h => by have := hz.2.2.mpr h; omega) (fun b' hb' h4 => fields_out h 4 b' (by rw [hb']; simp; omega) (by rw [hb', List.length_replicate]; omega))
  rcases this with ⟨h1 | ⟨p, h1⟩, h2⟩ | ⟨b', h1, h2, h3⟩
  · right
    refine ⟨fun hc => h2 ⟨hc, ?_⟩, ?_⟩
    · have := hz.2.2.mpr hc
      rw [List.length_replicate]; omega
    · rw [h1]; exact .inl rfl
  · right
    refine ⟨fun hc => h2 ⟨hc, ?_⟩, ?_⟩
    · have := hz.2.2.mpr hc
      rw [List.length_replicate]; omega
    · rw [h1]; exact .inr ⟨p, rfl⟩
  · left
    rw [List.length_replicate] at h2 h3
    refine ⟨hz.2.2.mp (by omega), b', by rw [h1]; rfl, by omega⟩

/-- An array under a key whose part after the NUL is as long as the array without its length: the first value is written behind the end of the buffer. -/
theorem array_panics {fuel : Nat} {P : Prop} {k : Bytes} {d : Doc} {vs : Vals} (hne : vs ≠ .nil) (h : WritesVals fuel P d vs)
    (hk : k.length = (beforeNul k).length + Vals.sz 0 vs + 2) (hl : k.length < 1073741000) : docMarshal fuel [.withDoc 0 (k.length + 2) (4 :: (k ++ [0])) d] = .panic := by
  have hkl := tag_keyLen k 4 [] (by simp; omega) d
  have hv : valueValidate fuel false (.withDoc 0 (k.length + 2) (4 :: (k ++ [0])) d) = .ok (5 + Vals.sz 0 vs) := by
    unfold valueValidate
    rw [if_neg (by simp), show idx (4 :: (k ++ [0])) 0 = .ok 4 from rfl]
    simp only [Res.bind_ok]
    rw [if_neg (by decide), if_pos trivial, vals_valid h 5 0 (by omega)]
  have hd : docValidate fuel [.withDoc 0 (k.length + 2) (4 :: (k ++ [0])) d] = .ok ((beforeNul k).length + Vals.sz 0 vs + 12) := by
    unfold docValidate elemsValidate
    rw [hkl, hv]
    simp only [Res.bind_ok, elemsValidate]
    rw [u32_small (n := 1 + ((beforeNul k).length + 1) + (5 + Vals.sz 0 vs)) (by omega), u32_small (by omega)]
    congr 1; omega
  have hval : elemValidate fuel (.withDoc 0 (k.length + 2) (4 :: (k ++ [0])) d) = .ok ((beforeNul k).length + Vals.sz 0 vs + 7) := by
    unfold elemValidate
    rw [hkl, hv]
    simp only [Res.bind_ok]
    rw [u32_small (by omega)]
    congr 1; omega
  have hvals : ∀ b : Bytes, valsWrite fuel 0 b.length b d = .panic := by
    intro b
    cases h with
    | nil => exact absurd rfl hne
    | cons h1 h2 =>
      unfold valsWrite
      rw [h1.start, h1.first]
      simp only [Res.bind_ok]
      unfold Elements.setByte
      rw [if_neg (by omega)]
      rfl
  have hframe : ∀ b : Bytes, 4 ≤ b.length → frameWrite (b.length - 4) 3 b (fun p b => valsWrite fuel 0 p b d) = .panic := by
    intro b hb
    unfold frameWrite
    rw [if_neg (by omega)]
    obtain ⟨b1, h1, l1⟩ := copyAt_length (b := b) (x := le32 (u32i (i32 (3 : Nat)))) (s := b.length - 4) (by omega)
    rw [show encRes (Elements.int32 (b.length - 4) b (i32 (3 : Nat))) = .ok (4, b1) by unfold Elements.int32 encRes; rw [if_neg (by omega), h1]; rfl]
    simp only [Res.bind_ok]
    rw [show b.length - 4 + 4 = b1.length by omega, hvals]
    rfl
  have helem : ∀ b : Bytes, b.length = (beforeNul k).length + Vals.sz 0 vs + 12 → elemWrite fuel true 4 b (.withDoc 0 (k.length + 2) (4 :: (k ++ [0])) d) = .panic := by
    intro b hb
    unfold elemWrite
    rw [hval]
    simp only [Res.bind_ok]
    rw [writePrep_keyed (by omega), if_neg (by omega)]
    simp only [Res.bind_ok]
    rw [if_neg (by simp), show idx (4 :: (k ++ [0])) 0 = .ok 4 from rfl]
    simp only [Res.bind_ok]
    rw [if_neg (by decide), if_pos trivial, if_pos trivial]
    have hsl : slice (4 :: (k ++ [0])) 0 (k.length + 2) = .ok (4 :: (k ++ [0])) := by
      unfold slice
      rw [if_pos ⟨Nat.zero_le _, by simp⟩, List.take_of_length_le (by simp)]; rfl
    rw [hsl]
    simp only [Res.bind_ok]
    obtain ⟨b1, h1, l1⟩ := copyAt_length (b := b) (x := 4 :: (k ++ [0])) (s := 4) (by omega)
    have lh : (4 :: (k ++ [0]) : Bytes).length = k.length + 2 := by simp
    rw [h1, lh, Nat.min_eq_left (by omega)]
    simp only [Res.bind_ok]
    rw [show (((beforeNul k).length + Vals.sz 0 vs + 7 : Nat) : Int) - (((k.length + 2 : Nat) : Int) - (0 : Nat)) = ((3 : Nat) : Int) by omega, u32i_nat (by omega),
      show 4 + (k.length + 2) = b1.length - 4 by omega, hframe b1 (by omega)]
    rfl
  unfold docMarshal docWrite
  rw [hd]
  simp only [Res.bind_ok]
  unfold frameWrite
  rw [if_neg (by simp)]
  obtain ⟨b1, h1, l1⟩ := copyAt_length (b := List.replicate ((beforeNul k).length + Vals.sz 0 vs + 12) 0) (x := le32 (u32i (i32 ((beforeNul k).length + Vals.sz 0 vs + 12 : Nat)))) (s := 0)
    (by omega)
  rw [show encRes (Elements.int32 0 (List.replicate ((beforeNul k).length + Vals.sz 0 vs + 12) 0) (i32 ((beforeNul k).length + Vals.sz 0 vs + 12 : Nat))) = .ok (4, b1) by
    unfold Elements.int32 encRes; rw [if_neg (by rw [List.length_replicate]; omega), h1]; rfl]
  simp only [Res.bind_ok]
  unfold elemsWrite
  rw [show 0 + 4 = 4 from rfl, helem b1 (by rw [l1, List.length_replicate])]
  rfl

mutual
theorem val_storedAll : ∀ t : BVal, t.WF → t.StoredAll
  | .doc fs, h => fields_storedAll fs h
  | .array vs, h => vals_storedAll vs h
  | .codeScope _ fs, h => fields_storedAll fs h
  | .regex p o, h => (emitted_wf (.cons [] (.regex p o) .nil) ⟨by simp [NulFree], h, trivial⟩).1.1
  | .double _, h | .string _, h | .binary _ _, h | .undefined, h | .oid _, h | .bool _, h | .datetime _, h | .null, h | .dbpointer _ _, h | .js _, h | .symbol _, h | .int32 _, h
  | .timestamp _ _, h | .int64 _, h | .decimal _ _, h | .minKey, h | .maxKey, h => h
theorem fields_storedAll : ∀ fs : Fields, fs.WF → fs.StoredAll
  | .nil, _ => trivial
  | .cons _ t fs, h => ⟨val_storedAll t h.2.1, fields_storedAll fs h.2.2⟩
theorem vals_storedAll : ∀ vs : Vals, vs.WF → vs.StoredAll
  | .nil, _ => trivial
  | .cons t vs, h => ⟨val_storedAll t h.1, vals_storedAll vs h.2⟩
end

end Birch.Proofs
