import Verif.Proofs.Search

namespace Birch.Proofs
open Birch Model Spec

attribute [local irreducible] i32 u32 u32i u64i i64
set_option linter.unusedSimpArgs false
set_option linter.unusedVariables false

/-! ### canonical positions -/

theorem digits_chars : ∀ (cs : List Char) (a : Nat), (∀ c ∈ cs, c.isDigit) →
    (cs.map (fun c => UInt8.ofNat c.toNat)).foldl addDigit (some a) = some (Nat.ofDigitChars 10 cs a)
  | [], a, _ => rfl
  | c :: cs, a, h => by
    have hc := h c (by simp)
    rw [Nat.ofDigitChars_cons, List.map_cons, List.foldl_cons]
    have hr : 48 ≤ c.toNat ∧ c.toNat ≤ 57 := by
      simp only [Char.isDigit, Bool.and_eq_true, decide_eq_true_eq, ge_iff_le, UInt32.le_iff_toNat_le] at hc
      exact hc
    have : addDigit (some a) (UInt8.ofNat c.toNat) = some (10 * a + (c.toNat - 48)) := by
      have e : (UInt8.ofNat c.toNat).toNat = c.toNat := by rw [UInt8.toNat_ofNat']; omega
      simp only [addDigit, digit, Option.bind_some, e, if_pos hr, Option.map_some]
    rw [this]
    exact digits_chars cs _ (fun c hc => h c (List.mem_cons_of_mem _ hc))

theorem digits_decimalKey (n : Nat) : digits (decimalKey n) = some n := by
  unfold digits decimalKey
  rw [if_neg (by simp [Nat.toDigits_ne_nil]), digits_chars _ _ (fun c hc => Nat.isDigit_of_mem_toDigits (by decide) (by decide) hc)]
  rw [Nat.ofDigitChars_ten_toDigits]

theorem canonical_iff {k : Bytes} {n : Nat} : canonicalIndex k = some n ↔ decimalKey n = k := by
  unfold canonicalIndex
  constructor
  · intro h
    split at h
    · split at h
      · cases h; assumption
      · cases h
    · cases h
  · rintro rfl
    rw [digits_decimalKey]
    simp

theorem firstNamed_toFields (k : Bytes) : ∀ (j : Nat) (vs : Vals),
    (toFields j vs).firstNamed k = (canonicalIndex k).bind fun n => if n < j then none else vs.get? (n - j)
  | j, .nil => by
    simp only [toFields, Fields.firstNamed, Vals.get?]
    cases canonicalIndex k <;> simp
  | j, .cons v rest => by
    simp only [toFields, Fields.firstNamed]
    rw [firstNamed_toFields k (j + 1) rest]
    by_cases h : decimalKey j = k
    · rw [if_pos h, canonical_iff.2 h]
      simp [Vals.get?]
    · rw [if_neg h]
      cases hc : canonicalIndex k with
      | none => rfl
      | some n =>
        have hne : n ≠ j := by
          rintro rfl
          exact h (canonical_iff.1 hc)
        simp only [Option.bind_some]
        by_cases hn : n < j
        · rw [if_pos hn, if_pos (by omega)]
        · rw [if_neg hn, if_neg (by omega)]
          obtain ⟨m, rfl⟩ : ∃ m, n = j + (m + 1) := ⟨n - j - 1, by omega⟩
          rw [show j + (m + 1) - j = m + 1 by omega, show j + (m + 1) - (j + 1) = m by omega]
          rfl

theorem part_array (k : Bytes) (vs : Vals) : (BVal.array vs).part canonicalIndex k = (toFields 0 vs).firstNamed k := by
  rw [firstNamed_toFields]
  simp [BVal.part]

theorem follow_toFields (k : Bytes) (ks : List Bytes) (vs : Vals) :
    BVal.follow canonicalIndex (k :: ks) (.array vs) = BVal.follow canonicalIndex (k :: ks) (.doc (toFields 0 vs)) := by
  simp only [BVal.follow, part_array]; rfl

/-! ### the loop -/

/-- the key of a field the loop has delimited -/
theorem raw_rep {k : Bytes} {t : BVal} (hk : NulFree k) (ht : t.WF) (hd post : Bytes)
    (h3 : (hd ++ t.tag :: (k ++ 0 :: (t.enc ++ post))).length < 2147483648) :
    Rep (.raw hd.length (hd.length + k.length + 2) (hd ++ t.tag :: (k ++ 0 :: (t.enc ++ post)))) k t := by
  simp only [Rep]
  exact ⟨hk, ht, h3, hd, post, rfl, rfl, rfl⟩

/-- what the lookup gives -/
def LookupAs (r : Res Value) (path : List Bytes) (o : Option BVal) : Prop :=
  match o with
  | none => r = .err .elementNotFound ∨ r = .err .invalidDepthTraversal
  | some t => ∃ v k, path.getLast? = some k ∧ r = .ok v ∧ Rep v k t

theorem lookup_enc (fuel : Nat) :
    (∀ (fs : Fields) (wf : fs.WF) (path : List Bytes), path ≠ [] → fs.enc.length + 5 < fuel → fs.enc.length + 5 < 2147483648 →
      LookupAs (recursiveLookup fuel (encDoc fs) path) path (BVal.follow canonicalIndex path (.doc fs))) ∧
    (∀ (fs : Fields) (wf : fs.WF) (hd : Bytes) (end_ : Nat) (k : Bytes) (ks : List Bytes),
      fs.enc.length < fuel → hd.length + fs.enc.length + 1 = end_ → end_ < 2147483648 →
      ∃ o, lookupLoop fuel (hd ++ (fs.enc ++ [0])) hd.length end_ k ks = o ∧
        LookupAs (o >>= fun o => match o with | none => .err .elementNotFound | some v => .ok v) (k :: ks)
          (BVal.follow canonicalIndex (k :: ks) (.doc fs))) := by
  induction fuel with
  | zero => exact ⟨fun _ _ _ _ h => by omega, fun _ _ _ _ _ _ h => by omega⟩
  | succ fuel ih =>
    have loop : ∀ (fs : Fields) (wf : fs.WF) (hd : Bytes) (end_ : Nat) (k : Bytes) (ks : List Bytes),
      fs.enc.length < fuel + 1 → hd.length + fs.enc.length + 1 = end_ → end_ < 2147483648 →
      ∃ o, lookupLoop (fuel + 1) (hd ++ (fs.enc ++ [0])) hd.length end_ k ks = o ∧
        LookupAs (o >>= fun o => match o with | none => .err .elementNotFound | some v => .ok v) (k :: ks)
          (BVal.follow canonicalIndex (k :: ks) (.doc fs)) := by
      intro fs wf hd end_ k ks hf h1 h3
      refine ⟨_, rfl, ?_⟩
      unfold lookupLoop
      cases fs with
      | nil =>
        simp only [Fields.enc, List.nil_append, List.length_nil, List.length_append, List.length_cons] at *
        rw [if_neg (by omega), idx_append]
        simp only [Res.bind_ok]
        rw [if_pos trivial]
        exact Or.inl rfl
      | cons k' t rest =>
        obtain ⟨hk, ht, hr⟩ := wf
        have er : hd ++ ((Fields.cons k' t rest).enc ++ [0]) = hd ++ t.tag :: (k' ++ 0 :: (t.enc ++ (rest.enc ++ [0]))) := by
          simp [Fields.enc]
        have el : (Fields.cons k' t rest).enc.length = k'.length + t.enc.length + rest.enc.length + 2 := by
          simp [Fields.enc]; omega
        rw [el] at hf h1
        rw [er]
        obtain ⟨s1, s2, s3⟩ := field_step hk ht hd (rest.enc ++ [0]) end_ (by omega) (by simp; omega) (by simp; omega)
        have rp := raw_rep hk ht hd (rest.enc ++ [0]) (by simp; omega)
        rw [if_neg (by omega), s1]
        simp only [Res.bind_ok]
        rw [if_neg (tag_ne_zero t), u32_small (n := hd.length + 1) (by omega), s2]
        simp only [Res.bind_ok]
        rw [u32_small (n := hd.length + 1 + (k'.length + 1)) (by omega),
          show hd.length + 1 + (k'.length + 1) = hd.length + k'.length + 2 by omega, s3]
        simp only [Res.bind_ok]
        rw [u32_small (by omega), key_rep rp]
        simp only [Res.bind_ok]
        rw [follow_doc]
        simp only [Fields.firstNamed]
        by_cases hkk : k = k'
        · subst hkk
          rw [if_pos rfl, if_pos rfl]
          cases ks with
          | nil => exact ⟨_, k, rfl, rfl, rp⟩
          | cons k2 ks =>
            simp only [Option.bind_some]
            rw [type_rep rp]
            simp only [Res.bind_ok]
            have lift : ∀ {r : Res Value} {o : Option BVal}, LookupAs r (k2 :: ks) o →
                LookupAs ((r >>= fun v => Res.ok (some v)) >>= fun o => match o with | none => .err .elementNotFound | some v => .ok v)
                  (k :: k2 :: ks) o := by
              intro r o h
              cases o with
              | none => rcases h with rfl | rfl
                        · exact Or.inl rfl
                        · exact Or.inr rfl
              | some t =>
                obtain ⟨v, k0, h1, rfl, h3⟩ := h
                exact ⟨v, k0, by simpa using h1, rfl, h3⟩
            cases t with
            | doc fs' =>
              rw [if_pos (show (BVal.doc fs').tag = 3 from rfl)]
              simp only [BVal.enc, wrapDoc_length] at hf h1
              have hrd : readerDocument fuel (Value.raw hd.length (hd.length + k.length + 2)
                  (hd ++ (BVal.doc fs').tag :: (k ++ 0 :: ((BVal.doc fs').enc ++ (rest.enc ++ [0]))))) = .ok (encDoc fs') :=
                readerDocument_rep rp (by simp [encDoc]; omega) (by simp [encDoc]; omega)
              rw [hrd]
              simp only [Res.bind_ok]
              exact lift (ih.1 fs' ht (k2 :: ks) (by simp) (by omega) (by omega))
            | array vs =>
              rw [if_neg (show ¬ (BVal.array vs).tag = 3 by simp [BVal.tag]), if_pos (show (BVal.array vs).tag = 4 from rfl)]
              simp only [BVal.enc, wrapDoc_length] at hf h1
              rw [readerArray_raw rp]
              simp only [Res.bind_ok]
              have he : (BVal.array vs).enc = encDoc (toFields 0 vs) := by rw [encDoc, toFields_enc]; rfl
              have hle : (toFields 0 vs).enc.length = (vs.encFrom 0).length := by rw [toFields_enc]
              rw [he, follow_toFields]
              exact lift (ih.1 (toFields 0 vs) (toFields_wf 0 vs ht) (k2 :: ks) (by simp) (by omega) (by omega))
            | _ =>
              rw [if_neg (by simp [BVal.tag]), if_neg (by simp [BVal.tag]), follow_leaf _ _ _ _ (by intro _ h; cases h) (by intro _ h; cases h)]
              exact Or.inr rfl
        · rw [if_neg hkk, if_neg (fun h => hkk h.symm)]
          obtain ⟨o, ho, hr2⟩ := ih.2 rest hr (hd ++ t.tag :: (k' ++ 0 :: t.enc)) end_ k ks (by omega)
            (by simp; omega) h3
          simp only [List.append_assoc, List.cons_append, List.length_append, List.length_cons] at ho
          rw [show hd.length + k'.length + 2 + t.enc.length = hd.length + (k'.length + (t.enc.length + 1) + 1) by omega, ho]
          exact hr2
    refine ⟨?_, loop⟩
    intro fs wf path hp hf hl
    cases path with
    | nil => exact absurd rfl hp
    | cons k ks =>
      unfold recursiveLookup
      have e2 := readerEnd_wrapDoc fs.enc [] (by omega)
      rw [List.append_nil] at e2
      simp only [encDoc]
      rw [e2]
      simp only [Res.bind_ok]
      obtain ⟨o, ho, hr⟩ := loop fs wf (le32 (fs.enc.length + 5)) (fs.enc.length + 5) k ks (by omega) (by simp; omega) hl
      have e : wrapDoc fs.enc = le32 (fs.enc.length + 5) ++ (fs.enc ++ [0]) := by simp [wrapDoc]
      rw [e, show (4 : Nat) = (le32 (fs.enc.length + 5)).length from rfl, ho]
      revert hr
      exact id

theorem lookup_mono (n : Nat) : ∀ (m : Nat), n ≤ m →
    (∀ (r : Bytes) (path : List Bytes), recursiveLookup n r path ≠ .oof → recursiveLookup m r path = recursiveLookup n r path) ∧
    (∀ (r : Bytes) (pos end_ : Nat) (k : Bytes) (ks : List Bytes), lookupLoop n r pos end_ k ks ≠ .oof →
      lookupLoop m r pos end_ k ks = lookupLoop n r pos end_ k ks) := by
  have lift : ∀ {n m : Nat}, (∀ (r : Bytes) (pos end_ : Nat) (k : Bytes) (ks : List Bytes), lookupLoop n r pos end_ k ks ≠ .oof →
      lookupLoop m r pos end_ k ks = lookupLoop n r pos end_ k ks) →
      ∀ (r : Bytes) (path : List Bytes), recursiveLookup n r path ≠ .oof → recursiveLookup m r path = recursiveLookup n r path := by
    intro n m hl r path h0
    unfold recursiveLookup at *
    cases path with
    | nil => rfl
    | cons k ks =>
      simp only [] at h0 ⊢
      exact bind_mono (fun _ => rfl) (fun e _ h1 => bind_mono (fun h2 => hl _ _ _ _ _ h2) (fun _ _ _ => rfl) h1) h0
  induction n with
  | zero =>
    intro m hm
    have : ∀ (r : Bytes) (pos end_ : Nat) (k : Bytes) (ks : List Bytes), lookupLoop 0 r pos end_ k ks ≠ .oof →
      lookupLoop m r pos end_ k ks = lookupLoop 0 r pos end_ k ks := by
      intro r pos end_ k ks h
      unfold lookupLoop at h
      exact absurd rfl h
    exact ⟨lift this, this⟩
  | succ n ih =>
    intro m hm
    obtain ⟨m, rfl⟩ : ∃ m', m = m' + 1 := ⟨m - 1, by omega⟩
    obtain ⟨ih1, ih2⟩ := ih m (by omega)
    have : ∀ (r : Bytes) (pos end_ : Nat) (k : Bytes) (ks : List Bytes), lookupLoop (n + 1) r pos end_ k ks ≠ .oof →
      lookupLoop (m + 1) r pos end_ k ks = lookupLoop (n + 1) r pos end_ k ks := by
      intro r pos end_ k ks h
      unfold lookupLoop at h ⊢
      by_cases h1 : pos ≥ end_
      · rw [if_pos h1, if_pos h1]
      · rw [if_neg h1] at h ⊢
        rw [if_neg h1]
        refine bind_mono (fun _ => rfl) (fun t _ h => ?_) h
        by_cases h2 : t = 0
        · rw [if_pos h2, if_pos h2]
        · rw [if_neg h2] at h ⊢
          rw [if_neg h2]
          refine bind_mono (fun _ => rfl) (fun len _ h => ?_) h
          refine bind_mono (fun _ => rfl) (fun sz _ h => ?_) h
          refine bind_mono (fun _ => rfl) (fun k' _ h => ?_) h
          by_cases h3 : k = k'
          · rw [if_pos h3] at h ⊢
            rw [if_pos h3]
            cases ks with
            | nil => rfl
            | cons k2 ks =>
              simp only [] at h ⊢
              refine bind_mono (fun _ => rfl) (fun t _ h => ?_) h
              by_cases h4 : t = 3
              · rw [if_pos h4] at h ⊢
                rw [if_pos h4]
                exact bind_mono (fun _ => rfl) (fun sub _ h => bind_mono (fun h6 => ih1 _ _ h6) (fun _ _ _ => rfl) h) h
              · rw [if_neg h4] at h ⊢
                rw [if_neg h4]
                by_cases h5 : t = 4
                · rw [if_pos h5] at h ⊢
                  rw [if_pos h5]
                  exact bind_mono (fun _ => rfl) (fun sub _ h => bind_mono (fun h6 => ih1 _ _ h6) (fun _ _ _ => rfl) h) h
                · rw [if_neg h5, if_neg h5]
          · rw [if_neg h3] at h ⊢
            rw [if_neg h3]
            exact ih2 _ _ _ _ _ h
    exact ⟨lift this, this⟩

theorem canonical_index {k : Bytes} {n : Nat} (h : canonicalIndex k = some n) : index k = some n := by
  have hd : digits k = some n := by
    rw [canonical_iff] at h; rw [← h]; exact digits_decimalKey n
  cases k with
  | nil => simp [digits] at hd
  | cons c r =>
    have hc : digit c ≠ none := by
      intro hc
      rw [digits, if_neg (by simp), List.foldl_cons, show addDigit (some 0) c = none by simp [addDigit, hc], foldl_none] at hd
      cases hd
    unfold index
    simp only []
    rw [if_neg (by rintro rfl; exact hc rfl), if_neg (by rintro rfl; exact hc rfl), hd]

theorem follow_canonical : ∀ {path : List Bytes} {t t' : BVal}, BVal.follow canonicalIndex path t = some t' → BVal.follow index path t = some t'
  | [], _, _, h => h
  | k :: ks, t, t', h => by
    simp only [BVal.follow] at h ⊢
    cases hp : t.part canonicalIndex k with
    | none => rw [hp] at h; cases h
    | some u =>
      rw [hp] at h
      have : t.part index k = some u := by
        cases t <;> try exact hp
        rename_i vs
        simp only [BVal.part] at hp ⊢
        cases hc : canonicalIndex k with
        | none => rw [hc] at hp; cases hp
        | some n => rw [canonical_index hc]; rw [hc] at hp; exact hp
      rw [this]
      exact follow_canonical h

end Birch.Proofs
