import Verif.Proofs.WireParse

/-
Lemmas about parsing truncated wire messages.
-/

namespace Birch.Proofs.Wire
open Birch Spec Spec.Wire Model Model.Wire Proofs

def IsErr {α : Type} (r : Res α) : Prop := ∃ e, r = .err e

theorem IsErr.bind {α β : Type} {r : Res α} (h : IsErr r) (f : α → Res β) : IsErr (r >>= f) := by
  obtain ⟨e, rfl⟩ := h
  exact ⟨e, rfl⟩

theorem cut {t r a b : Bytes} (h : t ++ r = a ++ b) : (∃ r', r' ≠ [] ∧ a = t ++ r') ∨ ∃ t', t = a ++ t' ∧ t' ++ r = b := by
  rcases List.append_eq_append_iff.mp h with ⟨s, h1, h2⟩ | ⟨s, h1, h2⟩
  · cases s with
    | nil => exact .inr ⟨[], by simpa using h1.symm, by simpa using h2⟩
    | cons c s => exact .inl ⟨c :: s, by simp, h1⟩
  · exact .inr ⟨s, h1, h2.symm⟩

theorem cut_lt {t r a : Bytes} (hr : r ≠ []) (h : a = t ++ r) : t.length < a.length := by
  have : r.length ≠ 0 := by simpa using hr
  rw [h, List.length_append]; omega

theorem rdU32_take (t r : Bytes) (h : 4 ≤ t.length) : rdU32 (t ++ r) = rdU32 t := by
  match t, h with
  | a :: b :: c :: d :: t, _ => rfl

theorem readi32_take (t r : Bytes) (h : 4 ≤ t.length) : readi32 (t ++ r) = readi32 t := by
  unfold readi32; rw [rdU32_take _ _ h]

theorem readCString_cut {s t r : Bytes} (hs : NulFree s) (hr : r ≠ []) (h : cstring s = t ++ r) : IsErr (readCString t) := by
  have ht : NulFree t := by
    have e : t = s.take t.length := by
      have hl := cut_lt hr h
      rw [cstring_length] at hl
      have := congrArg (List.take t.length) h
      rw [List.take_left, cstring, List.take_append, show t.length - s.length = 0 by omega, List.take_zero, List.append_nil] at this
      exact this.symm
    intro c hc
    rw [e] at hc
    exact hs c (List.mem_of_mem_take hc)
  clear h
  induction t with
  | nil => exact ⟨_, rfl⟩
  | cons c t ih =>
    unfold readCString
    rw [if_neg (ht c (by simp))]
    exact (ih (fun x hx => ht x (by simp [hx]))).bind _

theorem readDocument_cut {fs : Fields} {t r : Bytes} (fuel : Nat) (hl : (encDoc fs).length < 2147483648) (hr : r ≠ []) (h : encDoc fs = t ++ r) :
    IsErr (readDocument fuel t) := by
  unfold readDocument iterEnd
  by_cases h5 : t.length < 5
  · rw [if_pos h5]; exact ⟨_, rfl⟩
  · rw [if_neg h5]
    have e := readi32_encDoc fs [] hl
    rw [List.append_nil, h, readi32_take _ _ (by omega), ← h] at e
    rw [e]
    simp only [Res.bind_ok]
    have := cut_lt hr h
    rw [if_pos (by omega)]
    exact ⟨_, rfl⟩

theorem readerValidate_cut {fs : Fields} {t r : Bytes} (fuel : Nat) (hl : (encDoc fs).length < 2147483648) (hr : r ≠ []) (h : encDoc fs = t ++ r) :
    IsErr (readerValidate fuel t) := by
  unfold readerValidate readerEnd
  by_cases h5 : t.length < 5
  · rw [if_pos h5]; exact ⟨_, rfl⟩
  · rw [if_neg h5]
    have e := readi32_encDoc fs [] hl
    rw [List.append_nil, h, readi32_take _ _ (by omega), ← h] at e
    rw [e]
    simp only [Res.bind_ok]
    have := cut_lt hr h
    rw [if_pos (by omega)]
    exact ⟨_, rfl⟩

theorem docs_pos {fss : List Fields} {t r : Bytes} (hr : r ≠ []) (h : t ++ r = docs fss) : fss ≠ [] := by
  rintro rfl
  simp [docs, hr] at h

section lists
variable (loop : Nat → Bytes → Res (List Doc))

theorem loop_cut (h0 : ∀ fuel t, t ≠ [] → IsErr (readDocument (fuel + 1) t) → IsErr (loop (fuel + 1) t))
    (h1 : ∀ fuel f t d, readDocument (fuel + 1) (encDoc f ++ t) = .ok d → RepFields d f → (encDoc f).length < 2147483648 → (encDoc f).length < fuel + 1 →
      IsErr (loop fuel t) → IsErr (loop (fuel + 1) (encDoc f ++ t))) :
    ∀ (fss : List Fields) (fuel : Nat) (t r : Bytes), (∀ d ∈ fss, d.WF) → (docs fss).length < 2147483648 → (docs fss).length < fuel → r ≠ [] →
      t ++ r = docs fss → IsErr (loop fuel t) ∨ ∃ n, n < fss.length ∧ t = docs (fss.take n)
  | [], fuel, t, r, wf, hl, hf, hr, h => absurd rfl (docs_pos hr h)
  | f :: fss, fuel, t, r, wf, hl, hf, hr, h => by
    obtain ⟨fuel, rfl⟩ : ∃ k, fuel = k + 1 := ⟨fuel - 1, by omega⟩
    have hp := encDoc_pos f
    rw [docs_cons] at h hl hf
    rw [List.length_append] at hl hf
    rcases cut h with ⟨r', hr', e⟩ | ⟨t', rfl, e⟩
    · by_cases ht : t = []
      · exact .inr ⟨0, by simp, by rw [ht]; rfl⟩
      · exact .inl (h0 _ _ ht (readDocument_cut _ (by omega) hr' e))
    · rcases loop_cut h0 h1 fss fuel t' r (fun d hd => wf d (by simp [hd])) (by omega) (by omega) hr e with h' | ⟨n, hn, h'⟩
      · left
        have hl' : (encDoc f ++ t').length < 2147483648 := by
          have := congrArg List.length e
          rw [List.length_append] at this
          rw [List.length_append]; omega
        obtain ⟨d, h2, h3⟩ := readDocument_enc (fuel + 1) f (wf f (by simp)) t' (by omega) hl'
        exact h1 _ _ _ _ h2 h3 (by omega) (by omega) h'
      · right
        exact ⟨n + 1, by simpa using hn, by rw [List.take_succ_cons, docs_cons, h']⟩

end lists

theorem readDocs_cut {fss : List Fields} {fuel : Nat} {t r : Bytes} (wf : ∀ d ∈ fss, d.WF) (hl : (docs fss).length < 2147483648)
    (hf : (docs fss).length < fuel) (hr : r ≠ []) (h : t ++ r = docs fss) : IsErr (readDocs fuel t) ∨ ∃ n, n < fss.length ∧ t = docs (fss.take n) := by
  refine loop_cut readDocs (fun fuel t ht he => ?_) (fun fuel f t d h1 h2 h3 h4 he => ?_) fss fuel t r wf hl hf hr h
  · unfold readDocs
    rw [if_neg ht]
    exact he.bind _
  · unfold readDocs
    rw [if_neg (app_ne_nil _ _), h1]
    simp only [Res.bind_ok]
    rw [getDocSize_rep h2 h3 h4]
    simp only [Res.bind_ok]
    rw [List.drop_left]
    exact he.bind _

theorem readOutputs_cut {fss : List Fields} {fuel : Nat} {t r : Bytes} (wf : ∀ d ∈ fss, d.WF) (hl : (docs fss).length < 2147483648)
    (hf : (docs fss).length < fuel) (hr : r ≠ []) (h : t ++ r = docs fss) : IsErr (readOutputs fuel t) ∨ ∃ n, n < fss.length ∧ t = docs (fss.take n) := by
  refine loop_cut readOutputs (fun fuel t ht he => ?_) (fun fuel f t d h1 h2 h3 h4 he => ?_) fss fuel t r wf hl hf hr h
  · unfold readOutputs
    rw [if_neg ht]
    exact he.bind _
  · unfold readOutputs
    rw [if_neg (app_ne_nil _ _), h1]
    simp only [Res.bind_ok]
    rw [getDocSize_rep h2 h3 h4]
    simp only [Res.bind_ok]
    rw [sliceFrom_left]
    simp only [Res.bind_ok]
    exact he.bind _

theorem readInputs_cut {fss : List Fields} {fuel : Nat} {t r : Bytes} (wf : ∀ d ∈ fss, d.WF) (hl : (docs fss).length < 2147483648)
    (hf : (docs fss).length < fuel) (hr : r ≠ []) (h : t ++ r = docs fss) : IsErr (readInputs fuel t) ∨ ∃ n, n < fss.length ∧ t = docs (fss.take n) := by
  refine loop_cut readInputs (fun fuel t ht he => ?_) (fun fuel f t d h1 h2 h3 h4 he => ?_) fss fuel t r wf hl hf hr h
  · unfold readInputs
    rw [if_neg ht]
    exact he.bind _
  · unfold readInputs
    rw [if_neg (app_ne_nil _ _), h1]
    simp only [Res.bind_ok]
    rw [docValidate_rep h2 h3 h4]
    simp only [Res.bind_ok]
    rw [sliceFrom_left]
    simp only [Res.bind_ok]
    exact he.bind _

/-- what a truncated message is read as -/
theorem parse_cut {fuel kind : Nat} {h : Header} {w : WMsg} {t r : Bytes} (hc : h.opCode = w.code) (wf : w.WF) (hm : ¬ w.IsMsg)
    (hl : (w.body kind).length < 2147483640) (hf : (w.body kind).length < fuel) (hr : r ≠ []) (ht : t ++ r = w.body kind) :
    IsErr (parse fuel h t) ∨ ∃ w', Cut w w' ∧ t = w'.body kind := by
  have err : ∀ {α : Type} {e : Err}, IsErr (Res.err e : Res α) := fun {α e} => ⟨e, rfl⟩
  have zero : I32 0 := by unfold I32; omega
  cases w with
  | msg f ss c => exact absurd trivial hm
  | getMore ns n c =>
    left
    rw [parse_GetMore hc]
    obtain ⟨w1, w2, w3⟩ := wf
    have hl := congrArg List.length ht
    simp only [WMsg.body, List.append_assoc, List.length_append, int32_length, int64_length, cstring_length] at hl ht
    unfold parseGetMore
    split
    · exact err
    rcases cut ht with ⟨r', hr', e⟩ | ⟨t, rfl, ht'⟩
    · have := cut_lt hr' e
      simp at this; omega
    clear ht; have ht := ht'; clear ht'
    rw [readi32_int32 zero]
    simp only [Res.bind_ok]
    rw [dropA (n := 4) 0 rfl, List.drop_zero]
    rcases cut ht with ⟨r', hr', e⟩ | ⟨t, rfl, ht'⟩
    · exact (readCString_cut w1 hr' e).bind _
    clear ht; have ht := ht'; clear ht'
    rw [readCString_cstring w1]
    simp only [Res.bind_ok]
    rw [if_pos]
    · exact err
    · have : r.length ≠ 0 := by simpa using hr
      simp only [List.length_append, int32_length, cstring_length] at hl ⊢
      omega
  | killCursors ids =>
    left
    rw [parse_KillCursors hc]
    simp only [WMsg.WF] at wf
    simp only [WMsg.body, List.append_assoc, List.length_append, int32_length, flatMap_int64_length] at hl
    have hl' := congrArg List.length ht
    have hr' : r.length ≠ 0 := by simpa using hr
    simp only [WMsg.body, List.append_assoc, List.length_append, int32_length, flatMap_int64_length] at hl' ht
    unfold parseKillCursors
    split
    · exact err
    rcases cut ht with ⟨r', hr', e⟩ | ⟨t, rfl, ht'⟩
    · have := cut_lt hr' e
      simp at this; omega
    clear ht; have ht := ht'; clear ht'
    rw [readi32_int32 zero]
    simp only [Res.bind_ok]
    rcases cut ht with ⟨r', hr', e⟩ | ⟨t, rfl, ht'⟩
    · have := cut_lt hr' e
      next h => simp at this h; omega
    clear ht; have ht := ht'; clear ht'
    rw [dropA (n := 4) 0 rfl, List.drop_zero, readi32_int32 (by unfold I32; omega)]
    simp only [Res.bind_ok]
    rw [if_pos]
    · exact err
    · rw [dropA (n := 8) 4 rfl, dropA (n := 4) 0 rfl, List.drop_zero]
      simp only [List.length_append, int32_length] at hl'
      omega
  | update ns f x y =>
    left
    rw [parse_Update hc]
    obtain ⟨w1, w2, w3, w4⟩ := wf
    have hl' := congrArg List.length ht
    have hr' : r.length ≠ 0 := by simpa using hr
    simp only [WMsg.body, List.append_assoc, List.length_append, int32_length, cstring_length] at hl hf hl' ht
    unfold parseUpdate
    split
    · exact err
    rcases cut ht with ⟨r', hr', e⟩ | ⟨t, rfl, ht'⟩
    · have := cut_lt hr' e
      simp at this; omega
    clear ht; have ht := ht'; clear ht'
    rw [readi32_int32 zero]
    simp only [Res.bind_ok]
    rw [dropA (n := 4) 0 rfl, List.drop_zero]
    rcases cut ht with ⟨r', hr', e⟩ | ⟨t, rfl, ht'⟩
    · exact (readCString_cut w1 hr' e).bind _
    clear ht; have ht := ht'; clear ht'
    rw [readCString_cstring w1]
    simp only [Res.bind_ok]
    split
    · exact err
    rcases cut ht with ⟨r', hr', e⟩ | ⟨t, rfl, ht'⟩
    · have := cut_lt hr' e
      next h => simp at this h; omega
    clear ht; have ht := ht'; clear ht'
    simp only [List.length_append, int32_length, cstring_length] at hl'
    rw [dropA (n := 4 + (ns.length + 1)) (ns.length + 1) rfl, dropA (a := cstring ns) 0 (by simp), List.drop_zero, readi32_int32 w2]
    simp only [Res.bind_ok]
    rw [dropA (n := 4 + (ns.length + 1) + 4) (ns.length + 1 + 4) (by simp; omega), dropA (a := cstring ns) 4 (by simp), dropA (n := 4) 0 rfl, List.drop_zero]
    rcases cut ht with ⟨r', hr', e⟩ | ⟨t, rfl, ht'⟩
    · exact (readDocument_cut _ (by omega) hr' e).bind _
    clear ht; have ht := ht'; clear ht'
    simp only [List.length_append] at hl'
    obtain ⟨a, h1, h2⟩ := readDocument_enc fuel x w3 t (by omega) (by simp only [List.length_append]; omega)
    rw [h1]
    simp only [Res.bind_ok]
    rw [getDocSize_rep h2 (by omega) (by omega)]
    simp only [Res.bind_ok]
    split
    · exact err
    rw [dropA (n := 4 + (ns.length + 1) + 4 + (encDoc x).length) (ns.length + 1 + 4 + (encDoc x).length) (by simp; omega),
      dropA (a := cstring ns) (4 + (encDoc x).length) (by simp; omega), dropA (n := 4 + (encDoc x).length) (encDoc x).length (by simp),
      dropA (a := encDoc x) 0 (by simp), List.drop_zero]
    exact (readDocument_cut _ (by omega) hr ht.symm).bind _
  | delete ns f x =>
    left
    rw [parse_Delete hc]
    obtain ⟨w1, w2, w3⟩ := wf
    have hl' := congrArg List.length ht
    simp only [WMsg.body, List.append_assoc, List.length_append, int32_length, cstring_length] at hl hf hl' ht
    unfold parseDelete
    split
    · exact err
    rcases cut ht with ⟨r', hr', e⟩ | ⟨t, rfl, ht'⟩
    · have := cut_lt hr' e
      simp at this; omega
    clear ht; have ht := ht'; clear ht'
    rw [readi32_int32 zero]
    simp only [Res.bind_ok]
    rw [dropA (n := 4) 0 rfl, List.drop_zero]
    rcases cut ht with ⟨r', hr', e⟩ | ⟨t, rfl, ht'⟩
    · exact (readCString_cut w1 hr' e).bind _
    clear ht; have ht := ht'; clear ht'
    rw [readCString_cstring w1]
    simp only [Res.bind_ok]
    split
    · exact err
    rcases cut ht with ⟨r', hr', e⟩ | ⟨t, rfl, ht'⟩
    · have := cut_lt hr' e
      next h => simp at this h; omega
    clear ht; have ht := ht'; clear ht'
    rw [dropA (n := 4 + (ns.length + 1)) (ns.length + 1) rfl, dropA (a := cstring ns) 0 (by simp), List.drop_zero, readi32_int32 w2]
    simp only [Res.bind_ok]
    rw [dropA (n := 4 + (ns.length + 1) + 4) (ns.length + 1 + 4) (by simp; omega), dropA (a := cstring ns) 4 (by simp), dropA (n := 4) 0 rfl, List.drop_zero]
    exact (readDocument_cut _ (by omega) hr ht.symm).bind _
  | insert f ns fss =>
    rw [parse_Insert hc]
    obtain ⟨w1, w2, w3⟩ := wf
    have hl' := congrArg List.length ht
    simp only [WMsg.body, List.append_assoc, List.length_append, int32_length, cstring_length] at hl hf hl' ht
    unfold parseInsert
    split
    · exact .inl err
    rcases cut ht with ⟨r', hr', e⟩ | ⟨t, rfl, ht'⟩
    · have := cut_lt hr' e
      simp at this; omega
    clear ht; have ht := ht'; clear ht'
    rw [readi32_int32 w1]
    simp only [Res.bind_ok]
    rw [dropA (n := 4) 0 rfl, List.drop_zero]
    rcases cut ht with ⟨r', hr', e⟩ | ⟨t, rfl, ht'⟩
    · exact .inl ((readCString_cut w2 hr' e).bind _)
    clear ht; have ht := ht'; clear ht'
    rw [readCString_cstring w2]
    simp only [Res.bind_ok]
    rw [dropA (n := 4 + (ns.length + 1)) (ns.length + 1) rfl, dropA (a := cstring ns) 0 (by simp), List.drop_zero]
    rcases readDocs_cut (fuel := fuel) w3 (by omega) (by omega) hr ht with h' | ⟨n, hn, rfl⟩
    · exact .inl (h'.bind _)
    · exact .inr ⟨_, .insert hn, by simp [WMsg.body]⟩
  | reply f c s n fss =>
    rw [parse_Reply hc]
    obtain ⟨w1, w2, w3, w4, w5⟩ := wf
    have hl' := congrArg List.length ht
    simp only [WMsg.body, List.append_assoc, List.length_append, int32_length, int64_length] at hl hf hl' ht
    unfold parseReply
    split
    · exact .inl err
    rcases cut ht with ⟨r', hr', e⟩ | ⟨t, rfl, ht'⟩
    · have := cut_lt hr' e
      next h => simp at this h; omega
    clear ht; have ht := ht'; clear ht'
    rcases cut ht with ⟨r', hr', e⟩ | ⟨t, rfl, ht'⟩
    · have := cut_lt hr' e
      next h => simp at this h; omega
    clear ht; have ht := ht'; clear ht'
    rcases cut ht with ⟨r', hr', e⟩ | ⟨t, rfl, ht'⟩
    · have := cut_lt hr' e
      next h => simp at this h; omega
    clear ht; have ht := ht'; clear ht'
    rcases cut ht with ⟨r', hr', e⟩ | ⟨t, rfl, ht'⟩
    · have := cut_lt hr' e
      next h => simp at this h; omega
    clear ht; have ht := ht'; clear ht'
    rw [readi32_int32 w1]
    simp only [Res.bind_ok]
    rw [dropA (n := 4) 0 rfl, List.drop_zero, readInt64_int64 w2]
    simp only [Res.bind_ok]
    rw [dropA (n := 12) 8 rfl, dropA (n := 8) 0 rfl, List.drop_zero, readi32_int32 w3]
    simp only [Res.bind_ok]
    rw [dropA (n := 16) 12 rfl, dropA (n := 12) 4 rfl, dropA (n := 4) 0 rfl, List.drop_zero, readi32_int32 w4]
    simp only [Res.bind_ok]
    rw [dropA (n := 20) 16 rfl, dropA (n := 16) 8 rfl, dropA (n := 8) 4 rfl, dropA (n := 4) 0 rfl, List.drop_zero]
    rcases readDocs_cut (fuel := fuel) w5 (by omega) (by omega) hr ht with h' | ⟨k, hn, rfl⟩
    · exact .inl (h'.bind _)
    · exact .inr ⟨_, .reply hn, by simp [WMsg.body]⟩
  | query f ns s n x y =>
    rw [parse_Query hc]
    obtain ⟨w1, w2, w3, w4, w5, w6⟩ := wf
    have hl' := congrArg List.length ht
    simp only [WMsg.body, List.append_assoc, List.length_append, int32_length, cstring_length] at hl hf hl' ht
    unfold parseQuery
    split
    · exact .inl err
    rcases cut ht with ⟨r', hr', e⟩ | ⟨t, rfl, ht'⟩
    · have := cut_lt hr' e
      simp at this; omega
    clear ht; have ht := ht'; clear ht'
    rw [readi32_int32 w1]
    simp only [Res.bind_ok]
    rw [dropA (n := 4) 0 rfl, List.drop_zero]
    rcases cut ht with ⟨r', hr', e⟩ | ⟨t, rfl, ht'⟩
    · exact .inl ((readCString_cut w2 hr' e).bind _)
    clear ht; have ht := ht'; clear ht'
    rw [readCString_cstring w2]
    simp only [Res.bind_ok]
    split
    · exact .inl err
    rcases cut ht with ⟨r', hr', e⟩ | ⟨t, rfl, ht'⟩
    · have := cut_lt hr' e
      next h => simp at this h; omega
    clear ht; have ht := ht'; clear ht'
    rcases cut ht with ⟨r', hr', e⟩ | ⟨t, rfl, ht'⟩
    · have := cut_lt hr' e
      next h => simp at this h; omega
    clear ht; have ht := ht'; clear ht'
    simp only [List.length_append, int32_length, cstring_length] at hl'
    rw [dropA (n := 4 + (ns.length + 1)) (ns.length + 1) rfl, dropA (a := cstring ns) 0 (by simp), List.drop_zero, readi32_int32 w3]
    simp only [Res.bind_ok]
    rw [dropA (n := 4 + (ns.length + 1) + 4) (ns.length + 1 + 4) (by simp; omega), dropA (a := cstring ns) 4 (by simp), dropA (n := 4) 0 rfl, List.drop_zero,
      readi32_int32 w4]
    simp only [Res.bind_ok]
    rw [dropA (n := 4 + (ns.length + 1) + 8) (ns.length + 1 + 8) (by simp; omega), dropA (a := cstring ns) 8 (by simp), dropA (n := 8) 4 rfl,
      dropA (n := 4) 0 rfl, List.drop_zero]
    rcases cut ht with ⟨r', hr', e⟩ | ⟨t, rfl, ht'⟩
    · exact .inl ((readDocument_cut _ (by omega) hr' e).bind _)
    clear ht; have ht := ht'; clear ht'
    simp only [List.length_append] at hl'
    obtain ⟨a, h1, h2⟩ := readDocument_enc fuel x w5 t (by omega) (by simp only [List.length_append]; omega)
    rw [h1]
    simp only [Res.bind_ok]
    rw [getDocSize_rep h2 (by omega) (by omega)]
    simp only [Res.bind_ok]
    cases y with
    | none => exact absurd rfl (docs_pos hr ht)
    | some y =>
      by_cases hn : t = []
      · exact .inr ⟨_, .query, by simp [WMsg.body, hn, docs]⟩
      · left
        have hy : t ++ r = encDoc y := by rw [ht]; simp [docs]
        have hyl : (docs (some y).toList).length = (encDoc y).length := by simp [docs]
        have : t.length ≠ 0 := by simpa using hn
        unfold readProject
        rw [if_pos (by simp; omega),
          dropA (n := 4 + (ns.length + 1) + 8 + (encDoc x).length) (ns.length + 1 + 8 + (encDoc x).length) (by simp; omega),
          dropA (a := cstring ns) (8 + (encDoc x).length) (by simp; omega), dropA (n := 8 + (encDoc x).length) (4 + (encDoc x).length) (by simp; omega),
          dropA (n := 4 + (encDoc x).length) (encDoc x).length (by simp), dropA (a := encDoc x) 0 (by simp), List.drop_zero]
        exact ((readDocument_cut _ (by omega) hr hy.symm).bind _).bind _
  | command db name x y fss =>
    rw [parse_Command hc]
    obtain ⟨w1, w2, w3, w4, w5⟩ := wf
    have hl' := congrArg List.length ht
    simp only [WMsg.body, List.append_assoc, List.length_append, cstring_length] at hl hf hl' ht
    unfold parseCommand
    rcases cut ht with ⟨r', hr', e⟩ | ⟨t, rfl, ht'⟩
    · exact .inl ((readCString_cut w1 hr' e).bind _)
    clear ht; have ht := ht'; clear ht'
    rw [readCString_cstring w1]
    simp only [Res.bind_ok]
    split
    · exact .inl err
    rw [dropA (a := cstring db) 0 (by simp), List.drop_zero]
    rcases cut ht with ⟨r', hr', e⟩ | ⟨t, rfl, ht'⟩
    · exact .inl ((readCString_cut w2 hr' e).bind _)
    clear ht; have ht := ht'; clear ht'
    rw [readCString_cstring w2]
    simp only [Res.bind_ok]
    split
    · exact .inl err
    rw [dropA (a := cstring name) 0 (by simp), List.drop_zero]
    rcases cut ht with ⟨r', hr', e⟩ | ⟨t, rfl, ht'⟩
    · exact .inl ((readDocument_cut _ (by omega) hr' e).bind _)
    clear ht; have ht := ht'; clear ht'
    simp only [List.length_append, cstring_length] at hl'
    obtain ⟨a, h1, h2⟩ := readDocument_enc fuel x w3 t (by omega) (by simp only [List.length_append]; omega)
    rw [h1]
    simp only [Res.bind_ok]
    rw [docValidate_rep h2 (by omega) (by omega)]
    simp only [Res.bind_ok]
    split
    · exact .inl err
    rw [dropA (a := encDoc x) 0 (by simp), List.drop_zero]
    rcases cut ht with ⟨r', hr', e⟩ | ⟨t, rfl, ht'⟩
    · exact .inl ((readDocument_cut _ (by omega) hr' e).bind _)
    clear ht; have ht := ht'; clear ht'
    simp only [List.length_append] at hl'
    obtain ⟨b, h3, h4⟩ := readDocument_enc fuel y w4 t (by omega) (by simp only [List.length_append]; omega)
    rw [h3]
    simp only [Res.bind_ok]
    rw [docValidate_rep h4 (by omega) (by omega)]
    simp only [Res.bind_ok]
    split
    · exact .inl err
    rw [dropA (a := encDoc y) 0 (by simp), List.drop_zero]
    rcases readInputs_cut (fuel := fuel) w5 (by omega) (by omega) hr ht with h' | ⟨n, hn, rfl⟩
    · exact .inl (h'.bind _)
    · exact .inr ⟨_, .command hn, by simp [WMsg.body]⟩
  | commandReply x y fss =>
    rw [parse_CommandReply hc]
    obtain ⟨w3, w4, w5⟩ := wf
    have hl' := congrArg List.length ht
    simp only [WMsg.body, List.append_assoc, List.length_append] at hl hf hl' ht
    unfold parseCommandReply
    rcases cut ht with ⟨r', hr', e⟩ | ⟨t, rfl, ht'⟩
    · exact .inl ((readDocument_cut _ (by omega) hr' e).bind _)
    clear ht; have ht := ht'; clear ht'
    simp only [List.length_append] at hl'
    obtain ⟨a, h1, h2⟩ := readDocument_enc fuel x w3 t (by omega) (by simp only [List.length_append]; omega)
    rw [h1]
    simp only [Res.bind_ok]
    rw [getDocSize_rep h2 (by omega) (by omega)]
    simp only [Res.bind_ok]
    split
    · exact .inl err
    rw [dropA (a := encDoc x) 0 (by simp), List.drop_zero]
    rcases cut ht with ⟨r', hr', e⟩ | ⟨t, rfl, ht'⟩
    · exact .inl ((readDocument_cut _ (by omega) hr' e).bind _)
    clear ht; have ht := ht'; clear ht'
    simp only [List.length_append] at hl'
    obtain ⟨b, h3, h4⟩ := readDocument_enc fuel y w4 t (by omega) (by simp only [List.length_append]; omega)
    rw [h3]
    simp only [Res.bind_ok]
    rw [getDocSize_rep h4 (by omega) (by omega)]
    simp only [Res.bind_ok]
    split
    · exact .inl err
    rw [dropA (a := encDoc y) 0 (by simp), List.drop_zero]
    rcases readOutputs_cut (fuel := fuel) w5 (by omega) (by omega) hr ht with h' | ⟨n, hn, rfl⟩
    · exact .inl (h'.bind _)
    · exact .inr ⟨_, .commandReply hn, by simp [WMsg.body]⟩

/-! ### OP_MSG -/

theorem rdU32_short {t : Bytes} (h : t.length < 4) : rdU32 t = .panic := by
  match t, h with
  | [], _ => rfl
  | [_], _ => rfl
  | [_, _], _ => rfl
  | [_, _, _], _ => rfl
  | _ :: _ :: _ :: _ :: _, h => simp at h; omega

theorem readi32_short {t : Bytes} (h : t.length < 4) : readi32 t = .panic := by
  unfold readi32; rw [rdU32_short h]; rfl

theorem sliceI_past {t : Bytes} {n : Nat} (h : t.length < n) : sliceI t 0 (n : Int) = .panic := by
  unfold sliceI slice
  rw [if_pos (by omega), if_neg (by rw [Int.toNat_natCast]; omega)]

theorem readPayloadDocs_cut : ∀ (fss : List Fields) (fuel : Nat) (R : Int) (t r : Bytes), (∀ d ∈ fss, d.WF) → (docs fss).length < 2147483648 →
    t.length < fuel → ((docs fss).length : Int) - 1 ≤ R → r ≠ [] → t ++ r = docs fss → readPayloadDocs fuel R t = .panic
  | [], fuel, R, t, r, _, _, _, _, hr, h => absurd rfl (docs_pos hr h)
  | f :: fss, fuel, R, t, r, wf, hl, hf, hR, hr, h => by
    obtain ⟨fuel, rfl⟩ : ∃ k, fuel = k + 1 := ⟨fuel - 1, by omega⟩
    have hp := encDoc_pos f
    rw [docs_cons] at h hl hR
    rw [List.length_append] at hl hR
    unfold readPayloadDocs
    rw [if_neg (by omega)]
    rcases cut h with ⟨r', hr', e⟩ | ⟨t', rfl, e⟩
    · by_cases h4 : t.length < 4
      · rw [readi32_short h4]; rfl
      · have hi := readi32_encDoc f [] (by omega)
        rw [List.append_nil, e, readi32_take _ _ (by omega), ← e] at hi
        rw [hi]
        simp only [Res.bind_ok]
        rw [sliceI_past (cut_lt hr' e)]
        rfl
    · rw [List.length_append] at hf
      rw [readi32_encDoc f _ (by omega)]
      simp only [Res.bind_ok]
      rw [sliceI_left]
      obtain ⟨d, h1, h2⟩ := readDocument_enc (fuel + 1) f (wf f (by simp)) [] (by omega) (by rw [List.append_nil]; omega)
      rw [List.append_nil] at h1
      simp only [Res.bind_ok]
      rw [h1]
      simp only [Res.bind_ok]
      rw [Int.toNat_natCast, List.drop_left, readPayloadDocs_cut fss fuel _ t' r (fun x hx => wf x (by simp [hx])) (by omega) (by omega) (by omega) hr e]
      rfl

/-- the sections before something else -/
theorem readItems_append {kind : Nat} (hk : kind ≤ 1) (u : Bytes) : ∀ (ss : List WSection) (fuel : Nat), (∀ s ∈ ss, s.WF) →
    (ss.flatMap (WSection.enc kind) ++ u).length < 2147483647 → (ss.flatMap (WSection.enc kind) ++ u).length < fuel →
    ∃ is, RepItems is ss ∧ ∃ k, u.length < k ∧ readItems fuel (ss.flatMap (WSection.enc kind) ++ u) = (readItems k u >>= fun p => .ok (is ++ p.1, p.2))
  | [], fuel, _, _, hf => by
    refine ⟨[], trivial, fuel, by simpa using hf, ?_⟩
    show readItems fuel u = _
    cases readItems fuel u <;> rfl
  | .body f :: ss, fuel, wf, hl, hf => by
    obtain ⟨fuel, rfl⟩ : ∃ k, fuel = k + 1 := ⟨fuel - 1, by omega⟩
    rw [List.flatMap_cons] at *
    have hp := encDoc_pos f
    simp only [List.length_append, WSection.enc, List.length_cons] at hl hf
    obtain ⟨d, h1, h2⟩ := readDocument_enc (fuel + 1) f (wf (.body f) (by simp)) [] (by omega) (by rw [List.append_nil]; omega)
    obtain ⟨is, h3, k, h4, h5⟩ := readItems_append hk u ss fuel (fun x hx => wf x (by simp [hx])) (by rw [List.length_append]; omega)
      (by rw [List.length_append]; omega)
    rw [List.append_nil] at h1
    refine ⟨.body (some d) :: is, ⟨⟨d, rfl, h2⟩, h3⟩, k, h4, ?_⟩
    rw [readItems]
    rw [if_neg (by simp only [List.length_append, WSection.enc, List.length_cons]; omega)]
    simp only [WSection.enc, List.cons_append, idx_cons, Res.bind_ok, List.drop_succ_cons, List.drop_zero, if_true]
    rw [List.append_assoc, readi32_encDoc f _ (by omega)]
    simp only [Res.bind_ok]
    rw [sliceI_left]
    simp only [Res.bind_ok, h1]
    rw [getDocSize_rep h2 (by omega) (by omega)]
    simp only [Res.bind_ok]
    rw [List.drop_left, h5]
    cases readItems k u <;> rfl
  | .sequence id fss :: ss, fuel, wf, hl, hf => by
    obtain ⟨fuel, rfl⟩ : ∃ k, fuel = k + 1 := ⟨fuel - 1, by omega⟩
    rw [List.flatMap_cons] at *
    simp only [List.length_append, WSection.enc, List.length_cons, le32_length, cstring_length] at hl hf
    obtain ⟨wf1, wf2⟩ : NulFree id ∧ ∀ d ∈ fss, d.WF := wf (.sequence id fss) (by simp)
    obtain ⟨is, h3, k, h4, h5⟩ := readItems_append hk u ss fuel (fun x hx => wf x (by simp [hx])) (by rw [List.length_append]; omega)
      (by rw [List.length_append]; omega)
    obtain ⟨ds, h1, h2⟩ := readPayloadDocs_rep (ss.flatMap (WSection.enc kind) ++ u) fss (fuel + 1)
      (((kind + 4 + (id.length + 1) + (docs fss).length : Nat) : Int) - 1 - 4 - id.length - 1) wf2 (by omega) (by omega) (by omega) (by omega)
    refine ⟨.sequence ((kind + 4 + (id.length + 1) + (docs fss).length : Nat) : Int) id ds :: is, ⟨⟨rfl, h2⟩, h3⟩, k, h4, ?_⟩
    rw [readItems]
    rw [if_neg (by simp only [List.length_append, WSection.enc, List.length_cons, le32_length, cstring_length]; omega)]
    simp only [WSection.enc, List.cons_append, idx_cons, Res.bind_ok, List.drop_succ_cons, List.drop_zero]
    rw [if_neg (by decide), if_pos trivial]
    simp only [List.append_assoc]
    rw [readi32_le32_nat (by omega)]
    simp only [Res.bind_ok]
    rw [dropA (n := 4) 0 rfl, List.drop_zero, readCString_cstring wf1]
    simp only [Res.bind_ok]
    rw [dropA (n := 4 + (id.length + 1)) (id.length + 1) rfl, dropA (a := cstring id) 0 (by simp), List.drop_zero, h1]
    simp only [Res.bind_ok]
    rw [h5]
    cases readItems k u <;> rfl

/-- a body that is cut -/
theorem readItems_body_cut {fs : Fields} {u r : Bytes} {fuel kind : Nat} (hl : (encDoc fs).length < 2147483648) (h5 : 5 ≤ u.length) (hr : r ≠ [])
    (h : (WSection.body fs).enc kind = u ++ r) (hf : 0 < fuel) : readItems fuel u = .panic := by
  obtain ⟨fuel, rfl⟩ : ∃ k, fuel = k + 1 := ⟨fuel - 1, by omega⟩
  match u, h5 with
  | c :: v, h5 =>
    simp only [WSection.enc, List.cons_append, List.cons.injEq] at h
    obtain ⟨rfl, h⟩ := h
    simp only [List.length_cons] at h5
    have hi := readi32_encDoc fs [] hl
    rw [List.append_nil, h, readi32_take _ _ (by omega), ← h] at hi
    rw [readItems, if_neg (by simp only [List.length_cons]; omega)]
    simp only [idx_cons, Res.bind_ok, List.drop_succ_cons, List.drop_zero, if_true]
    rw [hi]
    simp only [Res.bind_ok]
    rw [sliceI_past (cut_lt hr h)]
    rfl

/-- a document sequence that is cut -/
theorem readItems_sequence_cut {id : Bytes} {fss : List Fields} {u r : Bytes} {fuel kind : Nat} (w1 : NulFree id) (w2 : ∀ d ∈ fss, d.WF)
    (hk : kind ≤ 1) (hl : ((WSection.sequence id fss).enc kind).length < 2147483647)
    (h5 : 5 ≤ u.length) (hr : r ≠ []) (h : (WSection.sequence id fss).enc kind = u ++ r) (hf : u.length < fuel) :
    (u.length < 6 + id.length → IsErr (readItems fuel u)) ∧ (6 + id.length ≤ u.length → readItems fuel u = .panic) := by
  obtain ⟨fuel, rfl⟩ : ∃ k, fuel = k + 1 := ⟨fuel - 1, by omega⟩
  match u, h5 with
  | c :: v, h5 =>
    simp only [WSection.enc, List.length_append, List.length_cons, le32_length, cstring_length] at hl h5
    simp only [WSection.enc, List.cons_append, List.append_assoc, List.cons.injEq] at h
    obtain ⟨rfl, h⟩ := h
    rcases cut h.symm with ⟨r', hr', e⟩ | ⟨v, rfl, e⟩
    · have := cut_lt hr' e
      simp at this; omega
    rw [readItems, if_neg (by simp only [List.length_cons]; omega)]
    simp only [idx_cons, Res.bind_ok, List.drop_succ_cons, List.drop_zero]
    rw [if_neg (by decide), if_pos trivial, readi32_le32_nat (by omega)]
    simp only [Res.bind_ok]
    rw [dropA (n := 4) 0 rfl, List.drop_zero]
    rcases cut e with ⟨r', hr', e'⟩ | ⟨v, rfl, e'⟩
    · have := cut_lt hr' e'
      rw [cstring_length] at this
      exact ⟨fun _ => (readCString_cut w1 hr' e').bind _, fun h => by simp at h; omega⟩
    · rw [readCString_cstring w1]
      simp only [Res.bind_ok]
      rw [dropA (n := 4 + (id.length + 1)) (id.length + 1) rfl, dropA (a := cstring id) 0 (by simp), List.drop_zero,
        readPayloadDocs_cut fss (fuel + 1) _ v r w2 (by omega) (by simp at hf; omega) (by omega) hr e']
      exact ⟨fun h => by simp at h; omega, fun _ => rfl⟩

end Birch.Proofs.Wire
