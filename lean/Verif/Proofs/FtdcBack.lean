import Verif.Proofs.FtdcCollect

set_option linter.unusedSimpArgs false

/- From the values of the metrics to the restored tree. -/

namespace Birch.Proofs.Ftdc
open Birch Model Model.Ftdc Spec

mutual
def Only : BVal → Prop
  | .doc fs => OnlyF fs
  | .array vs => OnlyV vs
  | .double _ | .bool _ | .datetime _ | .int32 _ | .int64 _ | .timestamp _ _ => True
  | _ => False
def OnlyF : Fields → Prop
  | .nil => True
  | .cons _ v rest => Only v ∧ OnlyF rest
def OnlyV : Vals → Prop
  | .nil => True
  | .cons v rest => Only v ∧ OnlyV rest
end

mutual
theorem only_metric : ∀ t m : BVal, t.metric = some m → Only m
  | .doc fs, m, h => by simp only [BVal.metric, Option.some.injEq] at h; subst h; exact only_metrics fs
  | .array vs, m, h => by simp only [BVal.metric, Option.some.injEq] at h; subst h; exact only_metricsV vs
  | .double _, m, h | .bool _, m, h | .datetime _, m, h | .int32 _, m, h | .int64 _, m, h | .timestamp _ _, m, h => by
    simp only [BVal.metric, Option.some.injEq] at h; subst h; trivial
  | .string _, _, h | .binary _ _, _, h | .undefined, _, h | .oid _, _, h | .null, _, h | .regex _ _, _, h | .dbpointer _ _, _, h
  | .js _, _, h | .symbol _, _, h | .codeScope _ _, _, h | .decimal _ _, _, h | .minKey, _, h | .maxKey, _, h => by cases h
theorem only_metrics : ∀ fs : Fields, OnlyF fs.metrics
  | .nil => trivial
  | .cons k v rest => by
    simp only [Fields.metrics]
    cases h : v.metric with
    | none => exact only_metrics rest
    | some m => exact ⟨only_metric v m h, only_metrics rest⟩
theorem only_metricsV : ∀ vs : Vals, OnlyV vs.metrics
  | .nil => trivial
  | .cons v rest => by
    simp only [Vals.metrics]
    cases h : v.metric with
    | none => exact only_metricsV rest
    | some m => exact ⟨only_metric v m h, only_metricsV rest⟩
end

mutual
theorem wf_metric : ∀ t m : BVal, t.metric = some m → t.WF → m.WF
  | .doc fs, m, h, hw => by simp only [BVal.metric, Option.some.injEq] at h; subst h; exact wf_metrics fs hw
  | .array vs, m, h, hw => by simp only [BVal.metric, Option.some.injEq] at h; subst h; exact wf_metricsV vs hw
  | .double _, m, h, hw | .bool _, m, h, hw | .datetime _, m, h, hw | .int32 _, m, h, hw | .int64 _, m, h, hw | .timestamp _ _, m, h, hw => by
    simp only [BVal.metric, Option.some.injEq] at h; subst h; exact hw
  | .string _, _, h, _ | .binary _ _, _, h, _ | .undefined, _, h, _ | .oid _, _, h, _ | .null, _, h, _ | .regex _ _, _, h, _ | .dbpointer _ _, _, h, _
  | .js _, _, h, _ | .symbol _, _, h, _ | .codeScope _ _, _, h, _ | .decimal _ _, _, h, _ | .minKey, _, h, _ | .maxKey, _, h, _ => by cases h
theorem wf_metrics : ∀ fs : Fields, fs.WF → fs.metrics.WF
  | .nil, h => h
  | .cons k v rest, hw => by
    simp only [Fields.metrics]
    cases h : v.metric with
    | none => exact wf_metrics rest hw.2.2
    | some m => exact ⟨hw.1, wf_metric v m h hw.2.1, wf_metrics rest hw.2.2⟩
theorem wf_metricsV : ∀ vs : Vals, vs.WF → vs.metrics.WF
  | .nil, h => h
  | .cons v rest, hw => by
    simp only [Vals.metrics]
    cases h : v.metric with
    | none => exact wf_metricsV rest hw.2
    | some m => exact ⟨wf_metric v m h hw.1, wf_metricsV rest hw.2⟩
end

mutual
/-- documents of the same shape have numbers of the same types -/
theorem types_shape : ∀ s t : BVal, s.SameShape t → (nums s).map Prod.fst = (nums t).map Prod.fst
  | .doc fs, t, h => by cases t <;> first | exact h.elim | exact typesF_shape fs _ h
  | .array vs, t, h => by cases t <;> first | exact h.elim | exact typesV_shape vs _ h
  | .double _, t, h | .bool _, t, h | .datetime _, t, h | .int32 _, t, h | .int64 _, t, h | .timestamp _ _, t, h
  | .string _, t, h | .binary _ _, t, h | .undefined, t, h | .oid _, t, h | .null, t, h | .regex _ _, t, h | .dbpointer _ _, t, h
  | .js _, t, h | .symbol _, t, h | .codeScope _ _, t, h | .decimal _ _, t, h | .minKey, t, h | .maxKey, t, h => by
    simp only [BVal.SameShape] at h
    cases t <;> first | rfl | (simp [BVal.tag] at h)
theorem typesF_shape : ∀ s t : Fields, s.SameShape t → (numsF s).map Prod.fst = (numsF t).map Prod.fst
  | .nil, t, h => by cases t <;> first | rfl | exact h.elim
  | .cons k v rest, t, h => by
    cases t with
    | nil => exact h.elim
    | cons l w gs => simp only [Fields.SameShape] at h; simp [numsF, types_shape v w h.2.1, typesF_shape rest gs h.2.2]
theorem typesV_shape : ∀ s t : Vals, s.SameShape t → (numsV s).map Prod.fst = (numsV t).map Prod.fst
  | .nil, t, h => by cases t <;> first | rfl | exact h.elim
  | .cons v rest, t, h => by
    cases t with
    | nil => exact h.elim
    | cons w gs => simp only [Vals.SameShape] at h; simp [numsV, types_shape v w h.1, typesV_shape rest gs h.2]
end

theorem count_shape {s t : BVal} (h : s.SameShape t) : count s = count t := by
  have := congrArg List.length (types_shape s t h); simpa [length_nums] using this

/-- the value read back for a metric of starting value `h` -/
def bkv (sub : Nat → Nat → Nat) (h : Int) (x0 xp xc : Num) : Int :=
  match xc with
  | .int c => match x0 with
    | .int a => i64 (h + c - a)
    | .dbl _ => 0
  | .dbl c => match xp with
    | .dbl p => i64 (sub c p)
    | .int _ => 0

theorem bkv_range (sub : Nat → Nat → Nat) (h : Int) (x0 xp xc : Num) :
    -9223372036854775808 ≤ bkv sub h x0 xp xc ∧ bkv sub h x0 xp xc < 9223372036854775808 := by
  cases x0 <;> cases xp <;> cases xc <;> simp only [bkv] <;> first | exact i64_range _ | decide

theorem wrapMs_range (ms : Int) : -9223372036855 ≤ wrapMs ms ∧ wrapMs ms ≤ 9223372036855 := by
  unfold wrapMs
  have := i64_range (ms * 1000000)
  generalize i64 (ms * 1000000) = x at *
  rcases Int.lt_or_le x 0 with h | h
  · have e : x = -(-x) := by omega
    rw [e, Int.neg_tdiv, Int.tdiv_eq_ediv_of_nonneg (by omega)]; omega
  · rw [Int.tdiv_eq_ediv_of_nonneg h]; omega

/-- the values `g` has are those read back -/
def Reads (sub : Nat → Nat → Nat) (g : Nat → Int) (idx : Nat) (hs : List Int) (f p c : Row) : Prop :=
  ∀ i h x0 xp xc, hs[i]? = some h → f[i]? = some x0 → p[i]? = some xp → c[i]? = some xc → g (idx + i) = bkv sub h x0.2 xp.2 xc.2

theorem get_left {α : Type} {a b : List α} {i : Nat} {x : α} (h : a[i]? = some x) : (a ++ b)[i]? = some x := by
  rw [List.getElem?_append_left, h]
  rcases Nat.lt_or_ge i a.length with h' | h'
  · exact h'
  · rw [List.getElem?_eq_none h'] at h; cases h

theorem get_right {α : Type} {a b : List α} {i n : Nat} {x : α} (hn : a.length = n) (h : b[i]? = some x) : (a ++ b)[n + i]? = some x := by
  rw [List.getElem?_append_right (by omega), ← hn, Nat.add_sub_cancel_left, h]

theorem Reads.left {sub : Nat → Nat → Nat} {g : Nat → Int} {idx : Nat} {hs hs' : List Int} {f f' p p' c c' : Row}
    (h : Reads sub g idx (hs ++ hs') (f ++ f') (p ++ p') (c ++ c')) : Reads sub g idx hs f p c :=
  fun i a b d e h1 h2 h3 h4 => h i a b d e (get_left h1) (get_left h2) (get_left h3) (get_left h4)

theorem Reads.right {sub : Nat → Nat → Nat} {g : Nat → Int} {idx n : Nat} {hs hs' : List Int} {f f' p p' c c' : Row}
    (h : Reads sub g idx (hs ++ hs') (f ++ f') (p ++ p') (c ++ c')) (e1 : hs.length = n) (e2 : f.length = n) (e3 : p.length = n) (e4 : c.length = n) :
    Reads sub g (idx + n) hs' f' p' c' := by
  intro i a b d e h1 h2 h3 h4
  rw [Nat.add_assoc]
  exact h (n + i) a b d e (get_right e1 h1) (get_right e2 h2) (get_right e3 h3) (get_right e4 h4)

theorem bool_back : ∀ a c : Bool, decide (i64 ((if a then 1 else 0) + (if c then 1 else 0) - (if a then 1 else 0)) ≠ 0) = c := by decide

theorem bool_fill {g : Nat → Int} {idx : Nat} {a c : Bool}
    (h : g idx = i64 ((if a then 1 else 0) + (if c then 1 else 0) - (if a then 1 else 0))) : fill g idx (.bool a) = some (.bool c) := by
  have := bool_back a c
  rw [← h] at this
  simp only [fill]; rw [this]

theorem date_fill {g : Nat → Int} {idx : Nat} {a c : Int} (h : g idx = i64 (wrapMs a + wrapMs c - wrapMs a)) :
    fill g idx (.datetime a) = some (.datetime (wrapMs c)) := by
  have h1 := wrapMs_range c
  have : i64 (wrapMs a + wrapMs c - wrapMs a) = wrapMs c := by
    generalize wrapMs c = x at *
    generalize wrapMs a = y at *
    unfold i64; omega
  simp only [fill, h, this]

theorem int32_fill {g : Nat → Int} {idx : Nat} {a c : Int} (h : g idx = i64 (a + c - a)) (hc : (BVal.int32 c).WF) :
    fill g idx (.int32 a) = some (.int32 c) := by
  simp only [BVal.WF] at hc
  have : i32 (i64 (a + c - a)) = c := by unfold i32 i64; omega
  simp only [fill, h, this]

theorem int64_fill {g : Nat → Int} {idx : Nat} {a c : Int} (h : g idx = i64 (a + c - a)) (hc : (BVal.int64 c).WF) :
    fill g idx (.int64 a) = some (.int64 c) := by
  simp only [BVal.WF] at hc
  have : i64 (a + c - a) = c := by unfold i64; omega
  simp only [fill, h, this]

theorem timestamp_fill {g : Nat → Int} {idx : Nat} {a b t i : Nat} (h1 : g (idx + 0) = i64 ((a : Int) * 1000 + t - a))
    (h2 : g (idx + 1) = i64 ((b : Int) + i - b)) (_ : (BVal.timestamp a b).WF) (hc : (BVal.timestamp t i).WF) :
    fill g idx (.timestamp a b) = some (.timestamp ((999 * a + t) % 4294967296) i) := by
  rename_i ha
  simp only [BVal.WF] at ha hc
  rw [Nat.add_zero] at h1
  have e1 : u32i (i64 ((a : Int) * 1000 + t - a)) = (999 * a + t) % 4294967296 := by unfold u32i i64; omega
  have e2 : u32i (i64 ((b : Int) + i - b)) = i := by unfold u32i i64; omega
  simp only [fill, h1, h2, e1, e2]

theorem double_back {g : Nat → Int} {idx a n : Nat} (h : g idx = i64 n) (hn : n < 18446744073709551616) :
    fill g idx (.double a) = some (.double n) := by
  have : u64i (i64 n) = n := by unfold u64i i64; omega
  simp only [fill, h, this]

mutual
theorem fill_back {sub : Nat → Nat → Nat} (hsub : ∀ a b, a < 18446744073709551616 → b < 18446744073709551616 → sub a b < 18446744073709551616)
    {g : Nat → Int} : ∀ (f p c : BVal) (idx : Nat), Only f → f.WF → p.WF → c.WF → f.SameShape p → f.SameShape c →
      Reads sub g idx (heads f) (nums f) (nums p) (nums c) → fill g idx f = some (f.back sub p c)
  | .doc f, p, c, idx, ho, wf, wp, wc, hp, hc, hr => by
    cases p <;> first | exact hp.elim | skip
    cases c <;> first | exact hc.elim | skip
    simp only [fill, BVal.back]
    rw [fillF_back hsub f _ _ idx ho wf wp wc hp hc hr]
  | .array f, p, c, idx, ho, wf, wp, wc, hp, hc, hr => by
    cases p <;> first | exact hp.elim | skip
    cases c <;> first | exact hc.elim | skip
    simp only [fill, BVal.back]
    rw [fillV_back hsub f _ _ idx ho wf wp wc hp hc hr]
  | .double a, p, c, idx, _, wf, wp, wc, hp, hc, hr => by
    simp only [BVal.SameShape] at hp hc
    cases p <;> first | (simp [BVal.tag] at hp; done) | skip
    cases c <;> first | (simp [BVal.tag] at hc; done) | skip
    rename_i q r
    have h := hr 0 (i64 a) (1, .dbl a) (1, .dbl q) (1, .dbl r) rfl rfl rfl rfl
    have h1 : q < 18446744073709551616 := wp
    have h2 : r < 18446744073709551616 := wc
    have h3 := hsub r q h2 h1
    have e : BVal.back sub (.double a) (.double q) (.double r) = .double (sub r q) := by simp only [BVal.back]
    rw [e]
    exact double_back h h3
  | .bool a, p, c, idx, _, wf, wp, wc, hp, hc, hr => by
    simp only [BVal.SameShape] at hp hc
    cases p <;> first | (simp [BVal.tag] at hp; done) | skip
    cases c <;> first | (simp [BVal.tag] at hc; done) | skip
    rename_i b c
    have := hr 0 _ (8, .int (if a then 1 else 0)) (8, .int (if b then 1 else 0)) (8, .int (if c then 1 else 0)) rfl rfl rfl rfl
    have e : BVal.back sub (.bool a) (.bool b) (.bool c) = .bool c := by simp only [BVal.back]
    rw [e]
    exact bool_fill this
  | .datetime a, p, c, idx, _, wf, wp, wc, hp, hc, hr => by
    simp only [BVal.SameShape] at hp hc
    cases p <;> first | (simp [BVal.tag] at hp; done) | skip
    cases c <;> first | (simp [BVal.tag] at hc; done) | skip
    rename_i b c
    have := hr 0 _ (9, .int (wrapMs a)) (9, .int (wrapMs b)) (9, .int (wrapMs c)) rfl rfl rfl rfl
    have e : BVal.back sub (.datetime a) (.datetime b) (.datetime c) = (.datetime ((i64 (c * 1000000)).tdiv 1000000)) := by simp only [BVal.back]
    rw [e]
    exact date_fill this
  | .int32 a, p, c, idx, _, wf, wp, wc, hp, hc, hr => by
    simp only [BVal.SameShape] at hp hc
    cases p <;> first | (simp [BVal.tag] at hp; done) | skip
    cases c <;> first | (simp [BVal.tag] at hc; done) | skip
    rename_i b c
    have := hr 0 _ (16, .int a) (16, .int b) (16, .int c) rfl rfl rfl rfl
    have e : BVal.back sub (.int32 a) (.int32 b) (.int32 c) = (.int32 c) := by simp only [BVal.back]
    rw [e]
    exact int32_fill this wc
  | .int64 a, p, c, idx, _, wf, wp, wc, hp, hc, hr => by
    simp only [BVal.SameShape] at hp hc
    cases p <;> first | (simp [BVal.tag] at hp; done) | skip
    cases c <;> first | (simp [BVal.tag] at hc; done) | skip
    rename_i b c
    have := hr 0 _ (18, .int a) (18, .int b) (18, .int c) rfl rfl rfl rfl
    have e : BVal.back sub (.int64 a) (.int64 b) (.int64 c) = (.int64 c) := by simp only [BVal.back]
    rw [e]
    exact int64_fill this wc
  | .timestamp a b, p, c, idx, _, wf, wp, wc, hp, hc, hr => by
    simp only [BVal.SameShape] at hp hc
    cases p <;> first | (simp [BVal.tag] at hp; done) | skip
    cases c <;> first | (simp [BVal.tag] at hc; done) | skip
    rename_i t' i' t i
    have h1 := hr 0 ((a : Int) * 1000) (17, .int a) (17, .int t') (17, .int t) rfl rfl rfl rfl
    have h2 := hr 1 (b : Int) (17, .int b) (17, .int i') (17, .int i) rfl rfl rfl rfl
    have e : BVal.back sub (.timestamp a b) (.timestamp t' i') (.timestamp t i) = .timestamp ((999 * a + t) % 4294967296) i := by
      simp only [BVal.back]
    rw [e]
    exact timestamp_fill h1 h2 wf wc
  | .string _, _, _, _, ho, _, _, _, _, _, _ | .binary _ _, _, _, _, ho, _, _, _, _, _, _ | .undefined, _, _, _, ho, _, _, _, _, _, _
  | .oid _, _, _, _, ho, _, _, _, _, _, _ | .null, _, _, _, ho, _, _, _, _, _, _ | .regex _ _, _, _, _, ho, _, _, _, _, _, _
  | .dbpointer _ _, _, _, _, ho, _, _, _, _, _, _ | .js _, _, _, _, ho, _, _, _, _, _, _ | .symbol _, _, _, _, ho, _, _, _, _, _, _
  | .codeScope _ _, _, _, _, ho, _, _, _, _, _, _ | .decimal _ _, _, _, _, ho, _, _, _, _, _, _ | .minKey, _, _, _, ho, _, _, _, _, _, _
  | .maxKey, _, _, _, ho, _, _, _, _, _, _ => ho.elim
theorem fillF_back {sub : Nat → Nat → Nat} (hsub : ∀ a b, a < 18446744073709551616 → b < 18446744073709551616 → sub a b < 18446744073709551616)
    {g : Nat → Int} : ∀ (f p c : Fields) (idx : Nat), OnlyF f → f.WF → p.WF → c.WF → f.SameShape p → f.SameShape c →
      Reads sub g idx (headsF f) (numsF f) (numsF p) (numsF c) → fillF g idx f = f.back sub p c
  | .nil, p, c, idx, _, _, _, _, hp, hc, _ => by
    cases c <;> first | exact hc.elim | simp only [fillF, fillV, Fields.back, Vals.back]
  | .cons k v f, p, c, idx, ho, wf, wp, wc, hp, hc, hr => by
    cases p <;> first | exact hp.elim | skip
    cases c <;> first | exact hc.elim | skip
    simp only [Fields.SameShape] at hp hc
    simp only [headsF, numsF] at hr
    simp only [fillF, Fields.back]
    rw [fill_back hsub v _ _ idx ho.1 wf.2.1 wp.2.1 wc.2.1 hp.2.1 hc.2.1 hr.left,
      fillF_back hsub f _ _ (idx + count v) ho.2 wf.2.2 wp.2.2 wc.2.2 hp.2.2 hc.2.2
        (hr.right (length_heads v) (length_nums v) (by rw [length_nums, ← count_shape hp.2.1]) (by rw [length_nums, ← count_shape hc.2.1])), hc.1]
theorem fillV_back {sub : Nat → Nat → Nat} (hsub : ∀ a b, a < 18446744073709551616 → b < 18446744073709551616 → sub a b < 18446744073709551616)
    {g : Nat → Int} : ∀ (f p c : Vals) (idx : Nat), OnlyV f → f.WF → p.WF → c.WF → f.SameShape p → f.SameShape c →
      Reads sub g idx (headsV f) (numsV f) (numsV p) (numsV c) → fillV g idx f = f.back sub p c
  | .nil, p, c, idx, _, _, _, _, hp, hc, _ => by
    cases c <;> first | exact hc.elim | simp only [fillF, fillV, Fields.back, Vals.back]
  | .cons v f, p, c, idx, ho, wf, wp, wc, hp, hc, hr => by
    cases p <;> first | exact hp.elim | skip
    cases c <;> first | exact hc.elim | skip
    simp only [Vals.SameShape] at hp hc
    simp only [headsV, numsV] at hr
    simp only [fillV, Vals.back]
    rw [fill_back hsub v _ _ idx ho.1 wf.1 wp.1 wc.1 hp.1 hc.1 hr.left,
      fillV_back hsub f _ _ (idx + count v) ho.2 wf.2 wp.2 wc.2 hp.2 hc.2
        (hr.right (length_heads v) (length_nums v) (by rw [length_nums, ← count_shape hp.1]) (by rw [length_nums, ← count_shape hc.1]))]
end

mutual
/-- nothing is lost when all values are kept -/
theorem back_kept (sub : Nat → Nat → Nat) : ∀ f p c : BVal, f.SameShape c → c.Kept → f.back sub p c = c
  | .doc f, p, c, h, hk => by
    cases c <;> first | exact h.elim | skip
    cases p <;> simp only [BVal.back]
    rw [backF_kept sub f _ _ h hk]
  | .array f, p, c, h, hk => by
    cases c <;> first | exact h.elim | skip
    cases p <;> simp only [BVal.back]
    rw [backV_kept sub f _ _ h hk]
  | .double _, p, c, h, hk => by
    simp only [BVal.SameShape] at h
    cases c <;> first | (simp [BVal.tag] at h; done) | exact hk.elim
  | .timestamp _ _, p, c, h, hk => by
    simp only [BVal.SameShape] at h
    cases c <;> first | (simp [BVal.tag] at h; done) | exact hk.elim
  | .datetime _, p, c, h, hk => by
    simp only [BVal.SameShape] at h
    cases c <;> first | (simp [BVal.tag] at h; done) | skip
    simp only [BVal.Kept] at hk
    simp only [BVal.back]
    have : ∀ ms : Int, -9223372036854 ≤ ms ∧ ms ≤ 9223372036854 → (i64 (ms * 1000000)).tdiv 1000000 = ms := by
      intro ms h
      have : i64 (ms * 1000000) = ms * 1000000 := by unfold i64; omega
      rw [this, Int.mul_tdiv_cancel _ (by decide)]
    rw [this _ hk]
  | .bool _, _, _, _, _ | .int32 _, _, _, _, _ | .int64 _, _, _, _, _
  | .string _, _, _, _, _ | .binary _ _, _, _, _, _ | .undefined, _, _, _, _ | .oid _, _, _, _, _ | .null, _, _, _, _ | .regex _ _, _, _, _, _
  | .dbpointer _ _, _, _, _, _ | .js _, _, _, _, _ | .symbol _, _, _, _, _ | .codeScope _ _, _, _, _, _ | .decimal _ _, _, _, _, _
  | .minKey, _, _, _, _ | .maxKey, _, _, _, _ => by simp only [BVal.back]
theorem backF_kept (sub : Nat → Nat → Nat) : ∀ f p c : Fields, f.SameShape c → c.Kept → f.back sub p c = c
  | .nil, _, _, _, _ => by simp only [Fields.back, Vals.back]
  | .cons k v f, p, c, h, hk => by
    cases c <;> first | exact h.elim | skip
    cases p <;> simp only [Fields.back]
    simp only [Fields.SameShape] at h
    rw [back_kept sub v _ _ h.2.1 hk.1, backF_kept sub f _ _ h.2.2 hk.2]
theorem backV_kept (sub : Nat → Nat → Nat) : ∀ f p c : Vals, f.SameShape c → c.Kept → f.back sub p c = c
  | .nil, _, _, _, _ => by simp only [Fields.back, Vals.back]
  | .cons v f, p, c, h, hk => by
    cases c <;> first | exact h.elim | skip
    cases p <;> simp only [Vals.back]
    simp only [Vals.SameShape] at h
    rw [back_kept sub v _ _ h.1 hk.1, backV_kept sub f _ _ h.2 hk.2]
end

/-! ### the values of a metric -/

theorem undelta_tele : ∀ (ds : List Int) (st : Int) (b : Nat → Int), (∀ j, j < ds.length → ds[j]? = some (i64 (b (j + 1) - b j))) →
    ∀ j, j < ds.length → (undelta st ds)[j + 1]? = some (i64 (st + b (j + 1) - b 0))
  | [], _, _, _, _, h => by simp at h
  | d :: ds, st, b, hd, j, hj => by
    have h0 := hd 0 (by simp)
    simp only [List.getElem?_cons_zero, Option.some.injEq, Nat.zero_add] at h0
    simp only [undelta, List.getElem?_cons_succ]
    cases j with
    | zero =>
      rw [(undelta_get ds _).2, h0]
      simp only [Nat.zero_add, Option.some.injEq]
      generalize b 1 = x; generalize b 0 = y
      unfold i64; omega
    | succ j =>
      have := undelta_tele ds (i64 (st + d)) (fun k => b (k + 1)) (fun k hk => by
        have := hd (k + 1) (by simp; omega); simpa using this) j (by simpa using hj)
      rw [this]
      simp only [Nat.zero_add, Option.some.injEq, h0]
      generalize b 1 = x; generalize b 0 = y; generalize b (j + 1 + 1) = z
      unfold i64; omega

/-- the values of a metric with numbers `a 0`, `a 1`, ... -/
theorem series_value {fsub : Nat → Nat → Nat} {m : Metric} {ds : List Int} {a : Nat → Num}
    (ht : ∀ j, j ≤ ds.length → (m.originalType = 1 ↔ ∃ b, a j = .dbl b))
    (hd : ∀ j, j < ds.length → ds[j]? = some (delta fsub (a (j + 1)) (a j))) :
    (series m ds).values[0]? = some m.startingValue ∧
    ∀ j, j < ds.length → (series m ds).values[j + 1]? = some (bkv fsub m.startingValue (a 0) (a j) (a (j + 1))) := by
  unfold series
  by_cases h : m.originalType = 1
  · simp only [if_pos h, undeltaFloats, List.getElem?_cons_zero, true_and, List.getElem?_cons_succ]
    intro j hj
    obtain ⟨x, hx⟩ := (ht 0 (by omega)).mp h
    obtain ⟨y, hy⟩ := (ht j (by omega)).mp h
    obtain ⟨z, hz⟩ := (ht (j + 1) (by omega)).mp h
    simp only [hd j hj, hx, hy, hz, delta, bkv]
  · simp only [if_neg h]
    have hint : ∀ j, j ≤ ds.length → ∃ i, a j = .int i := by
      intro j hj
      cases ha : a j with
      | dbl b => exact absurd ((ht j hj).mpr ⟨b, ha⟩) h
      | int i => exact ⟨i, rfl⟩
    refine ⟨(undelta_get ds _).2, fun j hj => ?_⟩
    have := undelta_tele ds m.startingValue (fun k => match a k with | .int i => i | .dbl _ => 0) (fun k hk => by
      obtain ⟨x, hx⟩ := hint k (by omega); obtain ⟨y, hy⟩ := hint (k + 1) (by omega)
      simp only [hd k hk, hx, hy, delta]) j hj
    obtain ⟨x, hx⟩ := hint 0 (by omega); obtain ⟨y, hy⟩ := hint (j + 1) (by omega)
    simp only [this, hx, hy, bkv]

end Birch.Proofs.Ftdc
