import Verif.Proofs.Reader
import Verif.Proofs.Totality
import Verif.Proofs.Fuel
import Verif.Spec.Accept

/- The reading loops against the grammar of `Spec/Accept`. -/

namespace Birch.Proofs
open Birch Model Spec

set_option linter.unusedSimpArgs false
set_option linter.unusedVariables false

theorem loose_ne_zero {t : UInt8} {v : Bytes} (h : Loose t v) : t ≠ 0 := by
  cases h <;> (try rintro rfl) <;> simp_all

/-- the size of a value that follows the grammar -/
theorem rawSize_loose {t : UInt8} {v : Bytes} (h : Loose t v) (hd post : Bytes) (start : Nat)
    (hs : hd[start]? = some t) (hlen : hd.length + v.length + post.length < 2147483648) :
    rawSize (hd ++ (v ++ post)) start hd.length = .ok v.length := by
  have hne : hd ++ (v ++ post) ≠ [] := by
    intro h; simp at h; simp [h.1] at hs
  have hi : idx (hd ++ (v ++ post)) start = .ok t := by
    apply idx_eq
    rw [List.getElem?_append_left, hs]
    rcases Nat.lt_or_ge start hd.length with h | h
    · exact h
    · simp [h] at hs
  unfold rawSize
  rw [if_neg hne, hi]
  simp only [List.length_append, Res.bind_ok]
  clear hi hne hs
  have rd : ∀ (n : Nat) (s : Bytes), v = le32 n ++ s → slice (hd ++ (v ++ post)) hd.length (u32 (hd.length + 4)) = .ok (le32 n) := by
    intro n s e
    rw [e, List.append_assoc]
    exact slice_rd4 _ _ _ (by rw [e] at hlen; simp at hlen; omega)
  cases h with
  | empty t ht => rw [if_pos ht]; rfl
  | eight t b ht hb =>
    rcases ht with rfl | rfl | rfl | rfl <;> simp <;> rw [hb, if_neg (by simp only [u32]; omega)]
  | oid b hb => simp; rw [hb, if_neg (by simp only [u32]; omega)]
  | int32 b hb => simp; rw [hb, if_neg (by simp only [u32]; omega)]
  | decimal b hb => simp; rw [hb, if_neg (by simp only [u32]; omega)]
  | bool c hc =>
    simp only [List.length_singleton, List.length_cons, List.length_nil] at hlen
    have h1 : idx (hd ++ ([c] ++ post)) hd.length = .ok c := idx_append _ _ _
    simp only [List.length_singleton, List.length_cons, List.length_nil]
    rcases hc with rfl | rfl <;> simp at h1 <;> simp [h1] <;> wrap_arith
  | text t s ht =>
    have h1 := rd _ _ rfl
    simp only [List.length_append, le32_length] at hlen
    rcases ht with rfl | rfl | rfl <;> simp [h1, readi32_le32_nat' (n := s.length) (by omega)] at h1 ⊢ <;>
      simp [h1, readi32_le32_nat' (n := s.length) (by omega)] <;> wrap_arith
  | embedded t s ht hne =>
    have h1 := rd _ _ rfl
    have : 0 < s.length := List.length_pos_iff.mpr hne
    simp only [List.length_append, le32_length] at hlen
    rcases ht with rfl | rfl <;> simp at h1 ⊢ <;>
      simp [h1, readi32_le32_nat' (n := s.length + 4) (by omega)] <;> wrap_arith
  | binary st s hst =>
    have h1 := rd _ _ rfl
    simp only [List.length_append, le32_length, List.length_cons] at hlen
    have h2 : idx (hd ++ (le32 s.length ++ st :: (s ++ post))) (u32 (hd.length + 4)) = .ok st := by
      rw [u32_small (by omega)]
      have := idx_append (hd ++ le32 s.length) st (s ++ post)
      simpa using this
    have hst : ¬ (5 < st ∧ st < 128) := by
      simp only [UInt8.lt_iff_toNat_lt, UInt8.le_iff_toNat_le] at *
      have e1 : (5 : UInt8).toNat = 5 := rfl
      have e2 : (128 : UInt8).toNat = 128 := rfl
      omega
    simp at h1 ⊢
    simp [h1, h2, readi32_le32_nat' (n := s.length) (by omega)]
    rw [if_neg (by simp only [u32]; omega), if_neg hst]
    clear hst h1 h2 rd
    wrap_arith
  | regex p o wp wo =>
    have e1 : cstrAt (hd ++ ((p ++ 0 :: (o ++ [0])) ++ post)) hd.length = p := by
      have := cstrAt_append wp hd (o ++ [0] ++ post); simpa using this
    have e2 : cstrAt (hd ++ ((p ++ 0 :: (o ++ [0])) ++ post)) (hd.length + p.length + 1) = o := by
      have := cstrAt_append wo (hd ++ p ++ [0]) post
      simpa [Nat.add_assoc] using this
    simp only [List.length_append, List.length_cons, List.length_nil] at hlen
    simp only [e1, e2]
    simp
    wrap_arith
  | dbpointer s id hid =>
    have h1 := rd _ _ rfl
    simp only [List.length_append, le32_length] at hlen
    simp at h1 ⊢
    simp [h1, readi32_le32_nat' (n := s.length) (by omega)]
    wrap_arith
  | code s =>
    have h1 := rd _ _ rfl
    simp only [List.length_append, le32_length] at hlen
    simp at h1 ⊢
    simp [h1, readi32_le32_nat' (n := s.length + 4) (by omega)]
    wrap_arith

/-- the size of a code with scope whose length is below 4 -/
theorem rawSize_stub (hd post : Bytes) (l start : Nat) (hl : l < 4)
    (hs : hd[start]? = some 0x0F) (hlen : hd.length + 4 + post.length < 2147483648) :
    rawSize (hd ++ (le32 l ++ post)) start hd.length = .ok l := by
  have hne : hd ++ (le32 l ++ post) ≠ [] := by
    intro h; simp at h; simp [h.1] at hs
  have hi : idx (hd ++ (le32 l ++ post)) start = .ok 0x0F := by
    apply idx_eq
    rw [List.getElem?_append_left, hs]
    rcases Nat.lt_or_ge start hd.length with h | h
    · exact h
    · simp [h] at hs
  unfold rawSize
  rw [if_neg hne, hi]
  simp only [List.length_append, Res.bind_ok]
  clear hi hne hs
  have h1 := slice_rd4 hd post l (by omega)
  simp [h1, readi32_le32_nat' (n := l) (by omega)]
  wrap_arith

/-- what the size of a value says about its bytes -/
def Sized (t : UInt8) (x : Bytes) (m : Nat) : Prop :=
  (∃ v post, x = v ++ post ∧ v.length = m ∧ Loose t v) ∨
  (t = 0x0F ∧ m < 4 ∧ ∃ post, x = le32 m ++ post) ∨
  x.length < m

theorem lenAt_le32 {x : Bytes} {n : Nat} (h : lenAt x = some n) : n < 4294967296 ∧ x = le32 n ++ x.drop 4 := by
  match x, h with
  | a :: b :: c :: d :: r, h =>
    simp only [lenAt, Option.some.injEq] at h
    subst h
    have := a.toNat_lt; have := b.toNat_lt; have := c.toNat_lt; have := d.toNat_lt
    refine ⟨by omega, ?_⟩
    simp only [le32, List.drop_succ_cons, List.drop_zero, List.cons_append, List.nil_append, List.cons.injEq, and_true]
    refine ⟨?_, ?_, ?_, ?_⟩ <;> apply UInt8.toNat.inj <;> rw [UInt8.toNat_ofNat'] <;> omega

theorem rawSize_sized {data : Bytes} {pos off m : Nat} {t : UInt8} (hp : idx data pos = .ok t) (ho : off ≤ data.length)
    (hl : data.length < 2147483648)
    (hlen : hasLength t = true → ∀ n, lenAt (data.drop off) = some n → n + data.length < 2147483648)
    (h : rawSize data pos off = .ok m) : Sized t (data.drop off) m := by
  suffices hs : All (fun m => Sized t (data.drop off) m) (rawSize data pos off) from hs m h
  clear h
  unfold rawSize
  refine All.ite (fun _ => .err _) fun hne => ?_
  rw [hp]
  simp only [Res.bind_ok]
  have fixed : ∀ n, off + n ≤ data.length → (∀ v : Bytes, v.length = n → Loose t v) → Sized t (data.drop off) n := by
    intro n hn hv
    refine .inl ⟨(data.drop off).take n, (data.drop off).drop n, (List.take_append_drop _ _).symm, by simp; omega, hv _ (by simp; omega)⟩
  have rl : ∀ {p : Nat → Prop} (f : Int → Res Nat), hasLength t = true → ¬ data.length < u32 (off + 4) →
      (∀ (n : Nat) (s : Bytes), n + data.length < 2147483648 → off + 4 + s.length = data.length →
        data.drop off = le32 n ++ s → All p (f n)) →
      All p (slice data off (u32 (off + 4)) >>= fun x => readi32 x >>= f) := by
    intro p f ht h1 hf
    rw [u32_small (by omega)] at h1
    obtain ⟨n, h3, h2⟩ := readLen (data := data) (off := off) (by omega) hl
    have : (slice data off (u32 (off + 4)) >>= fun x => readi32 x >>= f) = ((slice data off (u32 (off + 4)) >>= readi32) >>= f) := by
      cases slice data off (u32 (off + 4)) <;> rfl
    have h4 := hlen ht n h3
    obtain ⟨h5, h6⟩ := lenAt_le32 h3
    rw [this, h2, i32_of_nat (by omega)]
    exact hf n _ h4 (by simp; omega) h6
  refine All.ite (fun ht => .ok (.inl ⟨[], _, rfl, rfl, .empty _ ht⟩)) fun _ => ?_
  refine All.ite (fun ht => All.ite (fun _ => .err _) fun h => .ok (fixed _ (by rw [u32_small (by omega)] at h; omega) fun v hv =>
    .eight _ _ (.inl ht) hv)) fun _ => ?_
  refine All.ite (fun ht => All.ite (fun _ => .err _) fun h => rl _ (by simp only [hasLength]; grind) h fun n s h1 h2 e =>
    All.ite (fun _ => .err _) fun hn => .ok ?_) fun _ => ?_
  · rw [i32_of_nat (n := off) (by omega), i32_of_nat (n := data.length) (by omega), i32_small (z := (off : Int) + 4) (by omega) (by omega),
      i32_small (by omega) (by omega)] at hn
    rw [u32i_nat (by omega), u32_small (by omega), e]
    refine .inl ⟨le32 n ++ s.take n, s.drop n, by simp, by simp; omega, ?_⟩
    have := Loose.text t (s.take n) ht
    rwa [show (s.take n).length = n by simp; omega] at this
  refine All.ite (fun ht => All.ite (fun _ => .err _) fun h => rl _ (by simp only [hasLength]; grind) h fun n s h1 h2 e =>
    All.ite (fun _ => .err _) fun h5 => All.ite (fun _ => .err _) fun hn => .ok ?_) fun _ => ?_
  · rw [i32_of_nat (n := off) (by omega), i32_of_nat (n := data.length) (by omega), i32_small (by omega) (by omega)] at hn
    rw [u32i_nat (by omega), u32i_small (by omega) (by omega), u32_small (by omega), e]
    refine .inl ⟨le32 n ++ s.take (n - 4), s.drop (n - 4), by simp, by simp; omega, ?_⟩
    have hlen' : (s.take (n - 4)).length = n - 4 := by simp; omega
    have := Loose.embedded t (s.take (n - 4)) ht (by intro h0; rw [h0] at hlen'; simp at hlen'; omega)
    rwa [hlen', show n - 4 + 4 = n by omega] at this
  refine All.ite (fun ht => All.ite (fun _ => .err _) fun h => rl _ (by simp only [hasLength]; grind) ?_ fun n s h1 h2 e => ?_) fun _ => ?_
  · rw [u32_small (by omega)] at h ⊢; omega
  · rw [u32_small (by omega)] at h
    refine All.bind fun st hst => All.ite (fun _ => .err _) fun h5 => All.ite (fun _ => .err _) fun hn => .ok ?_
    rw [i32_of_nat (n := off) (by omega), i32_of_nat (n := data.length) (by omega), i32_small (z := (off : Int) + 5) (by omega) (by omega),
      i32_small (by omega) (by omega)] at hn
    rw [u32i_nat (by omega), u32_small (by omega), e]
    match s, h2, e with
    | [], h2, _ => simp at h2; omega
    | c :: s, h2, e =>
      simp only [List.length_cons] at h2
      have e0 : data = data.take off ++ (le32 n ++ c :: s) := by rw [← e, List.take_append_drop]
      have hc : c = st := by
        rw [u32_small (by omega)] at hst
        have := idx_append (data.take off ++ le32 n) c s
        rw [List.append_assoc, ← e0] at this
        rw [show (data.take off ++ le32 n).length = off + 4 by simp; omega, hst] at this
        exact (Res.ok.inj this).symm
      subst hc
      refine .inl ⟨le32 n ++ c :: s.take n, s.drop n, by simp, by simp; omega, ?_⟩
      have hlen' : (s.take n).length = n := by simp; omega
      have := Loose.binary c (s.take n) (by
        simp only [UInt8.lt_iff_toNat_lt, UInt8.le_iff_toNat_le] at *
        have e1 : (5 : UInt8).toNat = 5 := rfl
        have e2 : (128 : UInt8).toNat = 128 := rfl
        simp only [gt_iff_lt, e1, e2] at *
        omega)
      rw [hlen'] at this
      rw [ht]; exact this
  refine All.ite (fun ht => All.ite (fun _ => .err _) fun h => .ok (fixed _ (by rw [u32_small (by omega)] at h; omega) fun v hv => by
    rw [ht]; exact .oid _ hv)) fun _ => ?_
  refine All.ite (fun ht => All.ite (fun _ => .err _) fun h => All.bind fun c hc => All.ite (fun _ => .err _) fun hb => .ok ?_) fun _ => ?_
  · rw [u32_small (by omega)] at h
    rw [idx_lt (by omega)] at hc
    refine .inl ⟨[c], data.drop (off + 1), ?_, rfl, ?_⟩
    · rw [← Res.ok.inj hc, List.drop_eq_getElem_cons (by omega)]; rfl
    · rw [ht]
      refine .bool c ?_
      by_cases h0 : c = 0
      · exact .inl h0
      · by_cases h1 : c = 1
        · exact .inr h1
        · exact absurd ⟨h0, h1⟩ hb
  refine All.ite (fun ht => All.ite (fun _ => .err _) fun h => .ok (fixed _ (by rw [u32_small (by omega)] at h; omega) fun v hv =>
    .eight _ _ (.inr (.inl ht)) hv)) fun _ => ?_
  refine All.ite (fun ht => All.ite (fun _ => .panic) fun _ => All.ite (fun _ => .err _) fun h1 => All.ite (fun _ => .err _) fun h2 => .ok ?_) fun _ => ?_
  · obtain ⟨p, r, e, hp', hpt, hr⟩ := takeWhile_split (data.drop off)
    have ec : cstrAt data off = p := hpt
    rw [ec] at h1 h2 ⊢
    have hle := congrArg List.length e
    simp at hle
    rcases hr with rfl | ⟨r, rfl⟩
    · simp at hle; omega
    have e2 : data.drop (off + p.length + 1) = r := by
      rw [Nat.add_assoc, ← List.drop_drop, e, show p ++ 0 :: r = (p ++ [0]) ++ r by simp]
      exact List.drop_left' (by simp)
    obtain ⟨o, r', e', ho', hot, hr'⟩ := takeWhile_split r
    have ec' : cstrAt data (off + p.length + 1) = o := by unfold cstrAt; rw [e2]; exact hot
    rw [ec'] at h2 ⊢
    have hle' := congrArg List.length e'
    simp at hle' hle
    rcases hr' with rfl | ⟨r', rfl⟩
    · simp at hle'; omega
    simp at hle'
    rw [u32_small (by omega)]
    refine .inl ⟨p ++ 0 :: (o ++ [0]), r', by rw [e, e']; simp, by simp; omega, ?_⟩
    rw [ht]; exact .regex p o hp' ho'
  refine All.ite (fun ht => All.ite (fun _ => .err _) fun h => rl _ (by simp only [hasLength]; grind) h fun n s h1 h2 e =>
    All.ite (fun _ => .err _) fun hn => .ok ?_) fun _ => ?_
  · rw [u32i_nat (by omega), u32_small (by omega), e]
    by_cases hov : s.length < n + 12
    · exact .inr (.inr (by simp; omega))
    refine .inl ⟨le32 n ++ (s.take n ++ (s.drop n).take 12), (s.drop n).drop 12, ?_, by simp; omega, ?_⟩
    · rw [List.append_assoc, List.append_assoc, List.take_append_drop, List.take_append_drop]
    · have := Loose.dbpointer (s.take n) ((s.drop n).take 12) (by simp; omega)
      rw [show (s.take n).length = n by simp; omega] at this
      rw [ht]; exact this
  refine All.ite (fun ht => All.ite (fun _ => .err _) fun h => rl _ (by simp only [hasLength]; grind) h fun n s h1 h2 e =>
    All.ite (fun _ => .err _) fun hn => .ok ?_) fun _ => ?_
  · rw [i32_of_nat (n := off) (by omega), i32_of_nat (n := data.length) (by omega), i32_small (by omega) (by omega)] at hn
    rw [u32i_nat (by omega)]
    have : u32 (4 + u32i ((n : Int) - 4)) = n := by unfold u32 u32i; omega
    rw [this, e]
    by_cases h4 : n < 4
    · exact .inr (.inl ⟨ht, h4, s, rfl⟩)
    · refine .inl ⟨le32 n ++ s.take (n - 4), s.drop (n - 4), by simp, by simp; omega, ?_⟩
      have := Loose.code (s.take (n - 4))
      rw [show (s.take (n - 4)).length + 4 = n by simp; omega] at this
      rw [ht]; exact this
  refine All.ite (fun ht => All.ite (fun _ => .err _) fun h => .ok (fixed _ (by rw [u32_small (by omega)] at h; omega) fun v hv => by
    rw [ht]; exact .int32 _ hv)) fun _ => ?_
  refine All.ite (fun ht => All.ite (fun _ => .err _) fun h => .ok (fixed _ (by rw [u32_small (by omega)] at h; omega) fun v hv =>
    .eight _ _ (.inr (.inr ht)) hv)) fun _ => ?_
  refine All.ite (fun ht => All.ite (fun _ => .err _) fun h => .ok (fixed _ (by rw [u32_small (by omega)] at h; omega) fun v hv => by
    rw [ht]; exact .decimal _ hv)) fun _ => ?_
  exact .err _

/-! ### what is accepted is read -/

/-- delimiting one element -/
theorem item_step {t : UInt8} {k v : Bytes} (hk : NulFree k) (hv : Loose t v) (hd post : Bytes) (end_ : Nat)
    (h1 : hd.length + k.length + 2 ≤ end_)
    (h2 : end_ ≤ (hd ++ t :: (k ++ 0 :: (v ++ post))).length)
    (h3 : (hd ++ t :: (k ++ 0 :: (v ++ post))).length < 2147483648) :
    idx (hd ++ t :: (k ++ 0 :: (v ++ post))) hd.length = .ok t ∧
    readerKey (hd ++ t :: (k ++ 0 :: (v ++ post))) (hd.length + 1) end_ = .ok (k.length + 1) ∧
    rawSize (hd ++ t :: (k ++ 0 :: (v ++ post))) hd.length (hd.length + k.length + 2) = .ok v.length := by
  simp only [List.length_append, List.length_cons] at h2 h3
  refine ⟨idx_append _ _ _, ?_, ?_⟩
  · have := readerKey_enc hk (hd ++ [t]) (v ++ post) end_ (by simp; omega) (by simp; omega)
    simpa using this
  · have := rawSize_loose hv (hd ++ t :: (k ++ [0])) post hd.length (by simp) (by simp; omega)
    simpa [Nat.add_assoc] using this

theorem stub_step {k v rest post : Bytes} (hk : NulFree k) (hv : v.length < 4) (e : v ++ 0 :: rest = le32 v.length ++ post) (hd : Bytes) (end_ : Nat)
    (h1 : hd.length + k.length + 2 ≤ end_)
    (h2 : end_ ≤ (hd ++ (0x0F : UInt8) :: (k ++ 0 :: (v ++ 0 :: rest))).length)
    (h3 : (hd ++ (0x0F : UInt8) :: (k ++ 0 :: (v ++ 0 :: rest))).length < 2147483648) :
    idx (hd ++ (0x0F : UInt8) :: (k ++ 0 :: (v ++ 0 :: rest))) hd.length = .ok 0x0F ∧
    readerKey (hd ++ (0x0F : UInt8) :: (k ++ 0 :: (v ++ 0 :: rest))) (hd.length + 1) end_ = .ok (k.length + 1) ∧
    rawSize (hd ++ (0x0F : UInt8) :: (k ++ 0 :: (v ++ 0 :: rest))) hd.length (hd.length + k.length + 2) = .ok v.length := by
  have hle := congrArg List.length e
  simp only [List.length_append, List.length_cons, le32_length] at h2 h3 hle
  refine ⟨idx_append _ _ _, ?_, ?_⟩
  · have := readerKey_enc hk (hd ++ [0x0F]) (v ++ 0 :: rest) end_ (by simp; omega) (by simp; omega)
    simpa using this
  · have := rawSize_stub (hd ++ (0x0F : UInt8) :: (k ++ [0])) post v.length hd.length hv (by simp) (by simp; omega)
    rw [← e] at this
    simpa [Nat.add_assoc] using this

theorem items_pos {es : List Item} {body rest : Bytes} (h : Items es body rest) : rest.length < body.length := by
  induction h with
  | stop => simp
  | item _ _ _ ih => simp; omega
  | stub _ _ _ => simp; omega

theorem iterLoop_items {es : List Item} {body rest : Bytes} (h : Items es body rest) : ∀ (fuel : Nat) (b hd : Bytes) (end_ : Nat),
    b = hd ++ body → body.length < fuel → end_ ≤ b.length → b.length < 2147483648 → b.length ≤ end_ + rest.length →
    ∃ d, iterLoop fuel b hd.length end_ = .ok d ∧ Shown b d es := by
  induction h with
  | stop rest =>
    rintro (_ | fuel) b hd end_ rfl hf h2 h3 h4
    · omega
    refine ⟨[], ?_, .nil⟩
    unfold iterLoop
    simp at h4 h2
    rw [if_neg (by omega), idx_append]
    simp
  | @item t k v es body rest hk hv hi ih =>
    rintro (_ | fuel) b hd end_ rfl hf h2 h3 h4
    · omega
    have hpos := items_pos hi
    obtain ⟨s1, s2, s3⟩ := item_step hk hv hd body end_ (by simp at h4; omega) h2 h3
    obtain ⟨d, e1, e2⟩ := ih fuel _ (hd ++ t :: (k ++ 0 :: v)) end_ (show hd ++ t :: (k ++ 0 :: (v ++ body)) = _ by simp)
      (by simp at hf; omega) h2 h3 h4
    refine ⟨_ :: d, ?_, .cons (pre := hd) rfl e2⟩
    simp only [List.length_append, List.length_cons] at h2 h3 h4 hf e1
    unfold iterLoop
    rw [if_neg (by omega), s1]
    simp only [Res.bind_ok]
    rw [if_neg (loose_ne_zero hv), u32_small (n := hd.length + 1) (by omega), s2]
    simp only [Res.bind_ok]
    rw [u32_small (n := hd.length + 1 + (k.length + 1)) (by omega),
      show hd.length + 1 + (k.length + 1) = hd.length + k.length + 2 by omega, s3]
    simp only [Res.bind_ok]
    rw [u32_small (by omega), show hd.length + k.length + 2 + v.length = hd.length + (k.length + (v.length + 1) + 1) by omega, e1]
    rfl
  | @stub k v rest post hk hv e =>
    rintro (_ | fuel) b hd end_ rfl hf h2 h3 h4
    · omega
    obtain ⟨s1, s2, s3⟩ := stub_step hk hv e hd end_ (by simp at h4; omega) h2 h3
    refine ⟨[_], ?_, .cons (pre := hd) rfl .nil⟩
    simp only [List.length_append, List.length_cons] at h2 h3 h4 hf
    have e1 : iterLoop fuel (hd ++ (0x0F : UInt8) :: (k ++ 0 :: (v ++ 0 :: rest))) (hd.length + k.length + 2 + v.length) end_ = .ok [] := by
      match fuel, hf with
      | fuel + 1, hf =>
        unfold iterLoop
        rw [if_neg (by omega)]
        have := idx_append (hd ++ (0x0F : UInt8) :: (k ++ 0 :: v)) 0 rest
        simp only [List.append_assoc, List.cons_append, List.length_append, List.length_cons] at this
        rw [show hd.length + k.length + 2 + v.length = hd.length + (k.length + (v.length + 1) + 1) by omega, this]
        simp
    unfold iterLoop
    rw [if_neg (by omega), s1]
    simp only [Res.bind_ok]
    rw [if_neg (by decide), u32_small (n := hd.length + 1) (by omega), s2]
    simp only [Res.bind_ok]
    rw [u32_small (n := hd.length + 1 + (k.length + 1)) (by omega),
      show hd.length + 1 + (k.length + 1) = hd.length + k.length + 2 by omega, s3]
    simp only [Res.bind_ok]
    rw [u32_small (by omega), e1]
    rfl

theorem iterEnd_le32 {n : Nat} {body : Bytes} (h5 : body ≠ []) (h : n ≤ (le32 n ++ body).length) (hl : (le32 n ++ body).length < 2147483648) :
    iterEnd (le32 n ++ body) = .ok n := by
  have := List.length_pos_iff.mpr h5
  unfold iterEnd
  rw [if_neg (by simp; omega), readi32_le32_nat (by omega)]
  simp only [Res.bind_ok]
  rw [if_neg (by omega), u32i_nat (by omega)]

theorem readerEnd_le32 {n : Nat} {body : Bytes} (h5 : body ≠ []) (h : n ≤ (le32 n ++ body).length) (hl : (le32 n ++ body).length < 2147483648) :
    readerEnd (le32 n ++ body) = .ok n := by
  have := List.length_pos_iff.mpr h5
  unfold readerEnd
  rw [if_neg (by simp; omega), readi32_le32_nat (by omega)]
  simp only [Res.bind_ok]
  rw [if_neg (by omega), u32i_nat (by omega)]

theorem items_ne {es : List Item} {body rest : Bytes} (h : Items es body rest) : body ≠ [] := by
  have := items_pos h
  intro e; rw [e] at this; simp at this

theorem readDocument_accepted {b : Bytes} {es : List Item} {m : Nat} (h : Accepted b es m) (hl : b.length < 2147483648) :
    ∃ d, readDocument (b.length + 1) b = .ok d ∧ Shown b d es := by
  obtain ⟨n, body, rest, rfl, hi, hn, hm, hr⟩ := h
  obtain ⟨d, h1, h2⟩ := iterLoop_items hi ((le32 n ++ body).length + 1) _ (le32 n) n rfl (by simp; omega) hn hl (by omega)
  refine ⟨d, ?_, h2⟩
  unfold readDocument
  rw [iterEnd_le32 (items_ne hi) hn hl]
  exact h1

/-! ### what is read was accepted -/

theorem split_at {b : Bytes} {p : Nat} (h : p < b.length) : b = b.take p ++ b[p] :: b.drop (p + 1) := by
  rw [← List.drop_eq_getElem_cons, List.take_append_drop]

theorem stub_tail {m : Nat} {post : Bytes} (h : m < 4) : ∃ v rest, le32 m ++ post = v ++ 0 :: rest ∧ v.length = m := by
  refine ⟨(le32 m).take m, (le32 m ++ post).drop (m + 1), ?_, by simp; omega⟩
  match m, h with
  | 0, _ | 1, _ | 2, _ | 3, _ => rfl

theorem drop_eq_split {b x : Bytes} {p : Nat} (h : b.drop p = x) (hp : p ≤ b.length) : b = b.take p ++ x ∧ (b.take p).length = p := by
  refine ⟨by rw [← h, List.take_append_drop], by simp; omega⟩

theorem loose_embedded {t : UInt8} {v : Bytes} (h : Loose t v) (ht : t = 3 ∨ t = 4) : ∃ s, s ≠ [] ∧ v = le32 (s.length + 4) ++ s := by
  cases h with
  | embedded _ s _ hne => exact ⟨s, hne, rfl⟩
  | empty _ h => exfalso; rcases ht with rfl | rfl <;> simp at h
  | eight _ _ h => exfalso; rcases ht with rfl | rfl <;> simp at h
  | text _ _ h => exfalso; rcases ht with rfl | rfl <;> simp at h
  | _ => simp at ht

theorem rawReader_loose {t : UInt8} {v : Bytes} (h : Loose t v) (ht : t = 3 ∨ t = 4) (hd post : Bytes)
    (hl : (hd ++ (v ++ post)).length < 2147483648) : rawReader (hd ++ (v ++ post)) hd.length = .ok v := by
  obtain ⟨s, _, rfl⟩ := loose_embedded h ht
  simp only [List.length_append, le32_length] at hl
  have e5 := slice_rd4 hd (s ++ post) (s.length + 4) (by omega)
  unfold rawReader
  rw [List.append_assoc (le32 _), e5]
  simp only [Res.bind_ok]
  rw [readi32_le32_nat' (by omega)]
  simp only [Res.bind_ok]
  rw [u32i_nat (by omega), u32_small (by omega), ← List.append_assoc (le32 _)]
  exact slice_mid _ _ _ rfl (by simp; omega)

/-- one element that has been delimited by the readers -/
theorem item_sound {r : Bytes} {end_ pos n m : Nat} (htame : Tame r) (he : end_ ≤ r.length) (hl : r.length < 2147483648)
    (hpl : pos < r.length) (hp : pos < end_) (h1 : readerKey r (pos + 1) end_ = .ok n) (hm : rawSize r pos (pos + 1 + n) = .ok m)
    (hin : pos + 1 + n + m < end_) :
    ∃ k v, n = k.length + 1 ∧ v.length = m ∧ r = r.take pos ++ r[pos] :: (k ++ 0 :: (v ++ r.drop (pos + 1 + n + m))) ∧
      (r[pos] = 3 ∨ r[pos] = 4 → rawReader r (pos + 1 + n) = .ok v) ∧
      ∀ es rest, Items es (r.drop (pos + 1 + n + m)) rest → Items ((r[pos], k, v) :: es) (r.drop pos) rest := by
  obtain ⟨_, h2⟩ := readerKey_spec (r := r) (pos := pos + 1) (end_ := end_) (by omega) he
  obtain ⟨k, rest, hn, hk, hd, hle⟩ := h2 n h1
  obtain ⟨e1, e2⟩ := head_form hpl (idx_lt (b := r) (i := pos) hpl) hn hd
  have hlen : hasLength r[pos] = true → ∀ c, lenAt (r.drop (pos + 1 + n)) = some c → c + r.length < 2147483648 := fun hx c hc => htame _ _ _ _ e1 hk hx c (by rw [e2] at hc; exact hc)
  have hs := rawSize_sized (idx_lt (b := r) (i := pos) hpl) (by omega) hl hlen hm
  have hlenr : pos + 1 + n + rest.length = r.length := by
    have := congrArg List.length e2; simp at this; omega
  rcases hs with ⟨v, post, ev, hvm, hv⟩ | ⟨h0f, hm4, post, ep⟩ | hbig
  · rw [e2] at ev
    have e3 : r.drop (pos + 1 + n + m) = post := by
      rw [← List.drop_drop, e2, ev, ← hvm, List.drop_left]
    refine ⟨k, v, hn, hvm, by rw [e3, ← ev]; exact e1, ?_, ?_⟩
    · intro h34
      have er : r = (r.take pos ++ r[pos] :: (k ++ [0])) ++ (v ++ post) := by rw [← ev]; simpa using e1
      have hoff : pos + 1 + n = (r.take pos ++ r[pos] :: (k ++ [0])).length := by simp; omega
      rw [hoff]
      have := rawReader_loose hv h34 (r.take pos ++ r[pos] :: (k ++ [0])) post (by rw [← er]; exact hl)
      rwa [← er] at this
    · intro es rest' hi
      rw [e3] at hi
      rw [List.drop_eq_getElem_cons hpl, hd, ev]
      exact .item hk hv hi
  · rw [e2] at ep
    obtain ⟨v, rest0, ev, hvm⟩ := stub_tail (post := post) hm4
    subst hvm
    rw [ev] at ep
    have e3 : r.drop (pos + 1 + n + v.length) = 0 :: rest0 := by
      rw [← List.drop_drop, e2, ep, List.drop_left]
    refine ⟨k, v, hn, rfl, by rw [e3, ← ep]; exact e1, ?_, ?_⟩
    · intro h34; rw [h0f] at h34; simp at h34
    · intro es rest' hi
      rw [e3] at hi
      have hes : es = [] ∧ rest' = rest0 := by
        generalize hz : (0 : UInt8) :: rest0 = z at hi
        cases hi with
        | stop => simp at hz; exact ⟨rfl, hz.symm⟩
        | item _ hv _ => simp at hz; exact absurd hz.1.symm (loose_ne_zero hv)
        | stub => simp at hz
      obtain ⟨rfl, rfl⟩ := hes
      rw [List.drop_eq_getElem_cons hpl, hd, ep, h0f]
      exact .stub hk hm4 ev.symm
  · rw [e2] at hbig; omega

theorem rawSize_bound' {r : Bytes} {end_ pos n m : Nat} (htame : Tame r) (he : end_ ≤ r.length) (hl : r.length < 2147483648)
    (hpl : pos < r.length) (hp : pos < end_) (h1 : readerKey r (pos + 1) end_ = .ok n) (hm : rawSize r pos (pos + 1 + n) = .ok m) :
    pos + 1 + n ≤ end_ ∧ pos + 1 + n + m < 4294967296 := by
  obtain ⟨_, h2⟩ := readerKey_spec (r := r) (pos := pos + 1) (end_ := end_) (by omega) he
  obtain ⟨k, rest, hn, hk, hd, hle⟩ := h2 n h1
  obtain ⟨e1, e2⟩ := head_form hpl (idx_lt (b := r) (i := pos) hpl) hn hd
  have hlen : hasLength r[pos] = true → ∀ c, lenAt (r.drop (pos + 1 + n)) = some c → c + r.length < 2147483648 := fun hx c hc => htame _ _ _ _ e1 hk hx c (by rw [e2] at hc; exact hc)
  exact ⟨hle, rawSize_bound (idx_lt (b := r) (i := pos) hpl) (by omega) hl hlen hm⟩

theorem readerKey_le {r : Bytes} {end_ pos n : Nat} (he : end_ ≤ r.length) (hp : pos < end_) (h1 : readerKey r (pos + 1) end_ = .ok n) :
    pos + 1 + n ≤ end_ := by
  obtain ⟨_, h2⟩ := readerKey_spec (r := r) (pos := pos + 1) (end_ := end_) (by omega) he
  obtain ⟨k, rest, hn, hk, hd, hle⟩ := h2 n h1
  exact hle

theorem iterLoop_sound {r : Bytes} {end_ : Nat} (htame : Tame r) (he : end_ ≤ r.length) (hl : r.length < 2147483648) :
    ∀ fuel pos d, iterLoop fuel r pos end_ = .ok d →
      ∃ es rest, Items es (r.drop pos) rest ∧ pos < end_ ∧ r.length ≤ end_ + rest.length ∧ Shown r d es
  | 0, _, _, h => by simp [iterLoop] at h
  | fuel + 1, pos, d, h => by
    have ih := iterLoop_sound htame he hl fuel
    unfold iterLoop at h
    by_cases hp : pos ≥ end_
    · simp [hp] at h
    rw [if_neg hp, idx_lt (by omega)] at h
    simp only [Res.bind_ok] at h
    have hpl : pos < r.length := by omega
    by_cases ht : r[pos] = 0
    · rw [if_pos ht] at h
      cases h
      refine ⟨[], r.drop (pos + 1), ?_, by omega, by simp; omega, .nil⟩
      rw [List.drop_eq_getElem_cons hpl, ht]
      exact .stop _
    rw [if_neg ht, u32_small (n := pos + 1) (by omega)] at h
    obtain ⟨n, h1, h⟩ := Res.bind_eq_ok.mp h
    have hle := readerKey_le he (by omega) h1
    rw [u32_small (n := pos + 1 + n) (by omega)] at h
    obtain ⟨m, hm, h⟩ := Res.bind_eq_ok.mp h
    obtain ⟨_, hb⟩ := rawSize_bound' htame he hl hpl (by omega) h1 hm
    rw [u32_small hb] at h
    obtain ⟨d', hd', h⟩ := Res.bind_eq_ok.mp h
    cases h
    obtain ⟨es, rest, hi, hin, hre, hsh⟩ := ih _ _ hd'
    obtain ⟨k, v, hn, hvm, er, _, hit⟩ := item_sound htame he hl hpl (by omega) h1 hm hin
    refine ⟨(r[pos], k, v) :: es, rest, hit _ _ hi, by omega, hre, ?_⟩
    have := Shown.cons (pre := r.take pos) er hsh
    have hpos : (r.take pos).length = pos := by simp; omega
    rw [hpos, show pos + k.length + 2 = pos + 1 + n by omega] at this
    exact this

theorem lenAt_some {b : Bytes} (h : 4 ≤ b.length) : ∃ n, lenAt b = some n := by
  match b, h with
  | _ :: _ :: _ :: _ :: _, _ => exact ⟨_, rfl⟩

theorem lenAt_iterEnd {b : Bytes} {e : Nat} (hn : ∀ n, lenAt b = some n → n < 2147483648) (h : iterEnd b = .ok e) :
    e ≤ b.length ∧ b = le32 e ++ b.drop 4 := by
  unfold iterEnd at h
  split at h
  · cases h
  · rename_i h5
    have h4 : 4 ≤ b.length := by omega
    obtain ⟨n, hl⟩ := lenAt_some h4
    have hn' := hn n hl
    obtain ⟨_, e1⟩ := lenAt_le32 hl
    rw [(congrArg readi32 e1).trans (readi32_le32_nat hn' _), Res.bind_ok] at h
    split at h
    · cases h
    · rw [u32i_nat (by omega)] at h
      cases h
      exact ⟨by omega, e1⟩

theorem readDocument_sound {b : Bytes} (htame : Tame b) (hl : b.length < 2147483648) (hn : ∀ n, lenAt b = some n → n < 2147483648)
    {fuel : Nat} {d : Doc} (h : readDocument fuel b = .ok d) : ∃ es m, Accepted b es m ∧ Shown b d es := by
  unfold readDocument at h
  obtain ⟨e, he, h⟩ := Res.bind_eq_ok.mp h
  obtain ⟨he', eb⟩ := lenAt_iterEnd hn he
  obtain ⟨es, rest, hi, h4, hr, hs⟩ := iterLoop_sound htame he' hl _ _ _ h
  have hp := items_pos hi
  simp at hp
  exact ⟨es, b.length - rest.length, ⟨e, _, rest, eb, hi, he', by omega, by omega⟩, hs⟩

/-! ### `Reader.Validate` -/

theorem validateLoop_items {es : List Item} {body rest : Bytes} (h : Items es body rest) : ∀ (fuel : Nat) (b hd : Bytes) (end_ : Nat),
    b = hd ++ body → body.length < fuel → end_ ≤ b.length → b.length < 2147483648 → b.length ≤ end_ + rest.length →
    (∀ e ∈ es, e.1 = 0x03 ∨ e.1 = 0x04 → ∀ f, e.2.2.length < f → ∃ m, readerValidate f e.2.2 = .ok m) →
    validateLoop fuel b hd.length end_ = .ok (b.length - rest.length) := by
  induction h with
  | stop rest =>
    rintro (_ | fuel) b hd end_ rfl hf h2 h3 h4 _
    · omega
    unfold validateLoop
    simp at h4 h2 h3
    rw [if_neg (by omega), idx_append]
    simp
    rw [u32_small (by omega)]; omega
  | @item t k v es body rest hk hv hi ih =>
    rintro (_ | fuel) b hd end_ rfl hf h2 h3 h4 hsub
    · omega
    have hpos := items_pos hi
    obtain ⟨s1, s2, s3⟩ := item_step hk hv hd body end_ (by simp at h4; omega) h2 h3
    have e1 := ih fuel _ (hd ++ t :: (k ++ 0 :: v)) end_ (show hd ++ t :: (k ++ 0 :: (v ++ body)) = _ by simp)
      (by simp at hf; omega) h2 h3 h4 (fun e he => hsub e (List.mem_cons_of_mem _ he))
    generalize hB : (hd ++ t :: (k ++ 0 :: (v ++ body))).length - rest.length = B at e1 ⊢
    clear hB
    have hsub' := hsub (t, k, v) (by simp)
    have hrd : t = 3 ∨ t = 4 → rawReader (hd ++ t :: (k ++ 0 :: (v ++ body))) (hd.length + k.length + 2) = .ok v := by
      intro h34
      have := rawReader_loose hv h34 (hd ++ t :: (k ++ [0])) body (by simp at h3 ⊢; omega)
      simpa [Nat.add_assoc] using this
    simp only [List.length_append, List.length_cons] at h2 h3 h4 hf e1
    unfold validateLoop
    rw [if_neg (by omega), s1]
    simp only [Res.bind_ok]
    rw [if_neg (loose_ne_zero hv), u32_small (n := hd.length + 1) (by omega), s2]
    simp only [Res.bind_ok]
    rw [u32_small (n := hd.length + 1 + (k.length + 1)) (by omega),
      show hd.length + 1 + (k.length + 1) = hd.length + k.length + 2 by omega, s3]
    simp only [Res.bind_ok]
    rw [u32_small (by omega), show hd.length + k.length + 2 + v.length = hd.length + (k.length + (v.length + 1) + 1) by omega, e1]
    by_cases h34 : t = 3 ∨ t = 4
    · rw [if_pos h34, hrd h34]
      simp only [Res.bind_ok]
      obtain ⟨m, hm⟩ := hsub' h34 fuel (by simp; omega)
      unfold readerValidate at hm
      obtain ⟨e, he, hm⟩ := Res.bind_eq_ok.mp hm
      rw [he]
      simp only [Res.bind_ok]
      rw [hm]
      rfl
    · rw [if_neg h34]
  | @stub k v rest post hk hv e =>
    rintro (_ | fuel) b hd end_ rfl hf h2 h3 h4 _
    · omega
    obtain ⟨s1, s2, s3⟩ := stub_step hk hv e hd end_ (by simp at h4; omega) h2 h3
    simp only [List.length_append, List.length_cons] at h2 h3 h4 hf ⊢
    have e1 : validateLoop fuel (hd ++ (0x0F : UInt8) :: (k ++ 0 :: (v ++ 0 :: rest))) (hd.length + k.length + 2 + v.length) end_ =
        .ok (hd.length + k.length + 2 + v.length + 1) := by
      match fuel, hf with
      | fuel + 1, hf =>
        unfold validateLoop
        rw [if_neg (by omega)]
        have := idx_append (hd ++ (0x0F : UInt8) :: (k ++ 0 :: v)) 0 rest
        simp only [List.append_assoc, List.cons_append, List.length_append, List.length_cons] at this
        rw [show hd.length + k.length + 2 + v.length = hd.length + (k.length + (v.length + 1) + 1) by omega, this]
        simp
        rw [u32_small (by omega)]
    unfold validateLoop
    rw [if_neg (by omega), s1]
    simp only [Res.bind_ok]
    rw [if_neg (by decide), u32_small (n := hd.length + 1) (by omega), s2]
    simp only [Res.bind_ok]
    rw [u32_small (n := hd.length + 1 + (k.length + 1)) (by omega),
      show hd.length + 1 + (k.length + 1) = hd.length + k.length + 2 by omega, s3]
    simp only [Res.bind_ok]
    rw [u32_small (by omega), e1, if_neg (by decide)]
    congr 1; omega

theorem items_length {es : List Item} {body rest : Bytes} (h : Items es body rest) : ∀ e ∈ es, e.2.2.length < body.length := by
  induction h with
  | stop => simp
  | item _ _ _ ih =>
    intro e he
    rcases List.mem_cons.mp he with rfl | he
    · simp; omega
    · have := ih e he; simp; omega
  | stub _ _ _ =>
    intro e he
    rw [List.mem_singleton.mp he]; simp; omega

theorem readerValidate_accepted {b : Bytes} {es : List Item} {m : Nat} (h : Accepted b es m) (hl : b.length < 2147483648)
    (hsub : ∀ e ∈ es, e.1 = 0x03 ∨ e.1 = 0x04 → ∀ f, e.2.2.length < f → ∃ m, readerValidate f e.2.2 = .ok m) {fuel : Nat} (hf : b.length < fuel) :
    readerValidate fuel b = .ok m := by
  obtain ⟨n, body, rest, rfl, hi, hn, hm, hr⟩ := h
  have := validateLoop_items hi fuel _ (le32 n) n rfl (by simp at hf; omega) hn hl (by omega) hsub
  unfold readerValidate
  rw [readerEnd_le32 (items_ne hi) hn hl]
  simp only [Res.bind_ok]
  rw [le32_length] at this
  rw [this]; congr 1; omega

theorem readerValidate_deep {b : Bytes} (h : Deep b) : b.length < 2147483648 → ∀ fuel, b.length < fuel → ∃ m, readerValidate fuel b = .ok m := by
  induction h with
  | @intro b es m ha _ ih =>
    intro hl fuel hf
    refine ⟨m, readerValidate_accepted ha hl (fun e he h34 f hf => ih e he h34 ?_ f hf) hf⟩
    obtain ⟨n, body, rest, rfl, hi, _⟩ := ha
    have := items_length hi e he
    simp at hl; omega

theorem lenAt_readerEnd {b : Bytes} {e : Nat} (hl : b.length < 2147483648) (h : readerEnd b = .ok e) :
    e ≤ b.length ∧ b = le32 e ++ b.drop 4 := by
  unfold readerEnd at h
  split at h
  · cases h
  · rename_i h5
    have h4 : 4 ≤ b.length := by omega
    obtain ⟨n, hn⟩ := lenAt_some h4
    obtain ⟨hn4, e1⟩ := lenAt_le32 hn
    have hr : readi32 b = .ok (i32 n) :=
      (congrArg readi32 e1).trans (by unfold readi32; rw [rdU32_le32 hn4]; rfl)
    rw [hr, Res.bind_ok] at h
    split at h
    · cases h
    · rename_i h6
      have : n < 2147483648 := by
        simp only [i32] at h6; omega
      rw [i32_of_nat this] at h6 h
      rw [u32i_nat (by omega)] at h
      cases h
      exact ⟨by omega, e1⟩

theorem validateLoop_sound : ∀ (fuel : Nat) (r : Bytes) (pos end_ m : Nat), Tame r → end_ ≤ r.length → r.length < 2147483648 →
    validateLoop fuel r pos end_ = .ok m →
      ∃ es rest, Items es (r.drop pos) rest ∧ pos < end_ ∧ r.length ≤ end_ + rest.length ∧ m + rest.length = r.length ∧
        ∀ e ∈ es, e.1 = 0x03 ∨ e.1 = 0x04 → Deep e.2.2
  | 0, _, _, _, _, _, _, _, h => by simp [validateLoop] at h
  | fuel + 1, r, pos, end_, m', htame, he, hl, h => by
    have ih := validateLoop_sound fuel
    unfold validateLoop at h
    by_cases hp : pos ≥ end_
    · simp [hp] at h
    rw [if_neg hp, idx_lt (by omega)] at h
    simp only [Res.bind_ok] at h
    have hpl : pos < r.length := by omega
    by_cases ht : r[pos] = 0
    · rw [if_pos ht, u32_small (by omega)] at h
      cases h
      refine ⟨[], r.drop (pos + 1), ?_, by omega, by simp; omega, by simp; omega, by simp⟩
      rw [List.drop_eq_getElem_cons hpl, ht]
      exact .stop _
    rw [if_neg ht, u32_small (n := pos + 1) (by omega)] at h
    obtain ⟨n, h1, h⟩ := Res.bind_eq_ok.mp h
    have hle := readerKey_le he (by omega) h1
    rw [u32_small (n := pos + 1 + n) (by omega)] at h
    obtain ⟨m, hm, h⟩ := Res.bind_eq_ok.mp h
    obtain ⟨_, hb⟩ := rawSize_bound' htame he hl hpl (by omega) h1 hm
    rw [u32_small hb] at h
    by_cases h34 : r[pos] = 3 ∨ r[pos] = 4
    · rw [if_pos h34] at h
      obtain ⟨sub, hsub, h⟩ := Res.bind_eq_ok.mp h
      obtain ⟨e, hee, h⟩ := Res.bind_eq_ok.mp h
      obtain ⟨ms, hms, h⟩ := Res.bind_eq_ok.mp h
      obtain ⟨es, rest, hi, hin, hre, hmr, hdeep⟩ := ih r _ end_ m' htame he hl h
      obtain ⟨k, v, hn, hvm, er, hrd, hit⟩ := item_sound htame he hl hpl (by omega) h1 hm hin
      rw [hrd h34] at hsub
      cases hsub
      refine ⟨(r[pos], k, sub) :: es, rest, hit _ _ hi, by omega, hre, hmr, ?_⟩
      have hvl : sub.length ≤ r.length := by
        have := congrArg List.length er; simp at this; omega
      obtain ⟨hel, eb⟩ := lenAt_readerEnd (by omega) hee
      have hts : Tame sub := by
        refine tame_slice (b := r) (lo := pos + 1 + n) (hi := pos + 1 + n + sub.length) htame ?_
        have e7 := slice_mid (r.take pos ++ r[pos] :: (k ++ [0])) sub (r.drop (pos + 1 + n + m)) (lo := pos + 1 + n)
          (hi := pos + 1 + n + sub.length) (by simp; omega) (by simp; omega)
        rw [show (r.take pos ++ r[pos] :: (k ++ [0])) ++ (sub ++ r.drop (pos + 1 + n + m)) = r by simpa using er.symm] at e7
        exact e7
      obtain ⟨es', rest', hi', h4', hre', hmr', hdeep'⟩ := ih sub 4 e ms hts hel (by omega) hms
      have hdp : Deep sub := .intro ⟨e, _, rest', eb, hi', hel, by omega, hmr'⟩ hdeep'
      intro x hx h34x
      rcases List.mem_cons.mp hx with rfl | hx
      · exact hdp
      · exact hdeep x hx h34x
    · rw [if_neg h34] at h
      obtain ⟨es, rest, hi, hin, hre, hmr, hdeep⟩ := ih r _ end_ m' htame he hl h
      obtain ⟨k, v, hn, hvm, er, hrd, hit⟩ := item_sound htame he hl hpl (by omega) h1 hm hin
      refine ⟨(r[pos], k, v) :: es, rest, hit _ _ hi, by omega, hre, hmr, ?_⟩
      intro x hx h34x
      rcases List.mem_cons.mp hx with rfl | hx
      · exact absurd h34x h34
      · exact hdeep x hx h34x

theorem readerValidate_sound {b : Bytes} (htame : Tame b) (hl : b.length < 2147483648)
    {fuel m : Nat} (h : readerValidate fuel b = .ok m) :
    ∃ es, Accepted b es m ∧ ∀ e ∈ es, e.1 = 0x03 ∨ e.1 = 0x04 → Deep e.2.2 := by
  unfold readerValidate at h
  obtain ⟨e, he, h⟩ := Res.bind_eq_ok.mp h
  obtain ⟨he', eb⟩ := lenAt_readerEnd hl he
  obtain ⟨es, rest, hi, h4, hr, hm, hs⟩ := validateLoop_sound _ _ _ _ _ htame he' hl h
  exact ⟨es, ⟨e, _, rest, eb, hi, he', by omega, hm⟩, hs⟩

end Birch.Proofs
