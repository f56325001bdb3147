import Verif.Proofs.Basic
import Verif.Proofs.Returns
import Verif.Model.Access
import Verif.Spec.Tame

/- No panics and termination of the reading loops. -/

namespace Birch.Proofs
open Birch Model Spec

attribute [local irreducible] i32 u32 u32i u64i i64
set_option linter.unusedSimpArgs false
set_option linter.unusedVariables false

/-- a value or an error: neither a panic nor an unfinished run -/
def Safe {α : Type} (r : Res α) : Prop := (∃ a, r = .ok a) ∨ (∃ e, r = .err e)

theorem Safe.ok {α : Type} (a : α) : Safe (.ok a) := .inl ⟨a, rfl⟩
theorem Safe.err {α : Type} (e : Err) : Safe (.err e : Res α) := .inr ⟨e, rfl⟩

theorem Safe.bind {α β : Type} {x : Res α} {f : α → Res β} (hx : Safe x) (hf : ∀ a, x = .ok a → Safe (f a)) :
    Safe (x >>= f) := by
  rcases hx with ⟨a, rfl⟩ | ⟨e, rfl⟩
  · exact hf a rfl
  · exact .err e

theorem Safe.ite {α : Type} {c : Prop} [Decidable c] {x y : Res α} (hx : c → Safe x) (hy : ¬ c → Safe y) :
    Safe (if c then x else y) := by
  split
  · exact hx ‹_›
  · exact hy ‹_›

theorem idx_lt {b : Bytes} {i : Nat} (h : i < b.length) : idx b i = .ok b[i] := idx_eq (List.getElem?_eq_getElem h)

theorem slice_ok {b : Bytes} {lo hi : Nat} (h1 : lo ≤ hi) (h2 : hi ≤ b.length) : slice b lo hi = .ok ((b.take hi).drop lo) := by
  unfold slice; rw [if_pos ⟨h1, h2⟩]

theorem rdU32_ok {b : Bytes} (h : 4 ≤ b.length) : ∃ n, rdU32 b = .ok n := by
  match b, h with
  | a :: b :: c :: d :: _, _ => exact ⟨_, rfl⟩

theorem readi32_ok {b : Bytes} (h : 4 ≤ b.length) : ∃ n, readi32 b = .ok n := by
  obtain ⟨n, hn⟩ := rdU32_ok h
  exact ⟨i32 n, by unfold readi32; rw [hn]; rfl⟩

/-- reading a length field that is inside the data -/
theorem readLen {data : Bytes} {off : Nat} (h : off + 4 ≤ data.length) (hl : data.length < 2147483648) :
    ∃ n, lenAt (data.drop off) = some n ∧ (slice data off (u32 (off + 4)) >>= readi32) = .ok (i32 (n : Int)) := by
  rw [u32_small (by omega), slice_ok (by omega) h]
  simp only [Res.bind_ok]
  have e : (data.take (off + 4)).drop off = (data.drop off).take 4 := by rw [List.drop_take]; congr 1; omega
  rw [e]
  have : 4 ≤ (data.drop off).length := by simp; omega
  match data.drop off, this with
  | a :: b :: c :: d :: rest, _ => exact ⟨_, rfl, rfl⟩

theorem rawSize_safe {data : Bytes} {pos off : Nat} (hp : pos < data.length) (ho : off ≤ data.length)
    (hl : data.length < 2147483648) : Safe (rawSize data pos off) := by
  unfold rawSize
  have hne : data ≠ [] := by rintro rfl; simp at hp
  rw [if_neg hne, idx_lt hp]
  simp only [Res.bind_ok]
  generalize data[pos] = t
  have rl : ∀ {β : Type} (f : Int → Res β), ¬ data.length < u32 (off + 4) → (∀ l, Safe (f l)) →
      Safe (slice data off (u32 (off + 4)) >>= fun x => readi32 x >>= f) := by
    intro β f h1 hf
    rw [u32_small (by omega)] at h1
    obtain ⟨n, _, h2⟩ := readLen (data := data) (off := off) (by omega) hl
    have : (slice data off (u32 (off + 4)) >>= fun x => readi32 x >>= f) = ((slice data off (u32 (off + 4)) >>= readi32) >>= f) := by
      cases slice data off (u32 (off + 4)) <;> rfl
    rw [this, h2]; exact hf _
  refine Safe.ite (fun _ => .ok _) fun _ => ?_
  refine Safe.ite (fun _ => Safe.ite (fun _ => .err _) fun _ => .ok _) fun _ => ?_
  refine Safe.ite (fun _ => Safe.ite (fun _ => .err _) fun h => rl _ h fun l => Safe.ite (fun _ => .err _) fun _ => .ok _) fun _ => ?_
  refine Safe.ite (fun _ => Safe.ite (fun _ => .err _) fun h => rl _ h fun l => Safe.ite (fun _ => .err _) fun _ =>
    Safe.ite (fun _ => .err _) fun _ => .ok _) fun _ => ?_
  refine Safe.ite (fun _ => Safe.ite (fun _ => .err _) fun h => ?_) fun _ => ?_
  · rw [u32_small (by omega)] at h
    refine rl _ (by rw [u32_small (by omega)]; omega) fun l => ?_
    rw [u32_small (by omega), idx_lt (by omega)]
    exact Safe.ite (fun _ => .err _) fun _ => Safe.ite (fun _ => .err _) fun _ => .ok _
  refine Safe.ite (fun _ => Safe.ite (fun _ => .err _) fun _ => .ok _) fun _ => ?_
  refine Safe.ite (fun _ => Safe.ite (fun _ => .err _) fun h => ?_) fun _ => ?_
  · rw [u32_small (by omega)] at h
    rw [idx_lt (by omega)]
    exact Safe.ite (fun _ => .err _) fun _ => .ok _
  refine Safe.ite (fun _ => Safe.ite (fun _ => .err _) fun _ => .ok _) fun _ => ?_
  refine Safe.ite (fun _ => ?_) fun _ => ?_
  · rw [if_neg (by omega)]
    exact Safe.ite (fun _ => .err _) fun _ => Safe.ite (fun _ => .err _) fun _ => .ok _
  refine Safe.ite (fun _ => Safe.ite (fun _ => .err _) fun h => rl _ h fun l => Safe.ite (fun _ => .err _) fun _ => .ok _) fun _ => ?_
  refine Safe.ite (fun _ => Safe.ite (fun _ => .err _) fun h => rl _ h fun l => Safe.ite (fun _ => .err _) fun _ => .ok _) fun _ => ?_
  refine Safe.ite (fun _ => Safe.ite (fun _ => .err _) fun _ => .ok _) fun _ => ?_
  refine Safe.ite (fun _ => Safe.ite (fun _ => .err _) fun _ => .ok _) fun _ => ?_
  refine Safe.ite (fun _ => Safe.ite (fun _ => .err _) fun _ => .ok _) fun _ => ?_
  exact .err _

/-- every result of the run satisfies `p` -/
def All {α : Type} (p : α → Prop) (r : Res α) : Prop := ∀ a, r = .ok a → p a

theorem All.ok {α : Type} {p : α → Prop} {a : α} (h : p a) : All p (.ok a) := by rintro b ⟨⟩; exact h
theorem All.err {α : Type} {p : α → Prop} (e : Err) : All p (.err e) := by rintro b ⟨⟩
theorem All.panic {α : Type} {p : α → Prop} : All p .panic := by rintro b ⟨⟩
theorem All.ite {α : Type} {p : α → Prop} {c : Prop} [Decidable c] {x y : Res α} (hx : c → All p x) (hy : ¬ c → All p y) :
    All p (if c then x else y) := by
  split
  · exact hx ‹_›
  · exact hy ‹_›
theorem All.bind {α β : Type} {p : β → Prop} {x : Res α} {f : α → Res β} (hf : ∀ a, x = .ok a → All p (f a)) :
    All p (x >>= f) := by
  cases x with
  | ok a => exact hf a rfl
  | err e => exact .err e
  | panic => exact .panic
  | oof => rintro b ⟨⟩

theorem cstrAt_le (b : Bytes) (i : Nat) : (cstrAt b i).length ≤ b.length - i := by
  unfold cstrAt
  have := (List.takeWhile_prefix (p := fun c : UInt8 => decide (c ≠ 0)) (l := b.drop i)).length_le
  simpa using this

theorem rawSize_bound {data : Bytes} {pos off m : Nat} {t : UInt8} (hp : idx data pos = .ok t) (ho : off ≤ data.length)
    (hl : data.length < 2147483648)
    (hlen : hasLength t = true → ∀ n, lenAt (data.drop off) = some n → n + data.length < 2147483648)
    (h : rawSize data pos off = .ok m) : off + m < 4294967296 := by
  suffices hs : All (fun m => off + m < 4294967296) (rawSize data pos off) from hs m h
  clear h
  unfold rawSize
  refine All.ite (fun _ => .err _) fun hne => ?_
  rw [hp]
  simp only [Res.bind_ok]
  have rl : ∀ {p : Nat → Prop} (f : Int → Res Nat), hasLength t = true → ¬ data.length < u32 (off + 4) →
      (∀ n : Nat, n + data.length < 2147483648 → off + 4 ≤ data.length → All p (f n)) →
      All p (slice data off (u32 (off + 4)) >>= fun x => readi32 x >>= f) := by
    intro p f ht h1 hf
    rw [u32_small (by omega)] at h1
    obtain ⟨n, h3, h2⟩ := readLen (data := data) (off := off) (by omega) hl
    have : (slice data off (u32 (off + 4)) >>= fun x => readi32 x >>= f) = ((slice data off (u32 (off + 4)) >>= readi32) >>= f) := by
      cases slice data off (u32 (off + 4)) <;> rfl
    have h4 := hlen ht n h3
    rw [this, h2, i32_of_nat (by omega)]
    exact hf n h4 (by omega)
  refine All.ite (fun _ => .ok (by omega)) fun _ => ?_
  refine All.ite (fun _ => All.ite (fun _ => .err _) fun _ => .ok (by omega)) fun _ => ?_
  refine All.ite (fun ht => All.ite (fun _ => .err _) fun h => rl _ (by simp only [hasLength]; grind) h fun n h1 h2 =>
    All.ite (fun _ => .err _) fun _ => .ok ?_) fun _ => ?_
  · rw [u32i_nat (by omega), u32_small (by omega)]; omega
  refine All.ite (fun ht => All.ite (fun _ => .err _) fun h => rl _ (by simp only [hasLength]; grind) h fun n h1 h2 =>
    All.ite (fun _ => .err _) fun h5 => All.ite (fun _ => .err _) fun _ => .ok ?_) fun _ => ?_
  · rw [u32i_nat (by omega), u32i_small (by omega) (by omega), u32_small (by omega)]; omega
  refine All.ite (fun ht => All.ite (fun _ => .err _) fun h => rl _ (by simp only [hasLength]; grind) ?_ fun n h1 h2 => ?_) fun _ => ?_
  · rw [u32_small (by omega)] at h ⊢; omega
  · refine All.bind fun st _ => All.ite (fun _ => .err _) fun h5 => All.ite (fun _ => .err _) fun _ => .ok ?_
    rw [u32i_nat (by omega), u32_small (by omega)]; omega
  refine All.ite (fun _ => All.ite (fun _ => .err _) fun _ => .ok (by omega)) fun _ => ?_
  refine All.ite (fun _ => All.ite (fun _ => .err _) fun h => All.bind fun _ _ => All.ite (fun _ => .err _) fun _ => .ok (by omega)) fun _ => ?_
  refine All.ite (fun _ => All.ite (fun _ => .err _) fun _ => .ok (by omega)) fun _ => ?_
  refine All.ite (fun _ => All.ite (fun _ => .panic) fun _ => All.ite (fun _ => .err _) fun _ => All.ite (fun _ => .err _) fun _ => .ok ?_) fun _ => ?_
  · have h1 := cstrAt_le data off
    have h2 := cstrAt_le data (off + (cstrAt data off).length + 1)
    rw [u32_small (by omega)]; omega
  refine All.ite (fun ht => All.ite (fun _ => .err _) fun h => rl _ (by simp only [hasLength]; grind) h fun n h1 h2 =>
    All.ite (fun _ => .err _) fun _ => .ok ?_) fun _ => ?_
  · rw [u32i_nat (by omega), u32_small (by omega)]; omega
  refine All.ite (fun ht => All.ite (fun _ => .err _) fun h => rl _ (by simp only [hasLength]; grind) h fun n h1 h2 =>
    All.ite (fun _ => .err _) fun _ => .ok ?_) fun _ => ?_
  · rw [u32i_nat (by omega)]
    have : u32 (4 + u32i ((n : Int) - 4)) = n := by unfold u32 u32i; omega
    rw [this]; omega
  refine All.ite (fun _ => All.ite (fun _ => .err _) fun _ => .ok (by omega)) fun _ => ?_
  refine All.ite (fun _ => All.ite (fun _ => .err _) fun _ => .ok (by omega)) fun _ => ?_
  refine All.ite (fun _ => All.ite (fun _ => .err _) fun _ => .ok (by omega)) fun _ => ?_
  exact .err _

theorem takeWhile_split (l : Bytes) : ∃ k rest, l = k ++ rest ∧ NulFree k ∧ l.takeWhile (· ≠ 0) = k ∧ (rest = [] ∨ ∃ tl, rest = 0 :: tl) := by
  induction l with
  | nil => exact ⟨[], [], rfl, by simp [NulFree], rfl, .inl rfl⟩
  | cons c l ih =>
    by_cases hc : c = 0
    · subst hc
      exact ⟨[], 0 :: l, rfl, by simp [NulFree], by simp, .inr ⟨l, rfl⟩⟩
    · obtain ⟨k, rest, e, hk, ht, hr⟩ := ih
      refine ⟨c :: k, rest, by rw [e]; rfl, ?_, ?_, hr⟩
      · intro x hx
        rcases List.mem_cons.mp hx with rfl | hx
        · exact hc
        · exact hk x hx
      · rw [List.takeWhile_cons_of_pos (by simpa using hc), ht]

theorem readerKey_spec {r : Bytes} {pos end_ : Nat} (hp : pos ≤ end_) (he : end_ ≤ r.length) :
    Safe (readerKey r pos end_) ∧ ∀ n, readerKey r pos end_ = .ok n →
      ∃ k rest, n = k.length + 1 ∧ NulFree k ∧ r.drop pos = k ++ 0 :: rest ∧ pos + n ≤ end_ := by
  unfold readerKey
  obtain ⟨k, rest, e, hk, ht, hr⟩ := takeWhile_split ((r.take end_).drop pos)
  have hlen : k.length + rest.length = end_ - pos := by
    have := congrArg List.length e
    simp at this; omega
  rw [ht]
  simp only
  by_cases h1 : pos + k.length = end_
  · rw [if_pos h1]
    exact ⟨.err _, by rintro n ⟨⟩⟩
  · rw [if_neg h1, if_neg (by omega)]
    refine ⟨.ok _, ?_⟩
    rintro n ⟨⟩
    rcases hr with rfl | ⟨tl, rfl⟩
    · simp at hlen; omega
    · refine ⟨k, tl ++ r.drop end_, rfl, hk, ?_, by simp at hlen; omega⟩
      have : r.drop pos = (r.take end_).drop pos ++ r.drop end_ := by
        conv => lhs; rw [← List.take_append_drop end_ r]
        rw [List.drop_append_of_le_length (by simp; omega)]
      rw [this, e]; simp

/-- what the two loops know when they reach an element -/
theorem head_form {r : Bytes} {pos n : Nat} {t : UInt8} (hp : pos < r.length) (ht : idx r pos = .ok t) {k rest : Bytes}
    (hn : n = k.length + 1) (hd : r.drop (pos + 1) = k ++ 0 :: rest) :
    r = r.take pos ++ t :: (k ++ 0 :: rest) ∧ r.drop (pos + 1 + n) = rest := by
  rw [idx_lt hp] at ht
  injection ht with ht
  refine ⟨?_, ?_⟩
  · rw [← hd, ← ht, ← List.drop_eq_getElem_cons, List.take_append_drop]
  · rw [← List.drop_drop, hd, hn]
    rw [show k ++ 0 :: rest = (k ++ [0]) ++ rest by simp]
    exact List.drop_left' (by simp)

/-- Reading never panics once the declared length is inside the input. -/
theorem iterLoop_noPanic {r : Bytes} {end_ : Nat} (he : end_ ≤ r.length) (hl : r.length < 2147483648) :
    ∀ fuel pos, iterLoop fuel r pos end_ ≠ .panic
  | 0, _ => by simp [iterLoop]
  | fuel + 1, pos => by
    have ih := iterLoop_noPanic he hl fuel
    unfold iterLoop
    by_cases hp : pos ≥ end_
    · simp [hp]
    rw [if_neg hp, idx_lt (by omega)]
    simp only [Res.bind_ok]
    by_cases ht : r[pos] = 0
    · simp [ht]
    rw [if_neg ht]
    obtain ⟨h1, h2⟩ := readerKey_spec (r := r) (pos := pos + 1) (end_ := end_) (by omega) he
    rw [u32_small (n := pos + 1) (by omega)]
    rcases h1 with ⟨n, h1⟩ | ⟨e, h1⟩
    · obtain ⟨k, rest, hn, hk, hd, hle⟩ := h2 n h1
      rw [h1]
      simp only [Res.bind_ok]
      rw [u32_small (by omega)]
      rcases rawSize_safe (data := r) (pos := pos) (off := pos + 1 + n) (by omega) (by omega) hl with ⟨m, hm⟩ | ⟨e, hm⟩
      · rw [hm]
        simp only [Res.bind_ok]
        have := ih (u32 (pos + 1 + n + m))
        cases hh : iterLoop fuel r (u32 (pos + 1 + n + m)) end_ <;> simp [hh] at this ⊢
      · rw [hm]; simp
    · rw [h1]; simp

theorem iterLoop_finishes {r : Bytes} {end_ : Nat} (htame : Tame r) (he : end_ ≤ r.length) (hl : r.length < 2147483648) :
    ∀ fuel pos, r.length - pos < fuel → iterLoop fuel r pos end_ ≠ .oof
  | 0, _, hf => by omega
  | fuel + 1, pos, hf => by
    have ih := iterLoop_finishes htame he hl fuel
    unfold iterLoop
    by_cases hp : pos ≥ end_
    · simp [hp]
    rw [if_neg hp, idx_lt (by omega)]
    simp only [Res.bind_ok]
    by_cases ht : r[pos] = 0
    · simp [ht]
    rw [if_neg ht]
    obtain ⟨h1, h2⟩ := readerKey_spec (r := r) (pos := pos + 1) (end_ := end_) (by omega) he
    rw [u32_small (n := pos + 1) (by omega)]
    rcases h1 with ⟨n, h1⟩ | ⟨e, h1⟩
    · obtain ⟨k, rest, hn, hk, hd, hle⟩ := h2 n h1
      rw [h1]
      simp only [Res.bind_ok]
      rw [u32_small (by omega)]
      rcases rawSize_safe (data := r) (pos := pos) (off := pos + 1 + n) (by omega) (by omega) hl with ⟨m, hm⟩ | ⟨e, hm⟩
      · obtain ⟨e1, e2⟩ := head_form (by omega) (idx_lt (b := r) (i := pos) (by omega)) hn hd
        have hb := rawSize_bound (idx_lt (b := r) (i := pos) (by omega)) (by omega) hl
          (fun hx c hc => htame _ _ _ _ e1 hk hx c (by rw [e2] at hc; exact hc)) hm
        rw [hm]
        simp only [Res.bind_ok]
        rw [u32_small hb]
        have := ih (pos + 1 + n + m) (by omega)
        cases hh : iterLoop fuel r (pos + 1 + n + m) end_ <;> simp [hh] at this ⊢
      · rw [hm]; simp
    · rw [h1]; simp

/-- a window of a tame input is tame -/
theorem tame_slice {b x : Bytes} {lo hi : Nat} (h : Tame b) (hs : slice b lo hi = .ok x) : Tame x := by
  unfold Birch.slice at hs
  split at hs
  · rename_i hlo
    injection hs with hs
    intro pre k rest t e hk ht n hn
    have e0 : b = b.take lo ++ (x ++ b.drop hi) := by
      rw [← hs]
      have : b.drop lo = (b.take hi).drop lo ++ b.drop hi := by
        conv => lhs; rw [← List.take_append_drop hi b]
        rw [List.drop_append_of_le_length (by simp; omega)]
      rw [← this, List.take_append_drop]
    have hxl : x.length ≤ b.length := by rw [← hs]; simp; omega
    have := h (b.take lo ++ pre) k (rest ++ b.drop hi) t (by conv => lhs; rw [e0, e]
                                                             simp) hk ht n (by
      match rest, hn with
      | a :: b :: c :: d :: _, hn => exact hn)
    omega
  · cases hs

theorem readerEnd_safe {r : Bytes} : Safe (readerEnd r) := by
  unfold readerEnd
  refine Safe.ite (fun _ => .err _) fun h => ?_
  obtain ⟨z, hz⟩ := readi32_ok (b := r) (by omega)
  rw [hz]
  exact Safe.ite (fun _ => .err _) fun _ => .ok _

theorem readerEnd_le {r : Bytes} {e : Nat} (hl : r.length < 2147483648) (h : readerEnd r = .ok e) : e ≤ r.length := by
  unfold readerEnd at h
  split at h
  · cases h
  · obtain ⟨z, hz⟩ := readi32_ok (b := r) (by omega)
    rw [hz, Res.bind_ok] at h
    split at h
    · cases h
    · injection h with h
      rw [u32i_small (by omega) (by omega)] at h
      omega

theorem rawReader_len {r : Bytes} {off m pos : Nat} {t : UInt8} (hp : idx r pos = .ok t) (hl : r.length < 2147483648) (ht : t = 3 ∨ t = 4)
    (ho : off ≤ r.length)
    (hlen : ∀ n, lenAt (r.drop off) = some n → n + r.length < 2147483648)
    (h : rawSize r pos off = .ok m) : ∃ sub, rawReader r off = .ok sub ∧ sub.length + off ≤ r.length ∧ slice r off (off + sub.length) = .ok sub := by
  have h3 : (if r.length < u32 (off + 4) then .err .tooSmall else do
    let l ← readi32 (← slice r off (u32 (off + 4)))
    if l < 5 then .err .invalidReadOnlyDocument
    else if i32 (i32 off + l) > i32 r.length then .err .tooSmall
    else .ok (u32 (4 + u32i (u32i l - 4))) : Res Nat) = .ok m := by
    have hr : r ≠ [] := by rintro rfl; simp [idx] at hp
    unfold rawSize at h
    rw [if_neg hr, hp] at h
    rcases ht with rfl | rfl <;> exact h
  by_cases hlt : r.length < u32 (off + 4)
  · rw [if_pos hlt] at h3; cases h3
  rw [if_neg hlt] at h3
  rw [u32_small (by omega)] at hlt
  obtain ⟨n, e1, e2⟩ := readLen (data := r) (off := off) (by omega) hl
  have hn := hlen n e1
  have e3 : ∀ {β : Type} (f : Int → Res β), (slice r off (u32 (off + 4)) >>= fun x => readi32 x >>= f) = f n := by
    intro β f
    have : (slice r off (u32 (off + 4)) >>= fun x => readi32 x >>= f) = ((slice r off (u32 (off + 4)) >>= readi32) >>= f) := by
      cases slice r off (u32 (off + 4)) <;> rfl
    rw [this, e2, i32_of_nat (by omega)]; rfl
  rw [e3] at h3
  unfold rawReader
  rw [e3, u32i_nat (by omega), u32_small (by omega)]
  split at h3
  · cases h3
  split at h3
  · cases h3
  rename_i h4 h5
  rw [i32_of_nat (n := off) (by omega), i32_of_nat (n := r.length) (by omega), i32_small (by omega) (by omega)] at h5
  refine ⟨_, slice_ok (by omega) (by omega), by simp; omega, ?_⟩
  rw [show off + ((r.take (off + n)).drop off).length = off + n by simp; omega]
  exact slice_ok (by omega) (by omega)

theorem validateLoop_safe : ∀ (fuel : Nat) (r : Bytes) (pos end_ : Nat), Tame r → end_ ≤ r.length → r.length < 2147483648 →
    r.length - pos < fuel → Safe (validateLoop fuel r pos end_)
  | 0, _, _, _, _, _, _, hf => by omega
  | fuel + 1, r, pos, end_, htame, he, hl, hf => by
    unfold validateLoop
    refine Safe.ite (fun _ => .err _) fun hp => ?_
    rw [idx_lt (by omega)]
    simp only [Res.bind_ok]
    refine Safe.ite (fun _ => .ok _) fun ht => ?_
    obtain ⟨h1, h2⟩ := readerKey_spec (r := r) (pos := pos + 1) (end_ := end_) (by omega) he
    rw [u32_small (n := pos + 1) (by omega)]
    refine h1.bind fun n hn' => ?_
    obtain ⟨k, rest, hn, hk, hd, hle⟩ := h2 n hn'
    rw [u32_small (n := pos + 1 + n) (by omega)]
    refine (rawSize_safe (data := r) (pos := pos) (off := pos + 1 + n) (by omega) (by omega) hl).bind fun m hm => ?_
    obtain ⟨e1, e2⟩ := head_form (by omega) (idx_lt (b := r) (i := pos) (by omega)) hn hd
    have hb := rawSize_bound (idx_lt (b := r) (i := pos) (by omega)) (by omega) hl
      (fun hx c hc => htame _ _ _ _ e1 hk hx c (by rw [e2] at hc; exact hc)) hm
    rw [u32_small hb]
    refine Safe.ite (fun h34 => ?_) fun _ => validateLoop_safe fuel r _ end_ htame he hl (by omega)
    obtain ⟨sub, hs, hsl, hss⟩ := rawReader_len (idx_lt (b := r) (i := pos) (by omega)) hl h34 (by omega)
      (fun c hc => htame _ _ _ _ e1 hk (by simp only [hasLength]; grind) c (by rw [e2] at hc; exact hc)) hm
    rw [hs]
    simp only [Res.bind_ok]
    refine readerEnd_safe.bind fun e hee => ?_
    have hel := readerEnd_le (by omega) hee
    refine (validateLoop_safe fuel sub 4 e (tame_slice htame hss) hel (by omega) (by omega)).bind fun _ _ => ?_
    exact validateLoop_safe fuel r _ end_ htame he hl (by omega)

theorem tame_of_small {b : Bytes} (h : ∀ c ∈ b, c.toNat < 127) (hl : b.length < 16777216) : Tame b := by
  intro pre k rest t e hk ht n hn
  match rest, hn with
  | w :: x :: y :: z :: rest, hn =>
    simp only [lenAt, Option.some.injEq] at hn
    have h1 := h w (by rw [e]; simp)
    have h2 := h x (by rw [e]; simp)
    have h3 := h y (by rw [e]; simp)
    have h4 := h z (by rw [e]; simp)
    omega

theorem iterEnd_safe {b : Bytes} (hn : ∀ n, lenAt b = some n → n < 2147483648) :
    (∃ e, iterEnd b = .ok e ∧ e ≤ b.length) ∨ ∃ e, iterEnd b = .err e := by
  unfold iterEnd
  by_cases h5 : b.length < 5
  · rw [if_pos h5]; exact .inr ⟨_, rfl⟩
  rw [if_neg h5]
  match b, h5 with
  | x :: y :: z :: w :: rest, h5 =>
    have hn' := hn _ rfl
    have e : readi32 (x :: y :: z :: w :: rest) = .ok ((x.toNat + y.toNat * 256 + z.toNat * 65536 + w.toNat * 16777216 : Nat) : Int) := by
      unfold readi32
      simp only [rdU32, Res.bind_ok]
      rw [i32_of_nat hn']; rfl
    generalize x.toNat + y.toNat * 256 + z.toNat * 65536 + w.toNat * 16777216 = n at hn' e
    rw [e, Res.bind_ok]
    by_cases hlt : ((x :: y :: z :: w :: rest).length : Int) < (n : Int)
    · rw [if_pos hlt]; exact .inr ⟨_, rfl⟩
    · rw [if_neg hlt, u32i_nat (by omega)]; exact .inl ⟨_, rfl, by omega⟩
  | [], h | [_], h | [_, _], h | [_, _, _], h => simp at h

end Birch.Proofs
