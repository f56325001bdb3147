import Verif.Proofs.Totality
import Verif.Proofs.Fuel

/- What `Reader.Validate` accepts, `ReadDocument` reads. -/

namespace Birch.Proofs
open Birch Model Spec

attribute [local irreducible] i32 u32 u32i u64i i64

theorem bind_eq_ok {α β : Type} {x : Res α} {f : α → Res β} {b : β} (h : (x >>= f) = .ok b) : ∃ a, x = .ok a ∧ f a = .ok b := by
  cases x with
  | ok a => exact ⟨a, rfl, h⟩
  | err e => cases h
  | panic => cases h
  | oof => cases h

theorem ite_eq_ok {α : Type} {c : Prop} [Decidable c] {e : Err} {x : Res α} {a : α} (h : (if c then .err e else x) = .ok a) :
    ¬ c ∧ x = .ok a := by
  by_cases hc : c
  · rw [if_pos hc] at h; cases h
  · rw [if_neg hc] at h; exact ⟨hc, h⟩

/-- one element of an accepted document: a readable key, and an embedded document or array that is accepted itself -/
def GoodElem (r : Bytes) (v : Value) : Prop :=
  ∃ p off t k, v = .raw p off r ∧ off ≠ 0 ∧ idx r p = .ok t ∧ key v = .ok k ∧
    (t = 3 ∨ t = 4 → ∃ sub m fuel, rawReader r off = .ok sub ∧ readerValidate fuel sub = .ok m)

theorem validateLoop_ok : ∀ (fuel : Nat) (r : Bytes) (pos end_ n : Nat), end_ ≤ r.length → r.length < 2147483648 →
    validateLoop fuel r pos end_ = .ok n → ∃ vs, iterLoop fuel r pos end_ = .ok vs ∧ ∀ v ∈ vs, GoodElem r v
  | 0, _, _, _, _, _, _, h => by simp [validateLoop] at h
  | fuel + 1, r, pos, end_, n, he, hl, h => by
    unfold validateLoop at h
    unfold iterLoop
    obtain ⟨hp, h⟩ := ite_eq_ok h
    rw [if_neg hp]
    obtain ⟨t, ht, h⟩ := bind_eq_ok h
    rw [ht, Res.bind_ok]
    by_cases ht0 : t = 0
    · rw [if_pos ht0]; exact ⟨[], rfl, by simp⟩
    rw [if_neg ht0] at h ⊢
    obtain ⟨k, hk, h⟩ := bind_eq_ok h
    rw [hk, Res.bind_ok]
    dsimp only at h ⊢
    obtain ⟨m, hm, h⟩ := bind_eq_ok h
    rw [hm, Res.bind_ok]
    have hk1 := hk
    rw [u32_small (n := pos + 1) (by omega)] at hk1
    obtain ⟨_, hs⟩ := readerKey_spec (r := r) (pos := pos + 1) (end_ := end_) (by omega) he
    obtain ⟨kk, rest, hn, _, _, hle⟩ := hs k hk1
    have hoff : u32 (u32 (pos + 1) + k) = pos + 1 + k := by
      rw [u32_small (n := pos + 1) (by omega), u32_small (by omega)]
    have hkey : key (.raw pos (u32 (u32 (pos + 1) + k)) r) = .ok ((r.take (pos + k)).drop (pos + 1)) := by
      unfold key
      rw [hoff]
      have hne : r ≠ [] := by rintro rfl; simp at he; omega
      have : slice r (pos + 1) (pos + 1 + k - 1) = .ok ((r.take (pos + 1 + k - 1)).drop (pos + 1)) := slice_ok (by omega) (by omega)
      rw [show pos + k = pos + 1 + k - 1 by omega]
      exact (if_neg (show ¬ (pos + 1 + k = 0 ∨ r = []) by simp [hne])).trans this
    by_cases h34 : t = 3 ∨ t = 4
    · rw [if_pos h34] at h
      obtain ⟨sub, hsub, h⟩ := bind_eq_ok h
      obtain ⟨e, hee, h⟩ := bind_eq_ok h
      obtain ⟨mm, hmm, h⟩ := bind_eq_ok h
      obtain ⟨vs, hv, hg⟩ := validateLoop_ok fuel r _ end_ n he hl h
      rw [hv]
      refine ⟨_, rfl, ?_⟩
      intro v hv'
      rcases List.mem_cons.mp hv' with rfl | hv'
      · refine ⟨_, _, t, _, rfl, by rw [hoff]; omega, ht, hkey, fun _ => ⟨sub, mm, fuel, hsub, ?_⟩⟩
        unfold readerValidate
        rw [hee, Res.bind_ok, hmm]
      · exact hg v hv'
    · rw [if_neg h34] at h
      obtain ⟨vs, hv, hg⟩ := validateLoop_ok fuel r _ end_ n he hl h
      rw [hv]
      refine ⟨_, rfl, ?_⟩
      intro v hv'
      rcases List.mem_cons.mp hv' with rfl | hv'
      · exact ⟨_, _, t, _, rfl, by rw [hoff]; omega, ht, hkey, fun h => absurd h h34⟩
      · exact hg v hv'

theorem readerEnd_iterEnd {r : Bytes} {e : Nat} (h : readerEnd r = .ok e) : iterEnd r = .ok e := by
  unfold readerEnd at h
  unfold iterEnd
  obtain ⟨h5, h⟩ := ite_eq_ok h
  rw [if_neg h5]
  obtain ⟨g, hg, h⟩ := bind_eq_ok h
  rw [hg, Res.bind_ok]
  obtain ⟨h6, h⟩ := ite_eq_ok h
  rw [if_neg (fun x => h6 (.inl x)), h]

theorem readerValidate_ok {fuel : Nat} {r : Bytes} {n : Nat} (hl : r.length < 2147483648) (h : readerValidate fuel r = .ok n) :
    ∃ vs, readDocument fuel r = .ok vs ∧ ∀ v ∈ vs, GoodElem r v := by
  unfold readerValidate at h
  obtain ⟨e, he, h⟩ := bind_eq_ok h
  obtain ⟨vs, h1, h2⟩ := validateLoop_ok fuel r 4 e n (readerEnd_le hl he) hl h
  refine ⟨vs, ?_, h2⟩
  unfold readDocument
  rw [readerEnd_iterEnd he, Res.bind_ok, h1]

end Birch.Proofs
