import Verif.Model.Access
import Verif.Proofs.Returns

/- More fuel does not change a finished run. -/

namespace Birch.Proofs
open Birch Model
set_option linter.unusedSimpArgs false

theorem bind_ne_oof {α β : Type} {x : Res α} {f : α → Res β} (h : (x >>= f) ≠ .oof) : x ≠ .oof := by
  intro hx; subst hx; simp at h

theorem bind_mono {α β : Type} {x y : Res α} {f g : α → Res β} (hx : x ≠ .oof → y = x)
    (hf : ∀ a, x = .ok a → f a ≠ .oof → g a = f a) (h : (x >>= f) ≠ .oof) : (y >>= g) = (x >>= f) := by
  have h1 := bind_ne_oof h
  rw [hx h1]
  cases x with
  | ok a => simp only [Res.bind_ok] at h ⊢; exact hf a rfl h
  | err e => simp
  | panic => simp
  | oof => simp at h1

theorem iterLoop_mono : ∀ (n m : Nat) (r : Bytes) (pos e : Nat), n ≤ m → iterLoop n r pos e ≠ .oof →
    iterLoop m r pos e = iterLoop n r pos e
  | 0, _, _, _, _, _, h => by simp [iterLoop] at h
  | n + 1, 0, _, _, _, h, _ => by omega
  | n + 1, m + 1, r, pos, e, hm, h => by
    have ih := fun pos => iterLoop_mono n m r pos e (by omega)
    unfold iterLoop at h ⊢
    by_cases hp : pos ≥ e
    · simp [hp]
    · rw [if_neg hp] at h ⊢
      rw [if_neg hp]
      refine bind_mono (fun _ => rfl) (fun t _ h => ?_) h
      by_cases ht : t = 0
      · simp [ht]
      · rw [if_neg ht] at h ⊢
        rw [if_neg ht]
        refine bind_mono (fun _ => rfl) (fun k _ h => ?_) h
        refine bind_mono (fun _ => rfl) (fun s _ h => ?_) h
        exact bind_mono (fun h => ih _ h) (fun s _ h => rfl) h

theorem validateLoop_mono : ∀ (n m : Nat) (r : Bytes) (pos e : Nat), n ≤ m → validateLoop n r pos e ≠ .oof →
    validateLoop m r pos e = validateLoop n r pos e
  | 0, _, _, _, _, _, h => by simp [validateLoop] at h
  | n + 1, 0, _, _, _, h, _ => by omega
  | n + 1, m + 1, r, pos, e, hm, h => by
    have ih := fun r pos e => validateLoop_mono n m r pos e (by omega)
    unfold validateLoop at h ⊢
    by_cases hp : pos ≥ e
    · simp [hp]
    · rw [if_neg hp] at h ⊢
      rw [if_neg hp]
      refine bind_mono (fun _ => rfl) (fun t _ h => ?_) h
      by_cases ht : t = 0
      · simp [ht]
      · rw [if_neg ht] at h ⊢
        rw [if_neg ht]
        refine bind_mono (fun _ => rfl) (fun k _ h => ?_) h
        refine bind_mono (fun _ => rfl) (fun s _ h => ?_) h
        simp only at h ⊢
        by_cases h3 : t = 0x03 ∨ t = 0x04
        · rw [if_pos h3] at h ⊢
          rw [if_pos h3]
          refine bind_mono (fun _ => rfl) (fun sub _ h => ?_) h
          refine bind_mono (fun _ => rfl) (fun e' _ h => ?_) h
          exact bind_mono (fun h => ih _ _ _ h) (fun _ _ h => ih _ _ _ h) h
        · rw [if_neg h3] at h ⊢
          rw [if_neg h3]
          exact ih _ _ _ h

theorem readDocument_mono {n m : Nat} {b : Bytes} (h : n ≤ m) (h0 : readDocument n b ≠ .oof) :
    readDocument m b = readDocument n b := by
  unfold readDocument at *
  exact bind_mono (fun _ => rfl) (fun _ _ h1 => iterLoop_mono _ _ _ _ _ h h1) h0

theorem readerValidate_mono {n m : Nat} {b : Bytes} (h : n ≤ m) (h0 : readerValidate n b ≠ .oof) :
    readerValidate m b = readerValidate n b := by
  unfold readerValidate at *
  exact bind_mono (fun _ => rfl) (fun _ _ h1 => validateLoop_mono _ _ _ _ _ h h1) h0

theorem readDocument_returns {n : Nat} {b : Bytes} {r : Res Doc} (h : readDocument n b = r) (hr : r ≠ .oof) :
    Returns (fun fuel => readDocument fuel b) r :=
  ⟨n, fun m hm => by simp only; rw [readDocument_mono hm (by rw [h]; exact hr), h]⟩

theorem readerValidate_returns {n : Nat} {b : Bytes} {r : Res Nat} (h : readerValidate n b = r) (hr : r ≠ .oof) :
    Returns (fun fuel => readerValidate fuel b) r :=
  ⟨n, fun m hm => by simp only; rw [readerValidate_mono hm (by rw [h]; exact hr), h]⟩

theorem orPanic_mono {α : Type} {x y : Res α} (h : x ≠ .oof → y = x) (h0 : orPanic x ≠ .oof) : orPanic y = orPanic x := by
  cases x <;> simp [orPanic] at h h0 ⊢ <;> simp [h, orPanic]

theorem getDoc_mono {n m : Nat} {v : Value} (h : n ≤ m) (h0 : getDoc n v ≠ .oof) : getDoc m v = getDoc n v := by
  cases v with
  | raw s o d =>
    unfold getDoc at *
    simp only at *
    refine orPanic_mono (fun h1 => ?_) h0
    refine bind_mono (fun _ => rfl) (fun _ _ h1 => ?_) h1
    refine bind_mono (fun _ => rfl) (fun _ _ h1 => ?_) h1
    refine bind_mono (fun _ => rfl) (fun _ _ h1 => readDocument_mono h h1) h1
  | withDoc s o d fs => rfl

theorem mutableDocument_mono {n m : Nat} {v : Value} (h : n ≤ m) (h0 : mutableDocument n v ≠ .oof) :
    mutableDocument m v = mutableDocument n v := by
  unfold mutableDocument at *
  exact bind_mono (fun _ => rfl) (fun _ _ h1 => getDoc_mono h h1) h0

theorem mutableArray_mono {n m : Nat} {v : Value} (h : n ≤ m) (h0 : mutableArray n v ≠ .oof) :
    mutableArray m v = mutableArray n v := by
  unfold mutableArray at *
  exact bind_mono (fun _ => rfl) (fun _ _ h1 => getDoc_mono h h1) h0

theorem mutableCode_mono {n m : Nat} {v : Value} (h : n ≤ m) (h0 : mutableCodeWithScope n v ≠ .oof) :
    mutableCodeWithScope m v = mutableCodeWithScope n v := by
  unfold mutableCodeWithScope at *
  refine bind_mono (fun _ => rfl) (fun _ _ h1 => ?_) h0
  refine bind_mono (fun _ => rfl) (fun _ _ h1 => ?_) h1
  refine bind_mono (fun _ => rfl) (fun _ _ h1 => ?_) h1
  refine bind_mono (fun _ => rfl) (fun _ _ h1 => ?_) h1
  cases v with
  | raw s o d =>
    simp only at *
    refine bind_mono (fun h1 => orPanic_mono (fun h1 => ?_) h1) (fun _ _ _ => rfl) h1
    exact bind_mono (fun _ => rfl) (fun _ _ h1 => readDocument_mono h h1) h1
  | withDoc s o d fs => rfl

end Birch.Proofs
