import Verif.Base

/- Facts about `Returns`. -/

namespace Birch.Proofs
open Birch

theorem Returns.unique {α : Type} {f : Nat → Res α} {r s : Res α} (h1 : Returns f r) (h2 : Returns f s) : r = s := by
  obtain ⟨n, hn⟩ := h1
  obtain ⟨m, hm⟩ := h2
  rw [← hn (max n m) (by omega), hm (max n m) (by omega)]

theorem returns_of {α : Type} {f : Nat → Res α} {r : Res α} (n : Nat) (h : ∀ m, n < m → f m = r) : Returns f r :=
  ⟨n + 1, fun m hm => h m (by omega)⟩

theorem not_returns_of_diverges {α : Type} {f : Nat → Res α} (h : Diverges f) {r : Res α} (hr : Returns f r) : r = .oof := by
  obtain ⟨n, hn⟩ := hr
  rw [← hn n (Nat.le_refl n), h n]

end Birch.Proofs
