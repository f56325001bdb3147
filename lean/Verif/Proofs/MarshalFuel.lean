import Verif.Model.Write
import Verif.Proofs.Fuel

/- More fuel does not change what Validate and MarshalBSON return. -/

namespace Birch.Proofs
open Birch Model
attribute [local irreducible] i32 u32 u32i u64i i64 readi32 rawValidate rawSize rawWrite writePrep readerValidate Elements.int32 copyAt slice

/-- the second is the first, unless that ran out of fuel -/
def Le {α : Type} (x y : Res α) : Prop := x ≠ .oof → y = x

theorem Le.refl {α : Type} (x : Res α) : Le x x := fun _ => rfl

theorem Le.bind {α β : Type} {x y : Res α} {f g : α → Res β} (h : Le x y) (hf : ∀ a, Le (f a) (g a)) : Le (x >>= f) (y >>= g) :=
  bind_mono h (fun a _ => hf a)

theorem Le.ite {α : Type} {c : Prop} [Decidable c] {x y x' y' : Res α} (h : Le x y) (h' : Le x' y') : Le (if c then x else x') (if c then y else y') := by
  split <;> assumption

theorem Le.asTooSmall {α : Type} {x y : Res α} (h : Le x y) : Le (Model.asTooSmall x) (Model.asTooSmall y) := by
  intro h0
  rw [h (fun e => h0 (by rw [e]; rfl))]

theorem Le.frame {s size : Nat} {b : Bytes} {f g : Nat → Bytes → Res (Nat × Bytes)} (h : ∀ p b, Le (f p b) (g p b)) : Le (frameWrite s size b f) (frameWrite s size b g) := by
  unfold frameWrite
  exact .ite (.refl _) (.bind (.refl _) fun a => .bind (h _ _) fun _ => .refl _)

theorem rawValidate_mono {n m : Nat} (h : n ≤ m) (data : Bytes) (s o : Nat) : Le (rawValidate n data s o) (rawValidate m data s o) := by
  have rv : ∀ b, Le (readerValidate n b) (readerValidate m b) := fun b => readerValidate_mono h
  unfold rawValidate
  repeat with_reducible first | exact Le.refl _ | exact rv _ | refine Le.ite ?_ ?_ | refine Le.bind ?_ (fun _ => ?_)

mutual
theorem valueValidate_mono {n m : Nat} (h : n ≤ m) (so : Bool) : ∀ v, Le (valueValidate n so v) (valueValidate m so v)
  | .raw s o d => by
    unfold valueValidate
    exact .ite (.refl _) (rawValidate_mono h _ _ _)
  | .withDoc s o data d => by
    have h1 := elemsValidate_mono h 5 d
    have h2 := arrElemsValidate_mono h 5 0 d
    have h3 := rawValidate_mono h data s o
    unfold valueValidate
    simp only []
    repeat with_reducible first | exact Le.refl _ | exact h1 | exact h2 | exact h3 | refine Le.ite ?_ ?_ | refine Le.bind ?_ (fun _ => ?_)
theorem elemsValidate_mono {n m : Nat} (h : n ≤ m) : ∀ size d, Le (elemsValidate n size d) (elemsValidate m size d)
  | _, [] => by unfold elemsValidate; exact .refl _
  | _, v :: d => by
    unfold elemsValidate
    exact .bind (.refl _) fun _ => .bind (valueValidate_mono h false v) fun _ => elemsValidate_mono h _ d
theorem arrElemsValidate_mono {n m : Nat} (h : n ≤ m) : ∀ size i d, Le (arrElemsValidate n size i d) (arrElemsValidate m size i d)
  | _, _, [] => by unfold arrElemsValidate; exact .refl _
  | _, _, v :: d => by
    unfold arrElemsValidate
    exact .bind (valueValidate_mono h false v) fun _ => arrElemsValidate_mono h _ _ d
end

theorem elemValidate_mono {n m : Nat} (h : n ≤ m) (v : Value) : Le (elemValidate n v) (elemValidate m v) := by
  unfold elemValidate
  exact .bind (.refl _) fun _ => .bind (valueValidate_mono h false v) fun _ => .refl _

mutual
theorem elemWrite_mono {n m : Nat} (h : n ≤ m) : ∀ key s b v, Le (elemWrite n key s b v) (elemWrite m key s b v)
  | key, s, b, .raw vs vo data => by
    unfold elemWrite
    exact .bind (elemValidate_mono h _) fun _ => .refl _
  | key, s, b, .withDoc vs vo data d => by
    have h1 : ∀ p b, Le (elemsWrite n p b d) (elemsWrite m p b d) := fun p b => elemsWrite_mono h p b d
    have h2 : ∀ p b, Le (valsWrite n 0 p b d) (valsWrite m 0 p b d) := fun p b => valsWrite_mono h 0 p b d
    have h3 : Le (docValidate n d) (docValidate m d) := elemsValidate_mono h 5 d
    unfold elemWrite
    refine .bind (elemValidate_mono h _) fun _ => .asTooSmall (.bind (.refl _) fun _ => ?_)
    simp only []
    repeat with_reducible first | exact Le.refl _ | exact Le.frame h1 | exact Le.frame h2 | exact h3 | refine Le.ite ?_ ?_ | refine Le.bind ?_ (fun _ => ?_)
theorem elemsWrite_mono {n m : Nat} (h : n ≤ m) : ∀ p b d, Le (elemsWrite n p b d) (elemsWrite m p b d)
  | _, _, [] => by unfold elemsWrite; exact .refl _
  | _, _, v :: d => by
    unfold elemsWrite
    exact .bind (elemWrite_mono h _ _ _ v) fun _ => .bind (elemsWrite_mono h _ _ d) fun _ => .refl _
theorem valsWrite_mono {n m : Nat} (h : n ≤ m) : ∀ i p b d, Le (valsWrite n i p b d) (valsWrite m i p b d)
  | _, _, _, [] => by unfold valsWrite; exact .refl _
  | _, _, _, v :: d => by
    unfold valsWrite
    refine .bind (.refl _) fun _ => .bind (.refl _) fun _ => .bind (.refl _) fun _ => .bind (elemWrite_mono h _ _ _ v) fun _ => .bind (valsWrite_mono h _ _ _ d) fun _ => .refl _
end

theorem docMarshal_mono {n m : Nat} (h : n ≤ m) (d : Doc) : Le (docMarshal n d) (docMarshal m d) := by
  unfold docMarshal docWrite docValidate
  exact .bind (elemsValidate_mono h 5 d) fun _ => .bind (.frame fun p b => elemsWrite_mono h p b d) fun _ => .refl _

theorem docMarshal_returns {n : Nat} {d : Doc} {r : Res Bytes} (h : docMarshal n d = r) (hr : r ≠ .oof) : Returns (fun fuel => docMarshal fuel d) r :=
  ⟨n, fun m hm => by simp only; rw [docMarshal_mono hm d (by rw [h]; exact hr), h]⟩

end Birch.Proofs
