import Verif.Proofs.AcceptCopy

/- The bytes that are taken for a document determine its elements. -/

namespace Birch.Proofs
open Birch Model Spec

theorem codeLengths_of_small {b : Bytes} (h : ∀ c ∈ b, c.toNat < 127) (hl : b.length < 16777216) : CodeLengths b := by
  intro pre k rest e hk n hn
  match rest, hn with
  | a1 :: a2 :: a3 :: a4 :: w :: x :: y :: z :: rest, hn =>
    simp only [lenAt, Option.some.injEq, List.drop] at hn
    have h1 := h w (by rw [e]; simp)
    have h2 := h x (by rw [e]; simp)
    have h3 := h y (by rw [e]; simp)
    have h4 := h z (by rw [e]; simp)
    omega

theorem key_unique {k k' a b : Bytes} (hk : NulFree k) (hk' : NulFree k') (h : k ++ 0 :: a = k' ++ 0 :: b) : k = k' ∧ a = b := by
  induction k generalizing k' with
  | nil =>
    cases k' with
    | nil => simpa using h
    | cons c k' =>
      simp only [List.nil_append, List.cons_append, List.cons.injEq] at h
      exact absurd h.1.symm (hk' c List.mem_cons_self)
  | cons c k ih =>
    cases k' with
    | nil =>
      simp only [List.nil_append, List.cons_append, List.cons.injEq] at h
      exact absurd h.1 (hk c List.mem_cons_self)
    | cons c' k' =>
      simp only [List.cons_append, List.cons.injEq] at h
      obtain ⟨h1, h2⟩ := ih (fun x hm => hk x (List.mem_cons_of_mem _ hm)) (fun x hm => hk' x (List.mem_cons_of_mem _ hm)) h.2
      exact ⟨by rw [h.1, h1], h2⟩

theorem value_unique {t : UInt8} {v v' a b : Bytes} (h1 : rawSize ([t] ++ (v ++ a)) 0 [t].length = .ok v.length)
    (h2 : rawSize ([t] ++ (v' ++ b)) 0 [t].length = .ok v'.length) (h : v ++ a = v' ++ b) : v = v' ∧ a = b := by
  rw [h, h2] at h1
  exact List.append_inj h (Res.ok.inj h1).symm

theorem items_unique {es : List Item} {b rest : Bytes} (h : Items es b rest) : ∀ {es' : List Item} {rest' : Bytes},
    b.length < 2147483648 → Items es' b rest' → es = es' ∧ rest = rest' := by
  induction h with
  | stop rest =>
    intro es' rest' hl h'
    generalize hb : (0 : UInt8) :: rest = b at h'
    cases h' with
    | stop => simp_all
    | item _ hv _ => simp only [List.cons.injEq] at hb; exact absurd hb.1.symm (loose_ne_zero hv)
    | stub => simp at hb
  | @item t k v es b rest hk hv _ ih =>
    intro es' rest' hl h'
    have s1 := rawSize_loose hv [t] b 0 rfl (by simp at hl ⊢; omega)
    generalize hb : t :: (k ++ 0 :: (v ++ b)) = c at h'
    cases h' with
    | stop => simp only [List.cons.injEq] at hb; exact absurd hb.1 (loose_ne_zero hv)
    | @item t' k' v' es' b' _ hk' hv' hi' =>
      have s2 := rawSize_loose hv' [t'] b' 0 rfl (by rw [hb] at hl; simp at hl ⊢; omega)
      simp only [List.cons.injEq] at hb
      obtain ⟨rfl, hb⟩ := hb
      obtain ⟨rfl, hw⟩ := key_unique hk hk' hb
      obtain ⟨rfl, rfl⟩ := value_unique s1 s2 hw
      obtain ⟨rfl, rfl⟩ := ih (by simp at hl; omega) hi'
      exact ⟨rfl, rfl⟩
    | @stub k' v' _ post hk' h4 he =>
      have hle := congrArg List.length he
      have s2 := rawSize_stub [0x0F] post v'.length 0 h4 rfl (by rw [hb] at hl; simp at hl hle ⊢; omega)
      rw [← he] at s2
      simp only [List.cons.injEq] at hb
      obtain ⟨rfl, hb⟩ := hb
      obtain ⟨rfl, hw⟩ := key_unique hk hk' hb
      obtain ⟨rfl, rfl⟩ := value_unique s1 s2 hw
      obtain ⟨rfl, rfl⟩ := ih (by simp at hl ⊢; omega) (.stop _)
      exact ⟨rfl, rfl⟩
  | @stub k v rest post hk h4 he =>
    intro es' rest' hl h'
    have hle := congrArg List.length he
    have s1 := rawSize_stub [0x0F] post v.length 0 h4 rfl (by simp at hl hle ⊢; omega)
    rw [← he] at s1
    generalize hb : (0x0F : UInt8) :: (k ++ 0 :: (v ++ 0 :: rest)) = c at h'
    cases h' with
    | stop => simp at hb
    | @item t' k' v' es' b' _ hk' hv' hi' =>
      have s2 := rawSize_loose hv' [t'] b' 0 rfl (by rw [hb] at hl; simp at hl ⊢; omega)
      simp only [List.cons.injEq] at hb
      obtain ⟨rfl, hb⟩ := hb
      obtain ⟨rfl, hw⟩ := key_unique hk hk' hb
      obtain ⟨rfl, rfl⟩ := value_unique s1 s2 hw
      generalize hz : (0 : UInt8) :: rest = z at hi'
      cases hi' with
      | stop => simp_all
      | item _ hv _ => simp only [List.cons.injEq] at hz; exact absurd hz.1.symm (loose_ne_zero hv)
      | stub => simp at hz
    | @stub k' v' _ post' hk' h4' he' =>
      have hle' := congrArg List.length he'
      have s2 := rawSize_stub [0x0F] post' v'.length 0 h4' rfl (by rw [hb] at hl; simp at hl hle' ⊢; omega)
      rw [← he'] at s2
      simp only [List.cons.injEq, true_and] at hb
      obtain ⟨rfl, hw⟩ := key_unique hk hk' hb
      obtain ⟨rfl, hr⟩ := value_unique s1 s2 hw
      simp only [List.cons.injEq, true_and] at hr
      exact ⟨rfl, hr⟩

theorem accepted_unique {b : Bytes} {es es' : List Item} {m m' : Nat} (hl : b.length < 2147483648)
    (h : Accepted b es m) (h' : Accepted b es' m') : es = es' ∧ m = m' := by
  obtain ⟨n, body, rest, e, hi, _, _, hm⟩ := h
  obtain ⟨n', body', rest', e', hi', _, _, hm'⟩ := h'
  have := List.append_inj (e.symm.trans e') (by simp)
  obtain rfl := this.2
  obtain ⟨rfl, rfl⟩ := items_unique hi (by rw [e] at hl; simp at hl; omega) hi'
  exact ⟨rfl, by omega⟩
end Birch.Proofs
