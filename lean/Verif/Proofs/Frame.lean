import Verif.Proofs.Write

/- What the writers leave alone, without any assumption on the values. -/

namespace Birch.Proofs
open Birch Model

set_option linter.unusedSimpArgs false
set_option linter.unusedVariables false

/-- same length, and nothing before position `p` changed -/
def Keeps (p : Nat) (b b' : Bytes) : Prop := b'.length = b.length ∧ b'.take p = b.take p

theorem Keeps.rfl {p : Nat} {b : Bytes} : Keeps p b b := ⟨Eq.refl _, Eq.refl _⟩

theorem Keeps.trans {p : Nat} {a b c : Bytes} (h1 : Keeps p a b) (h2 : Keeps p b c) : Keeps p a c :=
  ⟨h2.1.trans h1.1, h2.2.trans h1.2⟩

theorem Keeps.mono {p q : Nat} {a b : Bytes} (h : Keeps p a b) (hq : q ≤ p) : Keeps q a b :=
  ⟨h.1, by have := congrArg (List.take q) h.2; simpa [List.take_take, Nat.min_eq_left hq] using this⟩

theorem copyAt_keeps {b x b' : Bytes} {s n : Nat} (h : copyAt b s x = .ok (n, b')) : Keeps s b b' := by
  unfold copyAt at h
  split at h
  · simp only [Res.ok.injEq, Prod.mk.injEq] at h
    obtain ⟨rfl, rfl⟩ := h
    constructor
    · simp; omega
    · rw [List.append_assoc, List.take_append_of_le_length (by simp; omega), List.take_take, Nat.min_self]
  · simp at h

theorem setByte_keeps {b b' : Bytes} {s : Nat} {x : UInt8} (h : Elements.setByte b s x = .ok b') : Keeps s b b' := by
  unfold Elements.setByte at h
  split at h
  · simp only [Res.ok.injEq] at h
    subst h
    exact ⟨by simp, by simp [List.take_set_of_le]⟩
  · simp at h

theorem int32_keeps {b b' : Bytes} {s n : Nat} {z : Int} (h : encRes (Elements.int32 s b z) = .ok (n, b')) :
    n = 4 ∧ s + 4 ≤ b.length ∧ b' = splice b s (le32 (u32i z)) := by
  unfold Elements.int32 at h
  by_cases hl : b.length < s + 4
  · rw [if_pos hl] at h; simp [encRes, Elements.tooSmall] at h
  · rw [if_neg hl, copyAt_splice (by simp; omega)] at h
    simp [encRes] at h
    exact ⟨h.1.symm, by omega, h.2.symm⟩

theorem byte_keeps {b b' : Bytes} {s n : Nat} {x : UInt8} (h : encRes (Elements.byte s b x) = .ok (n, b')) :
    n = 1 ∧ s + 1 ≤ b.length ∧ b' = splice b s [x] := by
  unfold Elements.byte at h
  by_cases hl : b.length < s + 1
  · rw [if_pos hl] at h; simp [encRes, Elements.tooSmall] at h
  · rw [if_neg hl, setByte_splice (by omega)] at h
    simp [encRes] at h
    exact ⟨h.1.symm, by omega, h.2.symm⟩

theorem splice_keeps {b x : Bytes} {s : Nat} (h : s + x.length ≤ b.length) : Keeps s b (splice b s x) := by
  refine ⟨splice_length h, ?_⟩
  unfold splice
  rw [List.append_assoc, List.take_append_of_le_length (by simp; omega), List.take_take, Nat.min_self]

/-- the frame of a document: nothing before it changes, and its first four bytes are the length -/
theorem frameWrite_keeps {s size : Nat} {b b' : Bytes} {n : Nat} {body : Nat → Bytes → Res (Nat × Bytes)}
    (hb : ∀ p c m c', body p c = .ok (m, c') → Keeps p c c')
    (h : frameWrite s size b body = .ok (n, b')) :
    Keeps s b b' ∧ (b'.take (s + 4)).drop s = le32 (u32i (i32 size)) := by
  unfold frameWrite at h
  split at h
  · simp at h
  · rw [Res.bind_eq_ok] at h
    obtain ⟨⟨n1, b1⟩, h1, h⟩ := h
    rw [Res.bind_eq_ok] at h
    obtain ⟨⟨n2, b2⟩, h2, h⟩ := h
    rw [Res.bind_eq_ok] at h
    obtain ⟨⟨n3, b3⟩, h3, h⟩ := h
    simp only [Res.ok.injEq, Prod.mk.injEq] at h h2 h3
    obtain ⟨rfl, rfl⟩ := h
    obtain ⟨rfl, hl, rfl⟩ := int32_keeps h1
    have k1 : Keeps s b (splice b s (le32 (u32i (i32 size)))) := splice_keeps (by simpa using hl)
    have k2 := hb _ _ _ _ h2
    obtain ⟨rfl, hl3, rfl⟩ := byte_keeps h3
    have k3 : Keeps (s + 4 + n2) b2 _ := splice_keeps (x := [0]) (by simpa using hl3)
    have k23 := k2.trans (k3.mono (by omega))
    refine ⟨k1.trans (k23.mono (by omega)), ?_⟩
    rw [k23.2]
    unfold splice
    rw [List.take_left' (by simp; omega), List.drop_left' (by simp; omega)]

theorem asTooSmall_eq_ok {α : Type} {r : Res α} {a : α} : asTooSmall r = .ok a ↔ r = .ok a := by
  cases r <;> simp [asTooSmall]

theorem rawWrite_keeps {sw vs vo size s n : Nat} {data b b' : Bytes} (h : rawWrite sw vs vo size s data b = .ok (n, b')) :
    Keeps s b b' := by
  unfold rawWrite at h
  extract_lets jp0 jp at h
  split at h
  · simp [Res.bind_panic] at h
  rw [Res.bind_eq_ok] at h
  obtain ⟨t, _, h⟩ := h
  simp only [jp] at h
  split at h
  · repeat (rw [Res.bind_eq_ok] at h; obtain ⟨_, _, h⟩ := h)
    exact copyAt_keeps h
  · rw [Res.bind_eq_ok] at h
    obtain ⟨_, _, h⟩ := h
    exact copyAt_keeps h

mutual
theorem elemWrite_keeps (fuel : Nat) : ∀ (v : Value) (key : Bool) (s : Nat) (b : Bytes) (n : Nat) (b' : Bytes),
    elemWrite fuel key s b v = .ok (n, b') → Keeps s b b'
  | .raw vs vo data, key, s, b, n, b', h => by
    unfold elemWrite at h
    rw [Res.bind_eq_ok] at h
    obtain ⟨size, _, h⟩ := h
    rw [asTooSmall_eq_ok, Res.bind_eq_ok] at h
    obtain ⟨sw, _, h⟩ := h
    exact rawWrite_keeps h
  | .withDoc vs vo data d, key, s, b, n, b', h => by
    have ih1 := elemsWrite_keeps fuel d
    have ih2 := valsWrite_keeps fuel d
    unfold elemWrite at h
    rw [Res.bind_eq_ok] at h
    obtain ⟨size, _, h⟩ := h
    rw [asTooSmall_eq_ok, Res.bind_eq_ok] at h
    obtain ⟨sw, _, h⟩ := h
    extract_lets jp0 jp at h
    split at h
    · simp [Res.bind_panic] at h
    rw [Res.bind_eq_ok] at h
    obtain ⟨t, _, h⟩ := h
    simp only [jp] at h
    split at h
    · split at h
      · rw [Res.bind_eq_ok] at h
        obtain ⟨x, _, h⟩ := h
        rw [Res.bind_eq_ok] at h
        obtain ⟨⟨n1, b1⟩, h1, h⟩ := h
        rw [Res.bind_eq_ok] at h
        obtain ⟨⟨n2, b2⟩, h2, h⟩ := h
        simp only [Res.ok.injEq, Prod.mk.injEq] at h
        obtain ⟨rfl, rfl⟩ := h
        exact (copyAt_keeps h1).trans ((frameWrite_keeps (fun p c m c' hh => ih1 p c m c' hh) h2).1.mono (by simp))
      · exact (frameWrite_keeps (fun p c m c' hh => ih1 p c m c' hh) h).1
    · split at h
      · split at h
        · rw [Res.bind_eq_ok] at h
          obtain ⟨x, _, h⟩ := h
          rw [Res.bind_eq_ok] at h
          obtain ⟨⟨n1, b1⟩, h1, h⟩ := h
          rw [Res.bind_eq_ok] at h
          obtain ⟨⟨n2, b2⟩, h2, h⟩ := h
          simp only [Res.ok.injEq, Prod.mk.injEq] at h
          obtain ⟨rfl, rfl⟩ := h
          exact (copyAt_keeps h1).trans ((frameWrite_keeps (fun p c m c' hh => ih2 0 p c m c' hh) h2).1.mono (by simp))
        · exact (frameWrite_keeps (fun p c m c' hh => ih2 0 p c m c' hh) h).1
      · split at h
        · rw [Res.bind_eq_ok] at h
          obtain ⟨x, _, h⟩ := h
          rw [Res.bind_eq_ok] at h
          obtain ⟨cl, _, h⟩ := h
          rw [Res.bind_eq_ok] at h
          obtain ⟨sl, _, h⟩ := h
          rw [Res.bind_eq_ok] at h
          obtain ⟨⟨n0, d0⟩, _, h⟩ := h
          rw [Res.bind_eq_ok] at h
          obtain ⟨y, _, h⟩ := h
          rw [Res.bind_eq_ok] at h
          obtain ⟨⟨n1, b1⟩, h1, h⟩ := h
          rw [Res.bind_eq_ok] at h
          obtain ⟨⟨n2, b2⟩, h2, h⟩ := h
          simp only [Res.ok.injEq, Prod.mk.injEq] at h
          obtain ⟨rfl, rfl⟩ := h
          exact (copyAt_keeps h1).trans ((frameWrite_keeps (fun p c m c' hh => ih1 p c m c' hh) h2).1.mono (by simp))
        · exact rawWrite_keeps h
theorem elemsWrite_keeps (fuel : Nat) : ∀ (d : List Value) (s : Nat) (b : Bytes) (n : Nat) (b' : Bytes),
    elemsWrite fuel s b d = .ok (n, b') → Keeps s b b'
  | [], s, b, n, b', h => by
    simp [elemsWrite] at h; rw [← h.2]; exact .rfl
  | v :: d, s, b, n, b', h => by
    unfold elemsWrite at h
    rw [Res.bind_eq_ok] at h
    obtain ⟨⟨n1, b1⟩, h1, h⟩ := h
    rw [Res.bind_eq_ok] at h
    obtain ⟨⟨n2, b2⟩, h2, h⟩ := h
    simp only [Res.ok.injEq, Prod.mk.injEq] at h
    obtain ⟨rfl, rfl⟩ := h
    exact (elemWrite_keeps fuel v _ _ _ _ _ h1).trans ((elemsWrite_keeps fuel d _ _ _ _ h2).mono (by simp))
theorem valsWrite_keeps (fuel : Nat) : ∀ (d : List Value) (i s : Nat) (b : Bytes) (n : Nat) (b' : Bytes),
    valsWrite fuel i s b d = .ok (n, b') → Keeps s b b'
  | [], i, s, b, n, b', h => by
    simp [valsWrite] at h; rw [← h.2]; exact .rfl
  | v :: d, i, s, b, n, b', h => by
    unfold valsWrite at h
    rw [Res.bind_eq_ok] at h
    obtain ⟨t, _, h⟩ := h
    rw [Res.bind_eq_ok] at h
    obtain ⟨b0, h0, h⟩ := h
    rw [Res.bind_eq_ok] at h
    obtain ⟨⟨n1, b1⟩, h1, h⟩ := h
    rw [Res.bind_eq_ok] at h
    obtain ⟨⟨n2, b2⟩, h2, h⟩ := h
    rw [Res.bind_eq_ok] at h
    obtain ⟨⟨n3, b3⟩, h3, h⟩ := h
    simp only [Res.ok.injEq, Prod.mk.injEq] at h
    obtain ⟨rfl, rfl⟩ := h
    exact (setByte_keeps h0).trans (((copyAt_keeps h1).mono (by simp)).trans
      (((elemWrite_keeps fuel v _ _ _ _ _ h2).mono (by simp; omega)).trans ((valsWrite_keeps fuel d _ _ _ _ _ h3).mono (by simp; omega))))
end

end Birch.Proofs
