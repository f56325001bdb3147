import Verif.Model.BufPool
import Verif.Spec.BufPool
import Verif.Proofs.Write
import Verif.Proofs.Stream
import Verif.Proofs.BadArgs
import Mathlib.Data.List.Perm.Basic

/-
Buffers of the pool: ownership, and what the calls return.
-/

namespace Birch.Proofs.BufPool
open Birch Model Model.Stream Model.BufPool Spec.BufPool

/-- Every array is held by the running call (`out`), belongs to a caller or is in the pool, and never two of these. -/
structure Ok (w : World) (out : List Nat) : Prop where
  nd : (out ++ (w.given.map (·.arr) ++ w.free)).Nodup
  lt : ∀ a ∈ out ++ (w.given.map (·.arr) ++ w.free), a < w.heap.length

/-- the arrays in `out` and those of callers are as before -/
structure Same (out : List Nat) (w w' : World) : Prop where
  given : w'.given = w.given
  heap : ∀ a ∈ out ++ w.given.map (·.arr), w'.heap[a]? = w.heap[a]?

theorem Same.refl (out : List Nat) (w : World) : Same out w w := ⟨rfl, fun _ _ => rfl⟩

theorem Same.trans {out : List Nat} {w w1 w2 : World} (h : Same out w w1) (h' : Same out w1 w2) : Same out w w2 :=
  ⟨h'.given.trans h.given, fun a ha => (h'.heap a (by rw [h.given]; exact ha)).trans (h.heap a ha)⟩

theorem Same.mono {out out' : List Nat} {w w' : World} (h : Same out' w w') (hs : ∀ a ∈ out, a ∈ out') : Same out w w' :=
  ⟨h.given, fun a ha => h.heap a (by
    rcases List.mem_append.mp ha with h | h
    · exact List.mem_append_left _ (hs a h)
    · exact List.mem_append_right _ h)⟩

theorem Ok.grown {w w' : World} {out : List Nat} (h : Ok w out) (hg : w'.given = w.given) (hf : w'.free = w.free)
    (hl : w.heap.length ≤ w'.heap.length) : Ok w' out :=
  ⟨by rw [hg, hf]; exact h.nd, by rw [hg, hf]; exact fun a ha => Nat.lt_of_lt_of_le (h.lt a ha) hl⟩

theorem Ok.tail {w : World} {a : Nat} {out : List Nat} (h : Ok w (a :: out)) : Ok w out :=
  ⟨(List.nodup_cons.mp h.nd).2, fun b hb => h.lt b (List.mem_cons_of_mem _ hb)⟩

/-- a new array -/
theorem Ok.fresh {w : World} {out : List Nat} (h : Ok w out) (x : Bytes) : Ok { w with heap := w.heap ++ [x] } (w.heap.length :: out) := by
  refine ⟨List.nodup_cons.mpr ⟨fun hm => ?_, h.nd⟩, fun a ha => ?_⟩
  · exact absurd (h.lt _ hm) (Nat.lt_irrefl _)
  · simp only [List.length_append, List.length_cons, List.length_nil]
    rcases List.mem_cons.mp ha with rfl | ha
    · omega
    · have := h.lt a ha; omega

theorem Same.fresh {w : World} {out : List Nat} (h : Ok w out) (x : Bytes) : Same out w { w with heap := w.heap ++ [x] } := by
  refine ⟨rfl, fun a ha => ?_⟩
  have : a < w.heap.length := h.lt a (by
    rcases List.mem_append.mp ha with h | h
    · exact List.mem_append_left _ h
    · exact List.mem_append_right _ (List.mem_append_left _ h))
  simp only
  rw [List.getElem?_append_left this]

theorem get_ok {c : Choice} {w : World} {out : List Nat} (h : Ok w out) :
    Ok (get c w).1 ((get c w).2.arr :: out) ∧ Same out w (get c w).1 ∧ (get c w).2.len = 0 := by
  unfold BufPool.get
  cases c with
  | new cap => exact ⟨h.fresh _, .fresh h _, rfl⟩
  | free i =>
    simp only
    cases hi : w.free[i]? with
    | none => exact ⟨h.fresh _, .fresh h _, rfl⟩
    | some a =>
      have hl := (List.getElem?_eq_some_iff.mp hi)
      obtain ⟨hil, ha⟩ := hl
      have hp : (a :: w.free.eraseIdx i).Perm w.free := by
        rw [← ha]
        exact (List.getElem_cons_eraseIdx_perm hil)
      have hq : (a :: (out ++ (w.given.map (·.arr) ++ w.free.eraseIdx i))).Perm (out ++ (w.given.map (·.arr) ++ w.free)) := by
        have e : ∀ l : List Nat, out ++ (w.given.map (·.arr) ++ l) = (out ++ w.given.map (·.arr)) ++ l := fun l => (List.append_assoc ..).symm
        rw [e, e]
        exact List.perm_middle.symm.trans (List.Perm.append_left _ hp)
      exact ⟨⟨hq.nodup_iff.mpr h.nd, fun b hb => h.lt b (hq.mem_iff.mp hb)⟩, ⟨rfl, fun _ _ => rfl⟩, rfl⟩

/-- writing into the array of the running call -/
theorem write_ok {w : World} {out : List Nat} {s : Slice} (h : Ok w (s.arr :: out)) (i : Nat) (x : Bytes) :
    Ok { w with heap := write w.heap s i x } (s.arr :: out) ∧ Same out w { w with heap := write w.heap s i x } := by
  refine ⟨h.grown rfl rfl (by simp [write]), rfl, fun a ha => ?_⟩
  have hn := (List.nodup_cons.mp h.nd).1
  have : s.arr ≠ a := by
    rintro rfl
    refine hn ?_
    rcases List.mem_append.mp ha with h | h
    · exact List.mem_append_left _ h
    · exact List.mem_append_right _ (List.mem_append_left _ h)
  simp only [write]
  rw [List.getElem?_set_ne this]

theorem grow_ok {g : Growth} {s : Slice} {n : Nat} {w : World} {out : List Nat} (h : Ok w (s.arr :: out)) :
    Ok (grow g s n w).1 ((grow g s n w).2.arr :: out) ∧ Same out w (grow g s n w).1 ∧ (grow g s n w).2.len = n ∧
      n ≤ ((grow g s n w).1.heap.getD (grow g s n w).2.arr []).length := by
  unfold grow
  split
  · rename_i hn
    have ha := h.lt s.arr (by simp)
    cases g.clear with
    | true =>
      have hw := write_ok h 0 (List.replicate n 0)
      refine ⟨hw.1, hw.2, rfl, ?_⟩
      simp only [if_true, write]
      simp [List.getD, ha] at hn ⊢
    | false => exact ⟨h, .refl _ _, rfl, hn⟩
  · refine ⟨h.tail.fresh _, .fresh h.tail _, rfl, ?_⟩
    simp [List.getD]

theorem put_ok {s : Slice} {w : World} {out : List Nat} (h : Ok w (s.arr :: out)) : Ok (put s w) out := by
  have hp : (out ++ (w.given.map (·.arr) ++ s.arr :: w.free)).Perm (s.arr :: out ++ (w.given.map (·.arr) ++ w.free)) := by
    have e : ∀ l : List Nat, out ++ (w.given.map (·.arr) ++ l) = (out ++ w.given.map (·.arr)) ++ l := fun l => (List.append_assoc ..).symm
    rw [List.cons_append, e, e]
    exact List.perm_middle
  exact ⟨hp.nodup_iff.mpr h.nd, fun b hb => h.lt b (hp.mem_iff.mp hb)⟩

theorem give_ok {t : Nat} {s : Slice} {w : World} {out : List Nat} (h : Ok w (s.arr :: out)) : Ok (give t s w).1 out := by
  have hp : (out ++ ((w.given ++ [s]).map (·.arr) ++ w.free)).Perm (s.arr :: out ++ (w.given.map (·.arr) ++ w.free)) := by
    have e : ∀ l : List Nat, out ++ (w.given.map (·.arr) ++ l) = (out ++ w.given.map (·.arr)) ++ l := fun l => (List.append_assoc ..).symm
    rw [List.cons_append, List.map_append, List.append_assoc, List.map_cons, List.map_nil, List.singleton_append, e, e]
    exact List.perm_middle
  exact ⟨hp.nodup_iff.mpr h.nd, fun b hb => h.lt b (hp.mem_iff.mp hb)⟩

theorem bytes_write {h : List Bytes} {s : Slice} {i : Nat} {x : Bytes} (ha : s.arr < h.length) (hi : i + x.length ≤ s.len)
    (hc : s.len ≤ (h.getD s.arr []).length) : bytes (write h s i x) s = (bytes h s).take i ++ x ++ (bytes h s).drop (i + x.length) := by
  unfold write BufPool.bytes
  simp only [List.getD, List.getElem?_set_self ha, Option.getD_some] at hc ⊢
  generalize (h[s.arr]?.getD []) = a at hc ⊢
  rw [List.take_take, Nat.min_eq_left (by omega), List.take_append, List.take_of_length_le (by simp; omega), List.drop_take]
  congr 2
  simp only [List.length_append, List.length_take]
  omega

/-- what the call holds survives what happens to other arrays -/
theorem bytes_same {out : List Nat} {w w' : World} (h : Same out w w') {s : Slice} (hs : s.arr ∈ out) : bytes w'.heap s = bytes w.heap s := by
  have := h.heap s.arr (List.mem_append_left _ hs)
  rw [BufPool.bytes, BufPool.bytes, List.getD, List.getD, this]

theorem bytes_length {h : List Bytes} {s : Slice} (hc : s.len ≤ (h.getD s.arr []).length) : (bytes h s).length = s.len := by
  rw [BufPool.bytes, List.length_take]; omega

/-! ### buffers that are written to -/

theorem bufWrite_ok {extra : Nat} {s : Slice} {x : Bytes} {w : World} {out : List Nat} (h : Ok w (s.arr :: out))
    (hc : s.len ≤ (w.heap.getD s.arr []).length) :
    Ok (bufWrite extra s x w).1 ((bufWrite extra s x w).2.arr :: out) ∧ Ok (bufWrite extra s x w).1 (s.arr :: out) ∧
      Same out w (bufWrite extra s x w).1 ∧ bytes (bufWrite extra s x w).1.heap (bufWrite extra s x w).2 = bytes w.heap s ++ x ∧
      (bufWrite extra s x w).2.len ≤ ((bufWrite extra s x w).1.heap.getD (bufWrite extra s x w).2.arr []).length := by
  unfold bufWrite
  split
  · rename_i hn
    have ha := h.lt s.arr (by simp)
    have hw := write_ok h s.len x
    refine ⟨hw.1, hw.1, hw.2, ?_, ?_⟩
    · simp only [write, BufPool.bytes, List.getD, List.getElem?_set_self ha, Option.getD_some] at hn hc ⊢
      generalize (w.heap[s.arr]?.getD []) = a at hn hc ⊢
      rw [List.take_append_of_le_length (by simp; omega), List.take_of_length_le (by simp; omega)]
    · simp [write, List.getD, ha] at hn ⊢
      omega
  · refine ⟨h.tail.fresh _, (h.grown rfl rfl (by simp)), .fresh h.tail _, ?_, ?_⟩
    · have hl := bytes_length hc
      simp only [BufPool.bytes, List.getD, List.getElem?_concat_length, Option.getD_some] at hl ⊢
      rw [List.take_append_of_le_length (by simp at hl ⊢; omega), List.take_of_length_le (by simp at hl ⊢; omega)]
    · have hl := bytes_length hc
      simp only [List.getD, List.getElem?_concat_length, Option.getD_some, List.length_append, hl]
      omega

theorem bufWrites_ok {extra : Nat} {out : List Nat} : ∀ (xs : List Bytes) {s : Slice} {w : World}, Ok w (s.arr :: out) →
    s.len ≤ (w.heap.getD s.arr []).length →
    Ok (bufWrites extra s xs w).1 ((bufWrites extra s xs w).2.arr :: out) ∧ Ok (bufWrites extra s xs w).1 (s.arr :: out) ∧
      Same out w (bufWrites extra s xs w).1 ∧ bytes (bufWrites extra s xs w).1.heap (bufWrites extra s xs w).2 = bytes w.heap s ++ xs.flatten
  | [], s, w, h, _ => ⟨h, h, .refl _ _, by simp [bufWrites]⟩
  | x :: xs, s, w, h, hc => by
    obtain ⟨a1, a2, a3, a4, a5⟩ := bufWrite_ok (extra := extra) (x := x) h hc
    obtain ⟨b1, b2, b3, b4⟩ := bufWrites_ok (extra := extra) (out := out) xs a1 a5
    have hlen : ∀ (ys : List Bytes) (t : Slice) (v : World), v.heap.length ≤ (bufWrites extra t ys v).1.heap.length ∧
        (bufWrites extra t ys v).1.given = v.given ∧ (bufWrites extra t ys v).1.free = v.free := by
      intro ys
      induction ys with
      | nil => intro t v; exact ⟨Nat.le_refl _, rfl, rfl⟩
      | cons y ys ih =>
        intro t v
        have := ih (bufWrite extra t y v).2 (bufWrite extra t y v).1
        rw [bufWrites]
        refine ⟨Nat.le_trans ?_ this.1, this.2.1.trans ?_, this.2.2.trans ?_⟩ <;> (unfold bufWrite; split <;> simp [write])
    obtain ⟨l1, l2, l3⟩ := hlen xs (bufWrite extra s x w).2 (bufWrite extra s x w).1
    refine ⟨b1, a2.grown l2 l3 l1, a3.trans b3, ?_⟩
    have e : bufWrites extra s (x :: xs) w = bufWrites extra (bufWrite extra s x w).2 xs (bufWrite extra s x w).1 := rfl
    rw [e, b4, a4]; simp

/-! ### the calls: ownership -/

/-- what a call does to the callers' slices: they are as before, and a slice that is returned is added -/
structure Frame (w w' : World) (o : Out) : Prop where
  given : w'.given = w.given ++ slices [o]
  heap : ∀ s ∈ w.given, w'.heap[s.arr]? = w.heap[s.arr]?

theorem Frame.of {w w' : World} {o : Out} (h : Same [] w w') (ho : slices [o] = []) : Frame w w' o :=
  ⟨by rw [h.given, ho, List.append_nil], fun s hs => h.heap _ (by simpa using ⟨s, hs, rfl⟩)⟩

theorem Frame.give {w w' : World} {t : Nat} {s : Slice} (h : Same [] w w') : Frame w (give t s w').1 (give t s w').2 :=
  ⟨by simp [BufPool.give, slices, h.given], fun s hs => h.heap _ (by simpa using ⟨s, hs, rfl⟩)⟩

theorem Frame.put {w w' : World} {o : Out} {s : Slice} (h : Frame w w' o) : Frame w (put s w') o := ⟨h.given, h.heap⟩

theorem Same.nil {out : List Nat} {w w' : World} (h : Same out w w') : Same [] w w' := h.mono (by simp)

theorem readFrom_ok {c1 c2 : Choice} {g1 g2 : Growth} {src : Source} {w : World} (h : Ok w []) :
    Ok (BufPool.readFrom c1 c2 g1 g2 src w).1 [] ∧ Frame w (BufPool.readFrom c1 c2 g1 g2 src w).1 (BufPool.readFrom c1 c2 g1 g2 src w).2 := by
  obtain ⟨a1, a2, -⟩ := get_ok (c := c1) h
  unfold BufPool.readFrom
  revert a1 a2
  rcases BufPool.get c1 w with ⟨w1, s1⟩
  intro a1 a2
  simp only at a1 a2 ⊢
  obtain ⟨b1, b2, -, -⟩ := grow_ok (g := g1) (n := 4) a1
  revert b1 b2
  rcases grow g1 s1 4 w1 with ⟨w2, s2⟩
  intro b1 b2
  simp only at b1 b2 ⊢
  replace b2 := a2.trans b2
  clear a1 a2 h
  rcases readFull 4 src with ⟨got, e, src1⟩
  obtain ⟨d1, d2⟩ := write_ok b1 0 got
  replace d2 := b2.trans d2
  cases e with
  | some e => exact ⟨put_ok d1, (Frame.of d2 rfl).put⟩
  | none =>
    simp only
    generalize write w2.heap s2 0 got = h1 at d1 d2 ⊢
    cases readi32 (bytes h1 s2) with
    | err => exact ⟨put_ok d1, (Frame.of d2 rfl).put⟩
    | panic => exact ⟨put_ok d1, (Frame.of d2 rfl).put⟩
    | oof => exact ⟨put_ok d1, (Frame.of d2 rfl).put⟩
    | ok z =>
      simp only
      obtain ⟨a1, a2, -⟩ := get_ok (c := c2) d1
      revert a1 a2
      rcases BufPool.get c2 { w2 with heap := h1 } with ⟨w3, s3⟩
      intro a1 a2
      simp only at a1 a2 ⊢
      have a3 := d2.trans a2.nil
      split
      · exact ⟨put_ok a1.tail, (Frame.of a3 rfl).put⟩
      · obtain ⟨e1, e2, -, -⟩ := grow_ok (g := g2) (n := z.toNat) a1
        revert e1 e2
        rcases grow g2 s3 z.toNat w3 with ⟨w4, s4⟩
        intro e1 e2
        simp only at e1 e2 ⊢
        replace e2 := a3.trans e2.nil
        obtain ⟨f1, f2⟩ := write_ok e1 0 (bytes w4.heap s2)
        replace f2 := e2.trans f2.nil
        rcases readFull (z.toNat - 4) src1 with ⟨more, e, src2⟩
        generalize write w4.heap s4 0 (bytes w4.heap s2) = h2 at f1 f2 ⊢
        obtain ⟨i1, i2⟩ := write_ok f1 4 more
        replace i2 := f2.trans i2.nil
        cases e with
        | some e => exact ⟨put_ok i1.tail, (Frame.of i2 rfl).put⟩
        | none => exact ⟨put_ok (give_ok (t := got.length + more.length) i1), (Frame.give i2).put⟩

theorem newFromIOReader_ok {c : Choice} {g : Growth} {src : Source} {w : World} (h : Ok w []) :
    Ok (BufPool.newFromIOReader c g src w).1 [] ∧ Frame w (BufPool.newFromIOReader c g src w).1 (BufPool.newFromIOReader c g src w).2 := by
  obtain ⟨a1, a2, -⟩ := get_ok (c := c) h
  unfold BufPool.newFromIOReader
  revert a1 a2
  rcases BufPool.get c w with ⟨w1, s1⟩
  intro a1 a2
  simp only at a1 a2 ⊢
  obtain ⟨b1, b2, -, -⟩ := grow_ok (g := g) (n := 4) a1
  revert b1 b2
  rcases grow g s1 4 w1 with ⟨w2, s2⟩
  intro b1 b2
  simp only at b1 b2 ⊢
  replace b2 := a2.trans b2
  clear a1 a2 h
  rcases readFull 4 src with ⟨got, e, src1⟩
  obtain ⟨d1, d2⟩ := write_ok b1 0 got
  replace d2 := b2.trans d2
  cases e with
  | some e => exact ⟨put_ok d1, (Frame.of d2 rfl).put⟩
  | none =>
    simp only
    generalize write w2.heap s2 0 got = h1 at d1 d2 ⊢
    split
    · exact ⟨put_ok d1, (Frame.of d2 rfl).put⟩
    cases readi32 (bytes h1 s2) with
    | err => exact ⟨put_ok d1, (Frame.of d2 rfl).put⟩
    | panic => exact ⟨put_ok d1, (Frame.of d2 rfl).put⟩
    | oof => exact ⟨put_ok d1, (Frame.of d2 rfl).put⟩
    | ok z =>
      simp only
      split
      · exact ⟨put_ok d1, (Frame.of d2 rfl).put⟩
      generalize ((bytes h1 s2 ++ List.replicate (z.toNat - 4) 0).take z.toNat) = x
      have a1 := d1.fresh x
      have a2 := d2.trans (Same.fresh d1 x).nil
      simp only at a1 a2
      split
      · exact ⟨put_ok a1.tail, (Frame.of a2 rfl).put⟩
      rcases readFull (z.toNat - 4) src1 with ⟨more, e, src2⟩
      obtain ⟨i1, i2⟩ := write_ok (s := ⟨h1.length, z.toNat⟩) a1 4 more
      replace i2 := a2.trans i2.nil
      cases e with
      | some e => exact ⟨put_ok i1.tail, (Frame.of i2 rfl).put⟩
      | none =>
        simp only
        split
        · exact ⟨put_ok i1.tail, (Frame.of i2 rfl).put⟩
        · exact ⟨put_ok (give_ok (t := 0) i1), (Frame.give i2).put⟩

theorem arrayMarshal_ok {fuel : Nat} {d : Doc} {c : Choice} {g : Growth} {w : World} (h : Ok w []) :
    Ok (arrayMarshal fuel d c g w).1 [] ∧ Frame w (arrayMarshal fuel d c g w).1 (arrayMarshal fuel d c g w).2 := by
  unfold arrayMarshal
  cases arrValidate fuel d with
  | err => exact ⟨h, .of (.refl _ _) rfl⟩
  | panic => exact ⟨h, .of (.refl _ _) rfl⟩
  | oof => exact ⟨h, .of (.refl _ _) rfl⟩
  | ok size =>
    simp only
    obtain ⟨a1, a2, -⟩ := get_ok (c := c) h
    revert a1 a2
    rcases BufPool.get c w with ⟨w1, s1⟩
    intro a1 a2
    simp only at a1 a2 ⊢
    obtain ⟨b1, b2, -, -⟩ := grow_ok (g := g) (n := size) a1
    revert b1 b2
    rcases grow g s1 size w1 with ⟨w2, s2⟩
    intro b1 b2
    simp only at b1 b2 ⊢
    replace b2 := a2.trans b2
    cases arrMarshalIn fuel d (bytes w2.heap s2) with
    | err => exact ⟨b1.tail, .of b2 rfl⟩
    | panic => exact ⟨b1.tail, .of b2 rfl⟩
    | oof => exact ⟨b1.tail, .of b2 rfl⟩
    | ok x =>
      obtain ⟨d1, d2⟩ := write_ok b1 0 x
      exact ⟨give_ok (t := 0) d1, .give (b2.trans d2)⟩

theorem arrayString_ok {parts : List Bytes} {c : Choice} {extra : Nat} {w : World} (h : Ok w []) :
    Ok (arrayString parts c extra w).1 [] ∧ Frame w (arrayString parts c extra w).1 (arrayString parts c extra w).2 ∧
      (arrayString parts c extra w).2 = .text parts.flatten := by
  unfold arrayString
  obtain ⟨a1, a2, a3⟩ := get_ok (c := c) h
  revert a1 a2 a3
  rcases BufPool.get c w with ⟨w1, s1⟩
  intro a1 a2 a3
  simp only at a1 a2 a3 ⊢
  obtain ⟨-, b2, b3, b4⟩ := bufWrites_ok (extra := extra) parts a1 (by omega)
  have e : bytes w1.heap s1 = [] := by rw [BufPool.bytes, a3]; rfl
  exact ⟨put_ok b2, (Frame.of (a2.trans b3) rfl).put, by rw [b4, e]; rfl⟩

theorem buffer_ok {parts : List Bytes} {c : Choice} {extra : Nat} {w : World} (h : Ok w []) :
    Ok (buffer parts c extra w).1 [] ∧ Frame w (buffer parts c extra w).1 (buffer parts c extra w).2 ∧
      ∃ s, (buffer parts c extra w).2 = .slice 0 s ∧ bytes (buffer parts c extra w).1.heap s = parts.flatten := by
  unfold buffer
  obtain ⟨a1, a2, a3⟩ := get_ok (c := c) h
  revert a1 a2 a3
  rcases BufPool.get c w with ⟨w1, s1⟩
  intro a1 a2 a3
  simp only at a1 a2 a3 ⊢
  obtain ⟨b1, -, b3, b4⟩ := bufWrites_ok (extra := extra) parts a1 (by omega)
  have e : bytes w1.heap s1 = [] := by rw [BufPool.bytes, a3]; rfl
  exact ⟨give_ok (t := 0) b1, .give (a2.trans b3), _, rfl, by simp only [give]; rw [b4, e]; rfl⟩

theorem given_apart {w : World} (h : Ok w []) {i j : Nat} {s t : Slice} (hi : w.given[i]? = some s) (hj : w.given[j]? = some t)
    (hne : i ≠ j) : s.arr ≠ t.arr := by
  have hn : (w.given.map (·.arr)).Nodup := (List.nodup_append.mp (by simpa using h.nd)).1
  obtain ⟨h1, rfl⟩ := List.getElem?_eq_some_iff.mp hi
  obtain ⟨h2, rfl⟩ := List.getElem?_eq_some_iff.mp hj
  intro e
  refine hne ((List.getElem_inj (h₀ := by simpa using h1) (h₁ := by simpa using h2) hn).mp ?_)
  simpa using e

theorem step_ok {w : World} (c : Call) (h : Ok w []) :
    Ok (step w c).1 [] ∧ (step w c).1.given = w.given ++ slices [(step w c).2] ∧
      ∀ (k : Nat) (s : Slice), w.given[k]? = some s → (∀ x, c ≠ .scribble k x) → (step w c).1.heap[s.arr]? = w.heap[s.arr]? := by
  have H : ∀ {w' : World} {o : Out}, Ok w' [] ∧ Frame w w' o → Ok w' [] ∧ w'.given = w.given ++ slices [o] ∧
      ∀ (k : Nat) (s : Slice), w.given[k]? = some s → (∀ x, c ≠ .scribble k x) → w'.heap[s.arr]? = w.heap[s.arr]? :=
    fun h => ⟨h.1, h.2.given, fun k s hs _ => h.2.heap s (List.mem_of_getElem? hs)⟩
  cases c with
  | readFrom src c1 c2 g1 g2 => exact H (readFrom_ok h)
  | newFromIOReader src c g => exact H (newFromIOReader_ok h)
  | arrayMarshal fuel d c g => exact H (arrayMarshal_ok h)
  | arrayString parts c extra => exact H ⟨(arrayString_ok h).1, (arrayString_ok h).2.1⟩
  | buffer parts c extra => exact H ⟨(buffer_ok h).1, (buffer_ok h).2.1⟩
  | scribble i x =>
    simp only [step]
    cases hi : w.given[i]? with
    | none => exact ⟨h, by simp [slices], fun _ _ _ _ => rfl⟩
    | some s =>
      refine ⟨h.grown rfl rfl (by simp [write]), by simp [slices], fun k t ht hk => ?_⟩
      have : i ≠ k := by rintro rfl; exact hk x rfl
      simp only [write]
      rw [List.getElem?_set_ne (given_apart h hi ht this)]

theorem slices_cons (o : Out) (os : List Out) : slices (o :: os) = slices [o] ++ slices os := by
  cases o <;> simp [slices]

theorem run_ok : ∀ (cs : List Call) {w : World}, Ok w [] →
    Ok (run w cs).1 [] ∧ (run w cs).1.given = w.given ++ slices (run w cs).2 ∧
      ∀ (k : Nat) (s : Slice), w.given[k]? = some s → (∀ x, .scribble k x ∉ cs) → (run w cs).1.heap[s.arr]? = w.heap[s.arr]?
  | [], w, h => ⟨h, by simp [run, slices], fun _ _ _ _ => rfl⟩
  | c :: cs, w, h => by
    obtain ⟨a1, a2, a3⟩ := step_ok c h
    obtain ⟨b1, b2, b3⟩ := run_ok cs a1
    refine ⟨b1, ?_, fun k s hs hk => ?_⟩
    · show (run (step w c).1 cs).1.given = w.given ++ slices ((step w c).2 :: (run (step w c).1 cs).2)
      rw [b2, a2, slices_cons _ (run (step w c).1 cs).2, List.append_assoc]
    · have hl : k < w.given.length := (List.getElem?_eq_some_iff.mp hs).1
      exact (b3 k s (by rw [a2, List.getElem?_append_left hl]; exact hs) (fun x hx => hk x (List.mem_cons_of_mem _ hx))).trans
        (a3 k s hs (fun x hx => hk x (hx ▸ List.mem_cons_self)))

theorem empty_ok : Ok World.empty [] := ⟨by simp [World.empty], by simp [World.empty]⟩

/-! ### the calls: results -/

theorem readi32_le32 {n : Nat} (h : n < 2147483648) : readi32 (le32 n) = .ok n := by
  have := readi32_le32_nat (r := []) h
  rwa [List.append_nil] at this

theorem lt_of_ok {w : World} {a : Nat} {out : List Nat} (h : Ok w (a :: out)) : a < w.heap.length := h.lt a (by simp)

/-- `io.ReadFull` into the front of a slice that is held -/
theorem fill {w : World} {out : List Nat} {s : Slice} (h : Ok w (s.arr :: out)) (hc : s.len ≤ (w.heap.getD s.arr []).length)
    {x : Bytes} (hx : x.length = s.len) : bytes (write w.heap s 0 x) s = x := by
  rw [bytes_write (lt_of_ok h) (by omega) hc, List.drop_of_length_le (by rw [bytes_length hc]; omega)]
  simp

theorem cap_write {h : List Bytes} {s : Slice} {i : Nat} {x : Bytes} (ha : s.arr < h.length) (hi : i ≤ (h.getD s.arr []).length) :
    (h.getD s.arr []).length ≤ ((write h s i x).getD s.arr []).length := by
  simp only [write, List.getD, List.getElem?_set_self ha, Option.getD_some] at hi ⊢
  simp only [List.length_append, List.length_take, List.length_drop]
  omega

/-- the slice for the length: got from the pool, grown and filled -/
theorem head_ok {c : Choice} {g : Growth} {w : World} (h : Ok w []) :
    Ok (grow g (BufPool.get c w).2 4 (BufPool.get c w).1).1 [(grow g (BufPool.get c w).2 4 (BufPool.get c w).1).2.arr] ∧
      (grow g (BufPool.get c w).2 4 (BufPool.get c w).1).2.len = 4 ∧
      4 ≤ ((grow g (BufPool.get c w).2 4 (BufPool.get c w).1).1.heap.getD (grow g (BufPool.get c w).2 4 (BufPool.get c w).1).2.arr []).length := by
  obtain ⟨a1, -, -⟩ := get_ok (c := c) h
  obtain ⟨b1, -, b3, b4⟩ := grow_ok (g := g) (n := 4) a1
  exact ⟨b1, b3, b4⟩

theorem readFrom_full {c1 c2 : Choice} {g1 g2 : Growth} {src : Source} {w : World} (h : Ok w []) {n : Nat} {body rest : Bytes}
    (hn : n = body.length + 4) (hl : n < 2147483648) (hs : src.left = le32 n ++ body ++ rest) :
    ∃ s, (BufPool.readFrom c1 c2 g1 g2 src w).2 = .slice n s ∧ bytes (BufPool.readFrom c1 c2 g1 g2 src w).1.heap s = le32 n ++ body := by
  rw [List.append_assoc] at hs
  obtain ⟨src1, r1, r2⟩ := readFull_enough hs
  obtain ⟨src2, r3, r4⟩ := readFull_enough r2
  have el : (le32 n).length = 4 := by simp
  rw [el] at r1
  obtain ⟨b1, b3, b4⟩ := head_ok (c := c1) (g := g1) h
  unfold BufPool.readFrom
  simp only
  generalize grow g1 (BufPool.get c1 w).2 4 (BufPool.get c1 w).1 = p2 at b1 b3 b4 ⊢
  rcases p2 with ⟨w2, s2⟩
  simp only at b1 b3 b4 ⊢
  rw [r1]
  obtain ⟨d1, -⟩ := write_ok b1 0 (le32 n)
  have d3 := fill b1 (by omega) (x := le32 n) (by omega)
  simp only
  rw [d3]
  generalize write w2.heap s2 0 (le32 n) = h1 at d1 d3 ⊢
  rw [readi32_le32 hl]
  obtain ⟨a1, a2, -⟩ := get_ok (c := c2) d1
  revert a1 a2
  rcases BufPool.get c2 { w2 with heap := h1 } with ⟨w3, s3⟩
  intro a1 a2
  simp only at a1 a2 ⊢
  rw [if_neg (by omega)]
  have a3 : bytes w3.heap s2 = le32 n := (bytes_same a2 (by simp)).trans d3
  obtain ⟨e1, e2, e3, e4⟩ := grow_ok (g := g2) (n := ((n : Nat) : Int).toNat) a1
  revert e1 e2 e3 e4
  rcases grow g2 s3 ((n : Nat) : Int).toNat w3 with ⟨w4, s4⟩
  intro e1 e2 e3 e4
  simp only at e1 e2 e3 e4 ⊢
  have a4 : bytes w4.heap s2 = le32 n := (bytes_same e2 (by simp)).trans a3
  rw [a4]
  have hz : ((n : Nat) : Int).toNat = n := by omega
  rw [hz] at e3 e4 ⊢
  have hb : n - 4 = body.length := by omega
  rw [hb, r3]
  have ha := lt_of_ok e1
  refine ⟨s4, by simp [give, hn]; omega, ?_⟩
  simp only [give, put]
  obtain ⟨f1, -⟩ := write_ok e1 0 (le32 n)
  have ha' := lt_of_ok f1
  simp only at ha'
  rw [bytes_write ha' (by omega) (by have := cap_write (i := 0) (x := le32 n) ha (by omega); omega),
    bytes_write ha (by omega) (by omega)]
  have l1 : (bytes w4.heap s4).length = n := by rw [bytes_length (by omega), e3]
  have e5 : (bytes w4.heap s4).take 0 ++ le32 n ++ (bytes w4.heap s4).drop (0 + (le32 n).length) = le32 n ++ (bytes w4.heap s4).drop 4 := by
    simp
  rw [e5, List.take_left' el, List.drop_of_length_le (by simp [l1]; omega), List.append_nil]

theorem readFrom_head {c1 c2 : Choice} {g1 g2 : Growth} {src : Source} {w : World} (hs : src.left.length < 4) :
    (BufPool.readFrom c1 c2 g1 g2 src w).2 = .err src.left.length (if src.left = [] then .eof else .unexpectedEOF) := by
  obtain ⟨src1, r1, -⟩ := readFull_short hs
  unfold BufPool.readFrom
  rw [r1]

theorem readFrom_short {c1 c2 : Choice} {g1 g2 : Growth} {src : Source} {w : World} (h : Ok w []) {n : Nat} {body : Bytes}
    (hn : body.length + 4 < n) (hl : n < 2147483648) (hs : src.left = le32 n ++ body) :
    (BufPool.readFrom c1 c2 g1 g2 src w).2 = .err (4 + body.length) (if body = [] then .eof else .unexpectedEOF) := by
  obtain ⟨src1, r1, r2⟩ := readFull_enough hs
  have el : (le32 n).length = 4 := by simp
  rw [el] at r1
  obtain ⟨src2, r3, -⟩ := readFull_short (n := n - 4) (s := src1) (by rw [r2]; omega)
  rw [r2] at r3
  obtain ⟨b1, b3, b4⟩ := head_ok (c := c1) (g := g1) h
  unfold BufPool.readFrom
  simp only
  generalize grow g1 (BufPool.get c1 w).2 4 (BufPool.get c1 w).1 = p2 at b1 b3 b4 ⊢
  rcases p2 with ⟨w2, s2⟩
  simp only at b1 b3 b4 ⊢
  rw [r1]
  simp only
  rw [fill b1 (by omega) (x := le32 n) (by omega), readi32_le32 hl]
  simp only
  rw [if_neg (by omega)]
  have hz : ((n : Nat) : Int).toNat = n := by omega
  rw [hz, r3]
  simp only [el]

theorem readFrom_tiny {c1 c2 : Choice} {g1 g2 : Growth} {src : Source} {w : World} (h : Ok w []) {n : Nat} {rest : Bytes}
    (hn : n < 4) (hs : src.left = le32 n ++ rest) : (BufPool.readFrom c1 c2 g1 g2 src w).2 = .panic := by
  obtain ⟨src1, r1, r2⟩ := readFull_enough hs
  have el : (le32 n).length = 4 := by simp
  rw [el] at r1
  obtain ⟨b1, b3, b4⟩ := head_ok (c := c1) (g := g1) h
  unfold BufPool.readFrom
  simp only
  generalize grow g1 (BufPool.get c1 w).2 4 (BufPool.get c1 w).1 = p2 at b1 b3 b4 ⊢
  rcases p2 with ⟨w2, s2⟩
  simp only at b1 b3 b4 ⊢
  rw [r1]
  simp only
  rw [fill b1 (by omega) (x := le32 n) (by omega), readi32_le32 (by omega)]
  simp only
  rw [if_pos (by omega)]

theorem newFromIOReader_full {c : Choice} {g : Growth} {src : Source} {w : World} (h : Ok w []) {n : Nat} {body rest : Bytes}
    (hn : n = body.length + 4) (hl : n < 2147483648) (hs : src.left = le32 n ++ body ++ rest) :
    ∃ s, (BufPool.newFromIOReader c g src w).2 = .slice 0 s ∧ bytes (BufPool.newFromIOReader c g src w).1.heap s = le32 n ++ body := by
  rw [List.append_assoc] at hs
  obtain ⟨src1, r1, r2⟩ := readFull_enough hs
  obtain ⟨src2, r3, r4⟩ := readFull_enough r2
  have el : (le32 n).length = 4 := by simp
  rw [el] at r1
  obtain ⟨b1, b3, b4⟩ := head_ok (c := c) (g := g) h
  unfold BufPool.newFromIOReader
  simp only
  generalize grow g (BufPool.get c w).2 4 (BufPool.get c w).1 = p2 at b1 b3 b4 ⊢
  rcases p2 with ⟨w2, s2⟩
  simp only at b1 b3 b4 ⊢
  rw [r1]
  have d3 := fill b1 (by omega) (x := le32 n) (by omega)
  simp only
  rw [if_neg (by omega), d3]
  generalize write w2.heap s2 0 (le32 n) = h1 at d3 ⊢
  rw [readi32_le32 hl]
  simp only
  have hz : ((n : Nat) : Int).toNat = n := by omega
  have hb : n - 4 = body.length := by omega
  rw [if_neg (by omega), if_neg (by omega), hz, hb, r3]
  simp only
  rw [if_neg (by
    have : ((n : Nat) : Int) - 4 = ((body.length : Nat) : Int) := by omega
    rw [this]; simp)]
  refine ⟨_, rfl, ?_⟩
  simp only [give, put]
  have hx : ((le32 n ++ List.replicate body.length 0).take n).length = n := by simp; omega
  rw [bytes_write (by simp) (by simp; omega) (by simp [List.getD]; omega)]
  simp only [BufPool.bytes, List.getD, List.getElem?_concat_length, Option.getD_some]
  rw [List.drop_of_length_le (by simp; omega)]
  rw [List.append_nil, List.take_take, List.take_take, Nat.min_eq_left (by omega), Nat.min_eq_left (by omega), List.take_left' el]

theorem arrMarshalIn_rep {fuel : Nat} {d : Doc} {vs : Spec.Vals} (h : Spec.RepVals d vs)
    (hl : (Spec.wrapDoc (vs.encFrom 0)).length < 2147483648) (hf : (Spec.wrapDoc (vs.encFrom 0)).length < fuel) (b : Bytes)
    (hb : (Spec.wrapDoc (vs.encFrom 0)).length ≤ b.length) :
    arrValidate fuel d = .ok (Spec.wrapDoc (vs.encFrom 0)).length ∧ arrMarshalIn fuel d b = .ok (Spec.wrapDoc (vs.encFrom 0)) := by
  simp only [wrapDoc_length] at *
  have hv : arrValidate fuel d = .ok ((vs.encFrom 0).length + 5) := by
    unfold arrValidate
    rw [arrElemsValidate_rep fuel d vs 5 0 h (by omega) (by omega), Nat.add_comm 5]
  refine ⟨hv, ?_⟩
  unfold arrMarshalIn arrWrite
  rw [hv]
  simp only [Res.bind_ok]
  rw [frameWrite_splice (x := vs.encFrom 0) (by omega) (by simp; omega)
    (by intro b' hb'; exact valsWrite_rep fuel d vs _ _ b' h (by omega) (by omega) (by simp at hb'; omega))]
  simp only [Res.bind_ok]
  rw [splice_all (by simp; omega)]

theorem arrayMarshal_rep {fuel : Nat} {d : Doc} {vs : Spec.Vals} (h : Spec.RepVals d vs)
    (hl : (Spec.wrapDoc (vs.encFrom 0)).length < 2147483648) (hf : (Spec.wrapDoc (vs.encFrom 0)).length < fuel) {w : World} (hw : Ok w [])
    {c : Choice} {g : Growth} :
    ∃ s, (arrayMarshal fuel d c g w).2 = .slice 0 s ∧ bytes (arrayMarshal fuel d c g w).1.heap s = Spec.wrapDoc (vs.encFrom 0) := by
  obtain ⟨a1, -, -⟩ := get_ok (c := c) hw
  obtain ⟨b1, -, b3, b4⟩ := grow_ok (g := g) (n := (Spec.wrapDoc (vs.encFrom 0)).length) a1
  unfold arrayMarshal
  rw [(arrMarshalIn_rep h hl hf _ (Nat.le_refl _)).1]
  simp only
  generalize grow g (BufPool.get c w).2 _ (BufPool.get c w).1 = p2 at b1 b3 b4 ⊢
  rcases p2 with ⟨w2, s2⟩
  simp only at b1 b3 b4 ⊢
  rw [(arrMarshalIn_rep h hl hf _ (by rw [bytes_length (by omega)]; omega)).2]
  exact ⟨s2, rfl, fill b1 (by omega) b3.symm⟩

/-! ### values of elements with a NUL in the key, in an array -/

open Spec in
theorem elemWrite_cut {fuel : Nat} {t : BVal} (k : Bytes) (wf : t.WF) (hs : t.Scalar) (hl : k.length + 2 + t.enc.length < 2147483648)
    (hf : t.enc.length < fuel) {m : Nat} (hm : (beforeNul k).length + t.enc.length = k.length + m) (s : Nat) (b : Bytes)
    (hb : s + m + 1 ≤ b.length) :
    elemWrite fuel false s b (.raw 0 (k.length + 2) (t.tag :: (k ++ 0 :: t.enc))) = .ok (m, splice b s (t.enc.take m)) := by
  have hle := beforeNul_le k
  have h1 := elemKeyLen_cut k t.enc t.tag (by simp; omega)
  have h2 : rawValidate fuel (t.tag :: (k ++ 0 :: t.enc)) 0 (k.length + 2) = .ok t.enc.length := by
    have := rawValidate_enc fuel t wf (t.tag :: (k ++ [0])) [] 0 (by simp) (by simp; omega) hf
    simpa using this
  unfold elemWrite
  have hv : elemValidate fuel (.raw 0 (k.length + 2) (t.tag :: (k ++ 0 :: t.enc))) = .ok ((beforeNul k).length + 2 + t.enc.length) := by
    unfold elemValidate
    simp only [Value.data, Value.start, Value.offset, valueValidate, Bool.false_eq_true, if_false]
    rw [h1, h2]
    simp only [Res.bind_ok]
    rw [u32_small (by omega)]
    congr 1; omega
  have hp : writePrep false 0 (k.length + 2) s ((beforeNul k).length + 2 + t.enc.length) b = .ok (k.length + 2) := by
    unfold writePrep
    simp only [Bool.false_eq_true, if_false]
    rw [if_neg (by unfold u64i; omega)]
  rw [hv]
  simp only [Res.bind_ok]
  rw [hp]
  simp only [Res.bind_ok]
  unfold rawWrite
  rw [if_neg (by simp), show idx (t.tag :: (k ++ 0 :: t.enc)) 0 = .ok t.tag from rfl]
  simp only [Res.bind_ok]
  rw [if_neg (scalar_tag hs), u32_small (by omega), Nat.zero_add]
  have hs : slice (t.tag :: (k ++ 0 :: t.enc)) (k.length + 2) ((beforeNul k).length + 2 + t.enc.length) = .ok (t.enc.take m) := by
    have := slice_mid (t.tag :: (k ++ [0])) (t.enc.take m) (t.enc.drop m) (lo := k.length + 2) (hi := (beforeNul k).length + 2 + t.enc.length)
      (by simp) (by simp; omega)
    simpa using this
  rw [hs]
  simp only [Res.bind_ok]
  rw [copyAt_splice (by simp; omega), List.length_take, Nat.min_eq_left (by omega)]
  rfl

open Spec in
theorem arrMarshalIn_cut {fuel : Nat} {t : BVal} (k : Bytes) (wf : t.WF) (hs : t.Scalar) (hl : k.length + 2 + t.enc.length < 2147483640)
    (hf : t.enc.length < fuel) {m : Nat} (hm : (beforeNul k).length + t.enc.length = k.length + m) (buf : Bytes)
    (hb : buf.length = t.enc.length + 8) :
    arrValidate fuel [.raw 0 (k.length + 2) (t.tag :: (k ++ 0 :: t.enc))] = .ok (t.enc.length + 8) ∧
    arrMarshalIn fuel [.raw 0 (k.length + 2) (t.tag :: (k ++ 0 :: t.enc))] buf =
      .ok (le32 (t.enc.length + 8) ++ [t.tag, 48, 0] ++ t.enc.take m ++ [0] ++ buf.drop (m + 8)) := by
  have hle := beforeNul_le k
  have h2 : rawValidate fuel (t.tag :: (k ++ 0 :: t.enc)) 0 (k.length + 2) = .ok t.enc.length := by
    have := rawValidate_enc fuel t wf (t.tag :: (k ++ [0])) [] 0 (by simp) (by simp; omega) hf
    simpa using this
  have ei : itoa 0 = [48] := by decide
  have hv : arrValidate fuel [.raw 0 (k.length + 2) (t.tag :: (k ++ 0 :: t.enc))] = .ok (t.enc.length + 8) := by
    unfold arrValidate
    simp only [arrElemsValidate, valueValidate, Bool.false_eq_true, if_false]
    rw [h2]
    simp only [Res.bind_ok, ei]
    rw [u32_small (by simp; omega)]
    simp; omega
  refine ⟨hv, ?_⟩
  unfold arrMarshalIn
  rw [hv]
  simp only [Res.bind_ok]
  rw [List.take_of_length_le (by omega)]
  unfold arrWrite frameWrite
  rw [if_neg (by omega), int32_splice (n := t.enc.length + 8) (i32_of_nat (by omega)) (by omega) (by omega)]
  simp only [Res.bind_ok, valsWrite, Value.data, Value.start]
  have lm : (t.enc.take m).length = m := by simp; omega
  rw [show idx (t.tag :: (k ++ 0 :: t.enc)) 0 = .ok t.tag from rfl]
  simp only [Res.bind_ok, ei]
  have l0 : (splice buf 0 (le32 (t.enc.length + 8))).length = buf.length := splice_length (by simp; omega)
  rw [setByte_splice (by omega)]
  simp only [Res.bind_ok]
  rw [splice_splice (by simp) (by simp; omega)]
  have l1 : (splice buf 0 (le32 (t.enc.length + 8) ++ [t.tag])).length = buf.length := splice_length (by simp; omega)
  rw [copyAt_splice (by simp; omega)]
  simp only [Res.bind_ok]
  rw [splice_splice (by simp) (by simp; omega)]
  have l2 : (splice buf 0 (le32 (t.enc.length + 8) ++ [t.tag] ++ ([48] ++ [0]))).length = buf.length := splice_length (by simp; omega)
  rw [elemWrite_cut k wf hs (by omega) hf hm _ _ (by rw [l2]; simp; omega)]
  simp only [Res.bind_ok]
  rw [splice_splice (by simp) (by simp; omega)]
  have l3 : (splice buf 0 (le32 (t.enc.length + 8) ++ [t.tag] ++ ([48] ++ [0]) ++ t.enc.take m)).length = buf.length := splice_length (by simp; omega)
  rw [byte_splice (by rw [l3]; simp; omega)]
  simp only [Res.bind_ok]
  rw [splice_splice (by simp; omega) (by simp; omega)]
  unfold splice
  simp only [List.take_zero, List.nil_append, List.length_append, lm]
  simp
  omega

open Spec in
theorem arrayMarshal_cut {fuel : Nat} {t : BVal} (k : Bytes) (wf : t.WF) (hs : t.Scalar) (hl : k.length + 2 + t.enc.length < 2147483640)
    (hf : t.enc.length < fuel) {m : Nat} (hm : (beforeNul k).length + t.enc.length = k.length + m) {w : World} (hw : Ok w [])
    {i extra a : Nat} (hi : w.free[i]? = some a) (hc : t.enc.length + 8 ≤ (w.heap.getD a []).length) :
    ∃ s, (arrayMarshal fuel [.raw 0 (k.length + 2) (t.tag :: (k ++ 0 :: t.enc))] (.free i) ⟨false, extra⟩ w).2 = .slice 0 s ∧
      bytes (arrayMarshal fuel [.raw 0 (k.length + 2) (t.tag :: (k ++ 0 :: t.enc))] (.free i) ⟨false, extra⟩ w).1.heap s =
        le32 (t.enc.length + 8) ++ [t.tag, 48, 0] ++ t.enc.take m ++ [0] ++ ((w.heap.getD a []).take (t.enc.length + 8)).drop (m + 8) := by
  have hb : (bytes w.heap ⟨a, t.enc.length + 8⟩).length = t.enc.length + 8 := bytes_length hc
  obtain ⟨h1, h2⟩ := arrMarshalIn_cut k wf hs hl hf hm _ hb
  have lm : (t.enc.take m).length = m := by simp; have := beforeNul_le k; omega
  have e1 : BufPool.get (.free i) w = ({ w with free := w.free.eraseIdx i }, ⟨a, 0⟩) := by simp [BufPool.get, hi]
  have hw' : Ok { w with free := w.free.eraseIdx i } [a] := by
    have := (get_ok (c := .free i) hw).1
    rwa [e1] at this
  unfold arrayMarshal
  rw [h1]
  simp only [e1, grow]
  rw [if_pos hc]
  simp only [Bool.false_eq_true, if_false]
  rw [h2]
  refine ⟨_, rfl, ?_⟩
  simp only [give]
  have := beforeNul_le k
  exact fill (w := { w with free := w.free.eraseIdx i }) (s := ⟨a, t.enc.length + 8⟩) hw' hc (by simp [hb, lm]; omega)

end Birch.Proofs.BufPool
