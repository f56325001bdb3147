import Verif.Proofs.ObjectID

/-
C25, C26: ObjectIDs.
-/

namespace Birch.Props
open Birch Model Spec Proofs

/-! ### C25 -/

/-- Reading back the text of an id gives the id. -/
theorem C25_round_trip (id : Bytes) (h : id.length = 12) : ObjectID.fromHex (ObjectID.hex id) = some id := by
  unfold ObjectID.fromHex ObjectID.hex
  rw [decode_encode]
  simp [h]

example := C25_round_trip [0x5A, 0, 1, 2, 3, 4, 5, 6, 7, 8, 0xFE, 0xFF] rfl

/-- The accepted texts are exactly the 24-digit hexadecimal ones (of either case), and the result is a 12-byte id. -/
theorem C25_accepts_exactly (s : Bytes) :
    (∃ id, ObjectID.fromHex s = some id) ↔ s.length = 24 ∧ ∀ c ∈ s, IsHex c := by
  unfold ObjectID.fromHex
  constructor
  · rintro ⟨id, h⟩
    cases hd : hexDecode s with
    | none => rw [hd] at h; cases h
    | some b =>
      rw [hd] at h
      simp only [ite_not] at h
      split at h
      · obtain ⟨h1, h2, _⟩ := decode_iff s b hd
        exact ⟨by omega, h2⟩
      · cases h
  · rintro ⟨hl, hh⟩
    obtain ⟨b, hb⟩ := decode_some s hh (by omega)
    obtain ⟨h1, _⟩ := decode_iff s b hb
    exact ⟨b, by simp [hb]; omega⟩

/-- An accepted text without upper-case letters is the text of the id it denotes. -/
theorem C25_text_round_trip (s id : Bytes) (h : ObjectID.fromHex s = some id) :
    id.length = 12 ∧ ((∀ c ∈ s, NotUpper c) → ObjectID.hex id = s) := by
  unfold ObjectID.fromHex at h
  cases hd : hexDecode s with
  | none => rw [hd] at h; cases h
  | some b =>
    rw [hd] at h
    simp only [ite_not] at h
    split at h
    · cases h
      obtain ⟨_, _, h3⟩ := decode_iff s _ hd
      exact ⟨‹_›, h3⟩
    · cases h

/-- "5a00…" and the same with an upper-case digit -/
example := C25_text_round_trip [53, 97, 48, 48, 48, 49, 48, 50, 48, 51, 48, 52, 48, 53, 48, 54, 48, 55, 48, 56, 102, 101, 102, 102]
  [0x5A, 0, 1, 2, 3, 4, 5, 6, 7, 8, 0xFE, 0xFF] (by decide)
example : ObjectID.fromHex [53, 65, 48, 48, 48, 49, 48, 50, 48, 51, 48, 52, 48, 53, 48, 54, 48, 55, 48, 56, 102, 101, 102, 102] =
  some [0x5A, 0, 1, 2, 3, 4, 5, 6, 7, 8, 0xFE, 0xFF] := by decide

/-! ### C26 -/

/-- Any number of goroutines calling `NewObjectID` in any interleaving, with any readings of the clock (also one that
    stands still or runs backwards) and any initial counter: as long as the counter was incremented at most 2^24
    times, all ids returned are different. -/
theorem C26_distinct (unique : Bytes) (c0 : UInt32) (evs : List GenEvent) (h : increments evs ≤ 16777216) :
    (Gen.run unique c0 evs).out.Nodup := by
  obtain ⟨k, js, J, hi, hk⟩ := run_inv (u := unique) (c0 := c0) evs ⟨c0, fun _ => .idle, []⟩ 0 [] (fun _ => 0)
    ⟨rfl, .nil, List.nodup_nil, by simp, by simp, by simp⟩
  exact issued_nodup _ js hi.out hi.nodup (fun j hj => ⟨(hi.bound j hj).1, by have := (hi.bound j hj).2; omega⟩)

/-- two goroutines, interleaved: the second one increments first; the counter wraps -/
def twoCalls : List GenEvent := [.call 0 7, .call 1 7, .increment 1, .increment 0, .return_ 0, .return_ 1]
example := C26_distinct [1, 2, 3, 4, 5] 0xFFFFFFFF twoCalls (by decide)
example : (Gen.run [1, 2, 3, 4, 5] 0xFFFFFFFF twoCalls).out =
    [[0, 0, 0, 7, 1, 2, 3, 4, 5, 0, 0, 0], [0, 0, 0, 7, 1, 2, 3, 4, 5, 0, 0, 1]] := by decide

/-- Every id consists of the clock reading, the process bytes and the counter, hence has 12 bytes. -/
theorem C26_length (unique : Bytes) (hu : unique.length = 5) (c0 : UInt32) (evs : List GenEvent) :
    ∀ id ∈ (Gen.run unique c0 evs).out, id.length = 12 := by
  unfold Gen.run
  suffices H : ∀ (evs : List GenEvent) (s : Gen), (∀ id ∈ s.out, id.length = 12) →
      ∀ id ∈ (evs.foldl (Gen.step unique) s).out, id.length = 12 from H evs _ (by simp)
  intro evs
  induction evs with
  | nil => exact fun s h => h
  | cons e evs ih =>
    intro s h
    refine ih _ ?_
    cases e with
    | call g t => unfold Gen.step; simp only; split <;> exact h
    | increment g => unfold Gen.step; simp only; split <;> exact h
    | return_ g =>
      unfold Gen.step; simp only
      split
      · intro id hid
        rcases List.mem_cons.mp hid with rfl | hid
        · simp [newID, be32, putUint24, hu]
        · exact h id hid
      · exact h

example := C26_length [1, 2, 3, 4, 5] rfl 0xFFFFFFFF twoCalls

/-- The first four bytes of every id are the reading of the clock by a call, the next five those of the process, and the last three the counter after one of the
    increments, all most significant byte first. -/
theorem C26_layout (unique : Bytes) (hu : unique.length = 5) (c0 : UInt32) (evs : List GenEvent) :
    ∀ id ∈ (Gen.run unique c0 evs).out, LaidOut unique c0 evs id := by
  intro id hid
  have := made_run (u := unique) (c0 := c0) evs [] ⟨c0, fun _ => .idle, []⟩
    ⟨⟨0, by simp [increments], by have := c0.toNat_lt; simp only; omega⟩, by simp, by simp, by simp⟩
  obtain ⟨g, t, n, rfl, h1, h2⟩ := this.out id hid
  exact newID_laidOut hu h1 h2

example := C26_layout [1, 2, 3, 4, 5] rfl 0xFFFFFFFF twoCalls [0, 0, 0, 7, 1, 2, 3, 4, 5, 0, 0, 1] (by decide)

end Birch.Props
