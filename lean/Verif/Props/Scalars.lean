import Verif.Props.Values
import Verif.Proofs.Compare
import Verif.Proofs.Construct
import Verif.Spec.Ints

/-
C21 (equality), C23 (integers), C24 (times).
-/

namespace Birch.Props
open Birch Model Spec Proofs

/-! ### C21 -/

/-- `Equal` of two well-formed values, whether raw or parsed (`Rep`), at any depth, is true exactly when they stand for
    the same BSON value, which is exactly when they have the same type and encode to the same bytes.
    The keys of the elements holding them do not matter.  (`fuel` bounds the recursion of the model.) -/
theorem C21_equal_iff {fuel : Nat} {v w : Value} {k l : Bytes} {t u : BVal} (h : Rep v k t) (g : Rep w l u)
    (ht : t.enc.length < 2147483640) (hu : u.enc.length < 2147483640) (hf : 2147483640 ≤ fuel) :
    ∃ b, equal fuel v w = .ok b ∧ (b = true ↔ t = u) ∧ (b = true ↔ t.tag = u.tag ∧ t.enc = u.enc) := by
  refine ⟨_, equal_rep h g (by omega) (by omega) (by omega) (by omega), ?_, by simp⟩
  rw [decide_eq_true_iff]
  exact ⟨fun e => enc_inj (rep_wf h) (rep_wf g) ht e.1 e.2, fun e => by rw [e]; exact ⟨rfl, rfl⟩⟩

/-- `Equal` is reflexive, symmetric and transitive on well-formed values. -/
theorem C21_equivalence {fuel : Nat} {v w x : Value} {k l m : Bytes} {t u r : BVal} (h : Rep v k t) (g : Rep w l u) (i : Rep x m r)
    (ht : t.enc.length < 2147483640) (hu : u.enc.length < 2147483640) (hr : r.enc.length < 2147483640) (hf : 2147483640 ≤ fuel) :
    equal fuel v v = .ok true ∧ equal fuel v w = equal fuel w v ∧
    (equal fuel v w = .ok true → equal fuel w x = .ok true → equal fuel v x = .ok true) := by
  refine ⟨?_, ?_, ?_⟩
  · rw [equal_rep h h (by omega) (by omega) (by omega) (by omega)]; simp
  · rw [equal_rep h g (by omega) (by omega) (by omega) (by omega), equal_rep g h (by omega) (by omega) (by omega) (by omega)]
    simp [eq_comm]
  · rw [equal_rep h g (by omega) (by omega) (by omega) (by omega), equal_rep g i (by omega) (by omega) (by omega) (by omega),
      equal_rep h i (by omega) (by omega) (by omega) (by omega)]
    simp only [Res.ok.injEq, decide_eq_true_eq]
    rintro ⟨a, b⟩ ⟨c, d⟩
    exact ⟨a.trans c, b.trans d⟩

/-- Two representations of the same value (say, one already parsed and one not) are interchangeable in `Equal`. -/
theorem C21_representation {fuel : Nat} {v v' w : Value} {k k' l : Bytes} {t u : BVal} (h : Rep v k t) (h' : Rep v' k' t) (g : Rep w l u)
    (ht : t.enc.length < 2147483640) (hu : u.enc.length < 2147483640) (hf : 2147483640 ≤ fuel) :
    equal fuel v w = equal fuel v' w ∧ equal fuel v v' = .ok true := by
  rw [equal_rep h g (by omega) (by omega) (by omega) (by omega), equal_rep h' g (by omega) (by omega) (by omega) (by omega),
    equal_rep h h' (by omega) (by omega) (by omega) (by omega)]
  simp

/-- Elements are equal exactly when key and value are. -/
theorem C21_elements {fuel : Nat} {v w : Value} {k l : Bytes} {t u : BVal} (h : Rep v k t) (g : Rep w l u)
    (ht : t.enc.length < 2147483640) (hu : u.enc.length < 2147483640) (hf : 2147483640 ≤ fuel) :
    ∃ b, elemEqual fuel v w = .ok b ∧ (b = true ↔ k = l ∧ t = u) := by
  obtain ⟨b, h1, h2, _⟩ := C21_equal_iff h g ht hu hf
  unfold elemEqual
  rw [key_rep h, key_rep g]
  simp only [Res.bind_ok]
  by_cases hk : k = l
  · subst hk; exact ⟨b, by simpa using h1, by simpa using h2⟩
  · exact ⟨false, by rw [if_pos hk], by simp [hk]⟩

/-- `{a: {b: true}}` raw, and with the inner document parsed -/
theorem exRep : Rep (.raw 0 3 [3, 97, 0, 9, 0, 0, 0, 8, 98, 0, 1, 0]) [97] (.doc (.cons [98] (.bool true) .nil)) ∧
    Rep (.withDoc 0 3 [3, 97, 0, 7, 7] [.raw 1 4 [9, 8, 98, 0, 1]]) [97] (.doc (.cons [98] (.bool true) .nil)) := by
  constructor
  · have := rep_raw0 (k := [97]) (t := .doc (.cons [98] (.bool true) .nil)) (by simp [NulFree]) (by simp [BVal.WF, Fields.WF, NulFree]) (by decide)
    exact this
  · simp only [Rep, RepFields]
    refine ⟨by simp [NulFree], by simp, [], [7, 7], rfl, rfl, rfl, ?_⟩
    exact ⟨⟨by simp [NulFree], by simp [BVal.WF], by simp, [9], [], rfl, rfl, rfl⟩, trivial⟩

example : equal 2147483640 (.raw 0 3 [3, 97, 0, 9, 0, 0, 0, 8, 98, 0, 1, 0]) (.withDoc 0 3 [3, 97, 0, 7, 7] [.raw 1 4 [9, 8, 98, 0, 1]]) = .ok true :=
  (C21_representation exRep.1 exRep.2 exRep.1 (by decide) (by decide) (by decide)).2

/-! ### C23 -/

/-- what is known of an element that holds the integer `i` -/
def Holds (k : Bytes) (i : Int) (r : Res Value) : Prop :=
  ∃ v, r = .ok v ∧ key v = .ok k ∧ int v = .ok i ∧ intOK v = .ok (some i) ∧
    (int32 v = .ok i ∨ int64 v = .ok i)

theorem holds_int32 {k : Bytes} (hk : NulFree k) (hl : k.length + 10 < 2147483648) {i : Int} (h0 : -2147483648 ≤ i) (h1 : i < 2147483648) :
    Holds k i (EC.int32 k i) := by
  obtain ⟨v, hv, hr⟩ := buildVal_rep k (.int32 i) hk (by simp [BVal.WF]; omega) (by simp [BVal.enc]; omega)
  have := (C09_int v k _ hr).1 i (.inl rfl)
  exact ⟨v, by simpa only [buildVal] using hv, key_rep hr, this.1, this.2, .inl (int32_rep hr)⟩

theorem holds_int64 {k : Bytes} (hk : NulFree k) (hl : k.length + 10 < 2147483648) {i : Int}
    (h0 : -9223372036854775808 ≤ i) (h1 : i < 9223372036854775808) : Holds k i (EC.int64 k i) := by
  obtain ⟨v, hv, hr⟩ := buildVal_rep k (.int64 i) hk (by simp [BVal.WF]; omega) (by simp [BVal.enc]; omega)
  have := (C09_int v k _ hr).1 i (.inr rfl)
  exact ⟨v, by simpa only [buildVal] using hv, key_rep hr, this.1, this.2, .inr (int64_rep hr)⟩

theorem holds_ece {k : Bytes} {i : Int} {r : Res Value} (h : Holds k i r) :
    Holds k i (r >>= fun elem => type elem >>= fun t => if t = 0x0A then .err .other else .ok elem) := by
  obtain ⟨v, rfl, h2, h3, h4, h5⟩ := h
  have ht : ∃ t, type v = .ok t ∧ t ≠ 0x0A := by
    have key : ∀ {α : Type} (x : UInt8) (a : α) (f : Unit → Res α), x ≠ 0x0A → (expect x v >>= f) = .ok a → ∃ t, type v = .ok t ∧ t ≠ 0x0A := by
      intro α x a f hx h
      obtain ⟨u, hu, _⟩ := Res.bind_eq_ok.mp h
      unfold expect at hu
      unfold type
      split at hu
      · cases hu
      · next h0 =>
        rw [if_neg h0]
        obtain ⟨t', ht', hu⟩ := Res.bind_eq_ok.mp hu
        split at hu
        · cases hu
        · next hne => exact ⟨t', ht', by simp at hne; rw [hne]; exact hx⟩
    rcases h5 with h5 | h5
    · exact key 0x10 _ _ (by decide) h5
    · exact key 0x12 _ _ (by decide) h5
  obtain ⟨t, ht, hne⟩ := ht
  refine ⟨v, ?_, h2, h3, h4, h5⟩
  rw [Res.bind_ok, ht, Res.bind_ok, if_neg hne]

/-- Every Go integer except an `int` below the int32 range: `EC.Interface` (and `ECE.Interface`) give an element whose integer
    accessors return the same number, or, above the int64 range, a Null element (and an error).
    Missing (and false, see `C23_int_truncates`): an `int` below -2^31. -/
theorem C23_integers_partial (k : Bytes) (hk : NulFree k) (hl : k.length + 10 < 2147483648) (g : GoInt) (hr : inRange g)
    (hg : ∀ i, g = .int i → -2147483648 ≤ i) :
    (intVal g < 9223372036854775808 → Holds k (intVal g) (EC.interfaceInt k g) ∧ Holds k (intVal g) (ECE.interfaceInt k g)) ∧
    (9223372036854775808 ≤ intVal g →
      (∃ v, EC.interfaceInt k g = .ok v ∧ key v = .ok k ∧ type v = .ok 0x0A) ∧ ECE.interfaceInt k g = .err .other) := by
  have u64 : ∀ n : Nat, n < 18446744073709551616 →
      ((n : Int) < 9223372036854775808 → Holds k n (EC.ofUint64 k n) ∧ Holds k n (ECE.ofUint64 k n)) ∧
      (9223372036854775808 ≤ (n : Int) →
        (∃ v, EC.ofUint64 k n = .ok v ∧ key v = .ok k ∧ type v = .ok 0x0A) ∧ ECE.ofUint64 k n = .err .other) := by
    intro n hn
    constructor
    · intro h
      unfold EC.ofUint64 ECE.ofUint64
      by_cases h1 : n < 2147483647
      · rw [if_pos h1, if_pos h1, i32_small (by omega) (by omega)]
        exact ⟨holds_int32 hk hl (by omega) (by omega), holds_int32 hk hl (by omega) (by omega)⟩
      · rw [if_neg h1, if_neg (by omega), if_neg h1, if_neg (by omega), i64_small (by omega) h]
        exact ⟨holds_int64 hk hl (by omega) h, holds_int64 hk hl (by omega) h⟩
    · intro h
      unfold EC.ofUint64 ECE.ofUint64
      rw [if_neg (by omega), if_pos (by omega), if_neg (by omega), if_pos (by omega)]
      obtain ⟨v, hv, hr⟩ := buildVal_rep k .null hk (by simp [BVal.WF]) (by simp [BVal.enc]; omega)
      exact ⟨⟨v, by simpa only [buildVal] using hv, key_rep hr, type_rep hr⟩, rfl⟩
  have both : ∀ {i : Int} {r : Res Value}, Holds k i r →
      Holds k i r ∧ Holds k i (r >>= fun elem => type elem >>= fun t => if t = 0x0A then .err .other else .ok elem) :=
    fun h => ⟨h, holds_ece h⟩
  cases g with
  | uint64 n => exact u64 n hr
  | uint n => exact u64 n hr
  | int8 i => simp only [inRange, intVal] at hr ⊢; exact ⟨fun _ => both (holds_int32 hk hl (by omega) (by omega)), by omega⟩
  | int16 i => simp only [inRange, intVal] at hr ⊢; exact ⟨fun _ => both (holds_int32 hk hl (by omega) (by omega)), by omega⟩
  | int32 i => simp only [inRange, intVal] at hr ⊢; exact ⟨fun _ => both (holds_int32 hk hl (by omega) (by omega)), by omega⟩
  | int64 i => simp only [inRange, intVal] at hr ⊢; exact ⟨fun _ => both (holds_int64 hk hl (by omega) (by omega)), by omega⟩
  | uint8 n => simp only [inRange, intVal] at hr ⊢; exact ⟨fun _ => both (holds_int32 hk hl (by omega) (by omega)), by omega⟩
  | uint16 n => simp only [inRange, intVal] at hr ⊢; exact ⟨fun _ => both (holds_int32 hk hl (by omega) (by omega)), by omega⟩
  | uint32 n =>
    simp only [inRange, intVal] at hr ⊢
    refine ⟨fun _ => both ?_, by omega⟩
    simp only [EC.interfaceInt]
    by_cases h : n < 2147483647
    · rw [if_pos h, i32_small (by omega) (by omega)]; exact holds_int32 hk hl (by omega) (by omega)
    · rw [if_neg h]; exact holds_int64 hk hl (by omega) (by omega)
  | int i =>
    have := hg i rfl
    simp only [inRange, intVal] at hr ⊢
    refine ⟨fun _ => both ?_, by omega⟩
    simp only [EC.interfaceInt, EC.int]
    by_cases h : i < 2147483647
    · rw [if_pos h, i32_small (by omega) (by omega)]; exact holds_int32 hk hl (by omega) (by omega)
    · rw [if_neg h]; exact holds_int64 hk hl (by omega) (by omega)

example : inRange (.uint64 9223372036854775808) ∧ inRange (.int (-2147483648)) ∧ inRange (.uint32 4294967295) := by simp [inRange]

/-- The claim is false for every `int` below -2^31: `EC.Int` stores its lowest 32 bits, which is another number. -/
theorem C23_int_truncates (k : Bytes) (hk : NulFree k) (hl : k.length + 10 < 2147483648) (i : Int)
    (h0 : -9223372036854775808 ≤ i) (h1 : i < -2147483648) :
    ∃ j, Holds k j (EC.int k i) ∧ j ≠ i := by
  refine ⟨i32 i, ?_, ?_⟩
  · unfold EC.int
    rw [if_pos (by omega)]
    exact holds_int32 hk hl (by unfold i32; omega) (by unfold i32; omega)
  · unfold i32; omega

example : ∃ j, Holds [97] j (EC.int [97] (-2147483649)) ∧ j ≠ -2147483649 :=
  C23_int_truncates [97] (by simp [NulFree]) (by decide) _ (by decide) (by decide)

/-! ### C24 -/

/-- `EC.Time(t)` then `Time()` gives `t` rounded down to whole milliseconds, for all instants, before and after 1970, whose
    millisecond count fits an int64 (floor division by 10^6 nanoseconds; both sides normalized, so this fixes the result). -/
theorem C24_time (k : Bytes) (hk : NulFree k) (hl : k.length + 10 < 2147483648) (t : Time) (ht : Normal t)
    (h0 : -9223372036854775808 ≤ nanoseconds t / 1000000) (h1 : nanoseconds t / 1000000 < 9223372036854775808) :
    ∃ v t', EC.time k t = .ok v ∧ key v = .ok k ∧ time v = .ok t' ∧ timeOK v = .ok (some t') ∧ Normal t' ∧
      nanoseconds t' = nanoseconds t / 1000000 * 1000000 ∧ dateTime v = .ok (nanoseconds t / 1000000) := by
  unfold Normal at ht
  have hms : nanoseconds t / 1000000 = t.sec * 1000 + t.nsec / 1000000 := by unfold nanoseconds; omega
  have hwrap : i64 (i64 (t.sec * 1000) + t.nsec.tdiv 1000000) = nanoseconds t / 1000000 := by
    rw [Int.tdiv_eq_ediv_of_nonneg ht.1]
    rw [hms] at h0 h1 ⊢; unfold i64; omega
  obtain ⟨v, hv, hr⟩ := buildVal_rep k (.datetime (nanoseconds t / 1000000)) hk (by simp only [BVal.WF]; omega) (by simp [BVal.enc]; omega)
  obtain ⟨t', h2, h3, h4, h5⟩ := time_rep hr
  refine ⟨v, t', ?_, key_rep hr, h2, ?_, ⟨h4, h5⟩, h3, dateTime_rep hr⟩
  · unfold EC.time; rw [hwrap]; simpa only [buildVal] using hv
  · unfold timeOK okVariant
    rw [if_neg (rep_offset hr), (rep_key hr).2.1]
    simp only [Res.bind_ok, BVal.tag]
    rw [if_neg (by decide), h2]; rfl

/-- 1 ns before 1970 becomes 1 ms before 1970 -/
example : Normal ⟨-1, 999999999⟩ ∧ nanoseconds ⟨-1, 999999999⟩ / 1000000 * 1000000 = -1000000 := by simp [Normal, nanoseconds]

end Birch.Props
