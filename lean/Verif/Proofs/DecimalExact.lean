import Verif.Proofs.DecimalParse
import Verif.Spec.DecimalText

/-
Reading decimal numbers, all texts: the scanning loop on more digits than there is room for, exponents out of range, and
the rejection of everything that is not a number.
-/

namespace Birch.Proofs.Decimal
open Birch Spec Model.Decimal Spec.Decimal

/-! ### significant digits -/

theorem sig_snoc (ds : Bytes) (c : UInt8) : sig (ds ++ [c]) = if sig ds = [] ∧ c = 48 then [] else sig ds ++ [c] := by
  unfold sig
  induction ds with
  | nil => by_cases h : c = 48 <;> simp [h]
  | cons d ds ih =>
    rw [List.cons_append, List.dropWhile_cons, List.dropWhile_cons]
    by_cases h : d = 48
    · have e1 : decide (d = 48) = true := decide_eq_true h
      rw [if_pos e1, if_pos e1, ih]
    · have e1 : ¬ decide (d = 48) = true := by simpa using h
      rw [if_neg e1, if_neg e1, if_neg (by simp)]
      rfl

theorem sig_mem {ds : Bytes} {c : UInt8} (h : c ∈ sig ds) : c ∈ ds := (List.dropWhile_sublist _).subset h

theorem value_append (a b : Bytes) : value (a ++ b) = more (value a) b := more_append 0 a b

theorem value_snoc (a : Bytes) (c : UInt8) : value (a ++ [c]) = value a * 10 + (c.toNat - 48) := value_append a [c]

theorem value_lt : ∀ (ds : Bytes), (∀ c ∈ ds, Digit c) → value ds < 10 ^ ds.length := by
  have key : ∀ (ds : Bytes) (v : Nat), (∀ c ∈ ds, Digit c) → more v ds < (v + 1) * 10 ^ ds.length := by
    intro ds
    induction ds with
    | nil => intro v _; show v < _; simp
    | cons c ds ih =>
      intro v h
      have := ih (v * 10 + (c.toNat - 48)) (fun c hc => h c (List.mem_cons_of_mem _ hc))
      have hc : Digit c := h c (List.mem_cons_self ..)
      unfold Digit at hc
      show more (v * 10 + (c.toNat - 48)) ds < _
      rw [List.length_cons, Nat.pow_succ, Nat.mul_comm (10 ^ ds.length) 10, ← Nat.mul_assoc]
      refine Nat.lt_of_lt_of_le this (Nat.mul_le_mul_right _ ?_)
      omega
  intro ds h
  have := key ds 0 h
  rwa [Nat.zero_add, Nat.one_mul] at this

theorem value_sig : ∀ (ds : Bytes), value (sig ds) = value ds
  | [] => rfl
  | d :: ds => by
    unfold sig
    rw [List.dropWhile_cons]
    by_cases h : d = 48
    · rw [if_pos (by simp [h])]
      have : value (d :: ds) = value ds := by subst h; rfl
      rw [this]
      exact value_sig ds
    · rw [if_neg (by simp [h])]

theorem kept_lt {ds : Bytes} (h : ∀ c ∈ ds, Digit c) : value (kept ds) < 10 ^ 34 := by
  refine Nat.lt_of_lt_of_le (value_lt _ fun c hc => h c (sig_mem (List.mem_of_mem_take hc))) ?_
  apply Nat.pow_le_pow_right (by decide)
  unfold kept
  simp
  omega

theorem more_zeros : ∀ (ds : Bytes) (v : Nat), Zeros ds → more v ds = v * 10 ^ ds.length
  | [], v, _ => by simp [more]
  | c :: ds, v, h => by
    have h0 : c = 48 := h c (List.mem_cons_self ..)
    subst h0
    show more (v * 10 + 0) ds = _
    rw [more_zeros ds _ fun c hc => h c (List.mem_cons_of_mem _ hc), List.length_cons, Nat.pow_succ, Nat.add_zero, Nat.mul_assoc, Nat.mul_comm 10]

/-- nothing is lost when only zeros are cut -/
theorem value_cut {ds : Bytes} (h : Zeros (cut ds)) : value ds = value (kept ds) * 10 ^ (cut ds).length := by
  rw [← value_sig, ← more_zeros _ _ h, ← value_append]
  unfold kept cut
  rw [List.take_append_drop]

/-- room for one more digit -/
theorem kept_snoc {ds : Bytes} {c : UInt8} (h : (sig ds).length < 34) : value (kept (ds ++ [c])) = value (kept ds) * 10 + (c.toNat - 48) ∧ cut (ds ++ [c]) = [] ∧ cut ds = [] := by
  have h1 : kept ds = sig ds := List.take_of_length_le (by omega)
  have h2 : cut ds = [] := List.drop_eq_nil_of_le (by omega)
  refine ⟨?_, ?_, h2⟩
  · unfold kept at *
    rw [sig_snoc, h1]
    split
    · rename_i hx
      rw [hx.1, hx.2]
      rfl
    · rw [List.take_of_length_le (by simp; omega), value_snoc]
  · unfold cut
    rw [sig_snoc]
    split
    · rfl
    · exact List.drop_eq_nil_of_le (by simp; omega)

/-- no room -/
theorem cut_snoc {ds : Bytes} {c : UInt8} (h : 34 ≤ (sig ds).length) : kept (ds ++ [c]) = kept ds ∧ cut (ds ++ [c]) = cut ds ++ [c] := by
  unfold kept cut
  rw [sig_snoc, if_neg (fun hx => by rw [hx.1] at h; simp at h)]
  exact ⟨List.take_append_of_le_length h, List.drop_append_of_le_length h⟩

theorem sig_grow (ds more : Bytes) : ∃ r, cut (ds ++ more) = cut ds ++ r := by
  induction more generalizing ds with
  | nil => exact ⟨[], by simp⟩
  | cons c more ih =>
    obtain ⟨r, hr⟩ := ih (ds ++ [c])
    rw [List.append_assoc, List.singleton_append] at hr
    rw [hr]
    rcases Nat.lt_or_ge (sig ds).length 34 with h | h
    · rw [(kept_snoc h).2.1, (kept_snoc (c := c) h).2.2]
      exact ⟨_, rfl⟩
    · rw [(cut_snoc h).2]
      exact ⟨c :: r, by simp⟩

theorem Zeros.left {a b : Bytes} (h : Zeros (a ++ b)) : Zeros a := fun c hc => h c (List.mem_append_left _ hc)

/-! ### the scanning loop -/

/-- the variables of the scanning loop after the digits `ds` -/
structure St (p : Scan) (ds : Bytes) : Prop where
  val : num p.h p.l * p.mul.toNat + p.add.toNat = value (kept ds)
  mul : ∃ k, k ≤ 9 ∧ p.mul.toNat = 10 ^ k
  add : p.add.toNat < p.mul.toNat
  digits : p.digits = (sig ds).length
  e : p.e = (cut ds).length
  zeros : Zeros (cut ds)
  all : ∀ c ∈ ds, Digit c

theorem St.lt {p : Scan} {ds : Bytes} (h : St p ds) : value (kept ds) < 10 ^ 34 := kept_lt h.all

theorem St.of {p q : Scan} {ds : Bytes} (h : St p ds) (h1 : num q.h q.l * q.mul.toNat + q.add.toNat = num p.h p.l * p.mul.toNat + p.add.toNat)
    (h2 : ∃ k, k ≤ 9 ∧ q.mul.toNat = 10 ^ k) (h3 : q.add.toNat < q.mul.toNat) (h4 : q.digits = p.digits) (h5 : q.e = p.e) : St q ds :=
  ⟨h1.trans h.val, h2, h3, h4.trans h.digits, h5.trans h.e, h.zeros, h.all⟩

theorem St.flush {p : Scan} {ds : Bytes} (h : St p ds) :
    ∃ p', p.flush = some p' ∧ St p' ds ∧ p'.mul = 1 ∧ p'.add = 0 ∧ p'.dot = p.dot ∧ p'.i = p.i := by
  have hv := h.lt
  obtain ⟨h1, _, h3⟩ := muladd_spec p.h p.l p.mul p.add
  have hx : exact p.h p.l p.mul p.add = value (kept ds) := h.val
  rw [hx] at h1 h3
  have h3 := h3 (by omega)
  unfold Scan.flush
  generalize muladd p.h p.l p.mul p.add = r at *
  obtain ⟨a, b, o⟩ := r
  simp only at h1 h3 ⊢
  subst h3
  rw [Nat.mod_eq_of_lt (by omega)] at h1
  have ha : a.toNat < 2 ^ 49 := by
    unfold num at h1
    have := b.toNat_lt
    omega
  rw [tooLarge_false ha]
  refine ⟨_, rfl, h.of ?_ ⟨0, by omega, rfl⟩ (by show (0 : UInt32).toNat < (1 : UInt32).toNat; decide) rfl rfl, rfl, rfl, rfl, rfl⟩
  rw [h.val]
  simp [h1]

theorem St.pre {p : Scan} {ds : Bytes} (h : St p ds) :
    ∃ p', (if p.mul = 1000000000 then p.flush else some p) = some p' ∧ St p' ds ∧ (∃ k, k < 9 ∧ p'.mul.toNat = 10 ^ k) ∧ p'.dot = p.dot ∧ p'.i = p.i := by
  by_cases hm : p.mul = 1000000000
  · obtain ⟨p', h1, h2, h3, _, h5, h6⟩ := h.flush
    rw [if_pos hm]
    exact ⟨p', h1, h2, ⟨0, by omega, by rw [h3]; rfl⟩, h5, h6⟩
  · rw [if_neg hm]
    refine ⟨p, rfl, h, ?_, rfl, rfl⟩
    obtain ⟨k, h1, h2⟩ := h.mul
    refine ⟨k, ?_, h2⟩
    rcases Nat.lt_or_ge k 9 with h3 | h3
    · exact h3
    · obtain rfl : k = 9 := by omega
      exact absurd (UInt32.toNat_inj.mp (by rw [h2]; rfl)) hm

theorem St.post {p : Scan} {ds : Bytes} (h : St p ds) :
    ∃ p', (if p.mul > 1 then p.flush else some p) = some p' ∧ num p'.h p'.l = value (kept ds) ∧ p'.e = (cut ds).length ∧ p'.dot = p.dot ∧ p'.i = p.i := by
  by_cases hm : p.mul > 1
  · obtain ⟨p', h1, h2, h3, h3', h4, h5⟩ := h.flush
    rw [if_pos hm]
    refine ⟨p', h1, ?_, h2.e, h4, h5⟩
    have := h2.val
    rw [h3, h3'] at this
    simpa using this
  · rw [if_neg hm]
    refine ⟨p, rfl, ?_, h.e, rfl, rfl⟩
    have hm : p.mul.toNat ≤ 1 := Nat.not_lt.mp (fun h => hm (UInt32.lt_iff_toNat_lt.mpr h))
    have ha := h.add
    have h1 : p.mul.toNat = 1 := by omega
    have := h.val
    rw [h1] at this
    omega

/-- one digit -/
theorem St.digit {n : Nat} {c : UInt8} {rest : Bytes} {p : Scan} {ds : Bytes} (hc : Digit c) (h : St p ds) :
    (Zeros (cut (ds ++ [c])) → ∃ p', scan n (c :: rest) p = scan n rest p' ∧ St p' (ds ++ [c]) ∧ p'.dot = p.dot ∧ p'.i = p.i + 1) ∧
    (¬ Zeros (cut (ds ++ [c])) → scan n (c :: rest) p = none) := by
  obtain ⟨q, h1, h2, ⟨k, hk, hmul⟩, h5, h6⟩ := h.pre
  have hd : isDigit c = true := isDigit_iff.mpr hc
  have hall : ∀ x ∈ ds ++ [c], Digit x := by
    intro x hx
    rcases List.mem_append.mp hx with hx | hx
    · exact h.all x hx
    · rw [List.mem_singleton.mp hx]; exact hc
  unfold Digit at hc
  have hgt : c > 48 ↔ 48 < c.toNat := UInt8.lt_iff_toNat_lt
  have heq : c = 48 ↔ c.toNat = 48 := by rw [← UInt8.toNat_inj]; rfl
  have hdig : (if c > 48 ∨ q.digits > 0 then q.digits + 1 else q.digits) = (sig (ds ++ [c])).length := by
    rw [sig_snoc, h2.digits]
    by_cases hz : sig ds = [] ∧ c = 48
    · rw [if_pos hz, hz.1, if_neg (by rw [hgt]; have := heq.mp hz.2; simp; omega)]
    · rw [if_neg hz, if_pos, List.length_append]
      · rfl
      · by_cases h0 : sig ds = []
        · exact .inl (hgt.mpr (by have : ¬ c.toNat = 48 := fun h => hz ⟨h0, heq.mpr h⟩; omega))
        · exact .inr (List.length_pos_iff.mpr h0)
  have step : scan n (c :: rest) p =
      (if (sig (ds ++ [c])).length > 34 then
        (if c = 48 then scan n rest ⟨q.h, q.l, q.e + 1, q.mul, q.add, q.dot, (sig (ds ++ [c])).length, q.i + 1⟩ else none)
      else scan n rest ⟨q.h, q.l, q.e, q.mul * 10, q.add * 10 + (c - 48).toUInt32, q.dot, (sig (ds ++ [c])).length, q.i + 1⟩) := by
    rw [scan, h1]
    dsimp only
    rw [if_pos hd, hdig]
  rcases Nat.lt_or_ge (sig ds).length 34 with hl | hl
  · obtain ⟨k1, k2, k3⟩ := kept_snoc (c := c) hl
    have hle : ¬ (sig (ds ++ [c])).length > 34 := by
      rw [sig_snoc]
      split
      · simp
      · simp; omega
    rw [if_neg hle] at step
    refine ⟨fun _ => ⟨_, step, ?_, h5, by show q.i + 1 = _; rw [h6]⟩, fun hz => absurd (by rw [k2]; intro x hx; cases hx) hz⟩
    have hsub : (c - 48).toUInt32.toNat = c.toNat - 48 := by
      rw [UInt8.toNat_toUInt32, UInt8.toNat_sub_of_le _ _ (UInt8.le_iff_toNat_le.mpr (show (48 : UInt8).toNat ≤ c.toNat from hc.1))]; rfl
    have hm := mul_u32 hmul hk
    have hk8 : 10 ^ k ≤ 10 ^ 8 := Nat.pow_le_pow_right (by decide) (by omega)
    have hadd := h2.add
    have hadd' : (q.add * 10 + (c - 48).toUInt32).toNat = q.add.toNat * 10 + (c.toNat - 48) := by
      rw [UInt32.toNat_add, UInt32.toNat_mul, hsub, show UInt32.toNat 10 = 10 from rfl, Nat.mod_eq_of_lt (a := q.add.toNat * 10) (by omega), Nat.mod_eq_of_lt (by omega)]
    refine ⟨?_, ⟨k + 1, by omega, hm⟩, ?_, rfl, ?_, (by rw [k2]; intro x hx; cases hx), hall⟩
    · show num q.h q.l * (q.mul * 10).toNat + (q.add * 10 + (c - 48).toUInt32).toNat = _
      rw [k1, hm, hadd', ← h2.val, hmul, Nat.pow_succ, Nat.add_mul, Nat.mul_assoc]
      omega
    · show (q.add * 10 + (c - 48).toUInt32).toNat < (q.mul * 10).toNat
      rw [hadd', hm, Nat.pow_succ]; omega
    · show q.e = _
      rw [h2.e, k2, k3]
  · obtain ⟨k1, k2⟩ := cut_snoc (c := c) hl
    have hle : (sig (ds ++ [c])).length > 34 := by
      rw [sig_snoc, if_neg (fun hx => by rw [hx.1] at hl; simp at hl)]
      simp; omega
    rw [if_pos hle] at step
    by_cases h0 : c = 48
    · rw [if_pos h0] at step
      have hz : Zeros (cut (ds ++ [c])) := by
        rw [k2]
        intro x hx
        rcases List.mem_append.mp hx with hx | hx
        · exact h.zeros x hx
        · rw [List.mem_singleton.mp hx]; exact h0
      refine ⟨fun _ => ⟨_, step, ?_, h5, by show q.i + 1 = _; rw [h6]⟩, fun hn => absurd hz hn⟩
      refine ⟨?_, h2.mul, h2.add, rfl, ?_, hz, hall⟩
      · rw [k1]; exact h2.val
      · show q.e + 1 = _
        rw [h2.e, k2, List.length_append]
        rfl
    · rw [if_neg h0] at step
      refine ⟨fun hz => ?_, fun _ => step⟩
      rw [k2] at hz
      exact absurd (hz c (List.mem_append_right _ (List.mem_singleton.mpr rfl))) h0

/-- a run of digits -/
theorem St.run {n : Nat} {rest : Bytes} : ∀ (more : Bytes) {p : Scan} {ds : Bytes}, (∀ c ∈ more, Digit c) → St p ds →
    (Zeros (cut (ds ++ more)) → ∃ p', scan n (more ++ rest) p = scan n rest p' ∧ St p' (ds ++ more) ∧ p'.dot = p.dot ∧ p'.i = p.i + more.length) ∧
    (¬ Zeros (cut (ds ++ more)) → scan n (more ++ rest) p = none)
  | [], p, ds, _, h => by
    rw [List.append_nil, List.nil_append]
    exact ⟨fun _ => ⟨p, rfl, h, rfl, rfl⟩, fun hn => absurd h.zeros hn⟩
  | c :: more, p, ds, hd, h => by
    obtain ⟨g1, g2⟩ := h.digit (n := n) (rest := more ++ rest) (hd c (List.mem_cons_self ..))
    have e1 : ds ++ c :: more = (ds ++ [c]) ++ more := by simp
    rw [List.cons_append, e1]
    by_cases hz : Zeros (cut (ds ++ [c]))
    · obtain ⟨p1, k1, k2, k3, k4⟩ := g1 hz
      obtain ⟨l1, l2⟩ := St.run (n := n) (rest := rest) more (fun c hc => hd c (List.mem_cons_of_mem _ hc)) k2
      refine ⟨fun hz => ?_, fun hn => by rw [k1]; exact l2 hn⟩
      obtain ⟨p2, m1, m2, m3, m4⟩ := l1 hz
      refine ⟨p2, by rw [k1, m1], m2, m3.trans k3, ?_⟩
      rw [m4, k4, List.length_cons]; omega
    · refine ⟨fun hz' => ?_, fun _ => g2 hz⟩
      obtain ⟨r, hr⟩ := sig_grow (ds ++ [c]) more
      rw [hr] at hz'
      exact absurd (Zeros.left hz') hz

/-- the rest of the text begins with something that ends the digits -/
def Ends (tail : Bytes) : Prop := ∀ c r, tail = c :: r → ¬ Digit c ∧ c ≠ 46

theorem St.stop {n : Nat} {tail : Bytes} {p : Scan} {ds : Bytes} (h : St p ds) (ht : Ends tail) :
    ∃ p', scan n tail p = some (p', tail) ∧ St p' ds ∧ p'.dot = p.dot ∧ p'.i = p.i := by
  cases tail with
  | nil => exact ⟨p, by rw [scan], h, rfl, rfl⟩
  | cons c r =>
    obtain ⟨q, h1, h2, _, h5, h6⟩ := h.pre
    refine ⟨q, ?_, h2, h5, h6⟩
    have := ht c r rfl
    rw [scan, h1]
    dsimp only
    rw [if_neg (fun hd => this.1 (isDigit_iff.mp hd)), if_neg this.2]

/-- the point -/
theorem St.point {n : Nat} {rest : Bytes} {p : Scan} {ds : Bytes} (h : St p ds) :
    ∃ q, St q ds ∧ q.dot = p.dot ∧ q.i = p.i ∧ scan n (46 :: rest) p =
      if p.dot ≥ 0 ∨ (p.i + 1 = 1 ∧ n = 1) then none
      else match rest with
        | [] => some ({ q with i := p.i + 1 }, [])
        | c' :: _ => if ¬ isDigit c' = true ∨ cut ds ≠ [] then none else scan n rest { q with i := p.i + 1, dot := (p.i + 1 : Nat) } := by
  obtain ⟨q, h1, h2, _, h5, h6⟩ := h.pre
  refine ⟨q, h2, h5, h6, ?_⟩
  have e1 : (q.dot ≥ 0 ∨ (q.i + 1 = 1 ∧ n = 1)) ↔ (p.dot ≥ 0 ∨ (p.i + 1 = 1 ∧ n = 1)) := by rw [h5, h6]
  rw [scan, h1]
  dsimp only
  rw [if_neg (by decide), if_pos rfl]
  by_cases hx : p.dot ≥ 0 ∨ (p.i + 1 = 1 ∧ n = 1)
  · rw [if_pos hx, if_pos (e1.mpr hx)]
  · rw [if_neg hx, if_neg (fun h => hx (e1.mp h))]
    cases rest with
    | nil => dsimp only; rw [h6]
    | cons c' r =>
      dsimp only
      have e2 : (¬ isDigit c' = true ∨ q.e > 0) ↔ (¬ isDigit c' = true ∨ cut ds ≠ []) := by
        rw [h2.e]
        refine or_congr Iff.rfl ⟨fun h h' => by rw [h'] at h; simp at h, fun h => ?_⟩
        have := List.length_pos_iff.mpr h
        omega
      by_cases hy : ¬ isDigit c' = true ∨ cut ds ≠ []
      · rw [if_pos hy, if_pos (e2.mpr hy)]
      · rw [if_neg hy, if_neg (fun h => hy (e2.mp h)), h6]

theorem St.start : St {} [] := ⟨by simp [num, kept, sig, value], ⟨0, by omega, rfl⟩, by decide, rfl, rfl, by intro c hc; simp [cut, sig] at hc, by intro c hc; cases hc⟩

/-! ### the whole mantissa -/

theorem ends_exp {exp : Option (UInt8 × Option Bool × Bytes)} (h : ∀ c s ds, exp = some (c, s, ds) → (c = 69 ∨ c = 101) ∧ ds ≠ [] ∧ ∀ c ∈ ds, Digit c) :
    Ends (Written.expText exp) := by
  intro c r he
  obtain _ | ⟨c', s, ds⟩ := exp
  · cases he
  · obtain ⟨hc, _⟩ := h c' s ds rfl
    injection he with h1 h2
    subst h1
    rcases hc with rfl | rfl <;> exact ⟨by unfold Digit; decide, by decide⟩

theorem mantissa {w : Written} (hw : w.Ok) (n : Nat) (hn : n = (w.int ++ (Written.fracText w.frac ++ Written.expText w.exp)).length) :
    (Zeros (cut w.digits) → cut w.int = [] ∨ w.fraction = [] →
      ∃ p, scan n (w.int ++ (Written.fracText w.frac ++ Written.expText w.exp)) {} = some (p, Written.expText w.exp) ∧ St p w.digits ∧ p.i ≠ 0 ∧
        (if p.dot ≥ 0 then ((cut w.digits).length : Int) + (p.dot - p.i) else (cut w.digits).length) = (cut w.digits).length - w.fraction.length) ∧
    (¬ (Zeros (cut w.digits) ∧ (cut w.int = [] ∨ w.fraction = [])) → scan n (w.int ++ (Written.fracText w.frac ++ Written.expText w.exp)) {} = none) := by
  have hend := ends_exp hw.exp
  obtain ⟨hI, hF, hne, hlast, _⟩ := hw
  unfold Written.digits Written.fraction at *
  generalize w.int = I at *
  generalize hex : w.exp = exp at *
  generalize w.frac = frac at *
  obtain ⟨r1, r2⟩ := St.start.run (n := n) (rest := Written.fracText frac ++ Written.expText exp) I hI
  rw [List.nil_append] at r1 r2
  obtain _ | F := frac
  · simp only [Option.getD_none, List.append_nil, Written.fracText, List.nil_append] at *
    refine ⟨fun hz _ => ?_, fun hx => ?_⟩
    · obtain ⟨p, k1, k2, k3, k4⟩ := r1 hz
      obtain ⟨q, l1, l2, l3, l4⟩ := k2.stop (n := n) hend
      refine ⟨q, by rw [k1, l1], l2, ?_, ?_⟩
      · rw [l4, k4]
        have := List.length_pos_iff.mpr hne
        omega
      · rw [l3, k3, if_neg (by decide)]; simp
    · exact r2 (fun hz => hx ⟨hz, .inr trivial⟩)
  · simp only [Option.getD_some, Written.fracText, List.cons_append] at *
    by_cases hzI : Zeros (cut I)
    · obtain ⟨p, k1, k2, k3, k4⟩ := r1 hzI
      have hi : p.i = I.length := by rw [k4]; simp
      have hd : p.dot = -1 := k3
      obtain ⟨q, q1, q2, q3, q4⟩ := k2.point (n := n) (rest := F ++ Written.expText exp)
      have hnone : ¬ (p.dot ≥ 0 ∨ (p.i + 1 = 1 ∧ n = 1)) := by
        rintro (h | ⟨h, h'⟩)
        · rw [hd] at h; exact absurd h (by decide)
        · have : I = [] := List.length_eq_zero_iff.mp (by omega)
          subst this
          simp at hne hn
          have := List.length_pos_iff.mpr hne
          omega
      rw [if_neg hnone] at q4
      obtain _ | ⟨f, F⟩ := F
      · have : exp = none := hlast rfl
        subst this
        simp only [Written.expText, List.append_nil] at *
        have hIpos := List.length_pos_iff.mpr hne
        refine ⟨fun _ _ => ⟨{ q with i := p.i + 1 }, by rw [k1, q4], q1.of rfl q1.mul q1.add rfl rfl, ?_, ?_⟩, fun hx => absurd ⟨hzI, .inr trivial⟩ hx⟩
        · show p.i + 1 ≠ 0
          omega
        · show (if q.dot ≥ 0 then _ else _) = _
          rw [q2, hd, if_neg (by decide)]; simp
      · have hf : isDigit f = true := isDigit_iff.mpr (hF f (List.mem_cons_self ..))
        rw [List.cons_append] at *
        dsimp only at q4
        by_cases hc : cut I = []
        · rw [if_neg (by rintro (h | h); exact h hf; exact h hc)] at q4
          have hq : St { q with i := p.i + 1, dot := (p.i + 1 : Nat) } I := q1.of rfl q1.mul q1.add rfl rfl
          obtain ⟨s1, s2⟩ := hq.run (n := n) (rest := Written.expText exp) (f :: F) hF
          simp only [List.cons_append] at s1 s2
          refine ⟨fun hz _ => ?_, fun hx => ?_⟩
          · obtain ⟨p2, t1, t2, t3, t4⟩ := s1 hz
            obtain ⟨p3, u1, u2, u3, u4⟩ := t2.stop (n := n) hend
            refine ⟨p3, by rw [k1, q4, t1, u1], u2, by rw [u4, t4]; simp, ?_⟩
            rw [u3, t3, u4, t4]
            rw [if_pos (by omega)]
            omega
          · rw [k1, q4]
            exact s2 (fun hz => hx ⟨hz, .inl hc⟩)
        · refine ⟨fun _ h => ?_, fun _ => ?_⟩
          · rcases h with h | h
            · exact absurd h hc
            · cases h
          · rw [k1, q4, if_pos (.inr hc)]
    · obtain ⟨r, hr⟩ := sig_grow I F
      have : ¬ Zeros (cut (I ++ F)) := fun h => hzI (Zeros.left (by rw [hr] at h; exact h))
      exact ⟨fun h => absurd h this, fun _ => r2 hzI⟩

/-! ### the exponent -/

/-- the digits of an exponent of at most five digits -/
theorem exp_read : ∀ (ds : Bytes) (n : Nat), (∀ c ∈ ds, Digit c) → more n ds < 100000 → expDigits ds n = some (more n ds, [])
  | [], n, _, _ => rfl
  | c :: ds, n, hc, h => by
    have hle := more_ge ds (n * 10 + (c.toNat - 48))
    have h' : more (n * 10 + (c.toNat - 48)) ds < 100000 := h
    rw [expDigits, if_pos (by omega), if_pos (isDigit_iff.mpr (hc c (List.mem_cons_self ..)))]
    exact exp_read ds _ (fun c hm => hc c (List.mem_cons_of_mem _ hm)) h'

/-- longer exponents are not read to the end -/
theorem exp_long : ∀ (ds : Bytes) (n : Nat), (∀ c ∈ ds, Digit c) → n < 100000 → ¬ more n ds < 100000 → ∃ m r, expDigits ds n = some (m, r) ∧ r ≠ []
  | [], n, _, h1, h2 => absurd h1 h2
  | c :: ds, n, hc, h1, h2 => by
    rw [expDigits]
    by_cases h : n < 10000
    · rw [if_pos h, if_pos (isDigit_iff.mpr (hc c (List.mem_cons_self ..)))]
      have hd := hc c (List.mem_cons_self ..)
      unfold Digit at hd
      exact exp_long ds _ (fun c hm => hc c (List.mem_cons_of_mem _ hm)) (by omega) h2
    · rw [if_neg h]
      exact ⟨_, _, rfl, by simp⟩

theorem exp_sound : ∀ (ds : Bytes) (n m : Nat), expDigits ds n = some (m, []) → ∀ c ∈ ds, Digit c
  | [], _, _, _ => by intro c hc; cases hc
  | d :: ds, n, m, h => by
    rw [expDigits] at h
    by_cases h1 : n < 10000
    · rw [if_pos h1] at h
      by_cases h2 : isDigit d = true
      · rw [if_pos h2] at h
        intro c hc
        rcases List.mem_cons.mp hc with rfl | hc
        · exact isDigit_iff.mp h2
        · exact exp_sound ds _ _ h c hc
      · rw [if_neg h2] at h; cases h
    · rw [if_neg h1] at h
      simp at h

/-- bringing the exponent into range -/
def adjust (h l : UInt64) (e : Int) : Option (UInt64 × UInt64 × Int) :=
  match subnormal h l e with
  | none => none
  | some (h, l, e) =>
    match clamped h l e with
    | none => none
    | some (h, l, e) => if e < -6176 ∨ e > 6111 then none else some (h, l, e)

theorem exponent_adjust {h l : UInt64} {e : Int} {c : UInt8} {s : Option Bool} {ds : Bytes} (hc : c = 69 ∨ c = 101) (hne : ds ≠ []) (hd : ∀ c ∈ ds, Digit c) :
    exponent h l e (c :: (signText s ++ ds)) =
      match expDigits ds 0 with
      | none => none
      | some (n, rest) => (adjust h l (e + (if s = some true then -(n : Int) else n))).map fun r => (r.1, r.2.1, r.2.2, rest) := by
  obtain ⟨d, ds, rfl⟩ : ∃ d r, ds = d :: r := by
    cases ds with
    | nil => exact absurd rfl hne
    | cons d r => exact ⟨d, r, rfl⟩
  have hd0 := hd d (List.mem_cons_self ..)
  have hd45 : d ≠ 45 := by rintro rfl; exact absurd hd0 (by unfold Digit; decide)
  have hd43 : d ≠ 43 := by rintro rfl; exact absurd hd0 (by unfold Digit; decide)
  have fin : ∀ (o : Option (Nat × Bytes)) (sg : Nat → Int),
      (match o with
      | none => none
      | some (n, rest) =>
        match subnormal h l (e + sg n) with
        | none => none
        | some (h, l, e) =>
          match clamped h l e with
          | none => none
          | some (h, l, e) => if e < -6176 ∨ e > 6111 then none else some (h, l, e, rest)) =
      match o with
      | none => none
      | some (n, rest) => (adjust h l (e + sg n)).map fun r => (r.1, r.2.1, r.2.2, rest) := by
    intro o sg
    obtain _ | ⟨n, rest⟩ := o
    · rfl
    · dsimp only
      unfold adjust
      cases subnormal h l (e + sg n) with
      | none => rfl
      | some r =>
        obtain ⟨a, b, x⟩ := r
        dsimp only
        cases clamped a b x with
        | none => rfl
        | some r =>
          obtain ⟨a, b, x⟩ := r
          dsimp only
          split <;> rfl
  obtain _ | _ | _ := s
  · show exponent h l e (c :: d :: ds) = _
    rw [exponent]
    dsimp only
    rw [if_pos hc, if_neg (by rintro ⟨h | h, _⟩; exact hd45 h; exact hd43 h), if_neg (by rintro (h | h); exact hd45 h; exact hd43 h)]
    simp only [if_neg hd45, reduceCtorEq, if_false]
    exact fin _ (fun n => (n : Int))
  · show exponent h l e (c :: 43 :: d :: ds) = _
    rw [exponent]
    dsimp only
    rw [if_pos hc, if_neg (by simp), if_pos (.inr rfl)]
    simp only [if_neg (show ¬ (43 : UInt8) = 45 by decide), Option.some.injEq, Bool.false_eq_true, if_false]
    exact fin _ (fun n => (n : Int))
  · show exponent h l e (c :: 45 :: d :: ds) = _
    rw [exponent]
    dsimp only
    rw [if_pos hc, if_neg (by simp), if_pos (.inl rfl)]
    simp only [if_true]
    exact fin _ (fun n => -(n : Int))

theorem exponent_sound {h l h' l' : UInt64} {e e' : Int} {t : Bytes} (hx : exponent h l e t = some (h', l', e', [])) :
    ∃ exp, t = Written.expText exp ∧ ∀ c s ds, exp = some (c, s, ds) → (c = 69 ∨ c = 101) ∧ ds ≠ [] ∧ ∀ c ∈ ds, Digit c := by
  obtain _ | ⟨c, _ | ⟨d, rest⟩⟩ := t
  · exact ⟨none, rfl, by intro c s ds h; cases h⟩
  · simp [exponent] at hx
  · rw [exponent] at hx
    dsimp only at hx
    by_cases hc : c = 69 ∨ c = 101
    · rw [if_pos hc] at hx
      by_cases hs : d = 45 ∨ d = 43
      · by_cases hr : rest = []
        · rw [if_pos ⟨hs, hr⟩] at hx; cases hx
        · rw [if_neg (fun h => hr h.2), if_pos hs] at hx
          cases hg : expDigits rest 0 with
          | none => rw [hg] at hx; cases hx
          | some r =>
            obtain ⟨n, rest'⟩ := r
            rw [hg] at hx
            dsimp only at hx
            have hrest : rest' = [] := by
              split at hx
              · cases hx
              · split at hx
                · cases hx
                · split at hx
                  · cases hx
                  · simp only [Option.some.injEq, Prod.mk.injEq] at hx
                    exact hx.2.2.2
            subst hrest
            have hdig := exp_sound _ _ _ hg
            refine ⟨some (c, some (decide (d = 45)), rest), ?_, ?_⟩
            · rcases hs with rfl | rfl <;> rfl
            · intro c' s ds h
              simp only [Option.some.injEq, Prod.mk.injEq] at h
              obtain ⟨rfl, _, rfl⟩ := h
              exact ⟨hc, hr, hdig⟩
      · rw [if_neg (fun h => hs h.1), if_neg hs] at hx
        cases hg : expDigits (d :: rest) 0 with
        | none => rw [hg] at hx; cases hx
        | some r =>
          obtain ⟨n, rest'⟩ := r
          rw [hg] at hx
          dsimp only at hx
          have hrest : rest' = [] := by
            split at hx
            · cases hx
            · split at hx
              · cases hx
              · split at hx
                · cases hx
                · simp only [Option.some.injEq, Prod.mk.injEq] at hx
                  exact hx.2.2.2
          subst hrest
          have hdig := exp_sound _ _ _ hg
          refine ⟨some (c, none, d :: rest), rfl, ?_⟩
          intro c' s ds h
          simp only [Option.some.injEq, Prod.mk.injEq] at h
          obtain ⟨rfl, _, rfl⟩ := h
          exact ⟨hc, by simp, hdig⟩
    · rw [if_neg hc] at hx
      simp at hx

end Birch.Proofs.Decimal
