import Verif.Proofs.Decimal
import Verif.Spec.Decimal

/- `Decimal128.String` prints the text of the number. -/

namespace Birch.Proofs.Decimal
open Birch Model Model.Decimal Spec Spec.Decimal

set_option linter.unusedSimpArgs false

/-! ### One digit at a time: the loop without the two words and the groups of nine digits -/

/-- the printing loop on a number of any size -/
structure Abs where
  r : Nat
  out : Bytes
  last : Int
  dot : Int
  e : Int

def Abs.i (a : Abs) : Int := 48 - a.out.length

def Abs.push (a : Abs) (c : UInt8) : Res Abs := if a.out.length ≥ 48 then .panic else .ok { a with out := c :: a.out }

def Abs.insert (a : Abs) : Res Abs :=
  if a.i < 48 ∧ (a.dot = a.i ∨ (0 < a.r ∧ a.r < 10 ∧ (a.dot < a.i - 6 ∨ a.e > 0))) then
    Abs.push { a with e := a.e + (48 - a.i), last := a.i - 1 - 1, dot := 48 } 46
  else .ok a

def Abs.after (c : UInt8) (a : Abs) : Abs × Bool :=
  if a.r = 0 ∧ a.i = 47 ∧ (a.dot < a.i - 5 ∨ a.e > 0) then ({ a with last := a.i }, true)
  else (if c ≠ 48 then { a with last := a.i } else a, a.dot > a.i ∧ a.r = 0)

def Abs.emit (a : Abs) : Res (Abs × Bool) := do
  let c : UInt8 := UInt8.ofNat (48 + a.r % 10)
  let a ← Abs.push { a with r := a.r / 10 } c
  .ok (a.after c)

def Abs.run : Nat → Abs → Res Abs
  | 0, a => .ok a
  | n + 1, a => do
    let a ← a.insert
    let x ← a.emit
    if x.2 = true then .ok x.1 else Abs.run n x.1

/-- the number still to be printed when `j` digits of the group are left -/
def Print.abs (j : Nat) (p : Print) : Abs := ⟨num p.h p.l * 10 ^ j + p.rem.toNat, p.out, p.last, p.dot, p.e⟩

theorem num_zero {h l : UInt64} : num h l = 0 ↔ l = 0 ∧ h = 0 := by
  unfold num
  rw [← UInt64.toNat_inj, ← UInt64.toNat_inj]
  have : (0 : UInt64).toNat = 0 := rfl
  rw [this]
  omega

theorem rem_cond {p : Print} {j : Nat} {X : Prop} :
    (p.l = 0 ∧ p.h = 0 ∧ p.rem > 0 ∧ p.rem < 10 ∧ X) ↔ (0 < (Print.abs (j + 1) p).r ∧ (Print.abs (j + 1) p).r < 10 ∧ X) := by
  unfold Print.abs
  dsimp only
  have hz := num_zero (h := p.h) (l := p.l)
  have h1 : p.rem > 0 ↔ 0 < p.rem.toNat := by rw [gt_iff_lt, UInt32.lt_iff_toNat_lt]; simp
  have h2 : p.rem < 10 ↔ p.rem.toNat < 10 := by rw [UInt32.lt_iff_toNat_lt]; simp
  rw [h1, h2]
  constructor
  · rintro ⟨a, b, c, d, x⟩
    rw [hz.mpr ⟨a, b⟩]
    exact ⟨by omega, by omega, x⟩
  · rintro ⟨a, b, x⟩
    have h0 : num p.h p.l = 0 := by
      rcases Nat.eq_zero_or_pos (num p.h p.l) with h | h
      · exact h
      · have : 1 * 10 ≤ num p.h p.l * 10 ^ (j + 1) := Nat.mul_le_mul h (by
          rw [Nat.pow_succ]; have : 0 < 10 ^ j := Nat.pos_of_ne_zero (by simp)
          omega)
        omega
    rw [h0] at a b
    exact ⟨(hz.mp h0).1, (hz.mp h0).2, by omega, by omega, x⟩

theorem rem_zero {p : Print} {j : Nat} {X : Prop} : (p.l = 0 ∧ p.h = 0 ∧ p.rem = 0 ∧ X) ↔ ((Print.abs j p).r = 0 ∧ X) := by
  unfold Print.abs
  dsimp only
  have hz := num_zero (h := p.h) (l := p.l)
  have h1 : p.rem = 0 ↔ p.rem.toNat = 0 := by rw [← UInt32.toNat_inj]; rfl
  have hp : 0 < 10 ^ j := Nat.pos_of_ne_zero (by simp)
  rw [h1]
  constructor
  · rintro ⟨a, b, c, x⟩
    rw [hz.mpr ⟨a, b⟩, c]; exact ⟨by simp, x⟩
  · rintro ⟨a, x⟩
    have h2 : num p.h p.l * 10 ^ j = 0 := by omega
    have h3 : num p.h p.l = 0 := by
      rcases Nat.mul_eq_zero.mp h2 with h | h
      · exact h
      · omega
    exact ⟨(hz.mp h3).1, (hz.mp h3).2, by omega, x⟩

theorem after_abs (j : Nat) (c : UInt8) (p : Print) :
    (Print.abs j p).after c = (Print.abs j (p.after c).1, (p.after c).2) ∧ (p.after c).1.rem = p.rem := by
  unfold Abs.after Print.after
  have key := rem_zero (p := p) (j := j) (X := p.i = 47 ∧ (p.dot < p.i - 5 ∨ p.e > 0))
  by_cases h : p.l = 0 ∧ p.h = 0 ∧ p.rem = 0 ∧ p.i = 47 ∧ (p.dot < p.i - 5 ∨ p.e > 0)
  · rw [if_pos h]
    exact ⟨if_pos (key.mp h), rfl⟩
  · rw [if_neg h]
    refine ⟨(if_neg (fun h' => h (key.mpr h'))).trans ?_, by split <;> rfl⟩
    have hb : decide ((Print.abs j p).dot > (Print.abs j p).i ∧ (Print.abs j p).r = 0) =
        decide (p.dot > p.i ∧ p.l = 0 ∧ p.h = 0 ∧ p.rem = 0) := by
      apply decide_eq_decide.mpr
      have := rem_zero (p := p) (j := j) (X := True)
      show p.dot > p.i ∧ _ ↔ p.dot > p.i ∧ _
      grind
    rw [hb]
    congr 1
    by_cases h2 : c ≠ 48
    · rw [if_pos h2, if_pos h2]; rfl
    · rw [if_neg h2, if_neg h2]

theorem emit_abs {q : Print} {j : Nat} (hq : q.rem.toNat < 10 ^ (j + 1)) :
    (∃ p' b, (Print.push { q with rem := q.rem / 10 } (48 + (q.rem % 10).toUInt8) >>= fun p => .ok (p.after (48 + (q.rem % 10).toUInt8)))
        = .ok (p', b) ∧ p'.rem.toNat < 10 ^ j ∧ (Print.abs (j + 1) q).emit = .ok (Print.abs j p', b)) ∨
    ((Print.push { q with rem := q.rem / 10 } (48 + (q.rem % 10).toUInt8) >>= fun p => (.ok (p.after (48 + (q.rem % 10).toUInt8)) : Res (Print × Bool)))
        = .panic ∧ (Print.abs (j + 1) q).emit = .panic) := by
  have hrem : (q.rem / 10).toNat = q.rem.toNat / 10 := by rw [UInt32.toNat_div]; rfl
  have hlt : q.rem.toNat / 10 < 10 ^ j := by
    rw [Nat.pow_succ] at hq
    exact Nat.div_lt_of_lt_mul (by omega)
  have e10 : num q.h q.l * 10 ^ (j + 1) + q.rem.toNat = 10 * (num q.h q.l * 10 ^ j) + q.rem.toNat := by rw [Nat.pow_succ]; grind
  have hR : (Print.abs (j + 1) q).r / 10 = num q.h q.l * 10 ^ j + q.rem.toNat / 10 := by
    show (num q.h q.l * 10 ^ (j + 1) + q.rem.toNat) / 10 = _
    rw [e10, Nat.mul_add_div (by omega)]
  have hM : (Print.abs (j + 1) q).r % 10 = q.rem.toNat % 10 := by
    show (num q.h q.l * 10 ^ (j + 1) + q.rem.toNat) % 10 = _
    rw [e10, Nat.mul_add_mod]
  have hc : 48 + (q.rem % 10).toUInt8 = UInt8.ofNat (48 + (Print.abs (j + 1) q).r % 10) := by
    apply UInt8.toNat_inj.mp
    rw [hM, UInt8.toNat_add, UInt8.toNat_ofNat', UInt32.toNat_toUInt8, UInt32.toNat_mod]
    simp
  unfold Abs.emit Print.push Abs.push
  rw [hc]
  generalize UInt8.ofNat (48 + (Print.abs (j + 1) q).r % 10) = c
  by_cases hlen : q.out.length ≥ 48
  · right
    exact ⟨by rw [if_pos hlen]; rfl, by dsimp only; rw [if_pos (show (Print.abs (j + 1) q).out.length ≥ 48 from hlen)]; rfl⟩
  left
  dsimp only
  rw [if_neg hlen, if_neg (show ¬ (Print.abs (j + 1) q).out.length ≥ 48 from hlen)]
  simp only [Res.bind_ok]
  obtain ⟨h1, h2⟩ := after_abs j c { q with rem := q.rem / 10, out := c :: q.out }
  refine ⟨(Print.after c { q with rem := q.rem / 10, out := c :: q.out }).1, (Print.after c { q with rem := q.rem / 10, out := c :: q.out }).2,
    rfl, ?_, ?_⟩
  · rw [h2]; dsimp only; rw [hrem]; exact hlt
  · rw [← h1, hR]
    unfold Print.abs
    dsimp only
    rw [hrem]

/-- one round of the inner loop -/
theorem digit_abs {p : Print} {j : Nat} (hr : p.rem.toNat < 10 ^ (j + 1)) :
    (∃ p' b, p.digit = .ok (p', b) ∧ p'.rem.toNat < 10 ^ j ∧ (Abs.insert (Print.abs (j + 1) p) >>= Abs.emit) = .ok (Print.abs j p', b)) ∨
    (p.digit = .panic ∧ (Abs.insert (Print.abs (j + 1) p) >>= Abs.emit) = .panic) := by
  unfold Print.digit Abs.insert Print.insert
  have key : (p.i < 48 ∧ (p.dot = p.i ∨ (p.l = 0 ∧ p.h = 0 ∧ p.rem > 0 ∧ p.rem < 10 ∧ (p.dot < p.i - 6 ∨ p.e > 0)))) ↔
      ((Print.abs (j + 1) p).i < 48 ∧ ((Print.abs (j + 1) p).dot = (Print.abs (j + 1) p).i ∨
        (0 < (Print.abs (j + 1) p).r ∧ (Print.abs (j + 1) p).r < 10 ∧
          ((Print.abs (j + 1) p).dot < (Print.abs (j + 1) p).i - 6 ∨ (Print.abs (j + 1) p).e > 0)))) := by
    rw [rem_cond (j := j)]; rfl
  by_cases h1 : p.i < 48 ∧ (p.dot = p.i ∨ (p.l = 0 ∧ p.h = 0 ∧ p.rem > 0 ∧ p.rem < 10 ∧ (p.dot < p.i - 6 ∨ p.e > 0)))
  · rw [if_pos h1, if_pos (key.mp h1)]
    by_cases hlen : p.out.length ≥ 48
    · right
      unfold Print.push Abs.push
      exact ⟨by dsimp only; rw [if_pos hlen]; rfl, by dsimp only; rw [if_pos (show (Print.abs (j + 1) p).out.length ≥ 48 from hlen)]; rfl⟩
    · have e1 : Print.push { p with e := p.e + (48 - p.i), last := p.i - 1 - 1, dot := 48 } 46 =
          .ok ⟨p.h, p.l, p.rem, 46 :: p.out, p.i - 1 - 1, 48, p.e + (48 - p.i)⟩ := if_neg hlen
      have e2 : Abs.push ⟨(Print.abs (j + 1) p).r, p.out, (Print.abs (j + 1) p).i - 1 - 1, 48, p.e + (48 - (Print.abs (j + 1) p).i)⟩ 46 =
          .ok (Print.abs (j + 1) ⟨p.h, p.l, p.rem, 46 :: p.out, p.i - 1 - 1, 48, p.e + (48 - p.i)⟩) :=
        if_neg (show ¬ (Print.abs (j + 1) p).out.length ≥ 48 from hlen)
      rw [e1]
      erw [e2]
      exact emit_abs (q := ⟨p.h, p.l, p.rem, 46 :: p.out, p.i - 1 - 1, 48, p.e + (48 - p.i)⟩) hr
  · rw [if_neg h1, if_neg (fun h => h1 (key.mpr h))]
    exact emit_abs (q := p) hr

theorem run_succ (n : Nat) (a : Abs) : Abs.run (n + 1) a =
    (a.insert >>= fun a => a.emit >>= fun x => if x.2 = true then .ok x.1 else Abs.run n x.1) := rfl

/-- the printed part is the same -/
def Same (p : Print) (a : Abs) : Prop := a.out = p.out ∧ a.last = p.last ∧ a.e = p.e

/-- the inner loop followed by `m` more rounds -/
theorem digits_abs (m : Nat) : ∀ (n : Nat) (p : Print), p.rem.toNat < 10 ^ n →
    (∃ p', Print.digits n p = .ok (p', true) ∧ ∃ a, Abs.run (n + m) (Print.abs n p) = .ok a ∧ Same p' a) ∨
    (∃ p', Print.digits n p = .ok (p', false) ∧ p'.rem = 0 ∧ Abs.run (n + m) (Print.abs n p) = Abs.run m (Print.abs 0 p')) ∨
    (Print.digits n p = .panic ∧ Abs.run (n + m) (Print.abs n p) = .panic)
  | 0, p, h => by
    right; left
    refine ⟨p, rfl, UInt32.toNat_inj.mp (by have : (0 : UInt32).toNat = 0 := rfl; simp at h; omega), ?_⟩
    simp
  | n + 1, p, h => by
    unfold Print.digits
    rw [show n + 1 + m = (n + m) + 1 by omega, run_succ]
    have assoc : ∀ k : Abs × Bool → Res Abs, ((Print.abs (n + 1) p).insert >>= fun a => a.emit >>= k) =
        (((Print.abs (n + 1) p).insert >>= Abs.emit) >>= k) := by
      intro k; cases (Print.abs (n + 1) p).insert <;> rfl
    rw [assoc]
    rcases digit_abs h with ⟨p', b, h1, h2, h3⟩ | ⟨h1, h2⟩
    · rw [h1, h3]
      simp only [Res.bind_ok]
      cases b with
      | true => exact .inl ⟨p', rfl, _, rfl, rfl, rfl, rfl⟩
      | false =>
        simp only [Bool.false_eq_true, if_false]
        exact digits_abs m n p' h2
    · right; right
      rw [h1, h2]; exact ⟨rfl, rfl⟩

/-- the whole loop -/
theorem chunks_abs : ∀ (n : Nat) (p : Print),
    (∃ p' a, Print.chunks n p = .ok p' ∧ Abs.run (9 * n) ⟨num p.h p.l, p.out, p.last, p.dot, p.e⟩ = .ok a ∧ Same p' a) ∨
    (Print.chunks n p = .panic ∧ Abs.run (9 * n) ⟨num p.h p.l, p.out, p.last, p.dot, p.e⟩ = .panic)
  | 0, p => .inl ⟨p, _, rfl, rfl, rfl, rfl, rfl⟩
  | n + 1, p => by
    unfold Print.chunks
    obtain ⟨h1, h2⟩ := divmod_spec p.h p.l 1000000000 (by decide)
    generalize hr : divmod p.h p.l 1000000000 = r at h1 h2
    obtain ⟨h', l', rem'⟩ := r
    simp only at h1 h2 ⊢
    rw [show (1000000000 : UInt32).toNat = 1000000000 from rfl] at h1 h2
    have hrem : rem'.toNat < 10 ^ 9 := by rw [h2]; omega
    have e : (⟨num p.h p.l, p.out, p.last, p.dot, p.e⟩ : Abs) = Print.abs 9 ⟨h', l', rem', p.out, p.last, p.dot, p.e⟩ := by
      have : num p.h p.l = num h' l' * 10 ^ 9 + rem'.toNat := by rw [h1, h2]; omega
      rw [this]
      rfl
    rw [show 9 * (n + 1) = 9 + 9 * n by omega, e]
    rcases digits_abs (9 * n) 9 ⟨h', l', rem', p.out, p.last, p.dot, p.e⟩ hrem with ⟨p', h3, a, h4, h5⟩ | ⟨p', h3, h4, h5⟩ | ⟨h3, h4⟩
    · rw [h3, h4]
      exact .inl ⟨p', a, rfl, rfl, h5⟩
    · rw [h3, h5]
      simp only [Res.bind_ok, Bool.false_eq_true, if_false]
      have e2 : Print.abs 0 p' = ⟨num p'.h p'.l, p'.out, p'.last, p'.dot, p'.e⟩ := by
        unfold Print.abs; rw [h4]; simp
      rw [e2]
      exact chunks_abs n p'
    · right
      rw [h3, h4]; exact ⟨rfl, rfl⟩

/-! ### What the loop prints -/

/-- the digit printed for `r` -/
def dig (r : Nat) : UInt8 := UInt8.ofNat (48 + r % 10)

/-- the last `m` decimal digits of a number -/
def low : Nat → Nat → Bytes
  | 0, _ => []
  | m + 1, r => dig (r / 10 ^ m) :: low m r

theorem low_length : ∀ m r, (low m r).length = m
  | 0, _ => rfl
  | m + 1, r => by simp [low, low_length m r]

theorem low_append : ∀ m r, low (m + 1) r = low m (r / 10) ++ [dig r]
  | 0, r => by simp [low]
  | m + 1, r => by
    rw [low, low_append m r, low, Nat.div_div_eq_div_mul, List.cons_append]
    rw [show 10 * 10 ^ m = 10 ^ (m + 1) by rw [Nat.pow_succ]; omega]

theorem dig_char {d : Nat} (h : d < 10) : UInt8.ofNat (Nat.digitChar d).toNat = UInt8.ofNat (48 + d) := by
  match d, h with
  | 0, _ | 1, _ | 2, _ | 3, _ | 4, _ | 5, _ | 6, _ | 7, _ | 8, _ | 9, _ => rfl

/-- number of decimal digits -/
def ndig (c : Nat) : Nat := (decimalKey c).length

theorem decimalKey_low (c : Nat) : decimalKey c = low (ndig c) c := by
  unfold ndig
  induction c using Nat.strongRecOn with
  | _ c ih =>
    by_cases h : c < 10
    · simp only [decimalKey, Nat.toDigits_of_lt_base h, List.map_cons, List.map_nil, List.length_cons, List.length_nil]
      rw [dig_char h]
      simp [low, dig, Nat.mod_eq_of_lt h]
    · have e : decimalKey c = decimalKey (c / 10) ++ [dig c] := by
        unfold decimalKey
        rw [Nat.toDigits_of_base_le (by decide) (by omega)]
        simp only [List.map_append, List.map_cons, List.map_nil, dig]
        rw [dig_char (Nat.mod_lt _ (by decide))]
      rw [e, List.length_append, List.length_singleton, low_append, ← ih (c / 10) (by omega)]

theorem ndig_pos (c : Nat) : 0 < ndig c := by
  simp [ndig, decimalKey, Nat.length_toDigits_pos]

theorem ndig_le {c k : Nat} (h : 0 < k) : ndig c ≤ k ↔ c < 10 ^ k := by
  unfold ndig decimalKey
  rw [List.length_map]
  exact Nat.length_toDigits_le_iff (by decide) h

theorem lt_ndig (c : Nat) : c < 10 ^ ndig c := (ndig_le (ndig_pos c)).mp (Nat.le_refl _)

/-- all digits before the last one printed leave a number of at least two digits -/
theorem ge_ten {c k : Nat} (h : k + 1 < ndig c) : 10 ≤ c / 10 ^ k := by
  have h1 : ¬ c < 10 ^ (k + 1) := fun hc => by have := (ndig_le (c := c) (k := k + 1) (by omega)).mpr hc; omega
  refine (Nat.le_div_iff_mul_le (Nat.pow_pos (by decide))).mpr ?_
  rw [Nat.pow_succ] at h1
  omega

/-- the leading digit -/
theorem lead {c k : Nat} (h : k + 1 = ndig c) : c / 10 ^ k < 10 ∧ (c ≠ 0 → 0 < c / 10 ^ k) := by
  have h1 := lt_ndig c
  rw [← h, Nat.pow_succ] at h1
  refine ⟨Nat.div_lt_of_lt_mul h1, fun hc => ?_⟩
  refine Nat.div_pos ?_ (Nat.pow_pos (by decide))
  rcases Nat.eq_zero_or_pos k with rfl | hk
  · simp; omega
  · have : ¬ c < 10 ^ k := fun hc => by have := (ndig_le (c := c) hk).mpr hc; omega
    omega

theorem past {c k : Nat} (h : ndig c ≤ k) : c / 10 ^ k = 0 :=
  Nat.div_eq_of_lt (Nat.lt_of_lt_of_le (lt_ndig c) (Nat.pow_le_pow_right (by decide) h))

theorem emit_ok {a : Abs} (h : a.out.length < 48) :
    a.emit = .ok (Abs.after (dig a.r) { a with r := a.r / 10, out := dig a.r :: a.out }) := by
  have : Abs.push { a with r := a.r / 10 } (dig a.r) = .ok { a with r := a.r / 10, out := dig a.r :: a.out } :=
    if_neg (by simp only; omega)
  unfold Abs.emit
  rw [show UInt8.ofNat (48 + a.r % 10) = dig a.r from rfl]
  dsimp only
  rw [this]
  rfl

theorem after_plain {b : Abs} {c : UInt8} (h1 : ¬ (b.r = 0 ∧ b.i = 47 ∧ (b.dot < b.i - 5 ∨ b.e > 0))) (h2 : ¬ (b.dot > b.i ∧ b.r = 0)) :
    ∃ l', Abs.after c b = (⟨b.r, b.out, l', b.dot, b.e⟩, false) := by
  unfold Abs.after
  rw [if_neg h1, decide_eq_false h2]
  by_cases hc : c ≠ 48
  · exact ⟨_, by rw [if_pos hc]⟩
  · exact ⟨_, by rw [if_neg hc]⟩

/-- a round that inserts no point and does not stop -/
theorem plain_step {a : Abs} (r : Nat) (hi : a.insert = .ok a) (hlen : a.out.length < 48)
    (hs : a.r / 10 ≠ 0 ∨ (a.dot ≤ 47 - a.out.length ∧ ¬ (a.out = [] ∧ (a.dot < 42 ∨ a.e > 0)))) :
    ∃ l', Abs.run (r + 1) a = Abs.run r ⟨a.r / 10, dig a.r :: a.out, l', a.dot, a.e⟩ := by
  rw [run_succ, hi, Res.bind_ok, emit_ok hlen, Res.bind_ok]
  obtain ⟨l', h⟩ := after_plain (b := { a with r := a.r / 10, out := dig a.r :: a.out }) (c := dig a.r) (by
    rintro ⟨h1, h2, h3⟩
    simp only [Abs.i] at h1 h2 h3
    rcases hs with hs | ⟨_, hs⟩
    · exact hs h1
    · have hnil : a.out = [] := List.eq_nil_iff_length_eq_zero.mpr (by simp at h2; omega)
      exact hs ⟨hnil, by rw [hnil] at h3; simpa using h3⟩) (by
    rintro ⟨h1, h2⟩
    simp only [Abs.i] at h1 h2
    rcases hs with hs | ⟨hs, _⟩
    · exact hs h2
    · simp at h1; omega)
  exact ⟨l', by rw [h]; rfl⟩

/-- no decimal point is inserted here -/
theorem no_insert {a : Abs} (h : a.out = [] ∨ (a.dot ≠ 48 - a.out.length ∧ (10 ≤ a.r ∨ a.r = 0 ∨ (42 - (a.out.length : Int) ≤ a.dot ∧ a.e ≤ 0)))) :
    a.insert = .ok a := by
  unfold Abs.insert Abs.i
  rw [if_neg]
  rintro ⟨h1, h2⟩
  rcases h with h | ⟨h3, h4⟩
  · rw [h] at h1; simp at h1
  · rcases h2 with h2 | ⟨h5, h6, h7⟩
    · exact h3 h2
    · rcases h4 with h4 | h4 | ⟨h4, h8⟩ <;> omega

/-- `m` rounds that only print digits -/
theorem plain {c : Nat} {l0 dot e : Int} : ∀ (m : Nat), m ≤ 47 →
    (∀ k, k < m → (k = 0 ∨ (dot ≠ 48 - k ∧ (10 ≤ c / 10 ^ k ∨ c / 10 ^ k = 0 ∨ (42 - (k : Int) ≤ dot ∧ e ≤ 0)))) ∧
      (c / 10 ^ k / 10 ≠ 0 ∨ (dot ≤ 47 - (k : Int) ∧ ¬ (k = 0 ∧ (dot < 42 ∨ e > 0))))) →
    ∀ r, ∃ l', Abs.run (m + r) ⟨c, [], l0, dot, e⟩ = Abs.run r ⟨c / 10 ^ m, low m c, l', dot, e⟩
  | 0, _, _, r => ⟨l0, by simp [low]⟩
  | m + 1, hm, h, r => by
    obtain ⟨l1, h1⟩ := plain m (by omega) (fun k hk => h k (by omega)) (r + 1)
    rw [show m + 1 + r = m + (r + 1) by omega, h1]
    obtain ⟨hi, hs⟩ := h m (by omega)
    have hl := low_length m c
    have hnil : low m c = [] ↔ m = 0 := by rw [List.eq_nil_iff_length_eq_zero, hl]
    obtain ⟨l2, h2⟩ := plain_step (a := ⟨c / 10 ^ m, low m c, l1, dot, e⟩) r
      (no_insert (by
        rcases hi with hi | ⟨ha, hb⟩
        · exact .inl (hnil.mpr hi)
        · exact .inr (by simp only; rw [hl]; exact ⟨ha, hb⟩)))
      (by simp only; omega)
      (by simp only; rw [hl, hnil]; exact hs)
    refine ⟨l2, h2.trans ?_⟩
    simp only
    rw [Nat.div_div_eq_div_mul, show 10 ^ m * 10 = 10 ^ (m + 1) from (Nat.pow_succ ..).symm]
    rfl

/-- With the point already placed, the rest of the digits is printed. -/
theorem tail : ∀ (m : Nat) (a : Abs) (n : Nat), a.dot = 48 → a.e = 0 → 0 < a.r → ndig a.r = m → a.out.length + m ≤ 47 → m ≤ n →
    ∃ b, Abs.run n a = .ok b ∧ b.out = low m a.r ++ a.out ∧ b.last = 48 - b.out.length ∧ b.e = 0
  | 0, a, n, _, _, _, hn, _, _ => by have := ndig_pos a.r; omega
  | m + 1, a, n, hd, he, hr, hn, hlen, hmn => by
    obtain ⟨n, rfl⟩ : ∃ k, n = k + 1 := ⟨n - 1, by omega⟩
    have hi : a.insert = .ok a := by
      by_cases h0 : a.out = []
      · exact no_insert (.inl h0)
      · have : a.out.length ≠ 0 := fun h => h0 (List.eq_nil_iff_length_eq_zero.mpr h)
        exact no_insert (.inr ⟨by rw [hd]; omega, .inr (.inr ⟨by rw [hd]; omega, by omega⟩)⟩)
    by_cases hm : m = 0
    · subst hm
      -- the leading digit: the loop stops
      obtain ⟨h1, h2⟩ := lead (c := a.r) (k := 0) (by omega)
      simp only [Nat.pow_zero, Nat.div_one] at h1 h2
      rw [run_succ, hi, Res.bind_ok, emit_ok (by omega), Res.bind_ok]
      have hc : dig a.r ≠ 48 := by
        unfold dig
        intro h
        have := congrArg UInt8.toNat h
        rw [UInt8.toNat_ofNat'] at this
        simp at this
        omega
      have e1 : Abs.after (dig a.r) { a with r := a.r / 10, out := dig a.r :: a.out } =
          (⟨a.r / 10, dig a.r :: a.out, 48 - ((dig a.r :: a.out).length : Int), a.dot, a.e⟩, true) := by
        unfold Abs.after Abs.i
        simp only
        split
        · rfl
        · congr 1
          simp only [decide_eq_true_eq]
          rw [hd]
          refine ⟨?_, by omega⟩
          simp only [List.length_cons]
          omega
      rw [e1]
      exact ⟨_, rfl, by simp [low], rfl, he⟩
    · have h1 := ge_ten (c := a.r) (k := 0) (by omega)
      simp only [Nat.pow_zero, Nat.div_one] at h1
      obtain ⟨l', h2⟩ := plain_step n hi (by omega) (.inl (by omega))
      rw [h2]
      have hnd : ndig (a.r / 10) = m := by
        have e : decimalKey a.r = decimalKey (a.r / 10) ++ [dig a.r] := by
          unfold decimalKey
          rw [Nat.toDigits_of_base_le (by decide) (by omega)]
          simp only [List.map_append, List.map_cons, List.map_nil, dig]
          rw [dig_char (Nat.mod_lt _ (by decide))]
        have := congrArg List.length e
        simp only [List.length_append, List.length_singleton] at this
        unfold ndig at hn ⊢
        omega
      obtain ⟨b, h3, h4, h5, h6⟩ := tail m ⟨a.r / 10, dig a.r :: a.out, l', a.dot, a.e⟩ n hd he (by simp only; omega) hnd
        (by simp only [List.length_cons]; omega) (by omega)
      refine ⟨b, h3, ?_, h5, h6⟩
      rw [h4, low_append]
      simp

/-- the leading digit is a digit other than 0 -/
theorem dig_ne {r : Nat} (h1 : 0 < r) (h2 : r < 10) : dig r ≠ 48 := by
  unfold dig
  intro h
  have := congrArg UInt8.toNat h
  rw [UInt8.toNat_ofNat'] at this
  simp at this
  omega

/-- the exponent that is printed after the digits -/
def suffix (e : Int) : Bytes := if e > 0 then [69, 43] ++ itoaI e else if e < 0 then [69] ++ itoaI e else []

/-- the part of `text` after the sign -/
def body (c : Nat) (e : Int) : Bytes :=
  let ds := decimalKey c
  let adj : Int := e + ((ds.length : Int) - 1)
  if e ≤ 0 ∧ -6 ≤ adj then
    if e = 0 then ds
    else if (-e).toNat < ds.length then ds.take (ds.length - (-e).toNat) ++ [46] ++ ds.drop (ds.length - (-e).toNat)
    else [48, 46] ++ List.replicate ((-e).toNat - ds.length) 48 ++ ds
  else ds.take 1 ++ (if ds.length = 1 then [] else 46 :: ds.drop 1) ++ [69] ++ expText adj

theorem suffix_exp {x : Int} (h : x ≠ 0) : suffix x = [69] ++ expText x := by
  unfold suffix expText itoaI
  by_cases h1 : x < 0
  · rw [if_neg (by omega), if_pos h1, if_pos h1, if_pos h1]; rfl
  · rw [if_pos (by omega), if_neg h1, if_neg h1]; rfl

theorem low_split {m k c : Nat} : low (m + k) c = low m (c / 10 ^ k) ++ low k c := by
  induction m with
  | zero => simp [low]
  | succ m ih =>
    rw [show m + 1 + k = (m + k) + 1 by omega, low, ih, low, Nat.div_div_eq_div_mul, ← Nat.pow_add, Nat.add_comm k m]
    rfl

theorem low_zero_prefix {m k c : Nat} (h : ndig c ≤ k) : low (m + k) c = List.replicate m 48 ++ low k c := by
  induction m with
  | zero => simp
  | succ m ih =>
    rw [show m + 1 + k = (m + k) + 1 by omega, low, ih, past (by omega), List.replicate_succ]
    rfl

theorem ndig_div {c k : Nat} (h : k < ndig c) (hc : 0 < c) : ndig (c / 10 ^ k) = ndig c - k ∧ 0 < c / 10 ^ k := by
  have hpos : 0 < c / 10 ^ k := by
    refine Nat.div_pos ?_ (Nat.pow_pos (by decide))
    rcases Nat.eq_zero_or_pos k with rfl | hk
    · simp; omega
    · have : ¬ c < 10 ^ k := fun hc => by have := (ndig_le (c := c) hk).mpr hc; omega
      omega
  refine ⟨?_, hpos⟩
  have h1 : ndig (c / 10 ^ k) ≤ ndig c - k := by
    refine (ndig_le (by omega)).mpr ?_
    refine Nat.div_lt_of_lt_mul ?_
    rw [← Nat.pow_add, show k + (ndig c - k) = ndig c by omega]
    exact lt_ndig c
  have h2 : ndig c ≤ ndig (c / 10 ^ k) + k := by
    refine (ndig_le (by have := ndig_pos (c / 10 ^ k); omega)).mpr ?_
    rw [Nat.pow_add]
    exact (Nat.div_lt_iff_lt_mul (Nat.pow_pos (by decide))).mp (lt_ndig _)
  omega

theorem print_text {c : Nat} {e : Int} (hc : c < 10 ^ 34) (h0 : ¬ (c = 0 ∧ e = 0)) :
    ∃ b, Abs.run 45 ⟨c, [], 48, 48 + e, e⟩ = .ok b ∧ b.last = 48 - b.out.length ∧ b.out.length ≤ 47 ∧ b.out ++ suffix b.e = body c e := by
  have hn : ndig c ≤ 34 := (ndig_le (by decide)).mpr hc
  have hn0 := ndig_pos c
  have hlen : (decimalKey c).length = ndig c := rfl
  unfold body
  dsimp only
  rw [hlen, decimalKey_low]
  by_cases hfix : e ≤ 0 ∧ -6 ≤ e + ((ndig c : Int) - 1)
  · obtain ⟨he, hadj⟩ := hfix
    rw [if_pos ⟨he, hadj⟩]
    by_cases he0 : e = 0
    · -- an integer
      subst he0
      have hc0 : 0 < c := by omega
      obtain ⟨b, h1, h2, h3, h4⟩ := tail (ndig c) ⟨c, [], 48, 48, 0⟩ 45 rfl rfl hc0 rfl (by simp; omega) (by omega)
      rw [if_pos rfl]
      refine ⟨b, h1, h3, ?_, ?_⟩
      · rw [h2]; simp [low_length]; omega
      · rw [h2, h4]; simp [suffix]
    · rw [if_neg he0]
      obtain ⟨f, hf⟩ : ∃ f : Nat, e = -(f : Int) := ⟨(-e).toNat, by omega⟩
      have hef : (-e).toNat = f := by omega
      rw [hef]
      by_cases hfn : f < ndig c
      · -- digits on both sides of the point
        rw [if_pos hfn]
        have hc0 : 0 < c := by
          rcases Nat.eq_zero_or_pos c with rfl | h
          · have : ndig 0 = 1 := rfl
            omega
          · exact h
        obtain ⟨l', h1⟩ := plain (c := c) (l0 := 48) (dot := 48 + e) (e := e) f (by omega) (fun k hk => by
          have := ge_ten (c := c) (k := k) (by omega)
          exact ⟨.inr ⟨by omega, .inl this⟩, .inl (by omega)⟩) (44 - f + 1)
        rw [show f + (44 - f + 1) = 45 by omega] at h1
        rw [h1, run_succ]
        obtain ⟨hd1, hd2⟩ := ndig_div hfn hc0
        have hins : Abs.insert ⟨c / 10 ^ f, low f c, l', 48 + e, e⟩ = .ok ⟨c / 10 ^ f, 46 :: low f c, 48 - (f : Int) - 1 - 1, 48, 0⟩ := by
          unfold Abs.insert Abs.push Abs.i
          simp only [low_length]
          rw [if_pos ⟨by omega, .inl (by omega)⟩, if_neg (by omega)]
          simp; omega
        have hnoins : Abs.insert ⟨c / 10 ^ f, 46 :: low f c, 48 - (f : Int) - 1 - 1, 48, 0⟩ =
            .ok ⟨c / 10 ^ f, 46 :: low f c, 48 - (f : Int) - 1 - 1, 48, 0⟩ :=
          no_insert (.inr ⟨by simp [low_length]; omega, .inr (.inr ⟨by simp [low_length]; omega, by simp⟩)⟩)
        rw [hins, ← hnoins, ← run_succ]
        obtain ⟨b, h3, h4, h5, h6⟩ := tail (ndig c - f) ⟨c / 10 ^ f, 46 :: low f c, 48 - (f : Int) - 1 - 1, 48, 0⟩ (44 - f + 1) rfl rfl hd2 hd1
          (by simp [low_length]; omega) (by omega)
        refine ⟨b, h3, h5, ?_, ?_⟩
        · rw [h4]; simp [low_length]; omega
        · rw [h4, h6]
          have hs := low_split (m := ndig c - f) (k := f) (c := c)
          rw [show ndig c - f + f = ndig c by omega] at hs
          rw [hs]
          rw [List.take_append_of_le_length (by simp [low_length]), List.drop_append_of_le_length (by simp [low_length])]
          rw [List.take_of_length_le (by simp [low_length]), List.drop_eq_nil_of_le (by simp [low_length])]
          simp [suffix]
      · -- only zeros before the point
        rw [if_neg hfn]
        obtain ⟨l', h1⟩ := plain (c := c) (l0 := 48) (dot := 48 + e) (e := e) f (by omega) (fun k hk => by
          refine ⟨.inr ⟨by omega, ?_⟩, ?_⟩
          · by_cases hk1 : k + 1 < ndig c
            · exact .inl (ge_ten hk1)
            · by_cases hk2 : k + 1 = ndig c
              · exact .inr (.inr ⟨by omega, by omega⟩)
              · exact .inr (.inl (past (by omega)))
          · by_cases hk1 : k + 1 < ndig c
            · have := ge_ten hk1
              exact .inl (by omega)
            · exact .inr ⟨by omega, by omega⟩) (44 - f + 1)
        rw [show f + (44 - f + 1) = 45 by omega] at h1
        rw [h1, run_succ, past (by omega)]
        have hins : Abs.insert ⟨0, low f c, l', 48 + e, e⟩ = .ok ⟨0, 46 :: low f c, 48 - (f : Int) - 1 - 1, 48, 0⟩ := by
          unfold Abs.insert Abs.push Abs.i
          simp only [low_length]
          rw [if_pos ⟨by omega, .inl (by omega)⟩, if_neg (by omega)]
          simp; omega
        rw [hins, Res.bind_ok, emit_ok (by simp [low_length]; omega), Res.bind_ok]
        have hd0 : dig 0 = 48 := rfl
        have haft : Abs.after (dig 0) ⟨0 / 10, dig 0 :: 46 :: low f c, 48 - (f : Int) - 1 - 1, 48, 0⟩ =
            (⟨0, 48 :: 46 :: low f c, 48 - (f : Int) - 1 - 1, 48, 0⟩, true) := by
          unfold Abs.after Abs.i
          rw [if_neg (by simp [low_length]; omega), hd0, if_neg (by simp)]
          simp [low_length]; omega
        rw [haft]
        refine ⟨_, rfl, by simp [low_length]; omega, by simp [low_length]; omega, ?_⟩
        have hz := low_zero_prefix (m := f - ndig c) (k := ndig c) (c := c) (Nat.le_refl _)
        rw [show f - ndig c + ndig c = f by omega] at hz
        simp [suffix, hz]
  · -- one digit before the point, and an exponent
    rw [if_neg hfix]
    by_cases h1 : ndig c = 1
    · rw [if_pos h1, h1]
      have hc10 : c < 10 := by have := lt_ndig c; rw [h1] at this; simpa using this
      rw [show (45 : Nat) = 44 + 1 from rfl, run_succ, no_insert (.inl rfl), Res.bind_ok, emit_ok (by simp), Res.bind_ok]
      have haft : Abs.after (dig c) ⟨c / 10, [dig c], 48, 48 + e, e⟩ = (⟨c / 10, [dig c], 47, 48 + e, e⟩, true) := by
        unfold Abs.after Abs.i
        rw [if_pos ⟨by simp only; omega, by simp, by simp; omega⟩]
        simp
      rw [haft]
      refine ⟨_, rfl, by simp, by simp, ?_⟩
      simp only
      rw [suffix_exp (by omega)]
      simp [low]
    · rw [if_neg h1]
      have hc0 : 0 < c := by
        rcases Nat.eq_zero_or_pos c with rfl | h
        · exact absurd rfl h1
        · exact h
      obtain ⟨l', h2⟩ := plain (c := c) (l0 := 48) (dot := 48 + e) (e := e) (ndig c - 1) (by omega) (fun k hk => by
        have := ge_ten (c := c) (k := k) (by omega)
        exact ⟨.inr ⟨by omega, .inl this⟩, .inl (by omega)⟩) (45 - ndig c + 1)
      rw [show ndig c - 1 + (45 - ndig c + 1) = 45 by omega] at h2
      rw [h2, run_succ]
      obtain ⟨hl1, hl2⟩ := lead (c := c) (k := ndig c - 1) (by omega)
      have hl2 := hl2 (by omega)
      generalize hx : c / 10 ^ (ndig c - 1) = x at *
      have hins : Abs.insert ⟨x, low (ndig c - 1) c, l', 48 + e, e⟩ =
          .ok ⟨x, 46 :: low (ndig c - 1) c, 48 - ((ndig c - 1 : Nat) : Int) - 1 - 1, 48, e + ((ndig c : Int) - 1)⟩ := by
        unfold Abs.insert Abs.push Abs.i
        simp only [low_length]
        rw [if_pos ⟨by omega, .inr ⟨hl2, hl1, by omega⟩⟩, if_neg (by omega)]
        simp; omega
      rw [hins, Res.bind_ok, emit_ok (by simp [low_length]; omega), Res.bind_ok]
      have haft : Abs.after (dig x) ⟨x / 10, dig x :: 46 :: low (ndig c - 1) c, 48 - ((ndig c - 1 : Nat) : Int) - 1 - 1, 48, e + ((ndig c : Int) - 1)⟩ =
          (⟨0, dig x :: 46 :: low (ndig c - 1) c, 48 - ((ndig c : Int) + 1), 48, e + ((ndig c : Int) - 1)⟩, true) := by
        unfold Abs.after Abs.i
        rw [if_neg (by simp [low_length]; omega), if_pos (dig_ne hl2 hl1)]
        simp [low_length]; omega
      rw [haft]
      refine ⟨_, rfl, by simp [low_length]; omega, by simp [low_length]; omega, ?_⟩
      simp only
      rw [suffix_exp (by omega)]
      have hs := low_split (m := 1) (k := ndig c - 1) (c := c)
      rw [show 1 + (ndig c - 1) = ndig c by omega, hx] at hs
      rw [hs]
      simp [low]

/-! ### decoding -/

theorem field {x k m : Nat} {w : UInt64} (hw : w.toNat = x) (hk : k < 64) (hm : m ≤ 63) :
    ((w >>> UInt64.ofNat k) &&& UInt64.ofNat (2 ^ m - 1)).toNat = x / 2 ^ k % 2 ^ m := by
  have h2 : (2 : Nat) ^ m ≤ 2 ^ 63 := Nat.pow_le_pow_right (by decide) hm
  rw [UInt64.toNat_and, UInt64.toNat_shiftRight, hw, UInt64.toNat_ofNat_of_lt' (by simp [UInt64.size]; omega),
    UInt64.toNat_ofNat_of_lt' (by simp [UInt64.size]; omega), Nat.mod_eq_of_lt hk, Nat.shiftRight_eq_div_pow, Nat.and_two_pow_sub_one_eq_mod]

theorem encode_h {neg : Bool} {c : Nat} {e : Int} (h : Representable c e) :
    (encode neg c e).h.toNat = (if neg then 2 ^ 63 else 0) + (e + 6176).toNat * 2 ^ 49 + c / 2 ^ 64 ∧ c / 2 ^ 64 < 2 ^ 49 ∧
      (e + 6176).toNat ≤ 12287 ∧ (encode neg c e).l.toNat = c % 2 ^ 64 := by
  obtain ⟨h1, h2, h3⟩ := h
  have h4 : c / 2 ^ 64 < 2 ^ 49 := Nat.div_lt_of_lt_mul (by omega)
  refine ⟨?_, h4, by omega, ?_⟩
  · unfold encode
    rw [UInt64.toNat_ofNat_of_lt']
    cases neg <;> simp [UInt64.size] <;> omega
  · unfold encode
    rw [UInt64.toNat_ofNat_of_lt']
    simp [UInt64.size]; omega

theorem uint_eq {a b : UInt64} : a = b ↔ a.toNat = b.toNat := UInt64.toNat_inj.symm

theorem text_body (neg : Bool) (c : Nat) (e : Int) : text neg c e = (if neg then [45] else []) ++ body c e := rfl

theorem sign_eq {p : Prop} [Decidable p] {neg : Bool} (h : decide p = !neg) : (if p then ([] : Bytes) else [45]) = if neg then [45] else [] := by
  by_cases hp : p <;> cases neg <;> simp_all

/-- the text that is printed for an encoded number -/
theorem string_encode {neg : Bool} {c : Nat} {e : Int} (h : Representable c e) : Model.Decimal.toString (encode neg c e) = .ok (text neg c e) := by
  obtain ⟨hh, hc, he, hl⟩ := encode_h (neg := neg) h
  generalize hd : encode neg c e = d at *
  obtain ⟨hc34, he1, he2⟩ := h
  have f63 := field hh (k := 63) (m := 1) (by decide) (by decide)
  have f58 := field hh (k := 58) (m := 5) (by decide) (by decide)
  have f61 := field hh (k := 61) (m := 2) (by decide) (by decide)
  have f49 := field hh (k := 49) (m := 14) (by decide) (by decide)
  have f0 := field hh (k := 0) (m := 49) (by decide) (by decide)
  have z0 : d.h >>> UInt64.ofNat 0 = d.h := by
    rw [uint_eq, UInt64.toNat_shiftRight]; rfl
  rw [z0] at f0
  have hpos : decide ((d.h >>> 63) &&& 1 = 0) = !neg := by
    have : ((d.h >>> 63) &&& 1).toNat = _ := f63
    cases neg
    · simp only [Bool.not_false, decide_eq_true_eq]
      rw [uint_eq, this]; simp; omega
    · simp only [Bool.not_true, decide_eq_false_iff_not]
      rw [uint_eq, this]; simp; omega
  have h58 : ((d.h >>> 58) &&& 31).toNat ≤ 23 := by
    have : ((d.h >>> 58) &&& 31).toNat = _ := f58
    rw [this]; cases neg <;> simp <;> omega
  have h61 : ((d.h >>> 61) &&& 3).toNat ≤ 2 := by
    have : ((d.h >>> 61) &&& 3).toNat = _ := f61
    rw [this]; cases neg <;> simp <;> omega
  have h49 : ((d.h >>> 49) &&& 16383).toNat = (e + 6176).toNat := by
    have : ((d.h >>> 49) &&& 16383).toNat = _ := f49
    rw [this]; cases neg <;> simp <;> omega
  have h0 : (d.h &&& 562949953421311).toNat = c / 2 ^ 64 := by
    have : (d.h &&& 562949953421311).toNat = _ := f0
    rw [this]; cases neg <;> simp <;> omega
  unfold Model.Decimal.toString
  rw [if_neg (by rw [uint_eq]; simp only [UInt64.reduceToNat]; omega), if_neg (by rw [uint_eq]; simp only [UInt64.reduceToNat]; omega),
    if_neg (show ¬ ((d.h >>> 61) &&& 3 = 3) by rw [uint_eq]; simp only [UInt64.reduceToNat]; omega)]
  have hee : ((((d.h >>> 49) &&& 16383).toNat : Int) - 6176) = e := by rw [h49]; omega
  dsimp only
  rw [hee]
  have hsign : (if (d.h >>> 63) &&& 1 = 0 then ([] : Bytes) else [45]) = if neg then [45] else [] := by
    exact sign_eq hpos
  have hnum : num (d.h &&& 562949953421311) d.l = c := by
    unfold num; rw [h0, hl]; omega
  by_cases hz : c = 0 ∧ e = 0
  · obtain ⟨rfl, rfl⟩ := hz
    rw [if_pos ⟨by rw [uint_eq, h0]; rfl, by rw [uint_eq, hl]; rfl, rfl⟩, hsign, text_body]
    rfl
  · rw [if_neg (by
      rintro ⟨a1, a2, a3⟩
      rw [uint_eq, h0] at a1
      rw [uint_eq, hl] at a2
      simp only [UInt64.reduceToNat] at a1 a2
      omega)]
    obtain ⟨b, hb1, hb2, hb3, hb4⟩ := print_text hc34 hz
    rcases chunks_abs 5 ⟨d.h &&& 562949953421311, d.l, 0, [], 48, 48 + e, e⟩ with ⟨p', a, h5, h6, h7, h8, h9⟩ | ⟨_, h6⟩
    · rw [hnum] at h6
      have : a = b := by have := h6.symm.trans hb1; exact Res.ok.inj this
      subst this
      rw [h5, Res.bind_ok, text_body, ← hb4]
      unfold Print.finish Print.i
      rw [← h7, ← h8, ← h9, if_neg (by omega), hb2]
      simp only [hpos]
      unfold suffix
      have hs : (if (!neg) = true then ([] : Bytes) else [45]) = if neg = true then [45] else [] := by cases neg <;> rfl
      rw [hs, Int.sub_self]
      by_cases h1 : a.e > 0
      · simp [h1]
      · by_cases h2 : a.e < 0 <;> simp [h1, h2]
    · rw [hnum] at h6
      have := h6.symm.trans hb1
      cases this

end Birch.Proofs.Decimal
