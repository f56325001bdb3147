import Verif.Spec.ObjectID

/- Hexadecimal text; the invariant of ObjectID generation. -/

namespace Birch.Proofs
open Birch Model Spec

theorem hexValue_digit : ∀ n, n < 16 → hexValue (hexDigit n) = some n := by decide

theorem hexValue_isHex (c : UInt8) : IsHex c ↔ ∃ n, n < 16 ∧ hexValue c = some n := by
  unfold IsHex hexValue
  simp only [UInt8.le_iff_toNat_le]
  constructor
  · rintro (h | h | h)
    · exact ⟨c.toNat - 48, by have := h.2; simp at *; omega, by rw [if_pos]; simpa using h⟩
    · refine ⟨c.toNat - 87, by simp at *; omega, ?_⟩
      rw [if_neg (by simp at *; omega), if_pos (by simpa using h)]
    · refine ⟨c.toNat - 55, by simp at *; omega, ?_⟩
      rw [if_neg (by simp at *; omega), if_neg (by simp at *; omega), if_pos (by simpa using h)]
  · rintro ⟨n, _, h⟩
    split at h
    · exact .inl (by simpa using ‹_›)
    · split at h
      · exact .inr (.inl (by simpa using ‹_›))
      · split at h
        · exact .inr (.inr (by simpa using ‹_›))
        · cases h

theorem hexDigit_value (c : UInt8) (n : Nat) (hu : NotUpper c) (h : hexValue c = some n) : hexDigit n = c := by
  unfold NotUpper at hu
  unfold hexValue at h
  simp only [UInt8.le_iff_toNat_le] at hu
  apply UInt8.toNat_inj.mp
  split at h
  · injection h with h; subst h
    rw [hexDigit, if_pos (by omega), UInt8.toNat_ofNat']; have := c.toNat_lt; omega
  · split at h
    · injection h with h; subst h
      rw [hexDigit, if_neg (by omega), UInt8.toNat_ofNat']; have := c.toNat_lt; omega
    · split at h
      · simp at hu; omega
      · cases h

theorem decode_encode : ∀ b : Bytes, hexDecode (hexEncode b) = some b
  | [] => rfl
  | b :: r => by
    have hb := b.toNat_lt
    simp only [hexEncode, hexDecode]
    rw [hexValue_digit _ (by omega), hexValue_digit _ (by omega)]
    simp only [decode_encode r, Option.map_some]
    congr 2
    apply UInt8.toNat_inj.mp
    rw [UInt8.toNat_ofNat']; omega

theorem decode_iff : ∀ s b : Bytes, hexDecode s = some b → s.length = 2 * b.length ∧ (∀ c ∈ s, IsHex c) ∧
    ((∀ c ∈ s, NotUpper c) → hexEncode b = s)
  | [], b, h => by cases h; exact ⟨rfl, by simp, fun _ => rfl⟩
  | [_], b, h => by cases h
  | c :: d :: r, b, h => by
    unfold hexDecode at h
    split at h
    case h_2 => cases h
    case h_1 x y hx hy =>
      cases hr : hexDecode r with
      | none => rw [hr] at h; cases h
      | some b' =>
        rw [hr] at h; cases h
        obtain ⟨h1, h2, h3⟩ := decode_iff r b' hr
        have hcx : IsHex c := by
          refine (hexValue_isHex c).mpr ⟨x, ?_, hx⟩
          unfold hexValue at hx; grind
        have hdy : IsHex d := by
          refine (hexValue_isHex d).mpr ⟨y, ?_, hy⟩
          unfold hexValue at hy; grind
        obtain ⟨x', hx16, hx'⟩ := (hexValue_isHex c).mp hcx
        obtain ⟨y', hy16, hy'⟩ := (hexValue_isHex d).mp hdy
        rw [hx] at hx'; cases hx'
        rw [hy] at hy'; cases hy'
        refine ⟨by simp [h1]; omega, ?_, ?_⟩
        · intro e he
          simp only [List.mem_cons] at he
          rcases he with rfl | rfl | he
          · exact hcx
          · exact hdy
          · exact h2 e he
        · intro hu
          simp only [hexEncode]
          rw [UInt8.toNat_ofNat', h3 (fun e he => hu e (by simp [he]))]
          rw [show (x * 16 + y) % 2 ^ 8 / 16 = x by omega, show (x * 16 + y) % 2 ^ 8 % 16 = y by omega,
            hexDigit_value c x (hu c (by simp)) hx, hexDigit_value d y (hu d (by simp)) hy]

theorem decode_some : ∀ s : Bytes, (∀ c ∈ s, IsHex c) → s.length % 2 = 0 → ∃ b, hexDecode s = some b
  | [], _, _ => ⟨[], rfl⟩
  | [_], _, h => by simp at h
  | c :: d :: r, h, hl => by
    obtain ⟨x, _, hx⟩ := (hexValue_isHex c).mp (h c (by simp))
    obtain ⟨y, _, hy⟩ := (hexValue_isHex d).mp (h d (by simp))
    obtain ⟨b, hb⟩ := decode_some r (fun e he => h e (by simp [he])) (by simp at hl; omega)
    exact ⟨UInt8.ofNat (x * 16 + y) :: b, by simp [hexDecode, hx, hy, hb]⟩

theorem putUint24_inj {a b : UInt32} (h : putUint24 a = putUint24 b) : a.toNat % 16777216 = b.toNat % 16777216 := by
  simp only [putUint24, List.cons.injEq, and_true] at h
  obtain ⟨h1, h2, h3⟩ := h
  have g1 := congrArg UInt8.toNat h1
  have g2 := congrArg UInt8.toNat h2
  have g3 := congrArg UInt8.toNat h3
  simp [Nat.shiftRight_eq_div_pow] at g1 g2 g3
  omega

theorem newID_inj {u : Bytes} {t t' n n' : UInt32} (h : newID u t n = newID u t' n') :
    n.toNat % 16777216 = n'.toNat % 16777216 := by
  unfold newID at h
  exact putUint24_inj (List.append_inj_right h (by simp [be32]))

/-- the low 24 bits after `j` increments -/
def low (c0 : UInt32) (j : Nat) : Nat := (c0.toNat + j) % 16777216

theorem low_inj {c0 : UInt32} {j k : Nat} (hj : j < 16777216) (hk : k < 16777216) (h : low c0 j = low c0 k) : j = k := by
  unfold low at h; omega

/-- ids and the increments they were made with -/
inductive Issued (u : Bytes) (c0 : UInt32) : List Bytes → List Nat → Prop
  | nil : Issued u c0 [] []
  | cons {id j ids js} : (∃ t n, id = newID u t n ∧ n.toNat % 16777216 = low c0 j) → Issued u c0 ids js → Issued u c0 (id :: ids) (j :: js)

/-- `k` increments have happened; `js` are the increments of the ids returned, `J g` that of goroutine `g` if it has one -/
structure Inv (u : Bytes) (c0 : UInt32) (s : Gen) (k : Nat) (js : List Nat) (J : Nat → Nat) : Prop where
  counter : s.counter.toNat % 16777216 = low c0 k
  out : Issued u c0 s.out js
  nodup : js.Nodup
  bound : ∀ j ∈ js, 1 ≤ j ∧ j ≤ k
  flight : ∀ g t n, s.phase g = .counted t n → n.toNat % 16777216 = low c0 (J g) ∧ 1 ≤ J g ∧ J g ≤ k ∧ J g ∉ js
  inj : ∀ g g' t n t' n', s.phase g = .counted t n → s.phase g' = .counted t' n' → J g = J g' → g = g'

theorem step_inv {u : Bytes} {c0 : UInt32} {s : Gen} {k : Nat} {js : List Nat} {J : Nat → Nat} (h : Inv u c0 s k js J) (e : GenEvent) :
    ∃ k' js' J', Inv u c0 (s.step u e) k' js' J' ∧ k' ≤ k + increments [e] := by
  have same : ∃ k' js' J', Inv u c0 s k' js' J' ∧ k' ≤ k + increments [e] := ⟨k, js, J, h, by omega⟩
  cases e with
  | call g t =>
    unfold Gen.step
    simp only
    cases hp : s.phase g with
    | idle =>
      refine ⟨k, js, J, ⟨h.counter, h.out, h.nodup, h.bound, ?_, ?_⟩, by omega⟩
      · intro g' t' n' hg
        simp only at hg
        split at hg
        · cases hg
        · exact h.flight g' t' n' hg
      · intro g1 g2 t1 n1 t2 n2 h1 h2
        simp only at h1 h2
        split at h1
        · cases h1
        · split at h2
          · cases h2
          · exact h.inj g1 g2 t1 n1 t2 n2 h1 h2
    | timed t' => exact same
    | counted t' n' => exact same
  | increment g =>
    unfold Gen.step
    simp only
    cases hp : s.phase g with
    | idle => exact same
    | counted t' n' => exact same
    | timed t =>
      have hc : (s.counter + 1).toNat % 16777216 = low c0 (k + 1) := by
        have := h.counter
        rw [UInt32.toNat_add]
        simp only [low, UInt32.reduceToNat] at *
        omega
      refine ⟨k + 1, js, fun g' => if g' = g then k + 1 else J g', ⟨hc, h.out, h.nodup, ?_, ?_, ?_⟩, by simp [increments]⟩
      · intro j hj; have := h.bound j hj; omega
      · intro g' t' n' hg
        simp only at hg ⊢
        split at hg
        · rename_i e
          cases hg
          rw [if_pos e]
          exact ⟨hc, by omega, by omega, fun hm => by have := h.bound _ hm; omega⟩
        · rename_i e
          rw [if_neg e]
          obtain ⟨a, b, c, d⟩ := h.flight g' t' n' hg
          exact ⟨a, b, by omega, d⟩
      · intro g1 g2 t1 n1 t2 n2 h1 h2 he
        simp only at h1 h2 he
        split at h1
        · rename_i e1
          rw [if_pos e1] at he
          split at h2
          · rename_i e2; rw [e1, e2]
          · rename_i e2
            rw [if_neg e2] at he
            have := (h.flight g2 t2 n2 h2).2.2.1
            omega
        · rename_i e1
          rw [if_neg e1] at he
          split at h2
          · rename_i e2
            rw [if_pos e2] at he
            have := (h.flight g1 t1 n1 h1).2.2.1
            omega
          · rename_i e2
            rw [if_neg e2] at he
            exact h.inj g1 g2 t1 n1 t2 n2 h1 h2 he
  | return_ g =>
    unfold Gen.step
    simp only
    cases hp : s.phase g with
    | idle => exact same
    | timed t' => exact same
    | counted t n =>
      obtain ⟨a, b, c, d⟩ := h.flight g t n hp
      refine ⟨k, J g :: js, J, ⟨h.counter, .cons ⟨t, n, rfl, a⟩ h.out, List.nodup_cons.mpr ⟨d, h.nodup⟩, ?_, ?_, ?_⟩, by omega⟩
      · intro j hj
        rcases List.mem_cons.mp hj with rfl | hj
        · exact ⟨b, c⟩
        · exact h.bound j hj
      · intro g' t' n' hg
        simp only at hg
        split at hg
        · cases hg
        · rename_i e
          obtain ⟨a', b', c', d'⟩ := h.flight g' t' n' hg
          refine ⟨a', b', c', ?_⟩
          intro hm
          rcases List.mem_cons.mp hm with hm | hm
          · exact e (h.inj g' g t' n' t n hg hp hm)
          · exact d' hm
      · intro g1 g2 t1 n1 t2 n2 h1 h2
        simp only at h1 h2
        split at h1
        · cases h1
        · split at h2
          · cases h2
          · exact h.inj g1 g2 t1 n1 t2 n2 h1 h2

theorem run_inv {u : Bytes} {c0 : UInt32} : ∀ (evs : List GenEvent) (s : Gen) (k : Nat) (js : List Nat) (J : Nat → Nat), Inv u c0 s k js J →
    ∃ k' js' J', Inv u c0 (evs.foldl (Gen.step u) s) k' js' J' ∧ k' ≤ k + increments evs
  | [], s, k, js, J, h => ⟨k, js, J, h, by omega⟩
  | e :: evs, s, k, js, J, h => by
    obtain ⟨k1, js1, J1, h1, hk1⟩ := step_inv h e
    obtain ⟨k2, js2, J2, h2, hk2⟩ := run_inv evs _ k1 js1 J1 h1
    refine ⟨k2, js2, J2, h2, ?_⟩
    have : increments (e :: evs) = increments [e] + increments evs := by
      cases e <;> simp [increments]; omega
    omega

theorem issued_nodup {u : Bytes} {c0 : UInt32} : ∀ (out : List Bytes) (js : List Nat),
    Issued u c0 out js → js.Nodup →
    (∀ j ∈ js, 1 ≤ j ∧ j ≤ 16777216) → out.Nodup
  | _, _, .nil, _, _ => List.nodup_nil
  | _, _, .cons (id := id) (j := j) (ids := out) (js := js) ⟨t, n, hid, hn⟩ h, hd, hb => by
    rw [List.nodup_cons] at hd ⊢
    refine ⟨?_, issued_nodup out js h hd.2 (fun x hx => hb x (List.mem_cons_of_mem _ hx))⟩
    intro hm
    obtain ⟨j', hj', t', n', hid', hn'⟩ : ∃ j' ∈ js, ∃ t n, id = newID u t n ∧ n.toNat % 16777216 = low c0 j' := by
      clear hd hb hid hn
      induction h with
      | nil => cases hm
      | cons hr _ ih =>
        rcases List.mem_cons.mp hm with rfl | hm
        · exact ⟨_, List.mem_cons_self, hr⟩
        · obtain ⟨j', h1, h2⟩ := ih hm
          exact ⟨j', List.mem_cons_of_mem _ h1, h2⟩
    have e := newID_inj (hid.symm.trans hid')
    rw [hn, hn'] at e
    have b1 := hb j List.mem_cons_self
    have b2 := hb j' (List.mem_cons_of_mem _ hj')
    have : j = j' := by unfold low at e; omega
    exact hd.1 (this ▸ hj')

/-! ### the parts of an id -/

theorem bigEndian_be32 (v : UInt32) : bigEndian (be32 v) = v.toNat := by
  have := v.toNat_lt
  simp [bigEndian, be32, Nat.shiftRight_eq_div_pow]
  omega

theorem bigEndian_putUint24 (v : UInt32) : bigEndian (putUint24 v) = v.toNat % 16777216 := by
  simp [bigEndian, putUint24, Nat.shiftRight_eq_div_pow]
  omega

/-- counter value `n` is that after one of at most `k` increments -/
def After (c0 : UInt32) (k : Nat) (n : UInt32) : Prop := ∃ j, 1 ≤ j ∧ j ≤ k ∧ n.toNat = (c0.toNat + j) % 4294967296

theorem After.mono {c0 : UInt32} {k k' : Nat} {n : UInt32} (h : After c0 k n) (hk : k ≤ k') : After c0 k' n := by
  obtain ⟨j, h1, h2, h3⟩ := h
  exact ⟨j, h1, by omega, h3⟩

/-- what the events `evs` can have led to -/
structure Made (u : Bytes) (c0 : UInt32) (evs : List GenEvent) (s : Gen) : Prop where
  counter : ∃ k ≤ increments evs, s.counter.toNat = (c0.toNat + k) % 4294967296
  timed : ∀ g t, s.phase g = .timed t → .call g t ∈ evs
  counted : ∀ g t n, s.phase g = .counted t n → .call g t ∈ evs ∧ After c0 (increments evs) n
  out : ∀ id ∈ s.out, ∃ g t n, id = newID u t n ∧ .call g t ∈ evs ∧ After c0 (increments evs) n

theorem increments_append (a b : List GenEvent) : increments (a ++ b) = increments a + increments b := by simp [increments]

theorem made_more {u : Bytes} {c0 : UInt32} {evs : List GenEvent} {s : Gen} (h : Made u c0 evs s) (e : GenEvent) : Made u c0 (evs ++ [e]) s := by
  have hi : increments evs ≤ increments (evs ++ [e]) := by rw [increments_append]; omega
  obtain ⟨k, hk, hc⟩ := h.counter
  refine ⟨⟨k, by omega, hc⟩, fun g t hp => List.mem_append_left _ (h.timed g t hp), fun g t n hp => ?_, fun id hm => ?_⟩
  · exact ⟨List.mem_append_left _ (h.counted g t n hp).1, (h.counted g t n hp).2.mono hi⟩
  · obtain ⟨g, t, n, h1, h2, h3⟩ := h.out id hm
    exact ⟨g, t, n, h1, List.mem_append_left _ h2, h3.mono hi⟩

theorem made_step {u : Bytes} {c0 : UInt32} {evs : List GenEvent} {s : Gen} (h : Made u c0 evs s) (e : GenEvent) : Made u c0 (evs ++ [e]) (s.step u e) := by
  have hm := made_more h e
  cases e with
  | call g t =>
    unfold Gen.step
    simp only
    split
    · refine ⟨hm.counter, fun g' t' hp => ?_, fun g' t' n' hp => ?_, hm.out⟩
      · simp only at hp
        split at hp
        · rename_i e; cases hp; subst e; simp
        · exact hm.timed g' t' hp
      · simp only at hp
        split at hp
        · cases hp
        · exact hm.counted g' t' n' hp
    · exact hm
  | increment g =>
    unfold Gen.step
    simp only
    split
    · rename_i t hg
      obtain ⟨k, hk, hc⟩ := h.counter
      have hc' : (s.counter + 1).toNat = (c0.toNat + (k + 1)) % 4294967296 := by
        rw [UInt32.toNat_add]; simp only [UInt32.reduceToNat]; omega
      have hi : increments (evs ++ [.increment g]) = increments evs + 1 := by rw [increments_append]; rfl
      refine ⟨⟨k + 1, by omega, hc'⟩, fun g' t' hp => ?_, fun g' t' n' hp => ?_, hm.out⟩
      · simp only at hp
        split at hp
        · cases hp
        · exact hm.timed g' t' hp
      · simp only at hp
        split at hp
        · rename_i e; cases hp; subst e
          exact ⟨hm.timed _ _ hg, k + 1, by omega, by omega, hc'⟩
        · exact hm.counted g' t' n' hp
    · exact hm
  | return_ g =>
    unfold Gen.step
    simp only
    split
    · rename_i t n hg
      refine ⟨hm.counter, fun g' t' hp => ?_, fun g' t' n' hp => ?_, fun id hid => ?_⟩
      · simp only at hp
        split at hp
        · cases hp
        · exact hm.timed g' t' hp
      · simp only at hp
        split at hp
        · cases hp
        · exact hm.counted g' t' n' hp
      · rcases List.mem_cons.mp hid with rfl | hid
        · exact ⟨g, t, n, rfl, (hm.counted g t n hg).1, (hm.counted g t n hg).2⟩
        · exact hm.out id hid
    · exact hm

theorem made_run {u : Bytes} {c0 : UInt32} : ∀ (evs pre : List GenEvent) (s : Gen), Made u c0 pre s → Made u c0 (pre ++ evs) (evs.foldl (Gen.step u) s)
  | [], pre, s, h => by simpa using h
  | e :: evs, pre, s, h => by
    have := made_run evs (pre ++ [e]) _ (made_step h e)
    simpa using this

theorem newID_laidOut {u : Bytes} {c0 : UInt32} {evs : List GenEvent} {g : Nat} {t n : UInt32} (hu : u.length = 5) (h : .call g t ∈ evs)
    (hn : After c0 (increments evs) n) : LaidOut u c0 evs (newID u t n) := by
  obtain ⟨j, h1, h2, h3⟩ := hn
  refine ⟨g, t, j, h, h1, h2, by simp [newID, be32, putUint24, hu], ?_, ?_, ?_⟩
  · rw [show (newID u t n).take 4 = be32 t by simp [newID, be32], bigEndian_be32]
  · simp [newID, be32, hu]
  · rw [show (newID u t n).drop 9 = putUint24 n by simp [newID, be32, hu], bigEndian_putUint24]; omega

end Birch.Proofs
