import Verif.Proofs.FtdcTree

/- The base collector's table of deltas. -/

namespace Birch.Proofs.Ftdc
open Birch Model Model.Ftdc Spec

abbrev Row := List (UInt8 × Num)

/-- doubles are exactly the numbers of type double -/
def Typed (l : Row) : Prop := ∀ p ∈ l, (p.1 = 1 ↔ ∃ b, p.2 = .dbl b)

theorem Typed.append {a b : Row} (ha : Typed a) (hb : Typed b) : Typed (a ++ b) := by
  intro p hp
  rcases List.mem_append.mp hp with h | h
  · exact ha p h
  · exact hb p h

theorem extractAll_typed {g : Value → Res Row} (hg : ∀ v l, g v = .ok l → Typed l) : ∀ (d : Doc) l, extractAll g d = .ok l → Typed l
  | [], l, h => by cases h; intro p hp; cases hp
  | v :: d, l, h => by
    unfold extractAll at h
    obtain ⟨a, h1, h⟩ := Res.bind_eq_ok.mp h
    obtain ⟨b, h2, h⟩ := Res.bind_eq_ok.mp h
    cases h
    exact (hg v a h1).append (extractAll_typed hg d b h2)

theorem typed_int {t : UInt8} {i : Int} (h : t ≠ 1) : Typed [(t, .int i)] := by
  intro p hp; simp only [List.mem_singleton] at hp; subst hp; simp [h]

theorem extractValue_typed : ∀ (fuel : Nat) (v : Value) l, extractValue fuel v = .ok l → Typed l
  | 0, _, _, h => by cases h
  | fuel + 1, v, l, h => by
    unfold extractValue at h
    obtain ⟨t, ht, h⟩ := Res.bind_eq_ok.mp h
    have ih := extractAll_typed (extractValue_typed fuel)
    split at h
    · obtain ⟨d, _, h⟩ := Res.bind_eq_ok.mp h; exact ih d l h
    split at h
    · obtain ⟨d, _, h⟩ := Res.bind_eq_ok.mp h; exact ih d l h
    split at h
    · rename_i h8; obtain ⟨d, _, h⟩ := Res.bind_eq_ok.mp h; cases h; rw [h8]; exact typed_int (by decide)
    split at h
    · rename_i h8; obtain ⟨d, _, h⟩ := Res.bind_eq_ok.mp h; cases h; rw [h8]
      intro p hp; simp only [List.mem_singleton] at hp; subst hp; simp
    split at h
    · obtain ⟨d, _, h⟩ := Res.bind_eq_ok.mp h; cases h; exact typed_int (by assumption)
    split at h
    · obtain ⟨d, _, h⟩ := Res.bind_eq_ok.mp h; cases h; exact typed_int (by assumption)
    split at h
    · obtain ⟨d, _, h⟩ := Res.bind_eq_ok.mp h; cases h; exact typed_int (by assumption)
    split at h
    · obtain ⟨⟨a, b⟩, _, h⟩ := Res.bind_eq_ok.mp h; cases h
      exact (typed_int (i := a) (by assumption)).append (typed_int (i := b) (by assumption))
    · cases h; intro p hp; cases hp

theorem extract_typed {fuel : Nat} {d : Doc} {l : Row} (h : extract fuel d = .ok l) : Typed l :=
  extractAll_typed (extractValue_typed fuel) d l h

/-- the delta of two numbers -/
def delta (fsub : Nat → Nat → Nat) : Num → Num → Int
  | .dbl a, .dbl b => i64 (fsub a b)
  | .int a, .int b => i64 (a - b)
  | _, _ => 0

theorem i64_range (x : Int) : -9223372036854775808 ≤ i64 x ∧ i64 x < 9223372036854775808 := by unfold i64; omega

theorem delta_range (fsub : Nat → Nat → Nat) (a b : Num) : -9223372036854775808 ≤ delta fsub a b ∧ delta fsub a b < 9223372036854775808 := by
  cases a <;> cases b <;> simp only [delta] <;> first | exact i64_range _ | decide

theorem extractDelta_ok (fsub : Nat → Nat → Nat) {t : UInt8} {x y : Num} (hx : t = 1 ↔ ∃ b, x = .dbl b) (hy : t = 1 ↔ ∃ b, y = .dbl b) :
    extractDelta fsub x y = .ok (delta fsub x y) := by
  by_cases h : t = 1
  · obtain ⟨a, rfl⟩ := hx.mp h; obtain ⟨b, rfl⟩ := hy.mp h; rfl
  · cases x with
    | dbl a => exact absurd (hx.mpr ⟨a, rfl⟩) h
    | int a => cases y with
      | dbl b => exact absurd (hy.mpr ⟨b, rfl⟩) h
      | int b => rfl

/-- `Add` writes only into the column of the new sample, never panics, and reports whether the types agree -/
theorem addLoop_ok (fsub : Nat → Nat → Nat) {max sample : Nat} (hs : sample < max) : ∀ (i : Nat) (cur prev : Row) (deltas : List Int),
    Typed cur → Typed prev → cur.length = prev.length → max * (i + cur.length) ≤ deltas.length → InRange deltas →
    ∃ deltas' e, addLoop fsub max sample i cur prev deltas = .ok (deltas', e) ∧ deltas'.length = deltas.length ∧ InRange deltas' ∧
      (e = none ↔ cur.map Prod.fst = prev.map Prod.fst) ∧
      (∀ k, (∀ m, i ≤ m → m < i + cur.length → k ≠ m * max + sample) → deltas'[k]? = deltas[k]?) ∧
      (e = none → ∀ m x y, cur[m]? = some x → prev[m]? = some y → deltas'[(i + m) * max + sample]? = some (delta fsub x.2 y.2))
  | i, [], [], deltas, _, _, _, _, hr => ⟨deltas, none, by simp [addLoop], rfl, hr, by simp, fun _ _ => rfl, by simp⟩
  | _, [], _ :: _, _, _, _, h, _, _ => by simp at h
  | _, _ :: _, [], _, _, _, h, _, _ => by simp at h
  | i, (t, x) :: cur, (u, y) :: prev, deltas, hc, hp, hlen, hl, hr => by
    unfold addLoop
    by_cases htu : t = u
    · subst htu
      have hx := hc (t, x) (by simp)
      have hy := hp (t, y) (by simp)
      simp only [List.length_cons] at hl hlen
      have hin : getOffset max sample i < deltas.length := by
        unfold getOffset
        have : max * (i + 1) ≤ max * (i + (cur.length + 1)) := Nat.mul_le_mul_left _ (by omega)
        rw [Nat.mul_add, Nat.mul_one] at this
        rw [Nat.mul_comm i max]; omega
      rw [if_neg (by simp), extractDelta_ok fsub hx hy]
      simp only [Res.bind_ok, setAt, if_pos hin]
      have hr' : InRange (deltas.set (getOffset max sample i) (delta fsub x y)) := by
        intro d hd
        rcases List.mem_or_eq_of_mem_set hd with h | h
        · exact hr d h
        · subst h; exact delta_range ..
      obtain ⟨deltas', e, h1, h2, h3, h4, h5, h6⟩ := addLoop_ok fsub hs (i + 1) cur prev (deltas.set (getOffset max sample i) (delta fsub x y))
        (fun p h => hc p (List.mem_cons_of_mem _ h)) (fun p h => hp p (List.mem_cons_of_mem _ h)) (by omega)
        (by rw [List.length_set]; rw [show i + 1 + cur.length = i + (cur.length + 1) by omega]; exact hl) hr'
      refine ⟨deltas', e, h1, by rw [h2, List.length_set], h3, by simp [h4], ?_, ?_⟩
      · intro k hk
        rw [h5 k (fun m hm1 hm2 => hk m (by omega) (by simp; omega)), List.getElem?_set_ne]
        exact (hk i (by omega) (by simp)).symm
      · intro he m x' y' hx' hy'
        cases m with
        | zero =>
          simp only [List.getElem?_cons_zero, Option.some.injEq] at hx' hy'
          subst hx'; subst hy'
          rw [h5 _ ?_, Nat.add_zero, show i * max + sample = getOffset max sample i from rfl, List.getElem?_set_self hin]
          intro m hm1 hm2
          rw [Nat.add_zero]
          have : (i + 1) * max ≤ m * max := Nat.mul_le_mul_right _ hm1
          rw [Nat.add_mul, Nat.one_mul] at this; omega
        | succ m =>
          simp only [List.getElem?_cons_succ] at hx' hy'
          have := h6 he m x' y' hx' hy'
          rwa [show i + (m + 1) = i + 1 + m by omega]
    · rw [if_pos htu]
      exact ⟨deltas, some .other, rfl, rfl, hr, by simp [htu], fun _ _ => rfl, by simp⟩

/-- The collector holds the samples `h0 :: hs` (as extracted numbers), the first of which is of document `d0`. -/
structure Holds (fsub : Nat → Nat → Nat) (c : Better) (d0 : Doc) (h0 : Row) (hs : List Row) : Prop where
  ref : c.reference = some d0
  num : c.numSamples = hs.length
  cap : c.numSamples ≤ c.maxDeltas
  last : (h0 :: hs)[hs.length]? = some c.last
  typed : ∀ r ∈ h0 :: hs, Typed r
  types : ∀ r ∈ hs, r.map Prod.fst = h0.map Prod.fst
  len : c.deltas.length = c.maxDeltas * h0.length
  range : InRange c.deltas
  cell : ∀ j i r r' x y, (h0 :: hs)[j]? = some r → hs[j]? = some r' → r[i]? = some y → r'[i]? = some x →
    c.deltas[i * c.maxDeltas + j]? = some (delta fsub x.2 y.2)

theorem last_types {fsub : Nat → Nat → Nat} {c : Better} {d0 : Doc} {h0 : Row} {hs : List Row} (h : Holds fsub c d0 h0 hs) :
    c.last.map Prod.fst = h0.map Prod.fst := by
  have := List.mem_of_getElem? h.last
  rcases List.mem_cons.mp this with e | e
  · rw [e]
  · exact h.types _ e

theorem last_length {fsub : Nat → Nat → Nat} {c : Better} {d0 : Doc} {h0 : Row} {hs : List Row} (h : Holds fsub c d0 h0 hs) :
    c.last.length = h0.length := by
  have := congrArg List.length (last_types h); simpa using this

theorem row_length_eq {fsub : Nat → Nat → Nat} {c : Better} {d0 : Doc} {h0 : Row} {hs : List Row} (h : Holds fsub c d0 h0 hs)
    {r : Row} (hr : r ∈ h0 :: hs) : r.length = h0.length := by
  rcases List.mem_cons.mp hr with e | e
  · rw [e]
  · have := congrArg List.length (h.types _ e); simpa using this

/-- the first document -/
theorem add_first (fsub : Nat → Nat → Nat) {fuel : Nat} {c : Better} {d : Doc} {h0 : Row} (hn : c.reference = none) (h0' : c.numSamples = 0)
    (he : extract fuel d = .ok h0) :
    ∃ c', c.add fsub fuel d = .ok (c', none) ∧ Holds fsub c' d h0 [] ∧ c'.maxDeltas = c.maxDeltas ∧ c'.metadata = c.metadata := by
  refine ⟨{ c with reference := some d, last := h0, deltas := List.replicate (c.maxDeltas * h0.length) 0 }, ?_, ?_, rfl, rfl⟩
  · unfold Better.add
    rw [hn]
    simp [he]
  · refine ⟨rfl, h0', by simp [h0'], by simp, ?_, by simp, by simp, ?_, by simp⟩
    · intro r hr; simp only [List.mem_singleton] at hr; subst hr; exact extract_typed he
    · intro x hx; simp at hx; rw [hx.2]; decide

/-- a further document: accepted exactly when there is room and the types agree -/
theorem add_next {fsub : Nat → Nat → Nat} {fuel : Nat} {c : Better} {d0 d : Doc} {h0 r : Row} {hs : List Row} (h : Holds fsub c d0 h0 hs)
    (he : extract fuel d = .ok r) :
    ∃ c' e, c.add fsub fuel d = .ok (c', e) ∧ c'.maxDeltas = c.maxDeltas ∧ c'.metadata = c.metadata ∧
      (e = none ↔ hs.length < c.maxDeltas ∧ r.map Prod.fst = h0.map Prod.fst) ∧
      (e = none → Holds fsub c' d0 h0 (hs ++ [r])) ∧ (e ≠ none → Holds fsub c' d0 h0 hs ∧ c'.last = c.last) := by
  unfold Better.add
  rw [h.ref]
  simp only
  by_cases hfull : c.numSamples ≥ c.maxDeltas
  · rw [if_pos hfull]
    refine ⟨c, some .other, rfl, rfl, rfl, ?_, by simp, fun _ => ⟨h, rfl⟩⟩
    have := h.num
    constructor
    · intro hh; cases hh
    · rintro ⟨hh, _⟩; omega
  rw [if_neg hfull, he]
  simp only [Res.bind_ok]
  by_cases hlen : r.length ≠ c.last.length
  · rw [if_pos hlen]
    refine ⟨c, some .other, rfl, rfl, rfl, ?_, by simp, fun _ => ⟨h, rfl⟩⟩
    constructor
    · intro hh; cases hh
    · rintro ⟨_, hh⟩; exact absurd (by have := congrArg List.length hh; rw [last_length h]; simpa using this) hlen
  rw [if_neg hlen]
  have hlen' : r.length = c.last.length := by omega
  have hlast := List.mem_of_getElem? h.last
  obtain ⟨deltas, e, h1, h2, h3, h4, h5, h6⟩ := addLoop_ok fsub (max := c.maxDeltas) (sample := c.numSamples) (by omega) 0 r c.last c.deltas
    (extract_typed he) (h.typed _ hlast) hlen' (by rw [h.len, Nat.zero_add, hlen', last_length h]; exact Nat.le_refl _) h.range
  rw [h1]
  simp only [Res.bind_ok]
  have keep : ∀ j i, j < hs.length → deltas[i * c.maxDeltas + j]? = c.deltas[i * c.maxDeltas + j]? := by
    intro j i hj
    apply h5
    intro m _ _ heq
    have hn := h.num
    have h1 : (i * c.maxDeltas + j) % c.maxDeltas = j := by rw [Nat.mul_add_mod_self_right, Nat.mod_eq_of_lt (by omega)]
    have h2 : (m * c.maxDeltas + c.numSamples) % c.maxDeltas = c.numSamples := by rw [Nat.mul_add_mod_self_right, Nat.mod_eq_of_lt (by omega)]
    rw [heq, h2] at h1; omega
  rw [last_types h] at h4
  cases e with
  | some e =>
    refine ⟨{ c with deltas := deltas }, some e, by rw [h.ref], rfl, rfl, ?_, by simp, fun _ => ⟨?_, rfl⟩⟩
    · constructor
      · intro hh; cases hh
      · rintro ⟨_, hh⟩; exact absurd (h4.mpr hh) (by simp)
    · refine ⟨h.ref, h.num, h.cap, h.last, h.typed, h.types, by simp only [h2]; exact h.len, h3, ?_⟩
      intro j i a b x y ha hb hx hy
      have hj : j < hs.length := by
        rcases Nat.lt_or_ge j hs.length with h | h
        · exact h
        · rw [List.getElem?_eq_none h] at hb; cases hb
      simp only
      rw [keep j i hj]
      exact h.cell j i a b x y ha hb hx hy
  | none =>
    refine ⟨{ c with deltas := deltas, numSamples := c.numSamples + 1, last := r }, none, by rw [h.ref], rfl, rfl, ?_, fun _ => ?_, fun hh => absurd rfl hh⟩
    · have := h.num
      exact ⟨fun _ => ⟨by omega, h4.mp rfl⟩, fun _ => rfl⟩
    · have hn := h.num
      refine ⟨h.ref, by simp [hn], by simp only; omega, by simp, ?_, ?_, by simp only [h2]; exact h.len, h3, ?_⟩
      · intro r' hr'
        rw [← List.cons_append] at hr'
        rcases List.mem_append.mp hr' with hh | hh
        · exact h.typed _ hh
        · simp only [List.mem_singleton] at hh; subst hh; exact extract_typed he
      · intro r' hr'
        rcases List.mem_append.mp hr' with hh | hh
        · exact h.types _ hh
        · simp only [List.mem_singleton] at hh; subst hh; exact h4.mp rfl
      · intro j i a b x y ha hb hx hy
        simp only
        rcases Nat.lt_or_ge j hs.length with hj | hj
        · rw [keep j i hj]
          rw [List.getElem?_append_left hj] at hb
          rw [← List.cons_append, List.getElem?_append_left (by simp; omega)] at ha
          exact h.cell j i a b x y ha hb hx hy
        · rw [List.getElem?_append_right hj] at hb
          have hj' : j = hs.length := by
            rcases Nat.lt_or_ge (j - hs.length) 1 with hh | hh
            · omega
            · rw [List.getElem?_eq_none (by simpa using hh)] at hb; cases hb
          subst hj'
          rw [← List.cons_append, List.getElem?_append_left (by simp), h.last] at ha
          simp at hb
          cases ha; subst hb
          have := h6 rfl i x y hy hx
          rwa [Nat.zero_add, hn] at this

end Birch.Proofs.Ftdc
