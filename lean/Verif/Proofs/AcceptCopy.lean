import Verif.Proofs.Accept
import Verif.Proofs.BadArgs

/- Marshalling what was read from bytes that follow the grammar of `Spec/Accept`. -/

namespace Birch.Proofs
open Birch Model Spec

set_option linter.unusedSimpArgs false
set_option linter.unusedVariables false

theorem accepted_le {b : Bytes} {es : List Item} {m : Nat} (h : Accepted b es m) : m ≤ b.length ∧ 5 ≤ m := by
  obtain ⟨n, body, rest, rfl, hi, hn, hm, hr⟩ := h
  have := items_pos hi
  simp at hr hn ⊢; omega

theorem kept_prefix {t : UInt8} {v c : Bytes} (h : Kept t v c) (h15 : t ≠ 0x0F) : ∃ x, v = c ++ x := by
  cases h with
  | plain => exact ⟨[], by simp⟩
  | text => exact ⟨[], by simp⟩
  | embedded _ _ es m => exact ⟨_, (List.take_append_drop m v).symm⟩
  | code => exact absurd rfl h15

theorem kept_length {t : UInt8} {v c : Bytes} (h : Kept t v c) : c.length ≤ v.length := by
  cases h with
  | plain => exact Nat.le_refl _
  | text => exact Nat.le_refl _
  | embedded _ _ es m => simp; omega
  | code c body n es m => simp; omega

theorem deep_sub {es : List Item} {v : Bytes} {m : Nat} (ha : Accepted v es m) (hl : v.length < 2147483648)
    (hd : ∀ e ∈ es, e.1 = 0x03 ∨ e.1 = 0x04 → Deep e.2.2) {fuel : Nat} (hf : v.length < fuel) : readerValidate fuel v = .ok m := by
  refine readerValidate_accepted ha hl (fun e he h34 f hf => ?_) hf
  refine readerValidate_deep (hd e he h34) ?_ f hf
  obtain ⟨n, body, rest, rfl, hi, _⟩ := ha
  have := items_length hi e he
  simp at hl; omega

/-- the type byte of an element lies before its value -/
theorem idx_before {hd y : Bytes} {start : Nat} {t : UInt8} (hs : hd[start]? = some t) : idx (hd ++ y) start = .ok t := by
  apply idx_eq
  rw [List.getElem?_append_left, hs]
  rcases Nat.lt_or_ge start hd.length with h | h
  · exact h
  · simp [h] at hs

theorem rawValidate_plain {t : UInt8} (h : t ≠ 0x02 ∧ t ≠ 0x0D ∧ t ≠ 0x0E ∧ t ≠ 0x03 ∧ t ≠ 0x04 ∧ t ≠ 0x0F) {data : Bytes} {start off : Nat}
    (hi : idx data start = .ok t) (fuel : Nat) : rawValidate fuel data start off = rawSize data start off := by
  have hne : data ≠ [] := by rintro rfl; simp [idx] at hi
  unfold rawValidate
  rw [if_neg hne, hi]
  simp only [Res.bind_ok]
  rw [if_neg (by grind), if_neg (by grind), if_neg (by grind)]

theorem rawValidate_text {t : UInt8} (ht : t = 0x02 ∨ t = 0x0D ∨ t = 0x0E) (s hd post : Bytes) {start : Nat} (hs : hd[start]? = some t)
    (hlen : hd.length + (s.length + 4) + post.length < 2147483648) (fuel : Nat) :
    rawValidate fuel (hd ++ (le32 s.length ++ s ++ post)) start hd.length =
      if s = [] ∨ s.getLast? = some 0 then .ok (s.length + 4) else .err .invalidString := by
  have hne : hd ++ (le32 s.length ++ s ++ post) ≠ [] := by simp [le32]
  have hi : idx (hd ++ (le32 s.length ++ s ++ post)) start = .ok t := idx_before hs
  have h1 := slice_rd4 hd (s ++ post) s.length (by omega)
  have hlast : idx (hd ++ (le32 s.length ++ s ++ post)) (hd.length + 4 + s.length - 1) = .ok (if h : s = [] then 0 else s.getLast h) := by
    rcases List.eq_nil_or_concat s with rfl | ⟨s', c, rfl⟩
    · have := idx_append (hd ++ [0, 0, 0]) 0 post
      simp at this
      simpa [le32] using this
    · have := idx_append (hd ++ (le32 (s' ++ [c]).length ++ s')) c post
      simp only [List.append_assoc, List.length_append, List.length_cons, List.length_nil, le32_length, List.cons_append, List.nil_append] at this
      simp only [List.concat_eq_append, List.append_assoc, List.length_append, List.length_cons, List.length_nil, List.cons_append, List.nil_append]
      rw [show hd.length + 4 + (s'.length + (0 + 1)) - 1 = hd.length + (4 + s'.length) by omega, this]
      simp
  unfold rawValidate
  rw [if_neg hne, hi]
  simp only [Res.bind_ok]
  rw [if_pos ht, if_neg (by simp [u32]; omega)]
  rw [List.append_assoc (le32 _)] at hlast ⊢
  rw [h1]
  simp only [Res.bind_ok]
  rw [readi32_le32_nat' (by omega)]
  simp only [Res.bind_ok]
  rw [if_neg (by simp [i32]; omega), u32i_nat (n := s.length) (by omega)]
  rw [u32i_small (by omega) (by omega), show ((hd.length : Int) + 4 + s.length - 1).toNat = hd.length + 4 + s.length - 1 by omega, hlast]
  simp only [Res.bind_ok]
  rw [u32_small (by omega), Nat.add_comm 4]
  by_cases h0 : s = []
  · subst h0; simp
  · rw [dif_neg h0]
    have hg : s.getLast? = some (s.getLast h0) := List.getLast?_eq_some_getLast h0
    by_cases hz : s.getLast h0 = 0
    · rw [if_neg (by simp [hz]), if_pos (.inr (by rw [hg, hz]))]
    · rw [if_pos hz, if_neg (by simp [h0, hg, hz])]

theorem rawValidate_embedded {t : UInt8} (ht : t = 0x03 ∨ t = 0x04) {s : Bytes} (h0 : s ≠ []) (hd post : Bytes) {start : Nat} (hs : hd[start]? = some t)
    (hlen : hd.length + (s.length + 4) + post.length < 2147483648) (fuel : Nat) :
    rawValidate fuel (hd ++ (le32 (s.length + 4) ++ s ++ post)) start hd.length =
      readerValidate fuel (le32 (s.length + 4) ++ s) >>= fun n => .ok (u32i (4 + ((n : Int) - 4))) := by
  have hne : hd ++ (le32 (s.length + 4) ++ s ++ post) ≠ [] := by simp [le32]
  have hi : idx (hd ++ (le32 (s.length + 4) ++ s ++ post)) start = .ok t := idx_before hs
  have h1 := slice_rd4 hd (s ++ post) (s.length + 4) (by omega)
  have h2 := slice_mid hd (le32 (s.length + 4) ++ s) post (lo := hd.length) (hi := hd.length + (s.length + 4)) rfl (by simp; omega)
  have hp : 0 < s.length := List.length_pos_iff.mpr h0
  unfold rawValidate
  rw [if_neg hne, hi]
  simp only [Res.bind_ok]
  rw [if_neg (by grind), if_pos ht, if_neg (by simp [u32]; omega)]
  rw [show hd ++ (le32 (s.length + 4) ++ s ++ post) = hd ++ (le32 (s.length + 4) ++ (s ++ post)) by simp] at h2 ⊢
  rw [h1]
  simp only [Res.bind_ok]
  rw [readi32_le32_nat' (by omega)]
  simp only [Res.bind_ok]
  rw [if_neg (by omega), if_neg (by simp [i32]; omega), u32i_nat (n := s.length + 4) (by omega), u32_small (by omega), h2]
  rfl

/-- `validate(false)` of a code with scope whose parts fill its window -/
theorem rawValidate_code (c w hd post : Bytes) (hw : 5 ≤ w.length) {start : Nat} (hs : hd[start]? = some 0x0F)
    (hlen : hd.length + (c.length + w.length + 8) + post.length < 2147483648) (fuel : Nat) :
    rawValidate fuel (hd ++ (le32 (c.length + w.length + 8) ++ (le32 c.length ++ (c ++ (w ++ post))))) start hd.length =
      if c = [] ∨ c.getLast? = some 0 then readerValidate fuel w >>= fun n => .ok (u32 (8 + c.length + n)) else .err .invalidString := by
  have hne : hd ++ (le32 (c.length + w.length + 8) ++ (le32 c.length ++ (c ++ (w ++ post)))) ≠ [] := by simp [le32]
  have hi : idx (hd ++ (le32 (c.length + w.length + 8) ++ (le32 c.length ++ (c ++ (w ++ post))))) start = .ok 0x0F := idx_before hs
  have h1 := slice_rd4 hd (le32 c.length ++ (c ++ (w ++ post))) (c.length + w.length + 8) (by omega)
  have h2 := slice_mid (hd ++ le32 (c.length + w.length + 8)) (le32 c.length) (c ++ (w ++ post)) (lo := hd.length + 4) (hi := hd.length + 8)
    (by simp) (by simp)
  have h3 := slice_mid (hd ++ (le32 (c.length + w.length + 8) ++ (le32 c.length ++ c))) w post (lo := hd.length + 8 + c.length)
    (hi := hd.length + (c.length + w.length + 8)) (by simp; omega) (by simp; omega)
  have hlast : idx (hd ++ (le32 (c.length + w.length + 8) ++ (le32 c.length ++ (c ++ (w ++ post))))) (hd.length + 8 + c.length - 1) =
      .ok (if h : c = [] then 0 else c.getLast h) := by
    rcases List.eq_nil_or_concat c with rfl | ⟨s', x, rfl⟩
    · have := idx_append (hd ++ (le32 (([] : Bytes).length + w.length + 8) ++ [0, 0, 0])) 0 (w ++ post)
      simp only [List.length_append, List.length_cons, List.length_nil, le32_length] at this
      simpa [le32] using this
    · have := idx_append (hd ++ (le32 ((s' ++ [x]).length + w.length + 8) ++ (le32 (s' ++ [x]).length ++ s'))) x (w ++ post)
      simp only [List.append_assoc, List.length_append, List.length_cons, List.length_nil, le32_length, List.cons_append, List.nil_append] at this
      simp only [List.concat_eq_append, List.append_assoc, List.length_append, List.length_cons, List.length_nil, List.cons_append, List.nil_append]
      rw [show hd.length + 8 + (s'.length + (0 + 1)) - 1 = hd.length + (4 + (4 + s'.length)) by omega, this]
      simp
  simp only [List.append_assoc] at h2 h3
  have hdl : (hd ++ (le32 (c.length + w.length + 8) ++ (le32 c.length ++ (c ++ (w ++ post))))).length = hd.length + (c.length + w.length + 8) + post.length := by
    simp; omega
  unfold rawValidate
  generalize hd ++ (le32 (c.length + w.length + 8) ++ (le32 c.length ++ (c ++ (w ++ post)))) = D at *
  rw [if_neg hne, hi]
  simp only [Res.bind_ok]
  rw [if_neg (by decide), if_neg (by decide), if_pos trivial, if_neg (by rw [hdl]; simp only [u32]; omega), h1]
  simp only [Res.bind_ok]
  rw [readi32_le32_nat' (by omega)]
  simp only [Res.bind_ok]
  rw [if_neg (by rw [hdl]; simp only [i32]; omega), u32_small (n := hd.length + 4) (by omega), u32_small (n := hd.length + 8) (by omega), h2]
  simp only [Res.bind_ok]
  rw [readi32_le32_nat' (by omega)]
  simp only [Res.bind_ok]
  rw [if_neg (by simp only [i32]; omega), u32i_nat (n := c.length) (by omega)]
  rw [u32i_small (by omega) (by omega), show ((hd.length : Int) + 8 + c.length - 1).toNat = hd.length + 8 + c.length - 1 by omega, hlast]
  simp only [Res.bind_ok]
  rw [u32i_nat (n := c.length + w.length + 8) (by omega), u32_small (n := hd.length + 8 + c.length) (by omega),
    u32_small (n := hd.length + (c.length + w.length + 8)) (by omega), h3]
  simp only [Res.bind_ok]
  by_cases h0 : c = []
  · subst h0; simp
  · rw [dif_neg h0]
    have hg : c.getLast? = some (c.getLast h0) := List.getLast?_eq_some_getLast h0
    by_cases hz : c.getLast h0 = 0
    · rw [if_neg (by simp [hz]), if_pos (.inr (by rw [hg, hz]))]
    · rw [if_pos hz, if_neg (by simp [h0, hg, hz])]

/-- if a code with scope validates, its parts fill its window -/
theorem code_parts {s hd post : Bytes} {start fuel n : Nat} (hs : hd[start]? = some 0x0F)
    (hlen : hd.length + (s.length + 4) + post.length < 2147483648)
    (hsl : ∀ n, lenAt (s ++ post) = some n → n + hd.length + s.length < 2147483648)
    (h : rawValidate fuel (hd ++ (le32 (s.length + 4) ++ (s ++ post))) start hd.length = .ok n) :
    ∃ c w, 5 ≤ w.length ∧ s = le32 c.length ++ (c ++ w) := by
  have hne : hd ++ (le32 (s.length + 4) ++ (s ++ post)) ≠ [] := by simp [le32]
  have hi : idx (hd ++ (le32 (s.length + 4) ++ (s ++ post))) start = .ok 0x0F := idx_before hs
  have h1 := slice_rd4 hd (s ++ post) (s.length + 4) (by omega)
  have hdl : (hd ++ (le32 (s.length + 4) ++ (s ++ post))).length = hd.length + (s.length + 4) + post.length := by simp; omega
  unfold rawValidate at h
  rw [if_neg hne, hi] at h
  simp only [Res.bind_ok] at h
  rw [if_neg (by decide), if_neg (by decide), if_pos trivial, if_neg (by rw [hdl]; simp only [u32]; omega), h1] at h
  simp only [Res.bind_ok] at h
  rw [readi32_le32_nat' (by omega)] at h
  simp only [Res.bind_ok] at h
  rw [if_neg (by rw [hdl]; simp only [i32]; omega), u32_small (n := hd.length + 4) (by omega), u32_small (n := hd.length + 8) (by omega)] at h
  obtain ⟨y, hy, h⟩ := Res.bind_eq_ok.mp h
  have h8 : hd.length + 8 ≤ (hd ++ (le32 (s.length + 4) ++ (s ++ post))).length := by
    unfold slice at hy
    split at hy
    · omega
    · cases hy
  have h4 : 4 ≤ (s ++ post).length := by rw [hdl] at h8; simp; omega
  obtain ⟨l, hl⟩ := lenAt_some h4
  obtain ⟨_, e⟩ := lenAt_le32 hl
  have hb := hsl l hl
  have h2 := slice_mid (hd ++ le32 (s.length + 4)) (le32 l) ((s ++ post).drop 4) (lo := hd.length + 4) (hi := hd.length + 8)
    (by simp) (by simp)
  rw [← e] at h2
  simp only [List.append_assoc] at h2 hy
  rw [h2] at hy
  cases hy
  rw [readi32_le32_nat' (by omega)] at h
  simp only [Res.bind_ok] at h
  split at h
  · cases h
  · rename_i h13
    have h13 : l + 9 ≤ s.length := by simp only [i32] at h13; omega
    refine ⟨(s.drop 4).take l, s.drop (4 + l), by simp; omega, ?_⟩
    have e4 : le32 l = s.take 4 := by
      have := congrArg (List.take 4) e
      rw [List.take_append_of_le_length (by omega), List.take_left' (le32_length _)] at this
      exact this.symm
    have hl' : ((s.drop 4).take l).length = l := by simp; omega
    rw [hl', e4, ← List.drop_drop, List.take_append_drop, List.take_append_drop]

theorem rawValidate_kept {t : UInt8} {v c : Bytes} (hv : Loose t v) (hk : Kept t v c) (hd post : Bytes) {start : Nat} (hs : hd[start]? = some t)
    (hlen : hd.length + v.length + post.length < 2147483648) {fuel : Nat} (hf : v.length < fuel) :
    rawValidate fuel (hd ++ (v ++ post)) start hd.length = .ok c.length := by
  cases hk with
  | plain _ _ ht => rw [rawValidate_plain ht (idx_before hs), rawSize_loose hv hd post start hs hlen]
  | text _ s ht hz =>
    rw [rawValidate_text ht s hd post hs (by simp at hlen; omega), if_pos hz]
    simp; omega
  | embedded _ _ es m ht ha hdp =>
    obtain ⟨s, h0, rfl⟩ := loose_embedded hv ht
    have hle := accepted_le ha
    rw [rawValidate_embedded ht h0 hd post hs (by simp at hlen; omega), deep_sub ha (by omega) hdp hf]
    simp only [Res.bind_ok]
    rw [u32i_small (by omega) (by omega), List.length_take, Nat.min_eq_left hle.1]
    congr 1; omega
  | code c body n es m hz ha hn hdp =>
    have hle := accepted_le ha
    simp only [List.length_append, le32_length] at hlen hle hf
    have := rawValidate_code c (le32 n ++ body) hd post (by simp; omega) hs (by simp; omega) fuel
    rw [if_pos hz, deep_sub ha (by simp; omega) hdp (by simp; omega)] at this
    simp only [Res.bind_ok, List.append_assoc, List.length_append, le32_length] at this ⊢
    rw [show c.length + (4 + body.length) + 8 = c.length + body.length + 12 by omega] at this
    rw [this, u32_small (by omega), List.length_take, List.length_append, le32_length, Nat.min_eq_left hle.1]
    congr 1; omega

theorem kept_of_rawValidate {t : UInt8} {v : Bytes} (hv : Loose t v) (htame : Tame v) (hd post : Bytes) {start : Nat}
    (hs : hd[start]? = some t) (hlen : hd.length + v.length + post.length < 2147483648)
    (hsl : t = 0x0F → ∀ n, lenAt ((v ++ post).drop 4) = some n → n + (hd ++ (v ++ post)).length < 2147483648) {fuel n : Nat}
    (h : rawValidate fuel (hd ++ (v ++ post)) start hd.length = .ok n) : ∃ c, Kept t v c := by
  by_cases h15 : t = 0x0F
  · obtain ⟨s, rfl⟩ : ∃ s, v = le32 (s.length + 4) ++ s := by
      cases hv with
      | code s => exact ⟨s, rfl⟩
      | empty _ h => exfalso; subst h15; simp at h
      | eight _ _ h => exfalso; subst h15; simp at h
      | text _ _ h => exfalso; subst h15; simp at h
      | embedded _ _ h => exfalso; subst h15; simp at h
      | _ => simp at h15
    have hsl' := hsl h15
    subst h15
    simp only [List.append_assoc, List.length_append, le32_length] at h hsl' hlen
    rw [List.drop_left' (by simp)] at hsl'
    obtain ⟨c, w, hw, rfl⟩ := code_parts hs (by omega) (fun n hn => by have := hsl' n hn; omega) h
    simp only [List.append_assoc, List.length_append, le32_length] at h hlen
    rw [show 4 + (c.length + w.length) + 4 = c.length + w.length + 8 by omega, rawValidate_code c w hd post hw hs (by omega)] at h
    split at h
    · rename_i hz
      obtain ⟨m, hm, _⟩ := Res.bind_eq_ok.mp h
      have htw : Tame w := by
        refine tame_slice (b := le32 ((le32 c.length ++ (c ++ w)).length + 4) ++ (le32 c.length ++ (c ++ w)))
          (lo := 8 + c.length) (hi := 8 + c.length + w.length) htame ?_
        have := slice_mid (le32 ((le32 c.length ++ (c ++ w)).length + 4) ++ (le32 c.length ++ c)) w [] (lo := 8 + c.length)
          (hi := 8 + c.length + w.length) (by simp; omega) (by simp; omega)
        simpa using this
      obtain ⟨es, ha, hdp⟩ := readerValidate_sound htw (by omega) hm
      have ha' := ha
      obtain ⟨n', body, rest, rfl, _, hn', _, _⟩ := ha'
      have := Kept.code c body n' es m hz ha (by simp at hn'; omega) hdp
      rw [show c.length + body.length + 12 = (le32 c.length ++ (c ++ (le32 n' ++ body))).length + 4 by simp; omega] at this
      exact ⟨_, this⟩
    · cases h
  by_cases h34 : t = 3 ∨ t = 4
  · obtain ⟨s, h0, rfl⟩ := loose_embedded hv h34
    rw [rawValidate_embedded h34 h0 hd post hs (by simp at hlen; omega)] at h
    obtain ⟨m, hm, _⟩ := Res.bind_eq_ok.mp h
    obtain ⟨es, ha, hdp⟩ := readerValidate_sound htame (by omega) hm
    exact ⟨_, .embedded t _ es m h34 ha hdp⟩
  · by_cases htx : t = 0x02 ∨ t = 0x0D ∨ t = 0x0E
    · cases hv with
      | text _ s _ =>
        rw [rawValidate_text htx s hd post hs (by simp at hlen; omega)] at h
        split at h
        · exact ⟨_, .text t s htx ‹_›⟩
        · cases h
      | empty _ h => exfalso; rcases htx with rfl | rfl | rfl <;> simp at h
      | eight _ _ h => exfalso; rcases htx with rfl | rfl | rfl <;> simp at h
      | embedded _ _ h3 => exact absurd h3 h34
      | _ => simp at htx
    · exact ⟨v, .plain t v (by grind)⟩

/-- an element is written as the first bytes of its window -/
theorem emits_window {fuel : Nat} {pre k x post c y : Bytes} {t : UInt8} (hk : NulFree k) (hy : x = c ++ y) (h15 : t ≠ 0x0F)
    (hl : (pre ++ t :: (k ++ 0 :: (x ++ post))).length < 2147483648)
    (h2 : rawValidate fuel (pre ++ t :: (k ++ 0 :: (x ++ post))) pre.length (pre.length + k.length + 2) = .ok c.length) :
    Emits fuel (.raw pre.length (pre.length + k.length + 2) (pre ++ t :: (k ++ 0 :: (x ++ post)))) (t :: (k ++ 0 :: c)) := by
  have hl' := hl
  simp only [List.length_append, List.length_cons] at hl'
  have hyl := congrArg List.length hy
  simp at hyl
  have h1 := elemKeyLen_rep hk pre (x ++ post) t hl
  refine ⟨⟨_, _, h1, by simpa [valueValidate] using h2, by simp; omega⟩, ?_⟩
  intro s b hb
  have hlen : (t :: (k ++ 0 :: c)).length = k.length + 2 + c.length := by simp; omega
  rw [hlen] at hb
  unfold elemWrite
  have hv : elemValidate fuel (.raw pre.length (pre.length + k.length + 2) (pre ++ t :: (k ++ 0 :: (x ++ post)))) = .ok (k.length + 2 + c.length) := by
    unfold elemValidate
    simp only [Value.data, Value.start, Value.offset, valueValidate, Bool.false_eq_true, if_false]
    rw [h1, h2]
    simp only [Res.bind_ok]
    rw [u32_small (by omega)]
    congr 1; omega
  have hp : writePrep true pre.length (pre.length + k.length + 2) s (k.length + 2 + c.length) b = .ok pre.length := by
    unfold writePrep
    simp only [if_true]
    rw [if_neg (by unfold u64i; omega)]
  rw [hv]
  simp only [Res.bind_ok]
  rw [hp]
  simp only [Res.bind_ok]
  unfold rawWrite
  rw [if_neg (by simp), idx_append]
  simp only [Res.bind_ok]
  rw [if_neg h15, u32_small (by omega)]
  have hs := slice_mid pre (t :: (k ++ 0 :: c)) (y ++ post) (lo := pre.length) (hi := pre.length + (k.length + 2 + c.length)) rfl (by rw [hlen])
  rw [show pre ++ ((t :: (k ++ 0 :: c)) ++ (y ++ post)) = pre ++ t :: (k ++ 0 :: (x ++ post)) by rw [hy]; simp] at hs
  rw [hs]
  simp only [Res.bind_ok]
  rw [copyAt_splice (by rw [hlen]; omega)]
  rfl

theorem scope_len0 {a b c f : Nat} (h : a + b + c + f + 10 < 2147483648) :
    i32 (i32 (i32 ((a + b + 10 + c : Nat) : Int) + (f : Int)) - i32 ((a + b + 2 : Nat) : Int)) = ((c + f + 8 : Nat) : Int) := by
  rw [i32_small (z := ((a + b + 10 + c : Nat) : Int)) (by omega) (by omega),
    i32_small (z := ((a + b + 2 : Nat) : Int)) (by omega) (by omega),
    i32_small (z := ((a + b + 10 + c : Nat) : Int) + (f : Int)) (by omega) (by omega),
    i32_small (by omega) (by omega)]
  omega

/-- a code with scope is written with a new length -/
theorem emits_code {fuel : Nat} {pre k post c body : Bytes} {n m : Nat} (hk : NulFree k) (hm : m ≤ body.length + 4) (h5 : 5 ≤ m) (hn : n ≤ body.length + 4)
    (hl : (pre ++ (0x0F : UInt8) :: (k ++ 0 :: (le32 (c.length + body.length + 12) ++ (le32 c.length ++ (c ++ (le32 n ++ (body ++ post))))))).length < 2147483648)
    (h2 : rawValidate fuel (pre ++ (0x0F : UInt8) :: (k ++ 0 :: (le32 (c.length + body.length + 12) ++ (le32 c.length ++ (c ++ (le32 n ++ (body ++ post)))))))
      pre.length (pre.length + k.length + 2) = .ok (c.length + m + 8)) :
    Emits fuel (.raw pre.length (pre.length + k.length + 2)
        (pre ++ (0x0F : UInt8) :: (k ++ 0 :: (le32 (c.length + body.length + 12) ++ (le32 c.length ++ (c ++ (le32 n ++ (body ++ post))))))))
      (0x0F :: (k ++ 0 :: (le32 (c.length + n + 8) ++ (le32 c.length ++ (c ++ (le32 n ++ body).take m))))) := by
  have hl' := hl
  simp only [List.length_append, List.length_cons, le32_length] at hl'
  have h1 := elemKeyLen_rep hk pre (le32 (c.length + body.length + 12) ++ (le32 c.length ++ (c ++ (le32 n ++ (body ++ post))))) 0x0F hl
  have hlen : ((0x0F : UInt8) :: (k ++ 0 :: (le32 (c.length + n + 8) ++ (le32 c.length ++ (c ++ (le32 n ++ body).take m))))).length = k.length + 2 + (c.length + m + 8) := by
    simp [Nat.min_eq_left (show m ≤ 4 + body.length by omega)]; omega
  refine ⟨⟨_, _, h1, by simpa [valueValidate] using h2, by rw [hlen]; omega⟩, ?_⟩
  intro s b hb
  rw [hlen] at hb
  unfold elemWrite
  have hv : elemValidate fuel (.raw pre.length (pre.length + k.length + 2)
      (pre ++ (0x0F : UInt8) :: (k ++ 0 :: (le32 (c.length + body.length + 12) ++ (le32 c.length ++ (c ++ (le32 n ++ (body ++ post)))))))) = .ok (k.length + 2 + (c.length + m + 8)) := by
    unfold elemValidate
    simp only [Value.data, Value.start, Value.offset, valueValidate, Bool.false_eq_true, if_false]
    rw [h1, h2]
    simp only [Res.bind_ok]
    rw [u32_small (by omega)]
    congr 1; omega
  have hp : writePrep true pre.length (pre.length + k.length + 2) s (k.length + 2 + (c.length + m + 8)) b = .ok pre.length := by
    unfold writePrep
    simp only [if_true]
    rw [if_neg (by unfold u64i; omega)]
  rw [hv]
  simp only [Res.bind_ok]
  rw [hp]
  simp only [Res.bind_ok]
  have i1 := idx_append pre 0x0F (k ++ 0 :: (le32 (c.length + body.length + 12) ++ (le32 c.length ++ (c ++ (le32 n ++ (body ++ post))))))
  have s1 := slice_mid (pre ++ (0x0F : UInt8) :: (k ++ 0 :: le32 (c.length + body.length + 12))) (le32 c.length) (c ++ (le32 n ++ (body ++ post)))
    (lo := pre.length + k.length + 6) (hi := pre.length + k.length + 10) (by simp; omega) (by simp; omega)
  have s2 := slice_mid (pre ++ (0x0F : UInt8) :: (k ++ 0 :: (le32 (c.length + body.length + 12) ++ (le32 c.length ++ c)))) (le32 n) (body ++ post)
    (lo := pre.length + k.length + 10 + c.length) (hi := pre.length + k.length + 14 + c.length) (by simp; omega) (by simp; omega)
  have s3 : encRes (Elements.int32 (pre.length + k.length + 2)
      (pre ++ (0x0F : UInt8) :: (k ++ 0 :: (le32 (c.length + body.length + 12) ++ (le32 c.length ++ (c ++ (le32 n ++ (body ++ post))))))) ((c.length + n + 8 : Nat) : Int)) =
      .ok (4, pre ++ (0x0F : UInt8) :: (k ++ 0 :: (le32 (c.length + n + 8) ++ (le32 c.length ++ (c ++ (le32 n ++ (body ++ post))))))) := by
    rw [int32_splice (n := c.length + n + 8) (Eq.refl _) (by omega) (by simp; omega)]
    congr 2
    have := splice_mid (pre ++ (0x0F : UInt8) :: (k ++ [0])) (le32 (c.length + body.length + 12)) (le32 (c.length + n + 8))
      (le32 c.length ++ (c ++ (le32 n ++ (body ++ post)))) (s := pre.length + k.length + 2) (by simp; omega) (by simp)
    simpa using this
  have s4 := slice_mid pre (0x0F :: (k ++ 0 :: (le32 (c.length + n + 8) ++ (le32 c.length ++ (c ++ (le32 n ++ body).take m))))) ((le32 n ++ body).drop m ++ post)
    (lo := pre.length) (hi := pre.length + (k.length + 2 + (c.length + m + 8))) rfl (by rw [hlen])
  rw [show pre ++ ((0x0F :: (k ++ 0 :: (le32 (c.length + n + 8) ++ (le32 c.length ++ (c ++ (le32 n ++ body).take m))))) ++ ((le32 n ++ body).drop m ++ post)) =
    pre ++ (0x0F : UInt8) :: (k ++ 0 :: (le32 (c.length + n + 8) ++ (le32 c.length ++ (c ++ (le32 n ++ (body ++ post)))))) by
      simp only [List.cons_append, List.append_assoc, ← List.append_assoc ((le32 n ++ body).take m), List.take_append_drop]] at s4
  simp only [List.append_assoc, List.cons_append] at s1 s2
  unfold rawWrite
  rw [if_neg (by simp), i1]
  generalize pre ++ (0x0F : UInt8) :: (k ++ 0 :: (le32 (c.length + body.length + 12) ++ (le32 c.length ++ (c ++ (le32 n ++ (body ++ post)))))) = D at *
  simp only [Res.bind_ok]
  rw [if_pos trivial]
  rw [u32_small (n := pre.length + k.length + 2 + 4) (by omega), u32_small (n := pre.length + k.length + 2 + 4 + 4) (by omega),
    show pre.length + k.length + 2 + 4 = pre.length + k.length + 6 by omega,
    show pre.length + k.length + 6 + 4 = pre.length + k.length + 10 by omega, s1]
  simp only [Res.bind_ok]
  rw [readi32_le32_nat' (by omega)]
  simp only [Res.bind_ok]
  rw [u32i_nat (by omega), u32_small (n := pre.length + k.length + 10 + c.length) (by omega),
    u32_small (n := pre.length + k.length + 10 + c.length + 4) (by omega),
    show pre.length + k.length + 10 + c.length + 4 = pre.length + k.length + 14 + c.length by omega, s2]
  simp only [Res.bind_ok]
  rw [readi32_le32_nat' (by omega)]
  simp only [Res.bind_ok]
  rw [scope_len0 (a := pre.length) (b := k.length) (c := c.length) (f := n) (by omega), s3]
  simp only [Res.bind_ok]
  rw [u32_small (by omega), s4]
  simp only [Res.bind_ok]
  rw [copyAt_splice (by rw [hlen]; omega)]
  rfl

/-- what an element that was read is written as -/
theorem emits_shown {fuel : Nat} {pre k x post c : Bytes} {t : UInt8} (hk : NulFree k) (hv : Loose t x) (hc : Kept t x c)
    (hl : (pre ++ t :: (k ++ 0 :: (x ++ post))).length < 2147483648) (hf : x.length < fuel) :
    Emits fuel (.raw pre.length (pre.length + k.length + 2) (pre ++ t :: (k ++ 0 :: (x ++ post)))) (t :: (k ++ 0 :: c)) := by
  have hl' := hl
  simp only [List.length_append, List.length_cons] at hl'
  have hr := rawValidate_kept hv hc (pre ++ t :: (k ++ [0])) post (start := pre.length) (by simp) (by simp; omega) hf
  rw [show (pre ++ t :: (k ++ [0])) ++ (x ++ post) = pre ++ t :: (k ++ 0 :: (x ++ post)) by simp,
    show (pre ++ t :: (k ++ [0])).length = pre.length + k.length + 2 by simp; omega] at hr
  by_cases h15 : t = 0x0F
  · cases hc with
    | code c body n es m hz ha hn hdp =>
      have hle := accepted_le ha
      simp only [List.length_append, le32_length] at hle
      have := emits_code (fuel := fuel) (pre := pre) (post := post) (c := c) (body := body) (n := n) (m := m) hk (by omega) hle.2 hn
        (by simpa only [List.append_assoc] using hl)
        (by simp only [List.append_assoc] at hr; rw [hr]; simp [Nat.min_eq_left (show m ≤ 4 + body.length by omega)]; omega)
      simpa only [List.append_assoc] using this
    | plain _ _ h => exact absurd h15 h.2.2.2.2.2
    | text _ _ h => exfalso; rcases h with h | h | h <;> subst h <;> simp at h15
    | embedded _ _ _ _ h => exfalso; rcases h with h | h <;> subst h <;> simp at h15
  · obtain ⟨y, hy⟩ := kept_prefix hc h15
    exact emits_window hk hy h15 hl hr

/-- an embedded document with bytes behind its final zero -/
theorem emits_slack {fuel : Nat} {k : Bytes} (hk : NulFree k) (pre post s c y : Bytes) (h0 : s ≠ []) (hy : le32 (s.length + 4) ++ s = c ++ y)
    (hv : readerValidate fuel (le32 (s.length + 4) ++ s) = .ok c.length) {b : Bytes}
    (eb : b = pre ++ (3 : UInt8) :: (k ++ 0 :: ((le32 (s.length + 4) ++ s) ++ post))) (hl : b.length < 2147483648) :
    Emits fuel (.raw pre.length (pre.length + k.length + 2) b) (3 :: (k ++ 0 :: c)) := by
  subst eb
  refine emits_window hk hy (by decide) hl ?_
  have hyl := congrArg List.length hy
  simp only [List.length_append, List.length_cons, le32_length] at hl hyl
  have := rawValidate_embedded (t := 3) (.inl rfl) h0 (pre ++ (3 : UInt8) :: (k ++ [0])) post (start := pre.length) (by simp) (by simp; omega) fuel
  rw [hv, Res.bind_ok, u32i_small (by omega) (by omega), show (4 + ((c.length : Int) - 4)).toNat = c.length by omega] at this
  simpa [Nat.add_assoc] using this

/-- an embedded document that declares more bytes than there are before the end of the outer document -/
theorem slack_refused (k : Bytes) (hk : NulFree k) (x : Bytes) (n : Nat) (h0 : 0 < n) (hl : k.length + x.length + n + 100 < 2147483648) :
    ∃ e, readDocument 2 (wrapDoc (0x03 :: (k ++ 0 :: (le32 (x.length + 5 + n) ++ (x ++ [0]))))) = .err e := by
  have eb : wrapDoc ((0x03 : UInt8) :: (k ++ 0 :: (le32 (x.length + 5 + n) ++ (x ++ [0])))) =
      le32 (k.length + x.length + 12) ++ ((0x03 : UInt8) :: (k ++ 0 :: (le32 (x.length + 5 + n) ++ (x ++ [0, 0])))) := by
    unfold wrapDoc
    simp only [List.append_assoc, List.cons_append, List.nil_append, List.length_append, List.length_cons, List.length_nil, le32_length]
    congr 2; omega
  rw [eb]
  have e1 := iterEnd_le32 (n := k.length + x.length + 12) (body := (0x03 : UInt8) :: (k ++ 0 :: (le32 (x.length + 5 + n) ++ (x ++ [0, 0]))))
    (by simp) (by simp; omega) (by simp; omega)
  unfold readDocument
  rw [e1, Res.bind_ok]
  have i1 := idx_append (le32 (k.length + x.length + 12)) 0x03 (k ++ 0 :: (le32 (x.length + 5 + n) ++ (x ++ [0, 0])))
  have i2 := readerKey_enc hk (le32 (k.length + x.length + 12) ++ [(0x03 : UInt8)]) (le32 (x.length + 5 + n) ++ (x ++ [0, 0])) (k.length + x.length + 12)
    (by simp; omega) (by simp; omega)
  have i3 := slice_rd4 (le32 (k.length + x.length + 12) ++ (0x03 : UInt8) :: (k ++ [0])) (x ++ [0, 0]) (x.length + 5 + n) (by simp; omega)
  simp only [List.append_assoc, List.cons_append, List.nil_append, List.length_append, List.length_cons, List.length_nil, le32_length] at i1 i2 i3
  have hlen : (le32 (k.length + x.length + 12) ++ (0x03 : UInt8) :: (k ++ 0 :: (le32 (x.length + 5 + n) ++ (x ++ [0, 0])))).length = k.length + x.length + 12 := by
    simp; omega
  have hne : le32 (k.length + x.length + 12) ++ (0x03 : UInt8) :: (k ++ 0 :: (le32 (x.length + 5 + n) ++ (x ++ [0, 0]))) ≠ [] := by simp [le32]
  generalize le32 (k.length + x.length + 12) ++ (0x03 : UInt8) :: (k ++ 0 :: (le32 (x.length + 5 + n) ++ (x ++ [0, 0]))) = b at *
  unfold iterLoop
  rw [if_neg (by omega), i1]
  simp only [Res.bind_ok]
  rw [if_neg (by decide), u32_small (n := 4 + 1) (by omega), i2]
  simp only [Res.bind_ok]
  rw [u32_small (n := 4 + 1 + (k.length + 1)) (by omega)]
  have i4 : rawSize b 4 (4 + 1 + (k.length + 1)) = if 1 < n then .err .tooSmall else .ok (x.length + 6) := by
    unfold rawSize
    rw [if_neg hne, i1]
    simp only [Res.bind_ok]
    rw [if_neg (by decide), if_neg (by decide), if_neg (by decide), if_pos (by decide), if_neg (by simp only [u32]; omega)]
    rw [show 4 + 1 + (k.length + 1) = 4 + (k.length + (0 + 1) + 1) by omega, i3]
    simp only [Res.bind_ok]
    rw [readi32_le32_nat' (by omega)]
    simp only [Res.bind_ok]
    rw [if_neg (by omega), hlen]
    by_cases h1 : 1 < n
    · rw [if_pos h1, if_pos (by simp only [i32]; omega)]
    · rw [if_neg h1, if_neg (by simp only [i32]; omega), u32i_nat (by omega), u32i_small (by omega) (by omega), u32_small (by omega)]
      congr 1; omega
  rw [i4]
  by_cases h1 : 1 < n
  · rw [if_pos h1]; exact ⟨_, rfl⟩
  · rw [if_neg h1]
    simp only [Res.bind_ok]
    unfold iterLoop
    rw [if_pos (by rw [u32_small (by omega)]; omega)]
    exact ⟨_, rfl⟩

theorem items_loose {es : List Item} {body rest : Bytes} (h : Items es body rest) (h4 : ∀ e ∈ es, e.1 = 0x0F → 4 ≤ e.2.2.length) :
    ∀ e ∈ es, NulFree e.2.1 ∧ Loose e.1 e.2.2 := by
  induction h with
  | stop => simp
  | item hk hv _ ih =>
    intro e he
    rcases List.mem_cons.mp he with rfl | he
    · exact ⟨hk, hv⟩
    · exact ih (fun e he => h4 e (List.mem_cons_of_mem _ he)) e he
  | stub _ h => exact absurd (h4 _ (List.mem_singleton.mpr rfl) rfl) (by simp only; omega)

theorem shown_emits {fuel : Nat} {b : Bytes} {d : List Value} {es : List Item} (hs : Shown b d es) (hl : b.length < 2147483648) (hf : b.length < fuel)
    (hes : ∀ e ∈ es, NulFree e.2.1 ∧ Loose e.1 e.2.2) : ∀ {c : Bytes}, Copied es c → ∃ cs, EmitsAll fuel d cs ∧ cs.flatten = c := by
  induction hs with
  | nil => intro c hc; cases hc; exact ⟨[], .nil, rfl⟩
  | @cons pre k x post t d es eb _ ih =>
    intro c hc
    cases hc with
    | @cons _ _ _ c0 _ c hk hc =>
      obtain ⟨cs, h1, h2⟩ := ih (fun e he => hes e (List.mem_cons_of_mem _ he)) hc
      obtain ⟨hnf, hlo⟩ := hes (t, k, x) (by simp)
      have he : Emits fuel (.raw pre.length (pre.length + k.length + 2) b) (t :: (k ++ 0 :: c0)) := by
        rw [eb] at hl hf ⊢
        exact emits_shown hnf hlo hk hl (by simp at hf; omega)
      exact ⟨_ :: cs, .cons he h1, by rw [List.flatten_cons, h2]; simp⟩

theorem items_copied_length {es : List Item} {body rest : Bytes} (h : Items es body rest) :
    ∀ {c : Bytes}, Copied es c → c.length + rest.length < body.length := by
  induction h with
  | stop => intro c hc; cases hc; simp
  | item hk hv _ ih =>
    intro c hc
    cases hc with
    | cons hk hc =>
      have := ih hc
      have := kept_length hk
      simp; omega
  | stub _ _ _ =>
    intro c hc
    cases hc with
    | cons hk hc =>
      cases hc
      have := kept_length hk
      simp; omega

theorem docMarshal_copied {fuel : Nat} {b : Bytes} {d : Doc} {es : List Item} {m : Nat} {c : Bytes} (ha : Accepted b es m) (hs : Shown b d es)
    (h4 : ∀ e ∈ es, e.1 = 0x0F → 4 ≤ e.2.2.length) (hl : b.length < 2147483648) (hf : b.length < fuel) (hc : Copied es c) :
    docMarshal fuel d = .ok (wrapDoc c) := by
  obtain ⟨n, body, rest, rfl, hi, hn, hm, hr⟩ := ha
  obtain ⟨cs, h1, h2⟩ := shown_emits hs hl hf (items_loose hi h4) hc
  have := items_copied_length hi hc
  rw [← h2] at this ⊢
  exact docMarshal_emits h1 (by simp at hl; omega)

theorem copied_of_validate {fuel : Nat} {b : Bytes} {d : List Value} {es : List Item} (hs : Shown b d es) (htame : Tame b) (hcl : CodeLengths b) (hl : b.length < 2147483648)
    (hes : ∀ e ∈ es, NulFree e.2.1 ∧ Loose e.1 e.2.2) : ∀ (size n : Nat), elemsValidate fuel size d = .ok n → ∃ c, Copied es c := by
  induction hs with
  | nil => intro _ _ _; exact ⟨[], .nil⟩
  | @cons pre k x post t d es eb _ ih =>
    intro size n h
    unfold elemsValidate at h
    obtain ⟨kl, _, h⟩ := Res.bind_eq_ok.mp h
    obtain ⟨vl, hvl, h⟩ := Res.bind_eq_ok.mp h
    obtain ⟨c, hc⟩ := ih (fun e he => hes e (List.mem_cons_of_mem _ he)) _ _ h
    obtain ⟨hnf, hlo⟩ := hes (t, k, x) (by simp)
    have htx : Tame x := by
      refine tame_slice (b := b) (lo := pre.length + k.length + 2) (hi := pre.length + k.length + 2 + x.length) htame ?_
      have := slice_mid (pre ++ t :: (k ++ [0])) x post (lo := pre.length + k.length + 2)
        (hi := pre.length + k.length + 2 + x.length) (by simp; omega) (by simp; omega)
      rw [show (pre ++ t :: (k ++ [0])) ++ (x ++ post) = b by rw [eb]; simp] at this
      exact this
    simp only [valueValidate, Bool.false_eq_true, if_false] at hvl
    have hvl' : rawValidate fuel ((pre ++ t :: (k ++ [0])) ++ (x ++ post)) pre.length (pre ++ t :: (k ++ [0])).length = .ok vl := by
      rw [show (pre ++ t :: (k ++ [0])) ++ (x ++ post) = b by rw [eb]; simp,
        show (pre ++ t :: (k ++ [0])).length = pre.length + k.length + 2 by simp; omega]
      exact hvl
    obtain ⟨c0, hc0⟩ := kept_of_rawValidate hlo htx _ _ (by simp) (by rw [eb] at hl; simp at hl ⊢; omega)
      (fun h15 n hn => by
        have := hcl pre k (x ++ post) (by rw [eb]; simp only at h15; rw [h15]) hnf n hn
        rw [eb] at this
        simpa using this) hvl'
    exact ⟨_, .cons hc0 hc⟩

theorem copied_of_marshal {fuel : Nat} {b x : Bytes} {d : Doc} {es : List Item} {m : Nat} (ha : Accepted b es m) (hs : Shown b d es)
    (h4 : ∀ e ∈ es, e.1 = 0x0F → 4 ≤ e.2.2.length) (htame : Tame b) (hcl : CodeLengths b) (hl : b.length < 2147483648) (h : docMarshal fuel d = .ok x) :
    ∃ c, Copied es c := by
  obtain ⟨n, body, rest, rfl, hi, hn, hm, hr⟩ := ha
  unfold docMarshal docValidate at h
  obtain ⟨sz, hsz, _⟩ := Res.bind_eq_ok.mp h
  exact copied_of_validate hs htame hcl hl (items_loose hi h4) _ _ hsz

end Birch.Proofs
