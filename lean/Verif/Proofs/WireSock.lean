import Verif.Model.WireSock
import Verif.Spec.WireSock
import Verif.Proofs.WireParse

namespace Birch.Proofs.Wire
open Birch Spec Spec.Wire Model Model.Wire Proofs Model.Stream

theorem read_fits {seg : Bytes} {t : List Bytes} {n : Nat} (h : seg.length ≤ n) : Source.read ⟨seg :: t, false⟩ n = (seg, false, ⟨t, false⟩) := by
  simp only [Source.read, List.drop_eq_nil_of_le h, if_true, List.take_of_length_le h, Bool.and_false]

theorem read_part (x y : Bytes) (t : List Bytes) : Source.read ⟨(x ++ y) :: t, false⟩ x.length = (x, false, ⟨unread y t, false⟩) := by
  simp only [Source.read, List.drop_left, List.take_left, unread, Bool.and_false]

theorem i32_len {n : Nat} (h : n < 2147483648) : i32 (n : Int) = n := i32_nat h

/-- the loop, when the rest of the body comes in pieces -/
theorem readRest_pieces {x : Bytes} (hx : x ≠ []) (t : List Bytes) : ∀ (p : List Bytes) (got : Bytes) (fuel : Nat) (want : Nat), want = got.length + (p.flatten ++ x).length →
    want < 2147483648 → p.length + 1 < fuel →
    readRest want fuel [] got.length got ⟨p ++ x :: t, false⟩ = (.ok (some (got ++ (p.flatten ++ x))), ⟨t, false⟩, []) := by
  have hx' : 0 < x.length := List.length_pos_iff.mpr hx
  intro p
  induction p with
  | nil =>
    intro got fuel want hw hl hf
    simp only [List.flatten_nil, List.nil_append, List.length_nil] at hw hf ⊢
    match fuel, hf with
    | fuel + 2, _ =>
      unfold readRest
      rw [i32_len (by omega), if_neg (by omega), Int.toNat_natCast, read_fits (by omega)]
      simp only [fate, Bool.false_eq_true, if_false]
      rw [if_neg (by omega)]
      unfold readRest
      rw [i32_len (by omega), if_pos (by omega)]
  | cons a p ih =>
    intro got fuel want hw hl hf
    simp only [List.flatten_cons, List.length_cons, List.length_append, List.append_assoc, List.cons_append] at hw hf ⊢
    match fuel, hf with
    | fuel + 1, hf =>
      unfold readRest
      rw [i32_len (by omega), if_neg (by omega), Int.toNat_natCast, read_fits (by omega)]
      simp only [fate, Bool.false_eq_true, if_false]
      have := ih (got ++ a) fuel want (by simp only [List.length_append]; omega) hl (by omega)
      rw [List.length_append, List.append_assoc] at this
      split
      · next h =>
        have h := List.length_eq_zero_iff.mp h
        subst h
        simpa using this
      · exact this

theorem readRest_whole {body : Bytes} (hb : body ≠ []) (y : Bytes) (t : List Bytes) (hl : body.length < 2147483648) : ∀ (n fuel : Nat), n + 1 < fuel →
    readRest body.length fuel [] 0 [] ⟨List.replicate n [] ++ (body ++ y) :: t, false⟩ = (.ok (some body), ⟨unread y t, false⟩, []) := by
  have hb' : 0 < body.length := List.length_pos_iff.mpr hb
  intro n
  induction n with
  | zero =>
    intro fuel hf
    match fuel, hf with
    | fuel + 2, _ =>
      unfold readRest
      rw [i32_len (by omega), if_neg (by omega), Int.toNat_natCast]
      simp only [List.replicate_zero, List.nil_append, read_part, fate, Bool.false_eq_true, if_false, Nat.zero_add]
      rw [if_neg (by omega)]
      unfold readRest
      rw [i32_len (by omega), if_pos (by omega)]
  | succ n ih =>
    intro fuel hf
    match fuel, hf with
    | fuel + 1, hf =>
      unfold readRest
      rw [i32_len (by omega), if_neg (by omega), Int.toNat_natCast, List.replicate_succ, List.cons_append, read_fits (by simp)]
      simp only [fate, Bool.false_eq_true, if_false, List.length_nil, if_true]
      exact ih fuel (by omega)

theorem readRest_arrives {body : Bytes} {s r : List Bytes} (h : Arrives body s r) (hl : body.length < 2147483648) {fuel : Nat} (hf : s.length < fuel) :
    readRest body.length fuel [] 0 [] ⟨s, false⟩ = (.ok (some body), ⟨r, false⟩, []) := by
  cases h with
  | whole y t n h =>
    simp only [List.length_append, List.length_replicate, List.length_cons] at hf
    exact readRest_whole h y t hl n fuel (by omega)
  | pieces p x _ hx e =>
    subst e
    simp only [List.length_append, List.length_cons] at hf
    have := readRest_pieces hx r p [] fuel (p.flatten ++ x).length (by simp) hl (by omega)
    simpa using this

theorem unread_length (x : Bytes) (t : List Bytes) : (unread x t).length ≤ t.length + 1 := by
  unfold unread; split <;> simp

theorem unread_flatten (x : Bytes) (t : List Bytes) : (unread x t).flatten.length = x.length + t.flatten.length := by
  unfold unread; split
  · next h => simp [h]
  · simp

theorem arrives_length {body : Bytes} {s r : List Bytes} (h : Arrives body s r) :
    body.length + r.flatten.length = s.flatten.length ∧ r.length ≤ s.length := by
  cases h with
  | whole y t n h =>
    have := unread_length y t
    have hz : (List.replicate n ([] : Bytes)).flatten = [] := by simp
    rw [unread_flatten]
    simp only [List.flatten_append, List.flatten_cons, hz, List.nil_append, List.length_append, List.length_cons, List.length_replicate]
    omega
  | pieces p z _ hz e =>
    subst e
    simp only [List.flatten_append, List.flatten_cons, List.length_append, List.length_cons]
    omega

/-- what `ReadMessage` makes of a message that arrives -/
theorem readMessage_arrives {size body x : Bytes} {t rest : List Bytes} (hs : size = le32 (body.length + 4)) (hl : body.length + 4 ≤ 209715200)
    (hb : Arrives body (unread x t) rest) {fuel : Nat} (hf : t.length + 1 < fuel) :
    readMessage fuel [] ⟨(size ++ x) :: t, false⟩ = (finishRead fuel (body.length + 4 : Nat) body, ⟨rest, false⟩, []) := by
  subst hs
  have h4 : (le32 (body.length + 4)).length = 4 := le32_length _
  have h := read_part (le32 (body.length + 4)) x t
  rw [h4] at h
  have hr : readi32 (le32 (body.length + 4)) = .ok ((body.length + 4 : Nat) : Int) := by
    have := readi32_le32_nat (n := body.length + 4) (by omega) []
    simpa using this
  unfold readMessage
  rw [h]
  simp only [fate, Bool.false_eq_true, if_false, h4, ne_eq, not_true_eq_false, hr]
  rw [if_neg (by omega), if_neg (by omega), show ((body.length + 4 : Nat) : Int) - 4 = (body.length : Nat) by omega,
    readRest_arrives hb (by omega) (by have := unread_length x t; omega)]

theorem finishRead_enc {kind : Nat} (hk : kind ≤ 1) {w : WMsg} {rid rto : Int} (hr : I32 rid) (ht : I32 rto) (wf : w.WF) (hu : ¬ w.Upconverted) {body : Bytes}
    (he : w.enc kind rid rto = le32 (body.length + 4) ++ body) (hl : body.length + 4 ≤ 209715200) {fuel : Nat} (hf : body.length < fuel) :
    ∃ m, finishRead fuel (body.length + 4 : Nat) body = .ok m ∧ RepMsg m w ∧ m.header = parsed ⟨(body.length + 4 : Nat), rid, rto, w.code⟩ kind w := by
  have e : body = Wire.int32 rid ++ (Wire.int32 rto ++ (le32 w.code ++ w.body kind)) := by
    simp only [WMsg.enc, List.append_assoc] at he
    exact (List.append_inj he rfl).2.symm
  have hbl : body.length = 12 + (w.body kind).length := by rw [e]; simp; omega
  have hc : w.code < 2147483648 := by cases w <;> simp [WMsg.code]
  obtain ⟨m, h1, h2, h3⟩ := parse_rep hk (h := ⟨(body.length + 4 : Nat), rid, rto, w.code⟩) rfl wf hu (by omega) (show _ < fuel by omega)
  refine ⟨m, ?_, h2, h3⟩
  unfold finishRead
  rw [if_neg (by omega)]
  rw [← h1]
  conv => lhs; rw [e]
  rw [readi32_int32 hr, Res.bind_ok, dropA (n := 4) 0 rfl, List.drop_zero, readi32_int32 ht, Res.bind_ok, dropA (n := 8) 4 rfl, dropA (n := 4) 0 rfl, List.drop_zero, readi32_le32_nat hc, Res.bind_ok,
    dropA (n := 12) 8 rfl, dropA (n := 8) 4 rfl, dropA (n := 4) 0 rfl, List.drop_zero]
  rw [e]

end Birch.Proofs.Wire
