import Verif.Proofs.Wire
import Verif.Proofs.Decode

/-
The length of serialized messages, for all messages.
-/

namespace Birch.Proofs.Wire
open Birch Spec Spec.Wire Model Model.Wire Proofs

/-- the document can be marshalled -/
def Marshals (fuel : Nat) (d : Doc) : Prop := ∃ b, docMarshal fuel d = .ok b

theorem docBytes_size {fuel : Nat} {d : Option Doc} {b : Bytes} {n : Nat} (hm : ∀ x ∈ d.toList, Marshals fuel x) (h : docBytes fuel d = .ok b)
    (h' : getDocSize fuel d = .ok n) : n = b.length := by
  cases d with
  | none => cases h; cases h'; rfl
  | some d =>
    obtain ⟨b', hb⟩ := hm d (by simp)
    obtain ⟨h1, -⟩ := docMarshal_size hb
    simp only [docBytes, hb, Res.ok.injEq] at h
    simp only [getDocSize, h1, orPanic, Res.ok.injEq] at h'
    rw [← h', h]

theorem docsBytes_size {fuel : Nat} : ∀ {ds : List Doc} {b : Bytes} {n : Nat}, (∀ x ∈ ds, Marshals fuel x) → docsBytes fuel ds = .ok b →
    docsSize fuel ds = .ok n → n = b.length
  | [], _, _, _, h, h' => by cases h; cases h'; rfl
  | d :: ds, b, n, hm, h, h' => by
    unfold docsBytes at h
    unfold docsSize at h'
    rw [Res.bind_eq_ok] at h h'
    obtain ⟨x, h1, h⟩ := h
    obtain ⟨k, h2, h'⟩ := h'
    rw [Res.bind_eq_ok] at h h'
    obtain ⟨y, h3, h⟩ := h
    obtain ⟨l, h4, h'⟩ := h'
    cases h; cases h'
    rw [docBytes_size (d := some d) (fun z hz => hm z (by simp at hz; simp [hz])) h1 h2, docsBytes_size (fun z hz => hm z (by simp [hz])) h3 h4]
    simp

theorem item_size {fuel : Nat} {i i' : Item} {b : Bytes} {n : Int} (hm : ∀ x ∈ itemDocs i, Marshals fuel x) (h : i.serialize fuel = .ok (b, n, i'))
    (hl : b.length < 2147483648) : n = b.length := by
  cases i with
  | body d =>
    simp only [Item.serialize] at h
    rw [Res.bind_eq_ok] at h
    obtain ⟨k, h1, h⟩ := h
    rw [Res.bind_eq_ok] at h
    obtain ⟨x, h2, h⟩ := h
    cases h
    rw [docBytes_size hm h2 h1]
    simp only [List.length_cons]; omega
  | sequence s id ds =>
    simp only [Item.serialize] at h
    rw [Res.bind_eq_ok] at h
    obtain ⟨k, h1, h⟩ := h
    rw [Res.bind_eq_ok] at h
    obtain ⟨x, h2, h⟩ := h
    simp only [Res.ok.injEq, Prod.mk.injEq] at h
    obtain ⟨rfl, rfl, rfl⟩ := h
    have e := docsBytes_size hm h2 h1
    simp only [List.length_cons, List.length_append, int32Bytes_eq, int32_length, cstringBytes_eq, cstring_length] at hl ⊢
    rw [i32_nat (by omega)]
    omega

theorem items_size {fuel : Nat} : ∀ {is is' : List Item} {b : Bytes} {n : Int}, (∀ x ∈ is.flatMap itemDocs, Marshals fuel x) →
    itemsSerialize fuel is = .ok (b, n, is') → b.length < 2147483648 → n = b.length
  | [], _, _, _, _, h, _ => by cases h; rfl
  | i :: is, is', b, n, hm, h, hl => by
    unfold itemsSerialize at h
    rw [Res.bind_eq_ok] at h
    obtain ⟨⟨b1, n1, i1⟩, h1, h⟩ := h
    rw [Res.bind_eq_ok] at h
    obtain ⟨⟨b2, n2, i2⟩, h2, h⟩ := h
    simp only [Res.ok.injEq, Prod.mk.injEq] at h
    obtain ⟨rfl, rfl, rfl⟩ := h
    rw [List.length_append] at hl
    rw [item_size (fun x hx => hm x (by rw [List.flatMap_cons]; exact List.mem_append_left _ hx)) h1 (by omega),
      items_size (fun x hx => hm x (by rw [List.flatMap_cons]; exact List.mem_append_right _ hx)) h2 (by omega)]
    simp

theorem header_take (h : Header) (n : Nat) (x : Bytes) (he : n = 16 + x.length) (hl : n < 2147483648) :
    (Header.bytes { h with size := i32 n } ++ x).take 4 = le32 (Header.bytes { h with size := i32 n } ++ x).length ∧
    i32 n = ((Header.bytes { h with size := i32 n } ++ x).length : Int) := by
  have e : (Header.bytes { h with size := i32 n } ++ x).length = n := by
    simp only [Header.bytes, List.length_append, int32Bytes_eq, int32_length]; omega
  rw [e]
  refine ⟨?_, i32_nat hl⟩
  simp only [Header.bytes, int32Bytes_eq, List.append_assoc]
  rw [List.take_left' (by simp), i32_nat hl, int32_nat (by omega)]

theorem header_len (h : Header) (x : Bytes) : (Header.bytes h ++ x).length = 16 + x.length := by
  simp only [Header.bytes, List.length_append, int32Bytes_eq, int32_length]

theorem serialize_size {fuel : Nat} {m m' : Message} {b : Bytes} (hm : ∀ d ∈ msgDocs m, Marshals fuel d) (hfr : Fresh m) (hc : Counted m)
    (h : m.serialize fuel = .ok (b, m')) (hl : b.length < 2147483648) : b.take 4 = le32 b.length ∧ m'.header.size = b.length := by
  cases m with
  | reply hd f c s n ds =>
    simp only [Message.serialize] at h
    rw [Res.bind_eq_ok] at h
    obtain ⟨k, h1, h⟩ := h
    rw [Res.bind_eq_ok] at h
    obtain ⟨x, h2, h⟩ := h
    cases h
    have e := docsBytes_size hm h2 h1
    rw [header_len] at hl
    simp only [List.length_append, int32Bytes_eq, int64Bytes_eq, int32_length, int64_length] at hl
    exact header_take hd (16 + 20 + k) _ (by simp only [List.length_append, int32Bytes_eq, int64Bytes_eq, int32_length, int64_length]; omega) (by omega)
  | update hd r f ns a b =>
    simp only [Message.serialize] at h
    rw [Res.bind_eq_ok] at h
    obtain ⟨k, h1, h⟩ := h
    rw [Res.bind_eq_ok] at h
    obtain ⟨l, h2, h⟩ := h
    rw [Res.bind_eq_ok] at h
    obtain ⟨x, h3, h⟩ := h
    rw [Res.bind_eq_ok] at h
    obtain ⟨y, h4, h⟩ := h
    cases h
    have e := docBytes_size (fun z hz => hm z (List.mem_append_left _ hz)) h3 h1
    have e' := docBytes_size (fun z hz => hm z (List.mem_append_right _ hz)) h4 h2
    rw [header_len] at hl
    simp only [List.length_append, int32Bytes_eq, cstringBytes_eq, int32_length, cstring_length] at hl
    exact header_take hd (16 + 8 + (ns.length + 1) + k + l) _
      (by simp only [List.length_append, int32Bytes_eq, cstringBytes_eq, int32_length, cstring_length]; omega) (by omega)
  | query hd f s n ns q p =>
    simp only [Message.serialize] at h
    rw [Res.bind_eq_ok] at h
    obtain ⟨k, h1, h⟩ := h
    rw [Res.bind_eq_ok] at h
    obtain ⟨l, h2, h⟩ := h
    rw [Res.bind_eq_ok] at h
    obtain ⟨x, h3, h⟩ := h
    rw [Res.bind_eq_ok] at h
    obtain ⟨y, h4, h⟩ := h
    cases h
    have e := docBytes_size (fun z hz => hm z (List.mem_append_left _ hz)) h3 h1
    have e' := docBytes_size (fun z hz => hm z (List.mem_append_right _ hz)) h4 h2
    rw [header_len] at hl
    simp only [List.length_append, int32Bytes_eq, cstringBytes_eq, int32_length, cstring_length] at hl
    exact header_take hd (16 + 12 + (ns.length + 1) + k + l) _
      (by simp only [List.length_append, int32Bytes_eq, cstringBytes_eq, int32_length, cstring_length]; omega) (by omega)
  | getMore hd r n c ns =>
    simp only [Message.serialize] at h
    cases h
    rw [header_len] at hl
    simp only [List.length_append, int32Bytes_eq, int64Bytes_eq, cstringBytes_eq, int32_length, int64_length, cstring_length] at hl
    exact header_take hd (16 + 16 + (ns.length + 1)) _
      (by simp only [List.length_append, int32Bytes_eq, int64Bytes_eq, cstringBytes_eq, int32_length, int64_length, cstring_length]; omega) (by omega)
  | insert hd f ns ds =>
    simp only [Message.serialize] at h
    rw [Res.bind_eq_ok] at h
    obtain ⟨k, h1, h⟩ := h
    rw [Res.bind_eq_ok] at h
    obtain ⟨x, h2, h⟩ := h
    cases h
    have e := docsBytes_size hm h2 h1
    rw [header_len] at hl
    simp only [List.length_append, int32Bytes_eq, cstringBytes_eq, int32_length, cstring_length] at hl
    exact header_take hd (16 + 4 + (ns.length + 1) + k) _
      (by simp only [List.length_append, int32Bytes_eq, cstringBytes_eq, int32_length, cstring_length]; omega) (by omega)
  | delete hd r f ns a =>
    simp only [Message.serialize] at h
    rw [Res.bind_eq_ok] at h
    obtain ⟨k, h1, h⟩ := h
    rw [Res.bind_eq_ok] at h
    obtain ⟨x, h2, h⟩ := h
    cases h
    have e := docBytes_size hm h2 h1
    rw [header_len] at hl
    simp only [List.length_append, int32Bytes_eq, cstringBytes_eq, int32_length, cstring_length] at hl
    exact header_take hd (16 + 8 + (ns.length + 1) + k) _
      (by simp only [List.length_append, int32Bytes_eq, cstringBytes_eq, int32_length, cstring_length]; omega) (by omega)
  | killCursors hd r n ids =>
    simp only [Counted] at hc
    subst hc
    simp only [Message.serialize] at h
    rw [Res.bind_eq_ok] at h
    obtain ⟨-, -, h⟩ := h
    cases h
    rw [show (16 + 8 + 8 * (ids.length : Int)) = ((16 + 8 + 8 * ids.length : Nat) : Int) by omega] at *
    have e : (ids.map int64Bytes).flatten.length = 8 * ids.length := flatMap_int64_length ids
    rw [header_len] at hl
    simp only [List.length_append, int32Bytes_eq, int32_length] at hl
    exact header_take hd (16 + 8 + 8 * ids.length) _ (by simp only [List.length_append, int32Bytes_eq, int32_length]; omega) (by omega)
  | command hd db name a m ds up =>
    simp only [Message.serialize] at h
    rw [Res.bind_eq_ok] at h
    obtain ⟨k, h1, h⟩ := h
    rw [Res.bind_eq_ok] at h
    obtain ⟨l, h2, h⟩ := h
    rw [Res.bind_eq_ok] at h
    obtain ⟨j, h3, h⟩ := h
    rw [Res.bind_eq_ok] at h
    obtain ⟨x, h4, h⟩ := h
    rw [Res.bind_eq_ok] at h
    obtain ⟨y, h5, h⟩ := h
    rw [Res.bind_eq_ok] at h
    obtain ⟨z, h6, h⟩ := h
    cases h
    have e := docBytes_size (fun z hz => hm z (List.mem_append_left _ (List.mem_append_left _ hz))) h4 h1
    have e' := docBytes_size (fun z hz => hm z (List.mem_append_left _ (List.mem_append_right _ hz))) h5 h2
    have e'' := docsBytes_size (fun z hz => hm z (List.mem_append_right _ hz)) h6 h3
    rw [header_len] at hl
    simp only [List.length_append, cstringBytes_eq, cstring_length] at hl
    exact header_take hd (16 + (db.length + 1) + (name.length + 1) + k + l + j) _
      (by simp only [List.length_append, cstringBytes_eq, cstring_length]; omega) (by omega)
  | commandReply hd a m ds =>
    simp only [Message.serialize] at h
    rw [Res.bind_eq_ok] at h
    obtain ⟨k, h1, h⟩ := h
    rw [Res.bind_eq_ok] at h
    obtain ⟨l, h2, h⟩ := h
    rw [Res.bind_eq_ok] at h
    obtain ⟨j, h3, h⟩ := h
    rw [Res.bind_eq_ok] at h
    obtain ⟨x, h4, h⟩ := h
    rw [Res.bind_eq_ok] at h
    obtain ⟨y, h5, h⟩ := h
    rw [Res.bind_eq_ok] at h
    obtain ⟨z, h6, h⟩ := h
    cases h
    have e := docBytes_size (fun z hz => hm z (List.mem_append_left _ (List.mem_append_left _ hz))) h4 h1
    have e' := docBytes_size (fun z hz => hm z (List.mem_append_left _ (List.mem_append_right _ hz))) h5 h2
    have e'' := docsBytes_size (fun z hz => hm z (List.mem_append_right _ hz)) h6 h3
    rw [header_len] at hl
    simp only [List.length_append] at hl
    exact header_take hd (16 + k + l + j) _ (by simp only [List.length_append]; omega) (by omega)
  | msg hd s f db coll op is c =>
    simp only [Fresh] at hfr
    subst hfr
    simp only [Message.serialize, ne_eq, not_true_eq_false, if_false] at h
    rw [Res.bind_eq_ok] at h
    obtain ⟨⟨x, n, is'⟩, h1, h⟩ := h
    simp only [] at h
    rw [Res.bind_eq_ok] at h
    obtain ⟨-, -, h⟩ := h
    by_cases hp : ¬ c = 0 ∧ f % 2 = 1
    · simp only [if_pos hp] at h
      cases h
      rw [header_len] at hl
      simp only [List.length_append, int32Bytes_eq, int32_length] at hl
      have e := items_size hm h1 (by omega)
      subst e
      have := header_take hd (16 + 4 + x.length + 4) (int32Bytes (i32 f) ++ (x ++ int32Bytes c))
        (by simp only [List.length_append, int32Bytes_eq, int32_length]; omega) (by omega)
      rw [show ((16 + 4 + x.length + 4 : Nat) : Int) = 16 + 4 + (x.length : Int) + 4 by omega] at this
      exact this
    · simp only [if_neg hp, Int.add_zero] at h
      cases h
      rw [header_len] at hl
      simp only [List.length_append, int32Bytes_eq, int32_length, List.length_nil] at hl
      have e := items_size hm h1 (by omega)
      subst e
      have := header_take hd (16 + 4 + x.length) (int32Bytes (i32 f) ++ (x ++ []))
        (by simp only [List.length_append, int32Bytes_eq, int32_length, List.length_nil]; omega) (by omega)
      rw [show ((16 + 4 + x.length : Nat) : Int) = 16 + 4 + (x.length : Int) by omega] at this
      exact this

theorem serialize_again {fuel : Nat} {m m' : Message} {b : Bytes} (h : m.serialize fuel = .ok (b, m')) : ∃ m'', m'.serialize fuel = .ok (b, m'') := by
  cases m with
  | msg hd sd f db coll op items c =>
    simp only [Message.serialize] at h
    by_cases hs : sd = []
    · rw [if_neg (by simp [hs]), Res.bind_eq_ok] at h
      obtain ⟨⟨x, n, is⟩, -, h⟩ := h
      dsimp only at h
      rw [Res.bind_eq_ok] at h
      obtain ⟨_, -, h⟩ := h
      simp only [Res.ok.injEq, Prod.mk.injEq] at h
      obtain ⟨rfl, rfl⟩ := h
      refine ⟨_, by
        simp only [Message.serialize]
        rw [if_pos]
        intro he
        have := congrArg List.length he
        rw [header_len] at this
        simp at this⟩
    · rw [if_pos hs] at h
      cases h
      exact ⟨_, by simp only [Message.serialize]; rw [if_pos hs]⟩
  | getMore =>
    simp only [Message.serialize] at h
    cases h
    exact ⟨_, rfl⟩
  | delete =>
    simp only [Message.serialize, Res.bind_eq_ok] at h
    obtain ⟨_, h1, h⟩ := h
    obtain ⟨_, h2, h⟩ := h
    cases h
    exact ⟨_, by simp only [Message.serialize, h1, h2, Res.bind_ok]; rfl⟩
  | reply | insert =>
    simp only [Message.serialize, Res.bind_eq_ok] at h
    obtain ⟨_, h1, h⟩ := h
    obtain ⟨_, h2, h⟩ := h
    cases h
    exact ⟨_, by simp only [Message.serialize, h1, h2, Res.bind_ok]; rfl⟩
  | killCursors =>
    simp only [Message.serialize, Res.bind_eq_ok] at h
    obtain ⟨_, h1, h⟩ := h
    cases h
    exact ⟨_, by simp only [Message.serialize, h1, Res.bind_ok]; rfl⟩
  | update | query =>
    simp only [Message.serialize, Res.bind_eq_ok] at h
    obtain ⟨_, h1, _, h2, _, h3, _, h4, h⟩ := h
    cases h
    exact ⟨_, by simp only [Message.serialize, h1, h2, h3, h4, Res.bind_ok]; rfl⟩
  | command | commandReply =>
    simp only [Message.serialize, Res.bind_eq_ok] at h
    obtain ⟨_, h1, _, h2, _, h3, _, h4, _, h5, _, h6, h⟩ := h
    cases h
    exact ⟨_, by simp only [Message.serialize, h1, h2, h3, h4, h5, h6, Res.bind_ok]; rfl⟩

/-! ### documents that are not valid -/

/-- returns or panics -/
def Ends {α : Type} (r : Res α) : Prop := r = .panic ∨ ∃ x, r = .ok x

theorem Ends.bind {α β : Type} {r : Res α} {f : α → Res β} (h : Ends r) (hf : ∀ x, r = .ok x → Ends (f x)) : Ends (r >>= f) := by
  rcases h with h | ⟨x, h⟩
  · rw [h]; exact .inl rfl
  · rw [h]; exact hf x h

theorem Ends.ok {α : Type} (x : α) : Ends (Res.ok x) := .inr ⟨x, rfl⟩

theorem Ends.panics {α β : Type} {r : Res α} {f : α → Res β} (h : Ends r) (hf : ∀ x, r = .ok x → f x = .panic) : (r >>= f) = .panic := by
  rcases h with h | ⟨x, h⟩
  · rw [h]; rfl
  · rw [h]; exact hf x h

/-- the fuel is enough for a document -/
abbrev Enough (fuel : Nat) (d : Doc) : Prop := docValidate fuel d ≠ .oof ∧ docMarshal fuel d ≠ .oof

theorem getDocSize_ends {fuel : Nat} {d : Option Doc} (h : ∀ x ∈ d.toList, Enough fuel x) : Ends (getDocSize fuel d) := by
  cases d with
  | none => exact .ok _
  | some d =>
    have := (h d (by simp)).1
    simp only [getDocSize]
    cases hv : docValidate fuel d with
    | ok n => exact .ok _
    | err e => exact .inl rfl
    | panic => exact .inl rfl
    | oof => exact absurd hv this

theorem docsSize_ends {fuel : Nat} : ∀ {ds : List Doc}, (∀ x ∈ ds, Enough fuel x) → Ends (docsSize fuel ds)
  | [], _ => .ok _
  | d :: ds, h => (getDocSize_ends (d := some d) (fun x hx => h x (by simp at hx; simp [hx]))).bind fun _ _ =>
      (docsSize_ends fun x hx => h x (by simp [hx])).bind fun _ _ => .ok _

theorem docBytes_ends {fuel : Nat} {d : Option Doc} (h : ∀ x ∈ d.toList, Enough fuel x) : Ends (docBytes fuel d) := by
  cases d with
  | none => exact .ok _
  | some d =>
    have := (h d (by simp)).2
    simp only [docBytes]
    cases hv : docMarshal fuel d with
    | ok n => exact .ok _
    | err e => exact .ok _
    | panic => exact .inl rfl
    | oof => exact absurd hv this

theorem docsBytes_ends {fuel : Nat} : ∀ {ds : List Doc}, (∀ x ∈ ds, Enough fuel x) → Ends (docsBytes fuel ds)
  | [], _ => .ok _
  | d :: ds, h => (docBytes_ends (d := some d) (fun x hx => h x (by simp at hx; simp [hx]))).bind fun _ _ =>
      (docsBytes_ends fun x hx => h x (by simp [hx])).bind fun _ _ => .ok _

/-- not valid -/
abbrev Invalid (fuel : Nat) (d : Doc) : Prop := ∃ e, docValidate fuel d = .err e

theorem getDocSize_invalid {fuel : Nat} {d : Option Doc} (h : ∃ x ∈ d.toList, Invalid fuel x) : getDocSize fuel d = .panic := by
  obtain ⟨x, hx, e, he⟩ := h
  cases d with
  | none => simp at hx
  | some d =>
    simp only [Option.toList_some, List.mem_singleton] at hx
    subst hx
    simp only [getDocSize, he, orPanic]

theorem docsSize_invalid {fuel : Nat} : ∀ {ds : List Doc}, (∀ x ∈ ds, Enough fuel x) → (∃ x ∈ ds, Invalid fuel x) → docsSize fuel ds = .panic
  | [], _, h => by simp at h
  | d :: ds, he, h => by
    unfold docsSize
    obtain ⟨x, hx, hi⟩ := h
    rcases List.mem_cons.mp hx with rfl | hx
    · rw [getDocSize_invalid ⟨x, by simp, hi⟩]; rfl
    · refine (getDocSize_ends (d := some d) (fun x hx => he x (by simp at hx; simp [hx]))).panics fun _ _ => ?_
      rw [docsSize_invalid (fun x hx => he x (by simp [hx])) ⟨x, hx, hi⟩]; rfl

theorem item_ends {fuel : Nat} {i : Item} (h : ∀ x ∈ itemDocs i, Enough fuel x) : Ends (i.serialize fuel) := by
  cases i with
  | body d => exact (getDocSize_ends h).bind fun _ _ => (docBytes_ends h).bind fun _ _ => .ok _
  | sequence n id ds => exact (docsSize_ends h).bind fun _ _ => (docsBytes_ends h).bind fun _ _ => .ok _

theorem item_invalid {fuel : Nat} {i : Item} (h : ∀ x ∈ itemDocs i, Enough fuel x) (hi : ∃ x ∈ itemDocs i, Invalid fuel x) : i.serialize fuel = .panic := by
  cases i with
  | body d => unfold Item.serialize; dsimp only; rw [getDocSize_invalid hi]; rfl
  | sequence n id ds => unfold Item.serialize; dsimp only; rw [show docsSize fuel ds = .panic from docsSize_invalid h hi]; rfl

theorem items_invalid {fuel : Nat} : ∀ {is : List Item}, (∀ x ∈ is.flatMap itemDocs, Enough fuel x) → (∃ x ∈ is.flatMap itemDocs, Invalid fuel x) →
    itemsSerialize fuel is = .panic
  | [], _, h => by simp at h
  | i :: is, he, h => by
    unfold itemsSerialize
    obtain ⟨x, hx, hi⟩ := h
    rw [List.flatMap_cons, List.mem_append] at hx
    have he1 : ∀ x ∈ itemDocs i, Enough fuel x := fun x hx => he x (by rw [List.flatMap_cons]; exact List.mem_append_left _ hx)
    have he2 : ∀ x ∈ is.flatMap itemDocs, Enough fuel x := fun x hx => he x (by rw [List.flatMap_cons]; exact List.mem_append_right _ hx)
    rcases hx with hx | hx
    · rw [item_invalid he1 ⟨x, hx, hi⟩]; rfl
    · exact (item_ends he1).panics fun _ _ => by rw [items_invalid he2 ⟨x, hx, hi⟩]; rfl

theorem serialize_invalid {fuel : Nat} {m : Message} (hfr : Fresh m) (he : ∀ d ∈ msgDocs m, Enough fuel d) (hi : ∃ d ∈ msgDocs m, Invalid fuel d) :
    m.serialize fuel = .panic := by
  obtain ⟨x, hx, hx'⟩ := hi
  cases m with
  | reply h f c s n ds => unfold Message.serialize; dsimp only; rw [show docsSize fuel ds = .panic from docsSize_invalid he ⟨x, hx, hx'⟩]; rfl
  | insert h f ns ds => unfold Message.serialize; dsimp only; rw [show docsSize fuel ds = .panic from docsSize_invalid he ⟨x, hx, hx'⟩]; rfl
  | getMore => simp [msgDocs] at hx
  | killCursors => simp [msgDocs] at hx
  | delete h r f ns a => unfold Message.serialize; dsimp only; rw [getDocSize_invalid ⟨x, hx, hx'⟩]; rfl
  | update h r f ns a b =>
    unfold Message.serialize
    dsimp only
    simp only [msgDocs, List.mem_append] at he hx
    rcases hx with hx | hx
    · rw [getDocSize_invalid ⟨x, hx, hx'⟩]; rfl
    · exact (getDocSize_ends fun y hy => he y (.inl hy)).panics fun _ _ => by rw [getDocSize_invalid ⟨x, hx, hx'⟩]; rfl
  | query h f s n ns a b =>
    unfold Message.serialize
    dsimp only
    simp only [msgDocs, List.mem_append] at he hx
    rcases hx with hx | hx
    · rw [getDocSize_invalid ⟨x, hx, hx'⟩]; rfl
    · exact (getDocSize_ends fun y hy => he y (.inl hy)).panics fun _ _ => by rw [getDocSize_invalid ⟨x, hx, hx'⟩]; rfl
  | command h db name a b ds up =>
    unfold Message.serialize
    dsimp only
    simp only [msgDocs, List.mem_append] at he hx
    rcases hx with (hx | hx) | hx
    · rw [getDocSize_invalid ⟨x, hx, hx'⟩]; rfl
    · exact (getDocSize_ends fun y hy => he y (.inl (.inl hy))).panics fun _ _ => by rw [getDocSize_invalid ⟨x, hx, hx'⟩]; rfl
    · exact (getDocSize_ends fun y hy => he y (.inl (.inl hy))).panics fun _ _ => (getDocSize_ends fun y hy => he y (.inl (.inr hy))).panics fun _ _ => by
        rw [docsSize_invalid (fun y hy => he y (.inr hy)) ⟨x, hx, hx'⟩]; rfl
  | commandReply h a b ds =>
    unfold Message.serialize
    dsimp only
    simp only [msgDocs, List.mem_append] at he hx
    rcases hx with (hx | hx) | hx
    · rw [getDocSize_invalid ⟨x, hx, hx'⟩]; rfl
    · exact (getDocSize_ends fun y hy => he y (.inl (.inl hy))).panics fun _ _ => by rw [getDocSize_invalid ⟨x, hx, hx'⟩]; rfl
    · exact (getDocSize_ends fun y hy => he y (.inl (.inl hy))).panics fun _ _ => (getDocSize_ends fun y hy => he y (.inl (.inr hy))).panics fun _ _ => by
        rw [docsSize_invalid (fun y hy => he y (.inr hy)) ⟨x, hx, hx'⟩]; rfl
  | msg h s f db c op is sum =>
    unfold Message.serialize
    dsimp only
    rw [if_neg (by rw [show s = [] from hfr]; simp), items_invalid he ⟨x, hx, hx'⟩]; rfl

end Birch.Proofs.Wire
