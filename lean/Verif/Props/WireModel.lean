import Verif.Spec.WireModel
import Verif.Proofs.Validated
import Verif.Props.Wire

/- C75: what `GetModel` and `HasResponse` say about a message. -/

namespace Birch.Props
open Birch Spec Spec.Wire Model Model.Wire Model.Registry Proofs

private theorem views {is : List Item} {ss : List WSection} (h : RepItems is ss) (hn : ∀ s ∈ ss, s ≠ .body .nil) :
    ∃ xs, itemViews is = .ok xs ∧ ShowsSections xs ss := by
  induction is generalizing ss with
  | nil =>
    match ss, h with
    | [], _ => exact ⟨[], rfl, trivial⟩
  | cons i is ih =>
    match ss, h with
    | s :: ss, h =>
      obtain ⟨xs, h1, h2⟩ := ih h.2 fun s hs => hn s (List.mem_cons_of_mem _ hs)
      have hs := hn s (by simp)
      match i, s, h.1 with
      | .body d, .body .nil, _ => exact absurd rfl hs
      | .body d, .body (.cons k v fs), hr =>
        obtain ⟨d', rfl, hr⟩ := hr
        match d', hr with
        | e :: d', hr =>
          have hk := hr
          simp only [RepFields] at hk
          exact ⟨(k, [e :: d']) :: xs, by simp [itemViews, Item.view, bodyName, key_rep hk.1, h1], ⟨rfl, hr, trivial⟩, h2⟩
      | .sequence _ id ds, .sequence id' fss, hr => exact ⟨(id, ds) :: xs, by simp [itemViews, Item.view, h1], hr, h2⟩

/-- For every message, `GetModel` gives its op code and all that it says (the flags are below), except that it gives nothing for OP_GET_MORE, OP_KILL_CURSORS and
    OP_COMMAND_REPLY, although x/mrpc/model has a type for the first. -/
theorem C75_fields (m : Message) (w : WMsg) (hm : RepMsg m w) (hn : Named w) :
    (∃ v, getModel m = .ok (some v, w.code) ∧ Shows v w) ∨
      (getModel m = .ok (none, 0) ∧ ((∃ ns n c, w = .getMore ns n c) ∨ (∃ ids, w = .killCursors ids) ∨ ∃ x y fss, w = .commandReply x y fss)) := by
  cases m with
  | reply => obtain ⟨fss, rfl, h⟩ := hm; exact .inl ⟨_, rfl, rfl, rfl, h⟩
  | update => obtain ⟨x, y, rfl, _, h1, h2⟩ := hm; exact .inl ⟨_, rfl, rfl, h1, h2⟩
  | query => obtain ⟨x, y, rfl, h1, h2⟩ := hm; exact .inl ⟨_, rfl, rfl, rfl, rfl, h1, h2⟩
  | getMore => obtain ⟨rfl, _⟩ := hm; exact .inr ⟨rfl, .inl ⟨_, _, _, rfl⟩⟩
  | insert => obtain ⟨fss, rfl, h⟩ := hm; exact .inl ⟨_, rfl, rfl, h⟩
  | delete => obtain ⟨x, rfl, _, h⟩ := hm; exact .inl ⟨_, rfl, rfl, h⟩
  | killCursors => obtain ⟨rfl, _⟩ := hm; exact .inr ⟨rfl, .inr (.inl ⟨_, rfl⟩)⟩
  | command => obtain ⟨x, y, fss, rfl, h1, h2, h3, h4⟩ := hm; exact .inl ⟨_, rfl, rfl, rfl, h1, h2, h3, h4⟩
  | commandReply => obtain ⟨x, y, fss, rfl, _⟩ := hm; exact .inr ⟨rfl, .inr (.inr ⟨_, _, _, rfl⟩)⟩
  | msg =>
    obtain ⟨ss, cs, rfl, h, _⟩ := hm
    obtain ⟨xs, h1, h2⟩ := views h hn
    exact .inl ⟨.message _ _ _ _ _ xs, by simp only [getModel, h1, Res.bind_ok]; rfl, h2⟩

example : ∃ m w, w = WMsg.msg 0 [.body wireFields, .sequence [115] [wireFields]] none ∧ RepMsg m w ∧ Named w :=
  ⟨.msg ⟨0, 19, 0, 2013⟩ [] 0 [] [] [] [.body (some wireDoc), .sequence 0 [115] [wireDoc]] 0, _, rfl,
    ⟨_, _, rfl, ⟨⟨wireDoc, rfl, wireDoc_rep⟩, ⟨rfl, wireDoc_rep, trivial⟩, trivial⟩, rfl, rfl, rfl, rfl⟩, by simp [Named, wireFields]⟩

/-- From the bytes to the handler. -/
theorem C75_wire_partial (kind : Nat) (hk : kind ≤ 1) (h : Header) (w : WMsg) (hc : h.opCode = w.code) (wf : w.WF) (hu : ¬ w.Upconverted) (hn : Named w)
    (hg : (∀ ns n c, w ≠ .getMore ns n c) ∧ (∀ ids, w ≠ .killCursors ids) ∧ ∀ x y fss, w ≠ .commandReply x y fss)
    (hl : (w.body kind).length < 2147483640) (fuel : Nat) (hf : (w.body kind).length < fuel) :
    ∃ m v, parse fuel h (w.body kind) = .ok m ∧ getModel m = .ok (some v, w.code) ∧ Shows v w := by
  obtain ⟨m, h1, h2⟩ := C40_parse_partial kind hk h w hc wf hu hl fuel hf
  rcases C75_fields m w h2 hn with ⟨v, h3, h4⟩ | ⟨_, ⟨_, _, _, h3⟩ | ⟨_, h3⟩ | ⟨_, _, _, h3⟩⟩
  · exact ⟨m, v, h1, h3, h4⟩
  · exact absurd h3 (hg.1 _ _ _)
  · exact absurd h3 (hg.2.1 _)
  · exact absurd h3 (hg.2.2 _ _ _)

example : ∃ w : WMsg, w = .update [97, 46, 98] 1 wireFields wireFields ∧ w.WF ∧ ¬ w.Upconverted ∧ Named w ∧ (w.body 0).length < 2147483640 :=
  ⟨_, rfl, ⟨by simp [NulFree], by unfold I32; decide, repFields_wf wireDoc_rep, repFields_wf wireDoc_rep⟩, id, trivial, by decide +kernel⟩

/-- A query that was made a command: the handler sees the database, the first key of the query as the command, the query as its arguments, and that it was converted. -/
theorem C75_upconverted (h : Header) (hc : h.opCode = 2004) (f s n : Int) (db rest : Bytes) (hdb : (46 : UInt8) ∉ db) (k : Bytes) (v : BVal) (fs : Fields)
    (y : Option Fields) (wf : (WMsg.query f (db ++ 46 :: 36 :: rest) s n (.cons k v fs) y).WF)
    (hl : ((WMsg.query f (db ++ 46 :: 36 :: rest) s n (.cons k v fs) y).body 1).length < 2147483648) (fuel : Nat)
    (hf : ((WMsg.query f (db ++ 46 :: 36 :: rest) s n (.cons k v fs) y).body 1).length < fuel) :
    ∃ m d, parse fuel h ((WMsg.query f (db ++ 46 :: 36 :: rest) s n (.cons k v fs) y).body 1) = .ok m ∧ RepFields d (.cons k v fs) ∧
      getModel m = .ok (some (.command db k (some d) none [] true), 2010) := by
  obtain ⟨d, h1, h2⟩ := C40_query_upconverted h hc f s n db rest hdb k v fs y wf hl fuel hf
  exact ⟨_, d, h2, h1, rfl⟩

example : (WMsg.query 4 ([97] ++ 46 :: 36 :: [99, 109, 100]) 3 2 wireFields none).WF ∧ (46 : UInt8) ∉ [(97 : UInt8)] ∧
    ((WMsg.query 4 ([97] ++ 46 :: 36 :: [99, 109, 100]) 3 2 wireFields none).body 1).length < 2147483648 :=
  ⟨⟨by unfold I32; decide, by simp [NulFree], by unfold I32; decide, by unfold I32; decide, repFields_wf wireDoc_rep, by simp⟩, by simp, by decide +kernel⟩

/-- For exactly these messages the flags are those of the message: updates with no bits but 0 and 1, or with neither of them; replies with neither bit, but some other; an OP_MSG with
    flags 3, or with neither bit, but some other. -/
theorem C75_flags_partial (m : Message) (w : WMsg) (hm : RepMsg m w) (v : View) (c : Int) (hv : getModel m = .ok (some v, c)) :
    FlagsShown v w ↔ match w with
      | .update _ f _ _ => (0 ≤ f ∧ f ≤ 3) ∨ f % 4 = 0
      | .reply f _ _ _ _ => f % 4 = 0 ∧ f ≠ 0
      | .msg f _ _ => f = 3 ∨ (f % 4 = 0 ∧ f ≠ 0)
      | _ => True := by
  cases m with
  | reply =>
    obtain ⟨fss, rfl, h⟩ := hm
    cases hv
    simp only [FlagsShown, Bit, decide_eq_true_eq]
    omega
  | update =>
    obtain ⟨x, y, rfl, _, h1, h2⟩ := hm
    cases hv
    simp only [FlagsShown, Bit, decide_eq_true_eq]
    omega
  | query => obtain ⟨x, y, rfl, h1, h2⟩ := hm; cases hv; exact Iff.rfl
  | getMore => cases hv
  | insert => obtain ⟨fss, rfl, h⟩ := hm; cases hv; exact Iff.rfl
  | delete => obtain ⟨x, rfl, _, h⟩ := hm; cases hv; exact Iff.rfl
  | killCursors => cases hv
  | command => obtain ⟨x, y, fss, rfl, h1, h2, h3, h4⟩ := hm; cases hv; exact Iff.rfl
  | commandReply => cases hv
  | msg =>
    obtain ⟨ss, cs, rfl, h, _⟩ := hm
    simp only [getModel] at hv
    obtain ⟨xs, _, hx⟩ := bind_eq_ok hv
    cases hx
    simp only [FlagsShown, Bit, decide_eq_true_eq]
    omega

/-- multi update -/
example : ∃ m w v c, w = WMsg.update [97, 46, 98] 2 wireFields wireFields ∧ RepMsg m w ∧ getModel m = .ok (some v, c) ∧ FlagsShown v w :=
  ⟨.update ⟨0, 19, 0, 2001⟩ 0 2 [97, 46, 98] (some wireDoc) (some wireDoc), _, _, _, rfl, ⟨_, _, rfl, rfl, ⟨_, rfl, wireDoc_rep⟩, ⟨_, rfl, wireDoc_rep⟩⟩, rfl, by
    simp [FlagsShown, Bit]⟩

/-- In particular the bytes of every reply without flags (success) are shown as CursorNotFound. -/
theorem C75_reply_wrong (h : Header) (hc : h.opCode = 1) (c s n : Int) (fss : List Fields) (wf : (WMsg.reply 0 c s n fss).WF)
    (hl : ((WMsg.reply 0 c s n fss).body 0).length < 2147483640) (fuel : Nat) (hf : ((WMsg.reply 0 c s n fss).body 0).length < fuel) :
    ∃ m ds, parse fuel h ((WMsg.reply 0 c s n fss).body 0) = .ok m ∧ RepDocs ds fss ∧ getModel m = .ok (some (.reply ds c s true false), 1) := by
  obtain ⟨m, h1, h2⟩ := C40_parse_partial 0 (by omega) h (.reply 0 c s n fss) hc wf id hl fuel hf
  cases m with
  | reply =>
    obtain ⟨_, hw, h⟩ := h2
    cases hw
    exact ⟨_, _, h1, h, rfl⟩
  | update => obtain ⟨x, y, hw, _⟩ := h2; cases hw
  | query => obtain ⟨x, y, hw, _⟩ := h2; cases hw
  | getMore => obtain ⟨hw, _⟩ := h2; cases hw
  | insert => obtain ⟨fss, hw, _⟩ := h2; cases hw
  | delete => obtain ⟨x, hw, _⟩ := h2; cases hw
  | killCursors => obtain ⟨hw, _⟩ := h2; cases hw
  | command => obtain ⟨x, y, fss, hw, _⟩ := h2; cases hw
  | commandReply => obtain ⟨x, y, fss, hw, _⟩ := h2; cases hw
  | msg => obtain ⟨ss, cs, hw, _⟩ := h2; cases hw

example : (WMsg.reply 0 5 0 2 [wireFields, wireFields]).WF ∧ ((WMsg.reply 0 5 0 2 [wireFields, wireFields]).body 0).length < 2147483640 :=
  ⟨⟨by unfold I32; decide, by unfold I64; decide, by unfold I32; decide, by unfold I32; decide, by simpa using repFields_wf wireDoc_rep⟩, by decide +kernel⟩

/-- Every OP_MSG that `NewOpMessage` makes, none of which has a checksum, is shown with one, and those that were to have moreToCome without it. -/
theorem C75_msg_wrong (fuel : Nat) (more : Bool) (ds : List Doc) (items : List (Bytes × List Doc)) (m : Message) (hm : newOpMessage fuel more ds items = .ok m)
    (v : View) (c : Int) (hv : getModel m = .ok (some v, c)) : ∃ xs, v = .message [] [] [] false true xs := by
  obtain ⟨is, _, h⟩ := bind_eq_ok hm
  cases h
  simp only [getModel] at hv
  obtain ⟨xs, _, hx⟩ := bind_eq_ok hv
  cases hx
  refine ⟨xs, ?_⟩
  cases more <;> simp

example : ∃ m v c, newOpMessage 100 true [wireDoc] [] = .ok m ∧ getModel m = .ok (some v, c) := ⟨_, _, _, rfl, rfl⟩

/-- The bytes of an OP_MSG whose first section is an empty body are parsed, and `GetModel` panics. -/
theorem C75_unnamed_panics (h : Header) (hc : h.opCode = 2013) (f : Nat) (ss : List WSection) (c : Option Int) (wf : (WMsg.msg f (.body .nil :: ss) c).WF)
    (hl : ((WMsg.msg f (.body .nil :: ss) c).body 0).length < 2147483640) (fuel : Nat) (hf : ((WMsg.msg f (.body .nil :: ss) c).body 0).length < fuel) :
    ∃ m, parse fuel h ((WMsg.msg f (.body .nil :: ss) c).body 0) = .ok m ∧ getModel m = .panic := by
  obtain ⟨m, h1, h2⟩ := C40_parse_partial 0 (by omega) h (.msg f (.body .nil :: ss) c) hc wf id hl fuel hf
  refine ⟨m, h1, ?_⟩
  cases m with
  | msg _ _ _ _ _ _ is _ =>
    obtain ⟨ss', cs, hw, h, _⟩ := h2
    cases hw
    match is, h with
    | .body d :: is, h =>
      obtain ⟨d', rfl, hd⟩ := h.1
      match d', hd with
      | [], _ => rfl
    | .sequence _ _ _ :: is, h => exact h.1.elim
  | reply => obtain ⟨_, hw, h⟩ := h2; cases hw
  | update => obtain ⟨x, y, hw, _⟩ := h2; cases hw
  | query => obtain ⟨x, y, hw, _⟩ := h2; cases hw
  | getMore => obtain ⟨hw, _⟩ := h2; cases hw
  | insert => obtain ⟨fss, hw, _⟩ := h2; cases hw
  | delete => obtain ⟨x, hw, _⟩ := h2; cases hw
  | killCursors => obtain ⟨hw, _⟩ := h2; cases hw
  | command => obtain ⟨x, y, fss, hw, _⟩ := h2; cases hw
  | commandReply => obtain ⟨x, y, fss, hw, _⟩ := h2; cases hw

example : (WMsg.msg 0 [.body .nil] none).WF ∧ ((WMsg.msg 0 [.body .nil] none).body 0).length < 2147483640 :=
  ⟨⟨by decide, by simp [WSection.WF, Fields.WF], by simp⟩, by decide +kernel⟩

/-- `HasResponse` is right for all messages but OP_MSG, for which it is wrong unless a flag other than the first two is set: an OP_MSG without flags, which is
    replied to, has no response for it. -/
theorem C75_response_partial (m : Message) (w : WMsg) (hm : RepMsg m w) :
    (hasResponse m = true ↔ Replied w) ↔ match w with
      | .msg f _ _ => 4 ≤ f ∧ f / 2 % 2 = 0
      | _ => True := by
  cases m with
  | reply => obtain ⟨fss, rfl, h⟩ := hm; simp [hasResponse, Replied]
  | update => obtain ⟨x, y, rfl, _, h1, h2⟩ := hm; simp [hasResponse, Replied]
  | query => obtain ⟨x, y, rfl, h1, h2⟩ := hm; simp [hasResponse, Replied]
  | getMore => obtain ⟨rfl, _⟩ := hm; simp [hasResponse, Replied]
  | insert => obtain ⟨fss, rfl, h⟩ := hm; simp [hasResponse, Replied]
  | delete => obtain ⟨x, rfl, _, h⟩ := hm; simp [hasResponse, Replied]
  | killCursors => obtain ⟨rfl, _⟩ := hm; simp [hasResponse, Replied]
  | command => obtain ⟨x, y, fss, rfl, h1, h2, h3, h4⟩ := hm; simp [hasResponse, Replied]
  | commandReply => obtain ⟨x, y, fss, rfl, _⟩ := hm; simp [hasResponse, Replied]
  | msg =>
    obtain ⟨ss, cs, rfl, h, _⟩ := hm
    simp only [hasResponse, Replied, Bit, decide_eq_true_eq]
    omega

example : ∃ m w, w = WMsg.getMore [97, 46, 98] 2 7 ∧ RepMsg m w ∧ (hasResponse m = true ↔ Replied w) :=
  ⟨.getMore ⟨0, 19, 0, 2005⟩ 0 2 7 [97, 46, 98], _, rfl, ⟨rfl, rfl⟩, by simp [hasResponse, Replied]⟩

end Birch.Props
