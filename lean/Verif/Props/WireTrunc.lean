import Verif.Proofs.WireTrunc
import Verif.Props.Wire

/-
C58: wire messages that are cut short.
-/

namespace Birch.Props
open Birch Spec Spec.Wire Model Model.Wire Proofs Proofs.Wire

/-- Parsing a proper prefix of the body of a message is an error, unless the prefix is itself the body of the message without some of its last documents.
    Missing: OP_MSG, where it is not so (`C58_msg_panics`, `C58_msg_accepted`). -/
theorem C58_truncated_partial (kind : Nat) (h : Header) (w : WMsg) (t r : Bytes) (hc : h.opCode = w.code) (wf : w.WF) (hm : ¬ w.IsMsg)
    (hl : (w.body kind).length < 2147483640) (fuel : Nat) (hf : (w.body kind).length < fuel) (hr : r ≠ []) (ht : t ++ r = w.body kind)
    (hcut : ∀ w', Cut w w' → t ≠ w'.body kind) : ∃ e, parse fuel h t = .err e := by
  rcases parse_cut hc wf hm hl hf hr ht with h | ⟨w', h1, h2⟩
  · exact h
  · exact absurd h2 (hcut w' h1)

/-- an update without its last byte -/
example : ∃ (w : WMsg) (t r : Bytes), w = .update [97] 3 wireFields .nil ∧ w.WF ∧ ¬ w.IsMsg ∧ r ≠ [] ∧ t ++ r = w.body 1 ∧ t.length = 26 ∧ ∀ w', Cut w w' → t ≠ w'.body 1 :=
  ⟨_, (WMsg.body 1 (.update [97] 3 wireFields .nil)).take 26, (WMsg.body 1 (.update [97] 3 wireFields .nil)).drop 26, rfl,
    ⟨by simp [NulFree], by unfold I32; omega, repFields_wf wireDoc_rep, by simp [Fields.WF]⟩, id, by decide +kernel, List.take_append_drop .., by decide +kernel,
    fun w' h => by cases h⟩

/-- These messages are accepted at no other length: for updates, deletes, get mores, kill cursors and queries without projection every proper prefix is an error. -/
theorem C58_rejected (kind : Nat) (h : Header) (w : WMsg) (t r : Bytes) (hc : h.opCode = w.code) (wf : w.WF)
    (hw : match w with | .update .. => True | .delete .. => True | .getMore .. => True | .killCursors .. => True | .query _ _ _ _ _ none => True | _ => False)
    (hl : (w.body kind).length < 2147483640) (fuel : Nat) (hf : (w.body kind).length < fuel) (hr : r ≠ []) (ht : t ++ r = w.body kind) :
    ∃ e, parse fuel h t = .err e := by
  refine C58_truncated_partial kind h w t r hc wf ?_ hl fuel hf hr ht ?_
  · cases w <;> simp_all [WMsg.IsMsg]
  · intro w' hcut
    cases hcut <;> simp at hw

example : (WMsg.getMore [97, 46, 98] 5 (-1)).WF ∧ [0, 0, 0, 0, 97, 46] ++ [98, 0, 5, 0, 0, 0, 255, 255, 255, 255, 255, 255, 255, 255] = (WMsg.getMore [97, 46, 98] 5 (-1)).body 0 :=
  ⟨⟨by simp [NulFree], by unfold I32; omega, by unfold I64; omega⟩, by decide +kernel⟩

/-- A reply, insert, command or command reply that is cut between two documents is accepted with the documents that are left, and a query that is cut before its projection as
    one without. -/
theorem C58_accepted (kind : Nat) (hk : kind ≤ 1) (h : Header) (w w' : WMsg) (hcut : Cut w w') (hc : h.opCode = w.code) (wf : w.WF) (hu : ¬ w.Upconverted)
    (hl : (w.body kind).length < 2147483640) (fuel : Nat) (hf : (w.body kind).length < fuel) :
    ∃ r m, r ≠ [] ∧ w'.body kind ++ r = w.body kind ∧ parse fuel h (w'.body kind) = .ok m ∧ RepMsg m w' := by
  have split : ∀ {ds : List Fields} {n : Nat}, n < ds.length → ∃ r, r ≠ [] ∧ docs (ds.take n) ++ r = docs ds := by
    intro ds n hn
    refine ⟨docs (ds.drop n), ?_, by rw [docs, docs, ← List.flatMap_append, List.take_append_drop]; rfl⟩
    rw [List.drop_eq_getElem_cons hn, docs_cons]
    exact app_ne_nil _ _
  have key : ∃ r, r ≠ [] ∧ w'.body kind ++ r = w.body kind ∧ w'.WF ∧ w'.code = w.code ∧ ¬ w'.Upconverted := by
    cases hcut with
    | reply hn =>
      obtain ⟨r, h1, h2⟩ := split hn
      obtain ⟨a, b, c, d, e⟩ := wf
      exact ⟨r, h1, by simp only [WMsg.body, List.append_assoc, h2], ⟨a, b, c, d, fun x hx => e x (List.mem_of_mem_take hx)⟩, rfl, id⟩
    | insert hn =>
      obtain ⟨r, h1, h2⟩ := split hn
      obtain ⟨a, b, e⟩ := wf
      exact ⟨r, h1, by simp only [WMsg.body, List.append_assoc, h2], ⟨a, b, fun x hx => e x (List.mem_of_mem_take hx)⟩, rfl, id⟩
    | @query f s n ns q p =>
      obtain ⟨a, b, c, d, e, g⟩ := wf
      refine ⟨encDoc p, fun h => app_ne_nil p [] (by simpa using h), by simp [WMsg.body, docs], ⟨a, b, c, d, e, by simp⟩, rfl, hu⟩
    | command hn =>
      obtain ⟨r, h1, h2⟩ := split hn
      obtain ⟨a, b, c, d, e⟩ := wf
      exact ⟨r, h1, by simp only [WMsg.body, List.append_assoc, h2], ⟨a, b, c, d, fun x hx => e x (List.mem_of_mem_take hx)⟩, rfl, id⟩
    | commandReply hn =>
      obtain ⟨r, h1, h2⟩ := split hn
      obtain ⟨c, d, e⟩ := wf
      exact ⟨r, h1, by simp only [WMsg.body, List.append_assoc, h2], ⟨c, d, fun x hx => e x (List.mem_of_mem_take hx)⟩, rfl, id⟩
  obtain ⟨r, h1, h2, h3, h4, h5⟩ := key
  have hlen := congrArg List.length h2
  rw [List.length_append] at hlen
  obtain ⟨m, h6, h7⟩ := C40_parse_partial kind hk h w' (by rw [hc, h4]) h3 h5 (by omega) fuel (by omega)
  exact ⟨r, m, h1, h2, h6, h7⟩

/-- a reply that says it has two documents and has one -/
example : Cut (.reply 0 0 0 2 [wireFields, wireFields]) (.reply 0 0 0 2 [wireFields]) ∧ (WMsg.reply 0 0 0 2 [wireFields, wireFields]).WF :=
  ⟨Cut.reply (n := 1) (by simp), by unfold I32; omega, by unfold I64; omega, by unfold I32; omega, by unfold I32; omega, by
    have := repFields_wf wireDoc_rep
    simpa using this⟩

/-- An OP_MSG that is cut in one of its sections, behind its first 4 bytes, panics; only in the identifier of a document sequence it is an error. -/
theorem C58_msg_panics (kind : Nat) (hk : kind ≤ 1) (h : Header) (hc : h.opCode = 2013) (flags : Nat) (hfl : flags < 4294967296) (ss : List WSection) (s : WSection)
    (wf : ∀ x ∈ s :: ss, x.WF) (u r : Bytes) (hr : r ≠ []) (hu : u ++ r = s.enc kind) (h5 : 5 ≤ u.length)
    (hl : ((ss ++ [s]).flatMap (WSection.enc kind)).length < 2147483640) (fuel : Nat) (hf : ((ss ++ [s]).flatMap (WSection.enc kind)).length < fuel) :
    match s with
    | .body _ => parse fuel h (le32 flags ++ ss.flatMap (WSection.enc kind) ++ u) = .panic
    | .sequence id _ =>
      if u.length < 6 + id.length then ∃ e, parse fuel h (le32 flags ++ ss.flatMap (WSection.enc kind) ++ u) = .err e
      else parse fuel h (le32 flags ++ ss.flatMap (WSection.enc kind) ++ u) = .panic := by
  have hlu := congrArg List.length hu
  rw [List.length_append] at hlu
  simp only [List.flatMap_append, List.flatMap_cons, List.flatMap_nil, List.append_nil, List.length_append] at hl hf
  obtain ⟨is, -, k, hk', h2⟩ := readItems_append hk u ss fuel (fun x hx => wf x (by simp [hx])) (by rw [List.length_append]; omega) (by rw [List.length_append]; omega)
  have hfl' : readi32 (le32 flags ++ (ss.flatMap (WSection.enc kind) ++ u)) = .ok (i32 flags) := by
    unfold readi32; rw [rdU32_le32 hfl]; rfl
  rw [parse_Msg hc, List.append_assoc]
  unfold parseMsg
  rw [if_neg (by simp), hfl']
  simp only [Res.bind_ok]
  rw [dropA (n := 4) 0 rfl, List.drop_zero, h2]
  cases s with
  | body fs =>
    simp only [WSection.enc, List.length_cons] at hlu hl
    show _ = _
    rw [readItems_body_cut (kind := kind) (by omega) h5 hr hu.symm (by omega)]
    rfl
  | sequence id ds =>
    obtain ⟨w1, w2⟩ : NulFree id ∧ ∀ d ∈ ds, d.WF := wf (.sequence id ds) (by simp)
    obtain ⟨h3, h4⟩ := readItems_sequence_cut w1 w2 hk (by omega) h5 hr hu.symm hk'
    show ite _ _ _
    split
    · next h =>
      obtain ⟨e, he⟩ := h3 h
      exact ⟨e, by rw [he]; rfl⟩
    · next h => rw [h4 (by omega)]; rfl

example : ∃ u r, r ≠ [] ∧ u ++ r = (WSection.body wireFields).enc 1 ∧ 5 ≤ u.length ∧ (WSection.body wireFields).WF :=
  ⟨((WSection.body wireFields).enc 1).take 9, ((WSection.body wireFields).enc 1).drop 9, by decide +kernel, List.take_append_drop .., by decide +kernel,
    repFields_wf wireDoc_rep⟩

theorem u32i_flags {f : Nat} (h : f < 4294967296) : u32i (i32 (f : Int)) = f := by unfold u32i i32; omega

/-- An OP_MSG that is cut between its sections, or in the first 4 bytes of one, is accepted with the sections before. -/
theorem C58_msg_accepted (kind : Nat) (hk : kind ≤ 1) (h : Header) (hc : h.opCode = 2013) (flags : Nat) (hfl : flags < 4294967296) (ss : List WSection) (s : WSection)
    (wf : ∀ x ∈ ss, x.WF) (u r : Bytes) (hu : u ++ r = s.enc kind) (h4 : u.length ≤ 4) (hodd : flags % 2 = 0 ∨ u.length < 4)
    (hl : ((ss ++ [s]).flatMap (WSection.enc kind)).length < 2147483640) (fuel : Nat) (hf : ((ss ++ [s]).flatMap (WSection.enc kind)).length < fuel) :
    ∃ m, parse fuel h (le32 flags ++ ss.flatMap (WSection.enc kind) ++ u) = .ok m ∧ RepMsg m (.msg flags ss none) := by
  have hlu := congrArg List.length hu
  rw [List.length_append] at hlu
  simp only [List.flatMap_append, List.flatMap_cons, List.flatMap_nil, List.append_nil, List.length_append] at hl hf
  obtain ⟨is, h1, h2⟩ := readItems_rep hk u h4 ss fuel wf (by rw [List.length_append]; omega) (by omega)
  have hfl' : readi32 (le32 flags ++ (ss.flatMap (WSection.enc kind) ++ u)) = .ok (i32 flags) := by
    unfold readi32; rw [rdU32_le32 hfl]; rfl
  have hfl'' := u32i_flags hfl
  rw [parse_Msg hc, List.append_assoc]
  unfold parseMsg
  rw [if_neg (by simp), hfl']
  simp only [Res.bind_ok]
  rw [dropA (n := 4) 0 rfl, List.drop_zero, h1, hfl'']
  simp only [Res.bind_ok]
  rw [if_neg (by omega)]
  exact ⟨_, rfl, ⟨ss, none, rfl, h2, rfl, rfl, rfl, rfl⟩⟩

example : [1, 6, 0, 0] ++ [0, 115, 0] = (WSection.sequence [115] []).enc 0 := by decide +kernel

/-- In a message whose flags announce a checksum, the 4 bytes that are left of a section are taken for it. -/
theorem C58_msg_checksum (kind : Nat) (hk : kind ≤ 1) (h : Header) (hc : h.opCode = 2013) (flags : Nat) (hfl : flags < 4294967296) (hodd : flags % 2 = 1)
    (ss : List WSection) (wf : ∀ x ∈ ss, x.WF) (c : Int) (hc' : I32 c)
    (hl : (ss.flatMap (WSection.enc kind)).length < 2147483630) (fuel : Nat) (hf : (ss.flatMap (WSection.enc kind)).length < fuel) :
    ∃ m, parse fuel h (le32 flags ++ ss.flatMap (WSection.enc kind) ++ int32 c) = .ok m ∧ RepMsg m (.msg flags ss (some c)) := by
  obtain ⟨is, h1, h2⟩ := readItems_rep hk (int32 c) (by simp) ss fuel wf (by rw [List.length_append, int32_length]; omega) (by omega)
  have hfl' : readi32 (le32 flags ++ (ss.flatMap (WSection.enc kind) ++ int32 c)) = .ok (i32 flags) := by
    unfold readi32; rw [rdU32_le32 hfl]; rfl
  have hfl'' := u32i_flags hfl
  rw [parse_Msg hc, List.append_assoc]
  unfold parseMsg
  rw [if_neg (by simp), hfl']
  simp only [Res.bind_ok]
  rw [dropA (n := 4) 0 rfl, List.drop_zero, h1, hfl'']
  simp only [Res.bind_ok]
  have e := readi32_int32 hc' []
  rw [List.append_nil] at e
  rw [if_pos ⟨hodd, by simp⟩, e]
  simp only [Res.bind_ok]
  exact ⟨_, rfl, ⟨ss, some c, rfl, h2, rfl, rfl, rfl, rfl⟩⟩

/-- the first 4 bytes of the section are those of the number 3072 -/
example : WSection.enc 0 (.body wireFields) = int32 3072 ++ [0, 16, 97, 0, 7, 0, 0, 0, 0] ∧ I32 3072 := ⟨by decide +kernel, by unfold I32; omega⟩

/-- A kill cursors message with a negative number of cursors panics, whatever comes after. -/
theorem C58_killCursors_panics (h : Header) (hc : h.opCode = 2007) (r n : Int) (hr : I32 r) (hn : I32 n) (hneg : n < 0) (t : Bytes) (fuel : Nat) :
    parse fuel h (int32 r ++ int32 n ++ t) = .panic := by
  rw [parse_KillCursors hc, List.append_assoc]
  unfold parseKillCursors
  rw [if_neg (by simp only [List.length_append, int32_length]; omega), readi32_int32 hr]
  simp only [Res.bind_ok]
  rw [dropA (n := 4) 0 rfl, List.drop_zero, readi32_int32 hn, dropA (n := 8) 4 rfl, dropA (n := 4) 0 rfl, List.drop_zero]
  simp only [Res.bind_ok]
  rw [if_neg (by omega), alloc, if_pos hneg]
  rfl

example : I32 (-1) := by unfold I32; omega

/-- Bodies of messages with another op code are never read. -/
theorem C58_unknown (h : Header) (hc : ∀ w : WMsg, h.opCode ≠ w.code) (t : Bytes) (fuel : Nat) : parse fuel h t = .err .other := by
  have h1 := hc (.reply 0 0 0 0 [])
  have h2 := hc (.update [] 0 .nil .nil)
  have h3 := hc (.insert 0 [] [])
  have h4 := hc (.query 0 [] 0 0 .nil none)
  have h5 := hc (.getMore [] 0 0)
  have h6 := hc (.delete [] 0 .nil)
  have h7 := hc (.killCursors [])
  have h8 := hc (.command [] [] .nil .nil [])
  have h9 := hc (.commandReply .nil .nil [])
  have h10 := hc (.msg 0 [] none)
  simp only [WMsg.code] at h1 h2 h3 h4 h5 h6 h7 h8 h9 h10
  unfold parse
  rw [if_neg (show ¬ h.opCode = OP_REPLY from h1), if_neg (show ¬ h.opCode = OP_UPDATE from h2), if_neg (show ¬ h.opCode = OP_INSERT from h3), if_neg (show ¬ h.opCode = OP_QUERY from h4), if_neg (show ¬ h.opCode = OP_GET_MORE from h5), if_neg (show ¬ h.opCode = OP_DELETE from h6), if_neg (show ¬ h.opCode = OP_KILL_CURSORS from h7), if_neg (show ¬ h.opCode = OP_COMMAND from h8), if_neg (show ¬ h.opCode = OP_COMMAND_REPLY from h9), if_neg (show ¬ h.opCode = OP_MSG from h10)]

example : ∀ w : WMsg, (2012 : Int) ≠ w.code := by intro w; cases w <;> simp [WMsg.code]

end Birch.Props
