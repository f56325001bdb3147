import Verif.Proofs.WireParse
import Verif.Proofs.WireSize

/-
C40, C41, C45: wire messages and namespaces.
-/

namespace Birch.Props
open Birch Spec Spec.Wire Model Model.Wire Proofs Proofs.Wire

/-! ### C40 -/

/-- Serializing gives the bytes of the protocol (but for the size of document sequences, see `C40_sequence_size`), and the message still says
    the same. -/
theorem C40_serialize (m : Message) (w : WMsg) (rid rto : Int) (hm : RepMsg m w) (hfr : Fresh m) (hh : HeaderFor m.header w rid rto) (wf : w.WF)
    (hl : (w.enc 1 rid rto).length < 2147483648) (fuel : Nat) (hf : (w.enc 1 rid rto).length < fuel) :
    ∃ m', m.serialize fuel = .ok (w.enc 1 rid rto, m') ∧ RepMsg m' w ∧ m'.header = ⟨(w.enc 1 rid rto).length, rid, rto, w.code⟩ := by
  obtain ⟨m', h1, h2, h3⟩ := serialize_rep hm hfr hh wf hl hf
  refine ⟨m', h1, h2, h3.trans ?_⟩
  simp only [sent, hh.1, hh.2.1, hh.2.2]

/-- Parsing the serialized bytes of a message gives a message that says the same, with the same header.  Missing: queries whose namespace is that of a
    command (`C40_query_upconverted`); the size in the header of an OP_MSG, which loses the 16 bytes of the header. -/
theorem C40_roundtrip_partial (m : Message) (w : WMsg) (rid rto : Int) (hm : RepMsg m w) (hfr : Fresh m) (hh : HeaderFor m.header w rid rto)
    (wf : w.WF) (hu : ¬ w.Upconverted) (hl : (w.enc 1 rid rto).length < 2147483648) (fuel : Nat) (hf : (w.enc 1 rid rto).length < fuel) :
    ∃ b m1 m2, m.serialize fuel = .ok (b, m1) ∧ parse fuel m1.header (b.drop 16) = .ok m2 ∧ RepMsg m2 w ∧
      m2.header = match w with
        | .msg .. => { m1.header with size := m1.header.size - 16 }
        | _ => m1.header := by
  obtain ⟨m1, h1, h2, h3⟩ := C40_serialize m w rid rto hm hfr hh wf hl fuel hf
  have hd : (w.enc 1 rid rto).drop 16 = w.body 1 := List.drop_left' (by simp)
  rw [enc_length] at hl hf
  obtain ⟨m2, h4, h5, h6⟩ := parse_rep (kind := 1) (by omega) (h := m1.header) (by rw [h3]) wf hu (by omega) (show _ < fuel by omega)
  refine ⟨_, m1, m2, h1, by rw [hd]; exact h4, h5, h6.trans ?_⟩
  rw [h3]
  cases w <;> first | rfl | skip
  simp only [parsed, enc_length]
  congr 1
  omega

/-- `{a: 7}` -/
def wireDoc : Doc := [.raw 0 3 [16, 97, 0, 7, 0, 0, 0]]
def wireFields : Fields := .cons [97] (.int32 7) .nil

theorem wireDoc_rep : RepFields wireDoc wireFields := by
  simp only [wireDoc, wireFields, RepFields, Rep, and_true]
  exact ⟨by simp [NulFree], by simp [BVal.WF], by simp, [], [], by decide, rfl, rfl⟩

/-- an insert of two documents and an OP_MSG with a body, a sequence and a checksum -/
example : ∃ (m m' : Message) (w w' : WMsg), w = .insert 1 [100, 46, 99] [wireFields, wireFields] ∧
    w' = .msg 1 [.body wireFields, .sequence [115] [wireFields]] (some 5) ∧
    RepMsg m w ∧ Fresh m ∧ HeaderFor m.header w 19 0 ∧ w.WF ∧ ¬ w.Upconverted ∧ (w.enc 1 19 0).length < 2147483648 ∧
    RepMsg m' w' ∧ Fresh m' ∧ HeaderFor m'.header w' 19 0 ∧ w'.WF ∧ ¬ w'.Upconverted ∧ (w'.enc 1 19 0).length < 2147483648 := by
  have wf := repFields_wf wireDoc_rep
  refine ⟨.insert ⟨0, 19, 0, 2002⟩ 1 [100, 46, 99] [wireDoc, wireDoc], .msg ⟨0, 19, 0, 2013⟩ [] 1 [] [] [] [.body (some wireDoc), .sequence 0 [115] [wireDoc]] 5, _, _, rfl, rfl,
    ⟨_, rfl, wireDoc_rep, wireDoc_rep, trivial⟩, trivial, ⟨rfl, rfl, rfl⟩, ⟨by unfold I32; decide, by simp [NulFree], by simpa using wf⟩, id, by decide +kernel,
    ⟨_, _, rfl, ⟨⟨wireDoc, rfl, wireDoc_rep⟩, ⟨rfl, wireDoc_rep, trivial⟩, trivial⟩, rfl, rfl, rfl, rfl⟩, rfl, ⟨rfl, rfl, rfl⟩,
    ⟨by decide, ?_, by simp [I32]⟩, id, by decide +kernel⟩
  simp only [List.mem_cons, List.not_mem_nil, or_false, forall_eq_or_imp, forall_eq]
  exact ⟨wf, by simp [NulFree], by simpa using wf⟩

/-- The messages that the constructors make say what their arguments say. -/
theorem C40_constructors (ns db name : Bytes) (f c s n : Int) (ids : List Int) (hi : ids.length < 2147483648) (d e : Doc) (x y : Fields)
    (ds : List Doc) (xs : List Fields) (hd : RepFields d x) (he : RepFields e y) (hs : RepDocs ds xs) :
    (RepMsg (newReply c f s n ds) (.reply f c s n xs) ∧ HeaderFor (newReply c f s n ds).header (.reply f c s n xs) 19 0) ∧
    (RepMsg (newUpdate ns f (some d) (some e)) (.update ns f x y) ∧ HeaderFor (newUpdate ns f (some d) (some e)).header (.update ns f x y) 19 0) ∧
    (RepMsg (newInsert ns ds) (.insert 0 ns xs) ∧ HeaderFor (newInsert ns ds).header (.insert 0 ns xs) 19 0) ∧
    (RepMsg (newQuery ns f s n (some d) none) (.query f ns s n x none) ∧
      HeaderFor (newQuery ns f s n (some d) none).header (.query f ns s n x none) 19 0) ∧
    (RepMsg (newQuery ns f s n (some d) (some e)) (.query f ns s n x (some y)) ∧
      HeaderFor (newQuery ns f s n (some d) (some e)).header (.query f ns s n x (some y)) 19 0) ∧
    (RepMsg (newGetMore ns n c) (.getMore ns n c) ∧ HeaderFor (newGetMore ns n c).header (.getMore ns n c) 19 0) ∧
    (RepMsg (newDelete ns f (some d)) (.delete ns f x) ∧ HeaderFor (newDelete ns f (some d)).header (.delete ns f x) 19 0) ∧
    (RepMsg (newKillCursors ids) (.killCursors ids) ∧ HeaderFor (newKillCursors ids).header (.killCursors ids) 19 0) ∧
    (RepMsg (newCommand db name (some d) (some e) ds) (.command db name x y xs) ∧
      HeaderFor (newCommand db name (some d) (some e) ds).header (.command db name x y xs) 19 0) ∧
    (RepMsg (newCommandReply (some d) (some e) ds) (.commandReply x y xs) ∧
      HeaderFor (newCommandReply (some d) (some e) ds).header (.commandReply x y xs) 19 0) :=
  ⟨⟨⟨xs, rfl, hs⟩, rfl, rfl, rfl⟩, ⟨⟨x, y, rfl, rfl, ⟨d, rfl, hd⟩, ⟨e, rfl, he⟩⟩, rfl, rfl, rfl⟩, ⟨⟨xs, rfl, hs⟩, rfl, rfl, rfl⟩,
    ⟨⟨x, none, rfl, ⟨d, rfl, hd⟩, rfl⟩, rfl, rfl, rfl⟩, ⟨⟨x, some y, rfl, ⟨d, rfl, hd⟩, ⟨e, rfl, he⟩⟩, rfl, rfl, rfl⟩, ⟨⟨rfl, rfl⟩, rfl, rfl, rfl⟩,
    ⟨⟨x, rfl, rfl, ⟨d, rfl, hd⟩⟩, rfl, rfl, rfl⟩, ⟨⟨rfl, rfl, i32_nat hi⟩, rfl, rfl, rfl⟩,
    ⟨⟨x, y, xs, rfl, ⟨d, rfl, hd⟩, ⟨e, rfl, he⟩, hs, rfl⟩, rfl, rfl, rfl⟩, ⟨⟨x, y, xs, rfl, ⟨d, rfl, hd⟩, ⟨e, rfl, he⟩, hs⟩, rfl, rfl, rfl⟩⟩

example : RepFields wireDoc wireFields ∧ RepDocs [wireDoc, wireDoc] [wireFields, wireFields] := ⟨wireDoc_rep, wireDoc_rep, wireDoc_rep, trivial⟩

/-- Messages whose document sequences have the size of the protocol (`kind = 0`) are parsed as well. -/
theorem C40_parse_partial (kind : Nat) (hk : kind ≤ 1) (h : Header) (w : WMsg) (hc : h.opCode = w.code) (wf : w.WF) (hu : ¬ w.Upconverted)
    (hl : (w.body kind).length < 2147483640) (fuel : Nat) (hf : (w.body kind).length < fuel) :
    ∃ m, parse fuel h (w.body kind) = .ok m ∧ RepMsg m w := by
  obtain ⟨m, h1, h2, -⟩ := parse_rep hk hc wf hu hl hf
  exact ⟨m, h1, h2⟩

example : ∃ w : WMsg, w = .msg 0 [.sequence [115] [wireFields], .body wireFields] none ∧ w.WF ∧ ¬ w.Upconverted ∧ (w.body 0).length < 2147483640 := by
  have wf := repFields_wf wireDoc_rep
  refine ⟨_, rfl, ⟨by decide, ?_, by simp⟩, id, by decide +kernel⟩
  simp only [List.mem_cons, List.not_mem_nil, or_false, forall_eq_or_imp, forall_eq]
  exact ⟨⟨by simp [NulFree], by simpa using wf⟩, wf⟩

/-- An OP_MSG with a document sequence is serialized to bytes that are not those of the protocol: the size of the sequence is one too large. -/
theorem C40_sequence_size (flags : Nat) (ss : List WSection) (c : Option Int) (rid rto : Int) (id : Bytes) (ds : List Fields)
    (hs : .sequence id ds ∈ ss) (hl : (WMsg.enc 1 rid rto (.msg flags ss c)).length < 2147483648) :
    WMsg.enc 1 rid rto (.msg flags ss c) ≠ WMsg.enc 0 rid rto (.msg flags ss c) := by
  have len : ∀ s : WSection, (s.enc 1).length = (s.enc 0).length := by
    intro s; cases s <;> simp [WSection.enc]
  have len' : ∀ l : List WSection, (l.flatMap (WSection.enc 1)).length = (l.flatMap (WSection.enc 0)).length := by
    intro l
    induction l with
    | nil => rfl
    | cons s l ih => rw [List.flatMap_cons, List.flatMap_cons, List.length_append, List.length_append, ih, len]
  intro he
  have h1 := (List.append_inj' he (by simp only [WMsg.body, List.length_append, len'])).2
  simp only [WMsg.body, List.append_assoc] at h1
  have h2 := (List.append_inj (List.append_inj h1 rfl).2 (len' ss)).1
  rw [enc_length] at hl
  simp only [WMsg.body, List.append_assoc, List.length_append, le32_length] at hl
  replace hl : (ss.flatMap (WSection.enc 1)).length < 2147483648 := by omega
  clear he h1
  induction ss with
  | nil => simp at hs
  | cons s ss ih =>
    rw [List.flatMap_cons, List.flatMap_cons] at h2
    rw [List.flatMap_cons, List.length_append] at hl
    obtain ⟨h3, h4⟩ := List.append_inj h2 (len s)
    simp only [List.mem_cons] at hs
    rcases hs with rfl | hs
    · simp only [WSection.enc, List.length_cons, List.length_append, le32_length, cstring_length] at hl
      simp only [WSection.enc, List.append_assoc, List.cons.injEq, true_and] at h3
      have := le32_inj (by omega) (by omega) (List.append_inj h3 rfl).1
      omega
    · exact ih hs h4 (by omega)

example : ∃ ss, WSection.sequence [115] [wireFields] ∈ ss ∧ (WMsg.enc 1 19 0 (.msg 0 ss none)).length < 2147483648 :=
  ⟨[.sequence [115] [wireFields]], by simp, by decide +kernel⟩

/-- A query whose namespace is that of a command comes back as a command with request id 19: its skip, limit, flags, projection, collection and header are
    gone. -/
theorem C40_query_upconverted (h : Header) (hc : h.opCode = 2004) (f s n : Int) (db rest : Bytes) (hdb : (46 : UInt8) ∉ db) (k : Bytes) (v : BVal) (fs : Fields)
    (y : Option Fields) (wf : (WMsg.query f (db ++ 46 :: 36 :: rest) s n (.cons k v fs) y).WF)
    (hl : ((WMsg.query f (db ++ 46 :: 36 :: rest) s n (.cons k v fs) y).body 1).length < 2147483648) (fuel : Nat)
    (hf : ((WMsg.query f (db ++ 46 :: 36 :: rest) s n (.cons k v fs) y).body 1).length < fuel) :
    ∃ d, RepFields d (.cons k v fs) ∧ parse fuel h ((WMsg.query f (db ++ 46 :: 36 :: rest) s n (.cons k v fs) y).body 1) =
      .ok (.command ⟨0, 19, 0, 2010⟩ db k (some d) none [] true) := by
  obtain ⟨q, p, h1, h2, h3⟩ := parse_query (h := h) wf hl hf
  refine ⟨q, h1, ?_⟩
  rw [parse_Query hc, h3, if_pos ((isCommand_iff _).mpr ⟨db, rest, hdb, rfl⟩)]
  match q, h1 with
  | e :: q, h1 =>
    simp only [RepFields] at h1
    simp only [convertToCommand, key_rep h1.1, Res.bind_ok, OP_COMMAND, namespaceToDB, indexDot_append hdb, List.take_left]

example : (WMsg.query 4 ([97] ++ 46 :: 36 :: [99, 109, 100]) 3 2 wireFields none).WF ∧ (46 : UInt8) ∉ [(97 : UInt8)] ∧
    ((WMsg.query 4 ([97] ++ 46 :: 36 :: [99, 109, 100]) 3 2 wireFields none).body 1).length < 2147483648 :=
  ⟨⟨by unfold I32; decide, by simp [NulFree], by unfold I32; decide, by unfold I32; decide, repFields_wf wireDoc_rep, by simp⟩, by simp, by decide +kernel⟩

/-- Parsing such a query panics if the query document is empty. -/
theorem C40_query_empty (h : Header) (hc : h.opCode = 2004) (f s n : Int) (ns : Bytes) (hns : CommandNs ns) (y : Option Fields)
    (wf : (WMsg.query f ns s n .nil y).WF) (hl : ((WMsg.query f ns s n .nil y).body 1).length < 2147483648) (fuel : Nat)
    (hf : ((WMsg.query f ns s n .nil y).body 1).length < fuel) :
    parse fuel h ((WMsg.query f ns s n .nil y).body 1) = .panic := by
  obtain ⟨q, p, h1, h2, h3⟩ := parse_query (h := h) wf hl hf
  rw [parse_Query hc, h3, if_pos ((isCommand_iff _).mpr hns)]
  match q, h1 with
  | [], h1 => rfl

example : CommandNs [97, 46, 36] ∧ (WMsg.query 0 [97, 46, 36] 0 0 .nil none).WF ∧ ((WMsg.query 0 [97, 46, 36] 0 0 .nil none).body 1).length < 2147483648 :=
  ⟨⟨[97], [], by simp, rfl⟩, ⟨by unfold I32; decide, by simp [NulFree], by unfold I32; decide, by unfold I32; decide, by simp [Fields.WF], by simp⟩,
    by decide +kernel⟩

/-- `NewOpMessage`: the bodies first, then the document sequences. -/
theorem C40_opMessage (more : Bool) (ds : List Doc) (xs : List Fields) (items : List (Bytes × List Doc)) (seqs : List (Bytes × List Fields)) (hd : RepDocs ds xs)
    (hi : items.map (·.1) = seqs.map (·.1)) (hr : ∀ p ∈ items.zip seqs, RepDocs p.1.2 p.2.2)
    (hl : ∀ p ∈ seqs, (docs p.2).length < 2147483648) (fuel : Nat) (hf : ∀ p ∈ seqs, (docs p.2).length < fuel) :
    ∃ m, newOpMessage fuel more ds items = .ok m ∧ Fresh m ∧
      RepMsg m (.msg 0 (xs.map .body ++ seqs.map fun p => .sequence p.1 p.2) none) ∧
      HeaderFor m.header (.msg 0 (xs.map .body ++ seqs.map fun p => .sequence p.1 p.2) none) 19 0 := by
  obtain ⟨is, h1, h2⟩ := newItems_rep hi hr hl hf
  have h0 : (if more then 0 % 2 else 0) = 0 := by cases more <;> rfl
  refine ⟨.msg ⟨0, 19, 0, 2013⟩ [] 0 [] [] [] (ds.map (fun d => .body (some d)) ++ is) 0, by simp only [newOpMessage, h0, h1, Res.bind_ok]; rfl, rfl,
    ⟨_, _, rfl, ?_, rfl, rfl, rfl, rfl⟩, rfl, rfl, rfl⟩
  exact repItems_append (bodies_rep hd) h2

example : RepDocs [wireDoc] [wireFields] ∧ ([([97], [wireDoc])] : List (Bytes × List Doc)).map (·.1) = ([([97], [wireFields])] : List (Bytes × List Fields)).map (·.1) ∧
    ∀ p ∈ ([([97], [wireDoc])] : List (Bytes × List Doc)).zip ([([97], [wireFields])] : List (Bytes × List Fields)), RepDocs p.1.2 p.2.2 :=
  ⟨⟨wireDoc_rep, trivial⟩, rfl, by simp [RepDocs, wireDoc_rep]⟩

/-- The flag of `NewOpMessage` has no effect: no message it makes has a flag set. -/
theorem C40_moreToCome (fuel : Nat) (more : Bool) (ds : List Doc) (items : List (Bytes × List Doc)) :
    newOpMessage fuel more ds items = newOpMessage fuel false ds items ∧
    ∀ m, newOpMessage fuel more ds items = .ok m → ∃ is, m = .msg ⟨0, 19, 0, 2013⟩ [] 0 [] [] [] is 0 := by
  have h0 : (if more then 0 % 2 else 0) = 0 := by cases more <;> rfl
  refine ⟨by simp only [newOpMessage, h0, Bool.false_eq_true, if_false], fun m hm => ?_⟩
  simp only [newOpMessage, h0] at hm
  rw [Res.bind_eq_ok] at hm
  obtain ⟨is, -, hm⟩ := hm
  cases hm
  exact ⟨_, rfl⟩

example : ∃ m, newOpMessage 100 true [wireDoc] [] = .ok m := ⟨_, rfl⟩

/-- A checksum of an OP_MSG whose flags do not have bit 0 is not serialized. -/
theorem C40_checksum_lost (h : Header) (f : Nat) (hf : f % 2 = 0) (items : List Item) (c : Int) (fuel : Nat) (b : Bytes) (m' : Message)
    (hs : (Message.msg h [] f [] [] [] items c).serialize fuel = .ok (b, m')) :
    ∃ m'', (Message.msg h [] f [] [] [] items 0).serialize fuel = .ok (b, m'') := by
  simp only [Message.serialize, ne_eq, not_true_eq_false, if_false] at hs ⊢
  rw [Res.bind_eq_ok] at hs
  obtain ⟨⟨x, n, is⟩, h1, hs⟩ := hs
  have e : ¬ (¬ c = 0 ∧ f % 2 = 1) := by omega
  have e' : ¬ (False ∧ f % 2 = 1) := by simp
  simp only [if_neg e] at hs
  rw [h1]
  simp only [Res.bind_ok, if_neg e']
  rw [Res.bind_eq_ok] at hs
  obtain ⟨_, h2, hs⟩ := hs
  cases hs
  exact ⟨_, by rw [h2]; rfl⟩

example : ∃ b m', (Message.msg ⟨0, 19, 0, 2013⟩ [] 2 [] [] [] [.body (some wireDoc)] 5).serialize 100 = .ok (b, m') := ⟨_, _, rfl⟩

/-! ### C41 -/

/-- The first four bytes that `Serialize` writes are the number of bytes it writes, and so is the size left in the header of the message: for
    every message of every type whose documents can be marshalled (or are nil), with any contents. -/
theorem C41_length (m m' : Message) (fuel : Nat) (b : Bytes) (hd : ∀ d ∈ msgDocs m, ∃ x, docMarshal fuel d = .ok x) (hfr : Fresh m) (hc : Counted m)
    (h : m.serialize fuel = .ok (b, m')) (hl : b.length < 2147483648) : b.take 4 = le32 b.length ∧ m'.header.size = b.length :=
  serialize_size hd hfr hc h hl

example : ∃ m m' fuel b, m = Message.update ⟨0, 19, 0, 2001⟩ 0 1 [97, 46, 98] (some wireDoc) none ∧ (∀ d ∈ msgDocs m, ∃ x, docMarshal fuel d = .ok x) ∧
    Fresh m ∧ Counted m ∧ m.serialize fuel = .ok (b, m') ∧ b.length < 2147483648 := by
  refine ⟨_, _, 100, _, rfl, ?_, trivial, trivial, rfl, by decide +kernel⟩
  simp only [msgDocs, Option.toList_some, Option.toList_none, List.append_nil, List.mem_singleton, forall_eq]
  exact ⟨_, rfl⟩

/-- The same for messages of the protocol: `Serialize` returns, and its length is as the header says. -/
theorem C41_protocol (m : Message) (w : WMsg) (rid rto : Int) (hm : RepMsg m w) (hfr : Fresh m) (hh : HeaderFor m.header w rid rto) (wf : w.WF)
    (hl : (w.enc 1 rid rto).length < 2147483648) (fuel : Nat) (hf : (w.enc 1 rid rto).length < fuel) :
    ∃ b m', m.serialize fuel = .ok (b, m') ∧ readi32 b = .ok (b.length : Int) := by
  obtain ⟨m', h1, -, -⟩ := C40_serialize m w rid rto hm hfr hh wf hl fuel hf
  refine ⟨_, m', h1, ?_⟩
  rw [enc_length] at *
  simp only [WMsg.enc, List.append_assoc]
  exact readi32_le32_nat hl _

example : ∃ (m : Message) (w : WMsg), w = .killCursors [5, -1] ∧ RepMsg m w ∧ Fresh m ∧ HeaderFor m.header w 19 0 ∧ w.WF ∧
    (w.enc 1 19 0).length < 2147483648 :=
  ⟨newKillCursors [5, -1], _, rfl, ⟨rfl, rfl, rfl⟩, trivial, ⟨rfl, rfl, rfl⟩, by simp [WMsg.WF, I64], by decide +kernel⟩

/-- Serializing again gives the same bytes. -/
theorem C41_again (m m' : Message) (fuel : Nat) (b : Bytes) (h : m.serialize fuel = .ok (b, m')) : ∃ m'', m'.serialize fuel = .ok (b, m'') :=
  serialize_again h

example : ∃ m m' b, m = Message.insert ⟨0, 19, 0, 2002⟩ 1 [97, 46, 98] [wireDoc, wireDoc] ∧ m.serialize 100 = .ok (b, m') := ⟨_, _, _, rfl, rfl⟩

/-- A message with a document that is not valid is not serialized: `Serialize` panics, whichever document it is (`must`, x/mrpc/mongowire/wireutil.go:85).  The fuel is
    enough for every document. -/
theorem C41_invalid_panics (m : Message) (fuel : Nat) (hfr : Fresh m) (he : ∀ d ∈ msgDocs m, docValidate fuel d ≠ .oof ∧ docMarshal fuel d ≠ .oof)
    (hi : ∃ d ∈ msgDocs m, ∃ e, docValidate fuel d = .err e) : m.serialize fuel = .panic :=
  serialize_invalid hfr he hi

/-- a boolean that is neither 0 nor 1, in the second document -/
example : (Message.insert ⟨0, 19, 0, 2002⟩ 1 [97, 46, 98] [wireDoc, [.raw 0 3 [8, 97, 0, 7]]]).serialize 100 = .panic := by
  refine C41_invalid_panics _ 100 trivial ?_ ⟨[.raw 0 3 [8, 97, 0, 7]], by simp [msgDocs], _, rfl⟩
  intro d hd
  simp only [msgDocs, List.mem_cons, List.not_mem_nil, or_false] at hd
  obtain rfl | rfl := hd
  · exact ⟨nofun, nofun⟩
  · exact ⟨nofun, nofun⟩

/-! ### C45 -/

/-- A namespace without a dot is all database; with one, it is recomposed from the two parts, and the database has no dot. -/
theorem C45_split (ns : Bytes) : ((46 : UInt8) ∉ ns ∧ namespaceToDB ns = ns ∧ namespaceToCollection ns = []) ∨
    (namespaceToDB ns ++ 46 :: namespaceToCollection ns = ns ∧ (46 : UInt8) ∉ namespaceToDB ns) := by
  unfold namespaceToDB namespaceToCollection
  rcases split_dot ns with h | ⟨db, r, h, rfl⟩
  · rw [indexDot_none h]; exact .inl ⟨h, rfl, rfl⟩
  · rw [indexDot_append h]
    refine .inr ?_
    have e : (db ++ 46 :: r).drop (db.length + 1) = r := by rw [dropA (b := 46 :: r) 1 rfl]; rfl
    simp only [List.take_left, e]
    exact ⟨trivial, h⟩

/-- The parts of a database and a collection put together are that database and collection. -/
theorem C45_compose (db coll : Bytes) (h : (46 : UInt8) ∉ db) :
    namespaceToDB (db ++ 46 :: coll) = db ∧ namespaceToCollection (db ++ 46 :: coll) = coll := by
  have e : (db ++ 46 :: coll).drop (db.length + 1) = coll := by rw [dropA (b := 46 :: coll) 1 rfl]; rfl
  unfold namespaceToDB namespaceToCollection
  rw [indexDot_append h]
  simp only [List.take_left, e]
  exact ⟨trivial, trivial⟩

example : (46 : UInt8) ∉ [(97 : UInt8), 98] ∧ namespaceToCollection ([97, 98] ++ 46 :: [99, 46, 100]) = [99, 46, 100] := by decide

/-- A namespace is that of a command exactly if its collection starts with `$`. -/
theorem C45_command (ns : Bytes) : namespaceIsCommand ns = true ↔ CommandNs ns := isCommand_iff ns

example : CommandNs [97, 46, 36, 99, 109, 100] := ⟨[97], [99, 109, 100], by simp, rfl⟩

end Birch.Props
