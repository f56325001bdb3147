import Verif.Model.Wire
import Verif.Spec.FtdcDocs

/-
Specification of the messages of the MongoDB wire protocol (docs: "MongoDB Wire Protocol"): what a message says and its bytes,
and which messages of the Go code stand for it.  Only the relation at the end refers to the model.
-/

namespace Birch.Spec.Wire
open Birch Spec

/-- A section of an OP_MSG. -/
inductive WSection where
  | body (doc : Fields)
  | sequence (identifier : Bytes) (docs : List Fields)

/-- What a message says, beside the request ids of its header. -/
inductive WMsg where
  | reply (flags cursorId startingFrom numberReturned : Int) (docs : List Fields)
  | update (ns : Bytes) (flags : Int) (filter update : Fields)
  | insert (flags : Int) (ns : Bytes) (docs : List Fields)
  | query (flags : Int) (ns : Bytes) (skip nReturn : Int) (query : Fields) (project : Option Fields)
  | getMore (ns : Bytes) (nReturn cursorId : Int)
  | delete (ns : Bytes) (flags : Int) (filter : Fields)
  | killCursors (ids : List Int)
  | command (db name : Bytes) (args metadata : Fields) (inputs : List Fields)
  | commandReply (reply metadata : Fields) (outputs : List Fields)
  | msg (flags : Nat) (sections : List WSection) (checksum : Option Int)

/-- the op code -/
def WMsg.code : WMsg → Nat
  | .reply .. => 1
  | .update .. => 2001
  | .insert .. => 2002
  | .query .. => 2004
  | .getMore .. => 2005
  | .delete .. => 2006
  | .killCursors .. => 2007
  | .command .. => 2010
  | .commandReply .. => 2011
  | .msg .. => 2013

def int32 (i : Int) : Bytes := le32 (twos32 i)
def int64 (i : Int) : Bytes := le64 (twos64 i)
def cstring (s : Bytes) : Bytes := s ++ [0]
def docs (l : List Fields) : Bytes := l.flatMap encDoc

/-- A section: its kind byte, then a document, or the size of a document sequence, its identifier and documents.  The size of the protocol
    counts everything but the kind byte (`kind = 0`); that of birch counts the kind byte as well (`kind = 1`). -/
def WSection.enc (kind : Nat) : WSection → Bytes
  | .body d => 0 :: encDoc d
  | .sequence id ds => 1 :: (le32 (kind + 4 + (id.length + 1) + (docs ds).length) ++ cstring id ++ docs ds)

/-- the bytes after the header -/
def WMsg.body (kind : Nat) : WMsg → Bytes
  | .reply flags cursorId startingFrom numberReturned ds => int32 flags ++ int64 cursorId ++ int32 startingFrom ++ int32 numberReturned ++ docs ds
  | .update ns flags filter upd => int32 0 ++ cstring ns ++ int32 flags ++ encDoc filter ++ encDoc upd
  | .insert flags ns ds => int32 flags ++ cstring ns ++ docs ds
  | .query flags ns skip nReturn q p => int32 flags ++ cstring ns ++ int32 skip ++ int32 nReturn ++ encDoc q ++ docs p.toList
  | .getMore ns nReturn cursorId => int32 0 ++ cstring ns ++ int32 nReturn ++ int64 cursorId
  | .delete ns flags filter => int32 0 ++ cstring ns ++ int32 flags ++ encDoc filter
  | .killCursors ids => int32 0 ++ int32 ids.length ++ ids.flatMap int64
  | .command db name args metadata inputs => cstring db ++ cstring name ++ encDoc args ++ encDoc metadata ++ docs inputs
  | .commandReply r metadata outputs => encDoc r ++ encDoc metadata ++ docs outputs
  | .msg flags sections checksum => le32 flags ++ sections.flatMap (WSection.enc kind) ++ checksum.toList.flatMap int32

/-- The bytes of a message: the length of all of it, the request ids, the op code, and the body. -/
def WMsg.enc (kind : Nat) (requestID responseTo : Int) (w : WMsg) : Bytes :=
  le32 (16 + (w.body kind).length) ++ int32 requestID ++ int32 responseTo ++ le32 w.code ++ w.body kind

def I32 (i : Int) : Prop := -2147483648 ≤ i ∧ i < 2147483648
def I64 (i : Int) : Prop := -9223372036854775808 ≤ i ∧ i < 9223372036854775808

def WSection.WF : WSection → Prop
  | .body d => d.WF
  | .sequence id ds => NulFree id ∧ ∀ d ∈ ds, d.WF

/-- Numbers in range, C strings without NUL, well-formed documents.  An OP_MSG has a checksum only if bit 0 of its flags is set; a checksum of
    0 is not a checksum for birch. -/
def WMsg.WF : WMsg → Prop
  | .reply flags cursorId startingFrom numberReturned ds => I32 flags ∧ I64 cursorId ∧ I32 startingFrom ∧ I32 numberReturned ∧ ∀ d ∈ ds, d.WF
  | .update ns flags filter upd => NulFree ns ∧ I32 flags ∧ filter.WF ∧ upd.WF
  | .insert flags ns ds => I32 flags ∧ NulFree ns ∧ ∀ d ∈ ds, d.WF
  | .query flags ns skip nReturn q p => I32 flags ∧ NulFree ns ∧ I32 skip ∧ I32 nReturn ∧ q.WF ∧ ∀ d ∈ p, d.WF
  | .getMore ns nReturn cursorId => NulFree ns ∧ I32 nReturn ∧ I64 cursorId
  | .delete ns flags filter => NulFree ns ∧ I32 flags ∧ filter.WF
  | .killCursors ids => ∀ i ∈ ids, I64 i
  | .command db name args metadata inputs => NulFree db ∧ NulFree name ∧ args.WF ∧ metadata.WF ∧ ∀ d ∈ inputs, d.WF
  | .commandReply r metadata outputs => r.WF ∧ metadata.WF ∧ ∀ d ∈ outputs, d.WF
  | .msg flags sections checksum => flags < 4294967296 ∧ (∀ s ∈ sections, s.WF) ∧ ∀ c ∈ checksum, I32 c ∧ c ≠ 0 ∧ flags % 2 = 1

/-- a namespace whose collection starts with `$`, as those of commands do -/
def CommandNs (ns : Bytes) : Prop := ∃ db rest, (46 : UInt8) ∉ db ∧ ns = db ++ 46 :: 36 :: rest

/-- a query for which birch makes up a command when it reads it -/
def WMsg.Upconverted : WMsg → Prop
  | .query _ ns _ _ _ _ => CommandNs ns
  | _ => False

/-- `w'` is `w` without some of the documents at its end, if these may be missing -/
inductive Cut : WMsg → WMsg → Prop
  | reply {f c s r : Int} {ds : List Fields} {n : Nat} : n < ds.length → Cut (.reply f c s r ds) (.reply f c s r (ds.take n))
  | insert {f : Int} {ns : Bytes} {ds : List Fields} {n : Nat} : n < ds.length → Cut (.insert f ns ds) (.insert f ns (ds.take n))
  | query {f s n : Int} {ns : Bytes} {q p : Fields} : Cut (.query f ns s n q (some p)) (.query f ns s n q none)
  | command {db name : Bytes} {a m : Fields} {ds : List Fields} {n : Nat} : n < ds.length → Cut (.command db name a m ds) (.command db name a m (ds.take n))
  | commandReply {a m : Fields} {ds : List Fields} {n : Nat} : n < ds.length → Cut (.commandReply a m ds) (.commandReply a m (ds.take n))

def WMsg.IsMsg : WMsg → Prop
  | .msg .. => True
  | _ => False

/-! ### The messages of the Go code -/

open Model Model.Wire

def RepDoc (d : Option Doc) (fs : Fields) : Prop := ∃ d', d = some d' ∧ RepFields d' fs

def RepItem : Item → WSection → Prop
  | .body d, .body fs => RepDoc d fs
  | .sequence _ id ds, .sequence id' fss => id = id' ∧ RepDocs ds fss
  | _, _ => False

def RepItems : List Item → List WSection → Prop
  | [], [] => True
  | i :: is, s :: ss => RepItem i s ∧ RepItems is ss
  | _, _ => False

/-- the Go message says what `w` says; its header, and the sizes kept in sections, are not looked at -/
def RepMsg : Message → WMsg → Prop
  | .reply _ f c s n ds, w => ∃ fss, w = .reply f c s n fss ∧ RepDocs ds fss
  | .update _ r f ns a b, w => ∃ x y, w = .update ns f x y ∧ r = 0 ∧ RepDoc a x ∧ RepDoc b y
  | .query _ f s n ns q p, w => ∃ x y, w = .query f ns s n x y ∧ RepDoc q x ∧ match y with
    | none => p = none
    | some y => RepDoc p y
  | .getMore _ r n c ns, w => w = .getMore ns n c ∧ r = 0
  | .insert _ f ns ds, w => ∃ fss, w = .insert f ns fss ∧ RepDocs ds fss
  | .delete _ r f ns a, w => ∃ x, w = .delete ns f x ∧ r = 0 ∧ RepDoc a x
  | .killCursors _ r n ids, w => w = .killCursors ids ∧ r = 0 ∧ n = ids.length
  | .command _ db name a m ds up, w => ∃ x y fss, w = .command db name x y fss ∧ RepDoc a x ∧ RepDoc m y ∧ RepDocs ds fss ∧ up = false
  | .commandReply _ a m ds, w => ∃ x y fss, w = .commandReply x y fss ∧ RepDoc a x ∧ RepDoc m y ∧ RepDocs ds fss
  | .msg _ _ f db coll op is c, w => ∃ ss cs, w = .msg f ss cs ∧ RepItems is ss ∧ c = cs.getD 0 ∧ db = [] ∧ coll = [] ∧ op = []

/-- no bytes of an earlier `Serialize` are kept in the message -/
def Fresh : Message → Prop
  | .msg _ s _ _ _ _ _ _ => s = []
  | _ => True

def itemDocs : Item → List Doc
  | .body d => d.toList
  | .sequence _ _ ds => ds

/-- all documents of a message -/
def msgDocs : Message → List Doc
  | .reply _ _ _ _ _ ds => ds
  | .update _ _ _ _ a b => a.toList ++ b.toList
  | .query _ _ _ _ _ q p => q.toList ++ p.toList
  | .getMore .. => []
  | .insert _ _ _ ds => ds
  | .delete _ _ _ _ a => a.toList
  | .killCursors .. => []
  | .command _ _ _ a m ds _ => a.toList ++ m.toList ++ ds
  | .commandReply _ a m ds => a.toList ++ m.toList ++ ds
  | .msg _ _ _ _ _ _ is _ => is.flatMap itemDocs

/-- the count of cursors is that of the ids, as in every message the package makes -/
def Counted : Message → Prop
  | .killCursors _ _ n ids => n = ids.length
  | _ => True

/-- the header of a message that is to be sent: ids and op code -/
def HeaderFor (h : Header) (w : WMsg) (requestID responseTo : Int) : Prop := h.requestID = requestID ∧ h.responseTo = responseTo ∧ h.opCode = w.code

end Birch.Spec.Wire
