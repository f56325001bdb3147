import Verif.Model.Write
import Verif.Model.Compare
import Verif.Model.Search
import Verif.Model.Stream

/-
Model of the MongoDB wire messages of x/mrpc/mongowire: the ten message types, `Serialize` and `Parse`.

Documents of type `*birch.Document` are `Option Doc` (`none` is nil), those of type `birch.Document` are `Doc`.
Messages returned together with an error are not modelled.
-/

namespace Birch.Model.Wire
open Birch Model

/-- `MessageHeader` (x/mrpc/mongowire/header.go:8-13) -/
structure Header where
  size : Int
  requestID : Int
  responseTo : Int
  opCode : Int
  deriving DecidableEq, Repr

/-- `opMessagePayloadType0` and `opMessagePayloadType1` (x/mrpc/mongowire/wire_message.go:25-27, 60-64) -/
inductive Item where
  | body (doc : Option Doc)
  | sequence (size : Int) (identifier : Bytes) (payload : List Doc)

/-- The message types (x/mrpc/mongowire/message.go:16-126) -/
inductive Message where
  | reply (header : Header) (flags cursorId startingFrom numberReturned : Int) (docs : List Doc)
  | update (header : Header) (reserved flags : Int) (ns : Bytes) (filter update : Option Doc)
  | query (header : Header) (flags skip nReturn : Int) (ns : Bytes) (query project : Option Doc)
  | getMore (header : Header) (reserved nReturn cursorId : Int) (ns : Bytes)
  | insert (header : Header) (flags : Int) (ns : Bytes) (docs : List Doc)
  | delete (header : Header) (reserved flags : Int) (ns : Bytes) (filter : Option Doc)
  | killCursors (header : Header) (reserved numCursors : Int) (ids : List Int)
  | command (header : Header) (db name : Bytes) (args metadata : Option Doc) (inputs : List Doc) (upconverted : Bool)
  | commandReply (header : Header) (reply metadata : Option Doc) (outputs : List Doc)
  | msg (header : Header) (serialized : Bytes) (flags : Nat) (db collection operation : Bytes) (items : List Item) (checksum : Int)

/-- the op codes (x/mrpc/mongowire/op_type.go:5-17) -/
def OP_REPLY : Int := 1
def OP_UPDATE : Int := 2001
def OP_INSERT : Int := 2002
def OP_QUERY : Int := 2004
def OP_GET_MORE : Int := 2005
def OP_DELETE : Int := 2006
def OP_KILL_CURSORS : Int := 2007
def OP_COMMAND : Int := 2010
def OP_COMMAND_REPLY : Int := 2011
def OP_MSG : Int := 2013

/-! ### wireutil.go -/

/-- `readInt64` (x/mrpc/mongowire/wireutil.go:17-26); `readInt32` (10-15) is `readi32` -/
def readInt64 (b : Bytes) : Res Int := do
  let n ← rdU64 b
  .ok (i64 n)

/-- `writeInt32`, `encodeInt32` (x/mrpc/mongowire/wireutil.go:35-46) -/
def int32Bytes (i : Int) : Bytes := le32 (u32i i)

/-- `writeInt64`, `encodeInt64` (x/mrpc/mongowire/wireutil.go:48-63) -/
def int64Bytes (i : Int) : Bytes := le64 (u64i i)

/-- `readCString` (x/mrpc/mongowire/wireutil.go:65-73) -/
def readCString : Bytes → Res Bytes
  | [] => .err .other
  | c :: b => if c = 0 then .ok [] else do
    let s ← readCString b
    .ok (c :: s)

/-- `writeCString` (x/mrpc/mongowire/wireutil.go:75-79) -/
def cstringBytes (s : Bytes) : Bytes := s ++ [0]

/-- `getDocSize` (x/mrpc/mongowire/wireutil.go:81-86): panics if the document is not valid -/
def getDocSize (fuel : Nat) : Option Doc → Res Nat
  | none => .ok 0
  | some d => orPanic (docValidate fuel d)

/-- the sum of the sizes of documents (the loops over `getDocSize(&d)`) -/
def docsSize (fuel : Nat) : List Doc → Res Nat
  | [] => .ok 0
  | d :: ds => do
    let n ← getDocSize fuel (some d)
    .ok (n + (← docsSize fuel ds))

/-- `d.WriteTo(buf)` (document.go:223-232), the error ignored; nothing is written if there is one -/
def docBytes (fuel : Nat) : Option Doc → Res Bytes
  | none => .ok []
  | some d =>
    match docMarshal fuel d with
    | .err _ => .ok []
    | r => r

/-- the loops `for _, d := range docs { d.WriteTo(buf) }` -/
def docsBytes (fuel : Nat) : List Doc → Res Bytes
  | [] => .ok []
  | d :: ds => do
    let b ← docBytes fuel (some d)
    .ok (b ++ (← docsBytes fuel ds))

/-- `MessageHeader.WriteTo` (x/mrpc/mongowire/header.go:15-20) -/
def Header.bytes (h : Header) : Bytes := int32Bytes h.size ++ (int32Bytes h.requestID ++ (int32Bytes h.responseTo ++ int32Bytes h.opCode))

/-! ### namespace.go -/

/-- `strings.IndexByte(ns, '.')`; `none` is -1 -/
def indexDot : Bytes → Option Nat
  | [] => none
  | c :: b => if c = 46 then some 0 else (indexDot b).map (· + 1)

/-- `NamespaceIsCommand` (x/mrpc/mongowire/namespace.go:5-12) -/
def namespaceIsCommand (ns : Bytes) : Bool :=
  match indexDot ns with
  | none => false
  | some i => if ns.length ≤ i + 1 then false else ns[i + 1]? = some 36

/-- `NamespaceToDB` (x/mrpc/mongowire/namespace.go:14-21) -/
def namespaceToDB (ns : Bytes) : Bytes :=
  match indexDot ns with
  | none => ns
  | some i => ns.take i

/-- `NamespaceToCollection` (x/mrpc/mongowire/namespace.go:23-30) -/
def namespaceToCollection (ns : Bytes) : Bytes :=
  match indexDot ns with
  | none => []
  | some i => ns.drop (i + 1)

/-! ### Serialize -/

/-- `Serialize` of a section (x/mrpc/mongowire/wire_message.go:53-58, 74-91) and its part of the message size (124-130): the
    bytes, the size, and the section with `Size` updated -/
def Item.serialize (fuel : Nat) : Item → Res (Bytes × Int × Item)
  | .body d => do
    let n ← getDocSize fuel d
    let b ← docBytes fuel d
    .ok (0 :: b, 1 + n, .body d)
  | .sequence _ id ds => do
    let size := i32 ((1 + 4 + (id.length + 1) + (← docsSize fuel ds) : Nat) : Int)
    let b ← docsBytes fuel ds
    .ok (1 :: (int32Bytes size ++ (cstringBytes id ++ b)), size, .sequence size id ds)

/-- the loop over the sections (x/mrpc/mongowire/wire_message.go:122-131) -/
def itemsSerialize (fuel : Nat) : List Item → Res (Bytes × Int × List Item)
  | [] => .ok ([], 0, [])
  | s :: ss => do
    let (b, n, s') ← s.serialize fuel
    let (bs, ns, ss') ← itemsSerialize fuel ss
    .ok (b ++ bs, n + ns, s' :: ss')

/-- `make([]byte, 0, size)` panics for a negative size -/
def alloc (size : Int) : Res Unit := if size < 0 then .panic else .ok ()

/-- `Serialize`: the bytes and the message afterwards, with the size in its header -/
def Message.serialize (fuel : Nat) : Message → Res (Bytes × Message)
  /- x/mrpc/mongowire/wire_reply.go:29-49 -/
  | .reply h flags cursorId startingFrom numberReturned docs => do
    let size := 16 + 20 + (← docsSize fuel docs)
    let h := { h with size := i32 size }
    let b ← docsBytes fuel docs
    .ok (h.bytes ++ (int32Bytes flags ++ (int64Bytes cursorId ++ (int32Bytes startingFrom ++ (int32Bytes numberReturned ++ b)))),
      .reply h flags cursorId startingFrom numberReturned docs)
  /- x/mrpc/mongowire/wire_update.go:29-50 -/
  | .update h reserved flags ns filter upd => do
    let size := 16 + 8 + (ns.length + 1) + (← getDocSize fuel filter) + (← getDocSize fuel upd)
    let h := { h with size := i32 size }
    let b ← docBytes fuel filter
    let b' ← docBytes fuel upd
    .ok (h.bytes ++ (int32Bytes 0 ++ (cstringBytes ns ++ (int32Bytes flags ++ (b ++ b')))), .update h reserved flags ns filter upd)
  /- x/mrpc/mongowire/wire_query.go:29-51 -/
  | .query h flags skip nReturn ns qry project => do
    let size := 16 + 12 + (ns.length + 1) + (← getDocSize fuel qry) + (← getDocSize fuel project)
    let h := { h with size := i32 size }
    let b ← docBytes fuel qry
    let b' ← docBytes fuel project
    .ok (h.bytes ++ (int32Bytes flags ++ (cstringBytes ns ++ (int32Bytes skip ++ (int32Bytes nReturn ++ (b ++ b'))))),
      .query h flags skip nReturn ns qry project)
  /- x/mrpc/mongowire/wire_get_more.go:30-46 -/
  | .getMore h reserved nReturn cursorId ns => do
    let size := 16 + 16 + (ns.length + 1)
    let h := { h with size := i32 (size : Nat) }
    .ok (h.bytes ++ (int32Bytes 0 ++ (cstringBytes ns ++ (int32Bytes nReturn ++ int64Bytes cursorId))), .getMore h reserved nReturn cursorId ns)
  /- x/mrpc/mongowire/wire_insert.go:30-51 -/
  | .insert h flags ns docs => do
    let size := 16 + 4 + (ns.length + 1) + (← docsSize fuel docs)
    let h := { h with size := i32 size }
    let b ← docsBytes fuel docs
    .ok (h.bytes ++ (int32Bytes flags ++ (cstringBytes ns ++ b)), .insert h flags ns docs)
  /- x/mrpc/mongowire/wire_delete.go:27-46 -/
  | .delete h reserved flags ns filter => do
    let size := 16 + 8 + (ns.length + 1) + (← getDocSize fuel filter)
    let h := { h with size := i32 size }
    let b ← docBytes fuel filter
    .ok (h.bytes ++ (int32Bytes 0 ++ (cstringBytes ns ++ (int32Bytes flags ++ b))), .delete h reserved flags ns filter)
  /- x/mrpc/mongowire/wire_kill_cursors.go:25-41 -/
  | .killCursors h reserved numCursors ids => do
    let size : Int := 16 + 8 + 8 * numCursors
    let h := { h with size := i32 size }
    alloc size
    .ok (h.bytes ++ (int32Bytes 0 ++ (int32Bytes numCursors ++ (ids.map int64Bytes).flatten)), .killCursors h reserved numCursors ids)
  /- x/mrpc/mongowire/wire_command.go:35-60 -/
  | .command h db name args metadata inputs up => do
    let size := 16 + (db.length + 1) + (name.length + 1) + (← getDocSize fuel args) + (← getDocSize fuel metadata) + (← docsSize fuel inputs)
    let h := { h with size := i32 size }
    let b ← docBytes fuel args
    let b' ← docBytes fuel metadata
    let b'' ← docsBytes fuel inputs
    .ok (h.bytes ++ (cstringBytes db ++ (cstringBytes name ++ (b ++ (b' ++ b'')))), .command h db name args metadata inputs up)
  /- x/mrpc/mongowire/wire_command_reply.go:26-47 -/
  | .commandReply h rep metadata outputs => do
    let size := 16 + (← getDocSize fuel rep) + (← getDocSize fuel metadata) + (← docsSize fuel outputs)
    let h := { h with size := i32 size }
    let b ← docBytes fuel rep
    let b' ← docBytes fuel metadata
    let b'' ← docsBytes fuel outputs
    .ok (h.bytes ++ (b ++ (b' ++ b'')), .commandReply h rep metadata outputs)
  /- x/mrpc/mongowire/wire_message.go:114-148 -/
  | .msg h serialized flags db coll op items checksum => do
    if serialized ≠ [] then .ok (serialized, .msg h serialized flags db coll op items checksum) else
    let (b, n, items) ← itemsSerialize fuel items
    let sum := checksum ≠ 0 ∧ flags % 2 = 1
    let size := 16 + 4 + n + (if sum then 4 else 0)
    let h := { h with size := i32 size }
    alloc size
    let b := h.bytes ++ (int32Bytes (i32 flags) ++ (b ++ (if sum then int32Bytes checksum else [])))
    .ok (b, .msg h b flags db coll op items checksum)

/-! ### constructors -/

/-- `NewReply` (x/mrpc/mongowire/wire_reply.go:10-22) -/
def newReply (cursorId flags startingFrom numberReturned : Int) (docs : List Doc) : Message :=
  .reply ⟨0, 19, 0, OP_REPLY⟩ flags cursorId startingFrom numberReturned docs

/-- `NewUpdate` (x/mrpc/mongowire/wire_update.go:10-21) -/
def newUpdate (ns : Bytes) (flags : Int) (filter upd : Option Doc) : Message := .update ⟨0, 19, 0, OP_UPDATE⟩ 0 flags ns filter upd

/-- `NewQuery` (x/mrpc/mongowire/wire_query.go:10-23) -/
def newQuery (ns : Bytes) (flags skip toReturn : Int) (query project : Option Doc) : Message :=
  .query ⟨0, 19, 0, OP_QUERY⟩ flags skip toReturn ns query project

/-- `NewGetMore` (x/mrpc/mongowire/wire_get_more.go:8-18) -/
def newGetMore (ns : Bytes) (number cursorId : Int) : Message := .getMore ⟨0, 19, 0, OP_GET_MORE⟩ 0 number cursorId ns

/-- `NewInsert` (x/mrpc/mongowire/wire_insert.go:10-22); the documents are copied -/
def newInsert (ns : Bytes) (docs : List Doc) : Message := .insert ⟨0, 19, 0, OP_INSERT⟩ 0 ns docs

/-- `NewDelete` (x/mrpc/mongowire/wire_delete.go:10-20) -/
def newDelete (ns : Bytes) (flags : Int) (filter : Option Doc) : Message := .delete ⟨0, 19, 0, OP_DELETE⟩ 0 flags ns filter

/-- `NewKillCursors` (x/mrpc/mongowire/wire_kill_cursors.go:10-19) -/
def newKillCursors (ids : List Int) : Message := .killCursors ⟨0, 19, 0, OP_KILL_CURSORS⟩ 0 (i32 ids.length) ids

/-- `NewCommand` (x/mrpc/mongowire/wire_command.go:10-22) -/
def newCommand (db name : Bytes) (args metadata : Option Doc) (inputs : List Doc) : Message :=
  .command ⟨0, 19, 0, OP_COMMAND⟩ db name args metadata inputs false

/-- `NewCommandReply` (x/mrpc/mongowire/wire_command_reply.go:10-20) -/
def newCommandReply (reply metadata : Option Doc) (outputs : List Doc) : Message :=
  .commandReply ⟨0, 19, 0, OP_COMMAND_REPLY⟩ reply metadata outputs

/-- the sum of document sizes in `int32` (x/mrpc/mongowire/wire_message.go:176) -/
def itemSize (fuel : Nat) : List Doc → Int → Res Int
  | [], n => .ok n
  | d :: ds, n => do itemSize fuel ds (i32 (n + (← getDocSize fuel (some d))))

/-- the loop over the items of `NewOpMessage` (x/mrpc/mongowire/wire_message.go:169-179) -/
def newItems (fuel : Nat) : List (Bytes × List Doc) → Res (List Item)
  | [] => .ok []
  | (id, ds) :: items => do
    let n ← itemSize fuel ds 0
    .ok (.sequence n id ds :: (← newItems fuel items))

/-- `NewOpMessage` (x/mrpc/mongowire/wire_message.go:150-182); `msg.Flags & 1` of the new message is 0 -/
def newOpMessage (fuel : Nat) (moreToCome : Bool) (documents : List Doc) (items : List (Bytes × List Doc)) : Res Message := do
  let flags := if moreToCome then 0 % 2 else 0
  let items ← newItems fuel items
  .ok (.msg ⟨0, 19, 0, OP_MSG⟩ [] flags [] [] [] (documents.map (fun d => .body (some d)) ++ items) 0)

/-! ### Parse -/

/-- the loop `for loc < len(buf)` of the reply and insert messages (x/mrpc/mongowire/wire_reply.go:74-81, wire_insert.go:74-81);
    `buf` is what is left -/
def readDocs : Nat → Bytes → Res (List Doc)
  | 0, _ => .oof
  | fuel + 1, buf =>
    if buf = [] then .ok [] else do
    let d ← readDocument (fuel + 1) buf
    let n ← getDocSize (fuel + 1) (some d)
    .ok (d :: (← readDocs fuel (buf.drop n)))

/-- the loop `for len(buf) > 0` of the command reply (x/mrpc/mongowire/wire_command_reply.go:77-84) -/
def readOutputs : Nat → Bytes → Res (List Doc)
  | 0, _ => .oof
  | fuel + 1, buf =>
    if buf = [] then .ok [] else do
    let d ← readDocument (fuel + 1) buf
    let n ← getDocSize (fuel + 1) (some d)
    .ok (d :: (← readOutputs fuel (← sliceFrom buf n)))

/-- the loop of the command message (x/mrpc/mongowire/wire_command.go:118-130) -/
def readInputs : Nat → Bytes → Res (List Doc)
  | 0, _ => .oof
  | fuel + 1, buf =>
    if buf = [] then .ok [] else do
    let d ← readDocument (fuel + 1) buf
    let n ← docValidate (fuel + 1) d
    .ok (d :: (← readInputs fuel (← sliceFrom buf n)))

/-- `parseReplyMessage` (x/mrpc/mongowire/wire_reply.go:51-84) -/
def parseReply (fuel : Nat) (h : Header) (buf : Bytes) : Res Message :=
  if buf.length < 20 then .err .other else do
  let flags ← readi32 buf
  let cursorId ← readInt64 (buf.drop 4)
  let startingFrom ← readi32 (buf.drop 12)
  let numberReturned ← readi32 (buf.drop 16)
  let docs ← readDocs fuel (buf.drop 20)
  .ok (.reply h flags cursorId startingFrom numberReturned docs)

/-- `parseUpdateMessage` (x/mrpc/mongowire/wire_update.go:52-99) -/
def parseUpdate (fuel : Nat) (h : Header) (buf : Bytes) : Res Message :=
  if buf.length < 4 then .err .other else do
  let reserved ← readi32 buf
  let ns ← readCString (buf.drop 4)
  let loc := 4 + (ns.length + 1)
  if buf.length < loc + 4 then .err .other else do
  let flags ← readi32 (buf.drop loc)
  let filter ← readDocument fuel (buf.drop (loc + 4))
  let loc := loc + 4 + (← getDocSize fuel (some filter))
  if buf.length < loc then .err .other else do
  let upd ← readDocument fuel (buf.drop loc)
  let _ ← getDocSize fuel (some upd)
  .ok (.update h reserved flags ns (some filter) (some upd))

/-- `convertToCommand` (x/mrpc/mongowire/wire_query.go:53-68) for a command namespace; `ElementAt(0)` panics without elements -/
def convertToCommand (ns : Bytes) (query : Doc) : Res Message :=
  match query with
  | [] => .panic
  | e :: _ => do .ok (.command ⟨0, 19, 0, OP_COMMAND⟩ (namespaceToDB ns) (← Model.key e) (some query) none [] true)

/-- the optional projection (x/mrpc/mongowire/wire_query.go:108-114) -/
def readProject (fuel : Nat) (loc : Nat) (buf : Bytes) : Res (Option Doc) :=
  if loc < buf.length then do
    let p ← readDocument fuel (buf.drop loc)
    let _ ← getDocSize fuel (some p)
    .ok (some p)
  else .ok none

/-- `parseQueryMessage` (x/mrpc/mongowire/wire_query.go:70-121) -/
def parseQuery (fuel : Nat) (h : Header) (buf : Bytes) : Res Message :=
  if buf.length < 4 then .err .other else do
  let flags ← readi32 buf
  let ns ← readCString (buf.drop 4)
  let loc := 4 + (ns.length + 1)
  if buf.length < loc + 8 then .err .other else do
  let skip ← readi32 (buf.drop loc)
  let nReturn ← readi32 (buf.drop (loc + 4))
  let query ← readDocument fuel (buf.drop (loc + 8))
  let loc := loc + 8 + (← getDocSize fuel (some query))
  let project ← readProject fuel loc buf
  if namespaceIsCommand ns then convertToCommand ns query
  else .ok (.query h flags skip nReturn ns (some query) project)

/-- `parseGetMoreMessage` (x/mrpc/mongowire/wire_get_more.go:48-81) -/
def parseGetMore (h : Header) (buf : Bytes) : Res Message :=
  if buf.length < 4 then .err .other else do
  let reserved ← readi32 buf
  let ns ← readCString (buf.drop 4)
  let loc := 4 + (ns.length + 1)
  if buf.length < loc + 12 then .err .other else do
  let nReturn ← readi32 (buf.drop loc)
  let cursorId ← readInt64 (buf.drop (loc + 4))
  .ok (.getMore h reserved nReturn cursorId ns)

/-- `parseInsertMessage` (x/mrpc/mongowire/wire_insert.go:53-84) -/
def parseInsert (fuel : Nat) (h : Header) (buf : Bytes) : Res Message :=
  if buf.length < 4 then .err .other else do
  let flags ← readi32 buf
  let ns ← readCString (buf.drop 4)
  let docs ← readDocs fuel (buf.drop (4 + (ns.length + 1)))
  .ok (.insert h flags ns docs)

/-- `parseDeleteMessage` (x/mrpc/mongowire/wire_delete.go:48-83) -/
def parseDelete (fuel : Nat) (h : Header) (buf : Bytes) : Res Message :=
  if buf.length < 4 then .err .other else do
  let reserved ← readi32 buf
  let ns ← readCString (buf.drop 4)
  let loc := 4 + (ns.length + 1)
  if buf.length < loc + 4 then .err .other else do
  let flags ← readi32 (buf.drop loc)
  let filter ← readDocument fuel (buf.drop (loc + 4))
  let _ ← getDocSize fuel (some filter)
  .ok (.delete h reserved flags ns (some filter))

/-- the loop over the cursor ids (x/mrpc/mongowire/wire_kill_cursors.go:65-68) -/
def readIds : Nat → Bytes → Res (List Int)
  | 0, _ => .ok []
  | n + 1, buf => do
    let i ← readInt64 buf
    .ok (i :: (← readIds n (buf.drop 8)))

/-- `parseKillCursorsMessage` (x/mrpc/mongowire/wire_kill_cursors.go:43-71); `make` panics for a negative count -/
def parseKillCursors (h : Header) (buf : Bytes) : Res Message :=
  if buf.length < 8 then .err .other else do
  let reserved ← readi32 buf
  let n ← readi32 (buf.drop 4)
  if ((buf.drop 8).length : Int) < n * 8 then .err .other else do
  alloc n
  .ok (.killCursors h reserved n (← readIds n.toNat (buf.drop 8)))

/-- `parseCommandMessage` (x/mrpc/mongowire/wire_command.go:62-133) -/
def parseCommand (fuel : Nat) (h : Header) (buf : Bytes) : Res Message := do
  let db ← readCString buf
  if buf.length < db.length + 1 then .err .other else do
  let buf := buf.drop (db.length + 1)
  let name ← readCString buf
  if buf.length < name.length + 1 then .err .other else do
  let buf := buf.drop (name.length + 1)
  let args ← readDocument fuel buf
  let n ← docValidate fuel args
  if buf.length < n then .err .other else do
  let buf := buf.drop n
  let metadata ← readDocument fuel buf
  let n ← docValidate fuel metadata
  if buf.length < n then .err .other else do
  let inputs ← readInputs fuel (buf.drop n)
  .ok (.command h db name (some args) (some metadata) inputs false)

/-- `parseCommandReplyMessage` (x/mrpc/mongowire/wire_command_reply.go:49-87) -/
def parseCommandReply (fuel : Nat) (h : Header) (buf : Bytes) : Res Message := do
  let reply ← readDocument fuel buf
  let n ← getDocSize fuel (some reply)
  if buf.length < n then .err .other else do
  let buf := buf.drop n
  let metadata ← readDocument fuel buf
  let n ← getDocSize fuel (some metadata)
  if buf.length < n then .err .other else do
  let outputs ← readOutputs fuel (buf.drop n)
  .ok (.commandReply h (some reply) (some metadata) outputs)

/-- the loop over the payload of a section (x/mrpc/mongowire/wire_message.go:220-229): the documents and what is left -/
def readPayloadDocs : Nat → (remaining : Int) → Bytes → Res (List Doc × Bytes)
  | 0, _, _ => .oof
  | fuel + 1, remaining, buf =>
    if remaining ≤ 0 then .ok ([], buf) else do
    let docSize ← readi32 buf
    let b ← sliceI buf 0 docSize
    let d ← readDocument (fuel + 1) b
    let (ds, rest) ← readPayloadDocs fuel (remaining - docSize) (buf.drop docSize.toNat)
    .ok (d :: ds, rest)

/-- the loop over the sections (x/mrpc/mongowire/wire_message.go:198-234); `buf` is what is left.  An error of `ReadDocument` in a body section
    is dropped: the section has no document and its bytes are looked at again. -/
def readItems : Nat → Bytes → Res (List Item × Bytes)
  | 0, _ => .oof
  | fuel + 1, buf =>
    if buf.length ≤ 4 then .ok ([], buf) else do
    let kind ← idx buf 0
    let buf := buf.drop 1
    if kind = 0 then do
      let docSize ← readi32 buf
      let b ← sliceI buf 0 docSize
      let d ← match readDocument (fuel + 1) b with
        | .ok d => Res.ok (some d)
        | .err _ => .ok none
        | .panic => .panic
        | .oof => .oof
      let n ← getDocSize (fuel + 1) d
      let (items, rest) ← readItems fuel (buf.drop n)
      .ok (.body d :: items, rest)
    else if kind = 1 then do
      let size ← readi32 buf
      let id ← readCString (buf.drop 4)
      let (ds, rest) ← readPayloadDocs (fuel + 1) (size - 1 - 4 - id.length - 1) (buf.drop (4 + (id.length + 1)))
      let (items, rest) ← readItems fuel rest
      .ok (.sequence size id ds :: items, rest)
    else .err .other

/-- `parseMsgBody` (x/mrpc/mongowire/wire_message.go:184-244); `loc` is the length of what was read -/
def parseMsg (fuel : Nat) (h : Header) (body : Bytes) : Res Message :=
  if body.length < 4 then .err .other else do
  let flags ← readi32 body
  let (items, rest) ← readItems fuel (body.drop 4)
  let sum := u32i flags % 2 = 1 ∧ rest.length = 4
  let checksum ← if sum then readi32 rest else .ok 0
  let loc := body.length - (if sum then 0 else rest.length)
  .ok (.msg { h with size := i32 loc } [] (u32i flags) [] [] [] items checksum)

/-- `MessageHeader.Parse` (x/mrpc/mongowire/header.go:22-54) -/
def parse (fuel : Nat) (h : Header) (body : Bytes) : Res Message :=
  if h.opCode = OP_REPLY then parseReply fuel h body
  else if h.opCode = OP_UPDATE then parseUpdate fuel h body
  else if h.opCode = OP_INSERT then parseInsert fuel h body
  else if h.opCode = OP_QUERY then parseQuery fuel h body
  else if h.opCode = OP_GET_MORE then parseGetMore h body
  else if h.opCode = OP_DELETE then parseDelete fuel h body
  else if h.opCode = OP_KILL_CURSORS then parseKillCursors h body
  else if h.opCode = OP_COMMAND then parseCommand fuel h body
  else if h.opCode = OP_COMMAND_REPLY then parseCommandReply fuel h body
  else if h.opCode = OP_MSG then parseMsg fuel h body
  else .err .other

/-- `Header()` of each message -/
def Message.header : Message → Header
  | .reply h .. | .update h .. | .query h .. | .getMore h .. | .insert h .. | .delete h .. | .killCursors h .. | .command h .. | .commandReply h ..
  | .msg h .. => h

end Birch.Model.Wire
