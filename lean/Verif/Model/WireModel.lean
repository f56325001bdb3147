import Verif.Model.Registry

/-
Model of `GetModel` (x/mrpc/mongowire/message.go:128-218), which gives handlers the message as one of the types of x/mrpc/model, and of `HasResponse`.
Pointers to documents are the documents: that they are shared with the message is not shown.
-/

namespace Birch.Model.Wire
open Birch Model Model.Registry

/-- the types of x/mrpc/model/model.go:5-67 that `GetModel` returns -/
inductive View where
  | command (db name : Bytes) (args metadata : Option Doc) (inputs : List Doc) (converted : Bool)
  | message (db collection operation : Bytes) (moreToCome checksum : Bool) (items : List (Bytes × List Doc))
  | delete (ns : Bytes) (filter : Option Doc)
  | insert (ns : Bytes) (docs : List Doc)
  | query (ns : Bytes) (skip nReturn : Int) (query project : Option Doc)
  | update (ns : Bytes) (filter update : Option Doc) (upsert multi : Bool)
  | reply (contents : List Doc) (cursorId startingFrom : Int) (cursorNotFound queryFailure : Bool)

/-- `Name()` and `Documents()` of a section (x/mrpc/mongowire/wire_message.go:31-33, 49-51, 68, 72) -/
def Item.view : Item → Res (Bytes × List Doc)
  | .body d => do
    let name ← bodyName d
    .ok (name, d.toList)
  | .sequence _ id ds => .ok (id, ds)

/-- the loop over the sections (x/mrpc/mongowire/message.go:156-161) -/
def itemViews : List Item → Res (List (Bytes × List Doc))
  | [] => .ok []
  | i :: is => do
    let x ← i.view
    .ok (x :: (← itemViews is))

/-- `GetModel` (x/mrpc/mongowire/message.go:128-218); `none` is nil -/
def getModel : Message → Res (Option View × Int)
  | .command _ db name args metadata inputs up => .ok (some (.command db name args metadata inputs up), OP_COMMAND)
  | .msg _ _ flags db coll op items _ => do
    let items ← itemViews items
    .ok (some (.message db coll op (flags = 1 ∨ flags = 3) (flags = 0 ∨ flags = 3) items), OP_MSG)
  | .delete _ _ _ ns filter => .ok (some (.delete ns filter), OP_DELETE)
  | .insert _ _ ns docs => .ok (some (.insert ns docs), OP_INSERT)
  | .query _ _ skip nReturn ns q p => .ok (some (.query ns skip nReturn q p), OP_QUERY)
  | .update _ _ flags ns filter upd => .ok (some (.update ns filter upd (flags = 1 ∨ flags = 3) (flags = 2 ∨ flags = 3)), OP_UPDATE)
  | .reply _ flags cursorId startingFrom _ docs => .ok (some (.reply docs cursorId startingFrom (flags = 0) (flags = 1)), OP_REPLY)
  | .getMore .. | .killCursors .. | .commandReply .. => .ok (none, 0)

/-- `HasResponse` (x/mrpc/mongowire/wire_update.go:23, wire_command_reply.go:22, wire_query.go:25, wire_delete.go:22, wire_reply.go:25,
    wire_insert.go:24, wire_get_more.go:20, wire_kill_cursors.go:21, wire_message.go:94, wire_command.go:24) -/
def hasResponse : Message → Bool
  | .query .. | .getMore .. | .command .. => true
  | .msg _ _ flags _ _ _ _ _ => flags > 1
  | .update .. | .commandReply .. | .delete .. | .reply .. | .insert .. | .killCursors .. => false

end Birch.Model.Wire
