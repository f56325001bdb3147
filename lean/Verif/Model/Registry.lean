import Verif.Model.Wire

/-
Model of the operation registry (x/mrpc/registry.go), the scopes it is keyed by (x/mrpc/mongowire/scope.go), and the scopes of messages.
The mutex makes calls atomic: a history is a sequence of calls.
-/

namespace Birch.Model.Registry
open Birch Model Model.Wire

/-- `OpScope` (x/mrpc/mongowire/scope.go:9-14).  The document pointer is compared by identity: it is a number, `none` is nil. -/
structure Scope where
  type : Int
  context : Bytes
  command : Bytes
  payload : Option Nat
  deriving DecidableEq, Repr

/-- `OpScope.Validate` (x/mrpc/mongowire/scope.go:16-93) -/
def Scope.validate (s : Scope) : Bool :=
  if s.type = OP_COMMAND then s.command ≠ []
  else if s.type = OP_DELETE then s.context ≠ [] && s.command = []
  else if s.type = OP_UPDATE then s.context ≠ [] && s.command = []
  else if s.type = OP_KILL_CURSORS then s.context = [] && s.command = []
  else if s.type = OP_QUERY then s.context ≠ [] && s.command = []
  else if s.type = OP_INSERT then s.context ≠ [] && s.command = []
  else if s.type = OP_GET_MORE then s.context ≠ [] && s.command = []
  else if s.type = OP_MSG then s.command ≠ []
  else false

/-- the map of an `OperationRegistry` (x/mrpc/registry.go:10-13); `none` is a nil map, as in the zero value -/
abbrev Ops (H : Type) := Option (List (Scope × H))

/-- the registry of a new service (x/mrpc/service.go:32-37) -/
def Ops.new {H : Type} : Ops H := some []

/-- `o.ops[scope]` -/
def Ops.at {H : Type} (o : Ops H) (s : Scope) : Option H := ((o.getD []).find? (fun p => p.1 = s)).map (·.2)

/-- `OperationRegistry.Add` (x/mrpc/registry.go:15-34); a nil handler is `none`; assignment to a nil map panics -/
def Ops.add {H : Type} (o : Ops H) (s : Scope) (h : Option H) : Res (Ops H) :=
  if ¬ s.validate then .err .other else
  match h with
  | none => .err .other
  | some h =>
    match o.at s with
    | some _ => .err .other
    | none =>
      match o with
      | none => .panic
      | some l => .ok (some ((s, h) :: l))

/-- `OperationRegistry.Get` (x/mrpc/registry.go:36-50) of a scope that is not nil -/
def Ops.get {H : Type} (o : Ops H) (s : Scope) : Option H :=
  match o.at s with
  | some h => some h
  | none => o.at { s with context := [] }

/-- a history of `Add` calls; a call that fails leaves the registry as it was -/
def Ops.run {H : Type} (o : Ops H) : List (Scope × Option H) → Ops H
  | [] => o
  | (s, h) :: cs =>
    match o.add s h with
    | .ok o' => o'.run cs
    | _ => o.run cs

/-- the first body section of an OP_MSG, if there is one (x/mrpc/mongowire/wire_message.go:100-106) -/
def firstBody : List Item → Option (Option Doc)
  | [] => none
  | .body d :: _ => some d
  | .sequence .. :: is => firstBody is

/-- `opMessagePayloadType0.Name` (x/mrpc/mongowire/wire_message.go:31-33); without an element, and without a document, it panics -/
def bodyName : Option Doc → Res Bytes
  | none => .panic
  | some [] => .panic
  | some (e :: _) => Model.key e

/-- `opMessagePayloadType0.DB` (x/mrpc/mongowire/wire_message.go:35-47): the string `$db` -/
def bodyDB : Option Doc → Res Bytes
  | none => .panic
  | some d => do
    match ← findElemForKey [36, 100, 98] d with
    | none => .ok []
    | some v => .ok ((← stringValueOK v).getD [])

/-- `Scope()` of the messages (x/mrpc/mongowire/wire_reply.go:27, wire_update.go:25-27, wire_query.go:27, wire_get_more.go:23-28,
    wire_insert.go:26-28, wire_delete.go:24-26, wire_kill_cursors.go:23, wire_command.go:27-33, wire_command_reply.go:24,
    wire_message.go:96-112); `none` is nil -/
def scope : Message → Res (Option Scope)
  | .reply .. => .ok none
  | .commandReply .. => .ok none
  | .update h _ _ ns _ _ => .ok (some ⟨h.opCode, ns, [], none⟩)
  | .query h _ _ _ ns _ _ => .ok (some ⟨h.opCode, ns, [], none⟩)
  | .getMore h _ _ _ ns => .ok (some ⟨h.opCode, ns, [], none⟩)
  | .insert h _ ns _ => .ok (some ⟨h.opCode, ns, [], none⟩)
  | .delete h _ _ ns _ => .ok (some ⟨h.opCode, ns, [], none⟩)
  | .killCursors h _ _ _ => .ok (some ⟨h.opCode, [], [], none⟩)
  | .command h db name _ _ _ _ => .ok (some ⟨h.opCode, db, name, none⟩)
  | .msg h _ _ _ _ _ items _ =>
    match firstBody items with
    | none => .ok (some ⟨h.opCode, [], [], none⟩)
    | some d => do
      let name ← bodyName d
      let db ← bodyDB d
      .ok (some ⟨h.opCode, db, name, none⟩)

/-- the choice of a handler in `dispatchRequest` (x/mrpc/service.go:115-123); a nil scope is dereferenced -/
def dispatch {H : Type} (o : Ops H) (m : Message) : Res (Option H) := do
  match ← scope m with
  | none => .panic
  | some s => .ok (o.get s)

end Birch.Model.Registry
