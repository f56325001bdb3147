import Verif.Model.Registry
import Verif.Spec.Wire
import Verif.Spec.Path

/-
Specification of the operation registry: which registrations are accepted, and which handler a scope has after a history of registrations.
-/

namespace Birch.Spec.Registry
open Birch Spec Model.Registry

/-- Commands (2010, 2013) have a name.  Deletes (2006), updates (2001), queries (2004), inserts (2002) and get-mores (2005) have a namespace
    and no name.  Kill-cursors (2007) has neither.  Nothing else can be registered. -/
def Valid (s : Scope) : Prop :=
  (s.type = 2010 ∨ s.type = 2013) ∧ s.command ≠ [] ∨
  (s.type = 2001 ∨ s.type = 2002 ∨ s.type = 2004 ∨ s.type = 2005 ∨ s.type = 2006) ∧ s.context ≠ [] ∧ s.command = [] ∨
  s.type = 2007 ∧ s.context = [] ∧ s.command = []

/-- `h` is the handler registered for `s` by a history: the first valid registration of `s` with a handler -/
def Registered {H : Type} (cs : List (Scope × Option H)) (s : Scope) (h : H) : Prop :=
  Valid s ∧ ∃ before after, cs = before ++ (s, some h) :: after ∧ ∀ h', (s, some h') ∉ before

open Spec.Wire in
/-- the body of an OP_MSG: its first body section -/
def bodyOf : List WSection → Option Fields
  | [] => none
  | .body fs :: _ => some fs
  | .sequence .. :: ss => bodyOf ss

/-- the database of a command: the string `$db` -/
def dbOf (fs : Fields) : Bytes :=
  match fs.firstNamed [36, 100, 98] with
  | some (.string s) => s
  | _ => []

open Spec.Wire in
/-- What a message is dispatched on: its op code, its namespace or database, and the name of a command.  Replies are not dispatched. -/
def scopeOf : WMsg → Option Scope
  | .reply .. => none
  | .commandReply .. => none
  | .update ns .. => some ⟨2001, ns, [], none⟩
  | .insert _ ns _ => some ⟨2002, ns, [], none⟩
  | .query _ ns .. => some ⟨2004, ns, [], none⟩
  | .getMore ns .. => some ⟨2005, ns, [], none⟩
  | .delete ns .. => some ⟨2006, ns, [], none⟩
  | .killCursors _ => some ⟨2007, [], [], none⟩
  | .command db name .. => some ⟨2010, db, name, none⟩
  | .msg _ ss _ =>
    match bodyOf ss with
    | some (.cons k v fs) => some ⟨2013, dbOf (.cons k v fs), k, none⟩
    | _ => some ⟨2013, [], [], none⟩

open Spec.Wire in
/-- the body of an OP_MSG is not the empty document -/
def HasName : WMsg → Prop
  | .msg _ ss _ => bodyOf ss ≠ some .nil
  | _ => True

end Birch.Spec.Registry
