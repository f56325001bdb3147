import Verif.Model.WireModel
import Verif.Spec.Wire

/-
What a handler has to see of a message of the wire protocol, and what the bits of its flags mean (docs: "MongoDB Wire Protocol").
-/

namespace Birch.Spec.Wire
open Birch Spec Model Model.Wire

/-- the name and the documents of a section: a body is named by its first key -/
def ShowsSection : Bytes × List Doc → WSection → Prop
  | (name, ds), .body (.cons k v fs) => name = k ∧ RepDocs ds [.cons k v fs]
  | (name, ds), .sequence id fss => name = id ∧ RepDocs ds fss
  | _, _ => False

def ShowsSections : List (Bytes × List Doc) → List WSection → Prop
  | [], [] => True
  | x :: xs, s :: ss => ShowsSection x s ∧ ShowsSections xs ss
  | _, _ => False

/-- The view has what the message says, apart from its flags. -/
def Shows : View → WMsg → Prop
  | .command db name a m ds up, .command db' name' x y fss => db = db' ∧ name = name' ∧ RepDoc a x ∧ RepDoc m y ∧ RepDocs ds fss ∧ up = false
  | .message _ _ _ _ _ items, .msg _ ss _ => ShowsSections items ss
  | .delete ns a, .delete ns' _ x => ns = ns' ∧ RepDoc a x
  | .insert ns ds, .insert _ ns' fss => ns = ns' ∧ RepDocs ds fss
  | .query ns skip n q p, .query _ ns' skip' n' x y => ns = ns' ∧ skip = skip' ∧ n = n' ∧ RepDoc q x ∧ match y with
    | none => p = none
    | some y => RepDoc p y
  | .update ns a b _ _, .update ns' _ x y => ns = ns' ∧ RepDoc a x ∧ RepDoc b y
  | .reply ds c s _ _, .reply _ c' s' _ fss => c = c' ∧ s = s' ∧ RepDocs ds fss
  | _, _ => False

/-- bit `i` of the flags, which may be seen as a signed number -/
def Bit (i : Nat) (f : Int) : Prop := f / 2 ^ i % 2 = 1

/-- The view has the flags of the message.  OP_UPDATE: 0 Upsert, 1 MultiUpdate.  OP_REPLY: 0 CursorNotFound, 1 QueryFailure.  OP_MSG: 0 checksumPresent,
    1 moreToCome. -/
def FlagsShown : View → WMsg → Prop
  | .update _ _ _ upsert multi, .update _ f _ _ => (upsert = true ↔ Bit 0 f) ∧ (multi = true ↔ Bit 1 f)
  | .reply _ _ _ notFound failure, .reply f _ _ _ _ => (notFound = true ↔ Bit 0 f) ∧ (failure = true ↔ Bit 1 f)
  | .message _ _ _ more checksum _, .msg f _ _ => (checksum = true ↔ Bit 0 f) ∧ (more = true ↔ Bit 1 f)
  | _, _ => True

/-- Every body of an OP_MSG has an element, which names the command. -/
def Named : WMsg → Prop
  | .msg _ ss _ => ∀ s ∈ ss, s ≠ .body .nil
  | _ => True

/-- The protocol has a reply to the message: to queries, to commands, to a request for more, and to an OP_MSG unless the sender goes on (moreToCome). -/
def Replied : WMsg → Prop
  | .query .. | .getMore .. | .command .. => True
  | .msg f _ _ => ¬ Bit 1 f
  | _ => False

end Birch.Spec.Wire
