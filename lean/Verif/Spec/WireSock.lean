import Verif.Spec.Wire

/-
How the bytes of messages arrive over a connection, one segment per `Read`.
-/

namespace Birch.Spec.Wire
open Birch Spec

/-- what is left of a segment, before further segments -/
def unread (y : Bytes) (t : List Bytes) : List Bytes := if y = [] then t else y :: t

/-- The bytes `body` arrive in the first segments, and the other segments are left.  Either all of `body` comes with the first segment that is not empty, which may
    go on, or it comes in pieces and the last piece is exactly its end. -/
inductive Arrives (body : Bytes) : List Bytes → List Bytes → Prop
  | whole (y : Bytes) (t : List Bytes) (n : Nat) (h : body ≠ []) : Arrives body (List.replicate n [] ++ (body ++ y) :: t) (unread y t)
  | pieces (p : List Bytes) (x : Bytes) (t : List Bytes) (h : x ≠ []) (e : p.flatten ++ x = body) : Arrives body (p ++ x :: t) t

/-- The messages arrive one after the other: the four bytes of the size of each in one segment, and the rest as in `Arrives`. -/
inductive Delivered : List Bytes → List Bytes → Prop
  | done : Delivered [] []
  | next (size body x : Bytes) (t rest : List Bytes) (ms : List Bytes) (hs : size.length = 4) (hb : Arrives body (unread x t) rest) (hd : Delivered rest ms) :
    Delivered ((size ++ x) :: t) ((size ++ body) :: ms)

end Birch.Spec.Wire
