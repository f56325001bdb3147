import Verif.Model.Graph
import Verif.Spec.Rep

/- What objects refer to, and what calls may write to. -/

namespace Birch.Spec.Graph
open Birch Model Model.Graph

inductive Obj where
  | buf (i : Nat)
  | val (i : Nat)
  | elem (i : Nat)
  | doc (i : Nat)
  deriving DecidableEq

/-- the first refers to the second -/
inductive Edge (w : World) : Obj → Obj → Prop
  | data (p : Nat) : Edge w (.val p) (.buf (w.vals p).data.buf)
  | d {p d : Nat} (h : (w.vals p).d = some d) : Edge w (.val p) (.doc d)
  | elem {d e : Nat} (h : e ∈ w.docs d) : Edge w (.doc d) (.elem e)
  | value (e : Nat) : Edge w (.elem e) (.val (w.elems e))

/-- the second is the first, or what it refers to and so on -/
inductive Reach (w : World) : Obj → Obj → Prop
  | refl (o : Obj) : Reach w o o
  | step {a b c : Obj} (h : Edge w a b) (t : Reach w b c) : Reach w a c

/-- the object is one of those there are -/
def Made (w : World) : Obj → Prop
  | .buf i => i < w.nb
  | .val i => i < w.nv
  | .elem i => i < w.ne
  | .doc i => i < w.nd

/-- objects refer to objects there are -/
def Good (w : World) : Prop := ∀ a b, Made w a → Edge w a b → Made w b

/-- the object is the same in both -/
def Same (w w' : World) : Obj → Prop
  | .buf i => w.bufs i = w'.bufs i
  | .val i => w.vals i = w'.vals i
  | .elem i => w.elems i = w'.elems i
  | .doc i => w.docs i = w'.docs i

/-- code with a scope -/
def IsCode (w : World) (p : Nat) : Prop := (w.bytes (w.vals p).data)[(w.vals p).start]? = some 0x0F

/-- a well-formed document whose scopes are all as they were read -/
def Calm (w : World) (n d : Nat) (fs : Fields) : Prop :=
  (∃ tree, viewDoc w n d = .ok tree ∧ RepFields tree fs) ∧ ∀ p, Reach w (.doc d) (.val p) → IsCode w p → (w.vals p).d = none

/-- the call is made with objects there are -/
def Args (w : World) : Call → Prop
  | .copyValue p => Made w (.val p)
  | .set p q => Made w (.val p) ∧ Made w (.val q)
  | .copyElement e => Made w (.elem e)
  | .setValue e p => Made w (.elem e) ∧ Made w (.val p)
  | .copyDocument d => Made w (.doc d)
  | .change d es => Made w (.doc d) ∧ ∀ e ∈ es, Made w (.elem e)
  | .construct _ _ d => ∀ i, d = some i → Made w (.doc i)
  | .value _ p => Made w (.val p)
  | .read _ s => Made w (.buf s.buf)
  | .open _ p => Made w (.val p)
  | .marshal _ d => Made w (.doc d)

/-- what a call writes to, apart from new objects: copies and constructors nothing, `MutableDocument` and its like only a value that has no document yet,
    and marshalling the bytes of code that has a scope, unless the document is well-formed and all scopes are as they were read -/
def Writes (w : World) : Call → Obj → Prop
  | .set p _, o => o = .val p
  | .setValue e _, o => o = .elem e
  | .change d _, o => o = .doc d
  | .open _ p, o => o = .val p ∧ (w.vals p).d = none
  | .marshal n d, o => (¬ ∃ fs, Calm w n d fs ∧ (encDoc fs).length < 2147483648 ∧ (encDoc fs).length < n) ∧
      ∃ p, Reach w (.doc d) (.val p) ∧ IsCode w p ∧ o = .buf (w.vals p).data.buf
  | _, _ => False

/-- calls one after the other, none of which writes to any of these objects -/
def Avoid (os : Obj → Prop) : World → List Call → Prop
  | _, [] => True
  | w, c :: cs => Args w c ∧ (∀ o, os o → ¬ Writes w c o) ∧ Avoid os (c.run w) cs

/-- no document is in itself: values can be given numbers that become smaller from a document to what is in it -/
def Ranked (w : World) (rank : Nat → Nat) : Prop := ∀ p d, (w.vals p).d = some d → ∀ e ∈ w.docs d, rank (w.elems e) < rank p

end Birch.Spec.Graph
