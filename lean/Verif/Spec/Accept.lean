import Verif.Spec.Bson
import Verif.Spec.Tame
import Verif.Model.Value

/- The bytes the readers of this library take for a document: a grammar that is looser than BSON. -/

namespace Birch.Spec
open Birch

/-- One element as the readers see it: type byte, key, bytes of the value. -/
abbrev Item := UInt8 × Bytes × Bytes

/-- The bytes that are taken for a value of a type.  Nothing inside of a length-prefixed value is
    looked at: a string need not end in a NUL, an embedded document need not be one. -/
inductive Loose : UInt8 → Bytes → Prop
  | empty (t : UInt8) : t = 0x06 ∨ t = 0x0A ∨ t = 0xFF ∨ t = 0x7F → Loose t []
  | eight (t : UInt8) (b : Bytes) : t = 0x01 ∨ t = 0x09 ∨ t = 0x11 ∨ t = 0x12 → b.length = 8 → Loose t b
  | oid (b : Bytes) : b.length = 12 → Loose 0x07 b
  | int32 (b : Bytes) : b.length = 4 → Loose 0x10 b
  | decimal (b : Bytes) : b.length = 16 → Loose 0x13 b
  | bool (c : UInt8) : c = 0 ∨ c = 1 → Loose 0x08 [c]
  /-- string, JavaScript, symbol: a length and as many bytes, none being enough -/
  | text (t : UInt8) (s : Bytes) : t = 0x02 ∨ t = 0x0D ∨ t = 0x0E → Loose t (le32 s.length ++ s)
  /-- document, array: a length of at least 5 that counts itself, and anything of that length -/
  | embedded (t : UInt8) (s : Bytes) : t = 0x03 ∨ t = 0x04 → s ≠ [] → Loose t (le32 (s.length + 4) ++ s)
  | binary (st : UInt8) (s : Bytes) : st ≤ 5 ∨ 0x80 ≤ st → Loose 0x05 (le32 s.length ++ st :: s)
  | regex (p o : Bytes) : NulFree p → NulFree o → Loose 0x0B (p ++ 0 :: (o ++ [0]))
  | dbpointer (s id : Bytes) : id.length = 12 → Loose 0x0C (le32 s.length ++ (s ++ id))
  /-- code with scope: a length of at least 4 that counts itself, and anything of that length -/
  | code (s : Bytes) : Loose 0x0F (le32 (s.length + 4) ++ s)

/-- `Items es b rest`: the bytes `b` are the elements `es`, a zero byte, and `rest`. -/
inductive Items : List Item → Bytes → Bytes → Prop
  | stop (rest : Bytes) : Items [] (0 :: rest) rest
  | item {t : UInt8} {k v : Bytes} {es : List Item} {b rest : Bytes} : NulFree k → Loose t v → Items es b rest →
      Items ((t, k, v) :: es) (t :: (k ++ 0 :: (v ++ b))) rest
  /-- A code with scope whose length is below 4: the value is as many bytes of its own length field,
      and the zero that ends the document is the next byte of that field. -/
  | stub {k v rest post : Bytes} : NulFree k → v.length < 4 → v ++ 0 :: rest = le32 v.length ++ post →
      Items [(0x0F, k, v)] (0x0F :: (k ++ 0 :: (v ++ 0 :: rest))) rest

/-- The input is taken for a document with the elements `es` that ends after `m` bytes.  The declared
    length only has to reach the final zero and to stay inside of the input. -/
def Accepted (b : Bytes) (es : List Item) (m : Nat) : Prop :=
  ∃ n body rest, b = le32 n ++ body ∧ Items es body rest ∧ n ≤ b.length ∧ m ≤ n ∧ m + rest.length = b.length

/-- The embedded documents and arrays are accepted too, at every depth. -/
inductive Deep : Bytes → Prop
  | intro {b : Bytes} {es : List Item} {m : Nat} : Accepted b es m →
      (∀ e ∈ es, e.1 = 0x03 ∨ e.1 = 0x04 → Deep e.2.2) → Deep b

/-- `Shown b d es`: the values `d` are windows into `b` that lie on the elements `es`. -/
inductive Shown (b : Bytes) : List Model.Value → List Item → Prop
  | nil : Shown b [] []
  | cons {pre k x post : Bytes} {t : UInt8} {d : List Model.Value} {es : List Item} :
      b = pre ++ t :: (k ++ 0 :: (x ++ post)) → Shown b d es →
      Shown b (.raw pre.length (pre.length + k.length + 2) b :: d) ((t, k, x) :: es)

/-- The second length of everything that looks like a code with scope, the one of the code, does not overflow
    int32 together with the size of the input.  (In particular it is not negative.) -/
def CodeLengths (b : Bytes) : Prop :=
  ∀ (pre k rest : Bytes), b = pre ++ 0x0F :: (k ++ 0 :: rest) → NulFree k →
    ∀ n, lenAt (rest.drop 4) = some n → n + b.length < 2147483648

/-- What marshalling copies of a value that was read. -/
inductive Kept : UInt8 → Bytes → Bytes → Prop
  | plain (t : UInt8) (v : Bytes) : t ≠ 0x02 ∧ t ≠ 0x0D ∧ t ≠ 0x0E ∧ t ≠ 0x03 ∧ t ≠ 0x04 ∧ t ≠ 0x0F → Kept t v v
  /-- a string of length 0 passes, every other one has to end in a NUL -/
  | text (t : UInt8) (s : Bytes) : t = 0x02 ∨ t = 0x0D ∨ t = 0x0E → s = [] ∨ s.getLast? = some 0 →
      Kept t (le32 s.length ++ s) (le32 s.length ++ s)
  /-- an embedded document is copied up to its final zero, with the length it declares -/
  | embedded (t : UInt8) (v : Bytes) (es : List Item) (m : Nat) : t = 0x03 ∨ t = 0x04 → Accepted v es m →
      (∀ e ∈ es, e.1 = 0x03 ∨ e.1 = 0x04 → Deep e.2.2) → Kept t v (v.take m)
  /-- The code has length 0 or ends in a NUL; the scope is copied up to its final zero, with the length `n` it declares.
      The length of the whole is written anew, from the length the scope declares. -/
  | code (c body : Bytes) (n : Nat) (es : List Item) (m : Nat) : c = [] ∨ c.getLast? = some 0 →
      Accepted (le32 n ++ body) es m → n ≤ body.length + 4 → (∀ e ∈ es, e.1 = 0x03 ∨ e.1 = 0x04 → Deep e.2.2) →
      Kept 0x0F (le32 (c.length + body.length + 12) ++ (le32 c.length ++ (c ++ (le32 n ++ body))))
        (le32 (c.length + n + 8) ++ (le32 c.length ++ (c ++ (le32 n ++ body).take m)))

/-- `Copied es b`: `b` is what marshalling writes for the elements `es` -/
inductive Copied : List Item → Bytes → Prop
  | nil : Copied [] []
  | cons {t : UInt8} {k v c : Bytes} {es : List Item} {b : Bytes} : Kept t v c → Copied es b →
      Copied ((t, k, v) :: es) (t :: (k ++ 0 :: (c ++ b)))

end Birch.Spec
