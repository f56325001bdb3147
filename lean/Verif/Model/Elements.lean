import Verif.Base

/-
Model of package `elements` (elements/elements.go): encoders that write into a
caller-supplied buffer at a given start position.

The `uint` start position is a natural number; `start+k` is not wrapped (positions near
2^63 and above are in `Model/Elements64`, and C94 says that below nothing differs).
-/

namespace Birch.Model.Elements
open Birch

/-- What an encoder call leaves behind: the reported count, the buffer after the call
    (encoders may write before failing) and whether `ErrTooSmall` was returned. -/
structure Out where
  n : Nat
  buf : Bytes
  failed : Bool
  deriving DecidableEq, Repr

/-- `ErrTooSmall` with count 0 and no write -/
def tooSmall (b : Bytes) : Res Out := .ok ⟨0, b, true⟩

/-- The glue between two consecutive encoder calls used all over the package:
    `n, err := f(start); start += n; total += n; if err != nil { return total, err }; g(start)`
    (e.g. elements.go:128-151). -/
def seq (r : Res Out) (start : Nat) (g : Nat → Bytes → Res Out) : Res Out := do
  let a ← r
  if a.failed then .ok a else do
  let c ← g (start + a.n) a.buf
  .ok ⟨a.n + c.n, c.buf, c.failed⟩

/-- `writer[i] = x`; panics out of range -/
def setByte (b : Bytes) (i : Nat) (x : UInt8) : Res Bytes :=
  if i < b.length then .ok (b.set i x) else .panic

/-- `BSONByteNS.Encode` (elements.go:935-943) -/
def byte (start : Nat) (w : Bytes) (t : UInt8) : Res Out :=
  if w.length < start + 1 then tooSmall w else do
  let w ← setByte w start t
  .ok ⟨1, w, false⟩

/-- `CStringNS.Encode` (elements.go:921-931).  `copy` into `writer[start:end]` copies all of
    `str` because both have the same length. -/
def cstring (start : Nat) (w : Bytes) (str : Bytes) : Res Out :=
  if w.length < start + 1 + str.length then tooSmall w else do
  let (n, w) ← copyAt w start str
  let w ← setByte w (start + str.length) 0
  .ok ⟨n + 1, w, false⟩

/-- `encodeByteSlice` (elements.go:945-953) -/
def byteSlice (start : Nat) (w : Bytes) (b : Bytes) : Res Out :=
  if w.length < start + b.length then tooSmall w else do
  let (n, w) ← copyAt w start b
  .ok ⟨n, w, false⟩

/-- `encodeUint32` (elements.go:955-963) -/
def uint32 (start : Nat) (w : Bytes) (u : Nat) : Res Out :=
  if w.length < start + 4 then tooSmall w else do
  let (_, w) ← copyAt w start (le32 u)
  .ok ⟨4, w, false⟩

/-- `encodeUint64` (elements.go:965-973) -/
def uint64 (start : Nat) (w : Bytes) (u : Nat) : Res Out :=
  if w.length < start + 8 then tooSmall w else do
  let (_, w) ← copyAt w start (le64 u)
  .ok ⟨8, w, false⟩

/-- `Int32NS.Encode` (elements.go:738-746); the argument is a Go `int32` -/
def int32 (start : Nat) (w : Bytes) (i : Int) : Res Out :=
  if w.length < start + 4 then tooSmall w else do
  let (_, w) ← copyAt w start (le32 (u32i i))
  .ok ⟨4, w, false⟩

/-- `Int64NS.Encode` (elements.go:831-835) -/
def int64 (start : Nat) (w : Bytes) (i : Int) : Res Out := uint64 start w (u64i i)

/-- `DoubleNS.Encode` (elements.go:112-121); a float is its bit pattern -/
def double (start : Nat) (w : Bytes) (bits : Nat) : Res Out :=
  if w.length < start + 8 then tooSmall w else do
  let (_, w) ← copyAt w start (le64 bits)
  .ok ⟨8, w, false⟩

/-- `StringNS.Encode` (elements.go:156-174).  `int32(len(s))+1` wraps. -/
def string (start : Nat) (w : Bytes) (s : Bytes) : Res Out :=
  seq (int32 start w (i32 (i32 s.length + 1))) start fun st w => cstring st w s

/-- `DocumentNS.Encode`, `ArrayNS.Encode` (elements.go:209-211, 246-248) -/
def document (start : Nat) (w : Bytes) (doc : Bytes) : Res Out := byteSlice start w doc

/-- `BinNS.encodeSubtype2` (elements.go:312-343) -/
def binarySubtype2 (start : Nat) (w : Bytes) (b : Bytes) : Res Out :=
  if w.length < start + 9 + b.length then tooSmall w else
  seq (int32 start w (i32 (i32 b.length + 4))) start fun st w => do
    let w ← setByte w st 2
    seq (.ok ⟨1, w, false⟩) st fun st w =>
      seq (int32 st w (i32 b.length)) st fun st w => do
        let (n, w) ← copyAt w st b
        .ok ⟨n, w, false⟩

/-- `BinNS.Encode` (elements.go:283-310) -/
def binary (start : Nat) (w : Bytes) (b : Bytes) (btype : UInt8) : Res Out :=
  if btype = 2 then binarySubtype2 start w b else
  if w.length < start + 5 + b.length then tooSmall w else
  seq (int32 start w (i32 b.length)) start fun st w => do
    let w ← setByte w st btype
    seq (.ok ⟨1, w, false⟩) st fun st w => do
      let (n, w) ← copyAt w st b
      .ok ⟨n, w, false⟩

/-- `ObjectIDNS.Encode` (elements.go:378-380) -/
def objectID (start : Nat) (w : Bytes) (oid : Bytes) : Res Out := byteSlice start w oid

/-- `BooleanNS.Encode` (elements.go:415-427) -/
def boolean (start : Nat) (w : Bytes) (b : Bool) : Res Out :=
  if w.length < start + 1 then tooSmall w else do
  let w ← setByte w start (if b then 1 else 0)
  .ok ⟨1, w, false⟩

/-- `DatetimeNS.Encode` (elements.go:462-464) -/
def datetime (start : Nat) (w : Bytes) (dt : Int) : Res Out := int64 start w dt

/-- `RegexNS.Encode` (elements.go:499-513) -/
def regex (start : Nat) (w : Bytes) (pattern options : Bytes) : Res Out :=
  seq (cstring start w pattern) start fun st w => cstring st w options

/-- `DBPointerNS.Encode` (elements.go:556-570) -/
def dbpointer (start : Nat) (w : Bytes) (ns oid : Bytes) : Res Out :=
  seq (string start w ns) start fun st w => objectID st w oid

/-- `CodeWithScopeNS.Encode` (elements.go:679-703) -/
def codeWithScope (start : Nat) (w : Bytes) (code doc : Bytes) : Res Out :=
  seq (int32 start w (i32 (9 + i32 code.length + i32 doc.length))) start fun st w =>
    seq (string st w code) st fun st w => byteSlice st w doc

/-- `TimestampNS.Encode` (elements.go:781-796) -/
def timestamp (start : Nat) (w : Bytes) (t i : Nat) : Res Out :=
  seq (uint32 start w i) start fun st w => uint32 st w t

/-- `Decimal128NS.Encode` (elements.go:870-886) -/
def decimal128 (start : Nat) (w : Bytes) (high low : Nat) : Res Out :=
  seq (uint64 start w low) start fun st w => uint64 st w high

/-- The common shape of all `Element` methods (elements.go:125-152 and the like):
    type byte, key, value. -/
def element (tag : UInt8) (key : Bytes) (value : Nat → Bytes → Res Out)
    (start : Nat) (w : Bytes) : Res Out :=
  seq (byte start w tag) start fun st w =>
    seq (cstring st w key) st fun st w => value st w

/-- `RegexNS.Element` (elements.go:517-552) calls `CString.Encode` twice directly. -/
def regexElement (key pattern options : Bytes) (start : Nat) (w : Bytes) : Res Out :=
  seq (byte start w 0x0B) start fun st w =>
    seq (cstring st w key) st fun st w =>
      seq (cstring st w pattern) st fun st w => cstring st w options

end Birch.Model.Elements
