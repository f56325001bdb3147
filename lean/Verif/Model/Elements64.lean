import Verif.Model.Elements

/-
The encoders of package `elements` (elements/elements.go) with the arithmetic of a 64-bit machine: `start` is a `uint`
below 2^64, sums of `uint` wrap, and the sizes are compared as `int` after a conversion that may turn negative.
`Model/Elements`, which the rest of the model uses, has unbounded positions instead.
-/

namespace Birch.Model.Elements64
open Birch Model.Elements

/-- `start + uint(n)` -/
def up (start n : Nat) : Nat := (start + n) % 18446744073709551616

/-- two encoder calls after one another, as `Elements.seq`; `start += uint(n)` wraps (e.g. elements.go:128-151) -/
def seq (r : Res Out) (start : Nat) (g : Nat → Bytes → Res Out) : Res Out := do
  let a ← r
  if a.failed then .ok a else do
  let c ← g (up start a.n) a.buf
  .ok ⟨a.n + c.n, c.buf, c.failed⟩

/-- `binary.LittleEndian.Put…(writer[lo:hi], …)`, which panics when `src` does not fit there -/
def put (w : Bytes) (lo hi : Nat) (src : Bytes) : Res (Nat × Bytes) :=
  if lo + src.length ≤ hi ∧ hi ≤ w.length then copyAt w lo src else .panic

/-- `BSONByteNS.Encode` (elements.go:935-943): `len(writer) < int(start+1)` -/
def byte (start : Nat) (w : Bytes) (t : UInt8) : Res Out :=
  if (w.length : Int) < i64 (up start 1) then tooSmall w else do
  let w ← setByte w start t
  .ok ⟨1, w, false⟩

/-- `CStringNS.Encode` (elements.go:921-931): `len(writer) < int(start+1)+len(str)`, then `copy(writer[start:end], str)`
    with `end := int(start) + len(str)`, which panics unless `start ≤ end ≤ len(writer)` -/
def cstring (start : Nat) (w : Bytes) (str : Bytes) : Res Out :=
  if (w.length : Int) < i64 (i64 (up start 1) + str.length) then tooSmall w else do
  let end_ := i64 (i64 start + str.length)
  if (start : Int) ≤ end_ ∧ end_ ≤ w.length then do
    let (n, w) ← copyAt w start str
    let w ← setByte w end_.toNat 0
    .ok ⟨n + 1, w, false⟩
  else .panic

/-- `encodeByteSlice` (elements.go:945-953): `len(writer) < int(start)+len(b)` -/
def byteSlice (start : Nat) (w : Bytes) (b : Bytes) : Res Out :=
  if (w.length : Int) < i64 (i64 start + b.length) then tooSmall w else do
  let (n, w) ← copyAt w start b
  .ok ⟨n, w, false⟩

/-- `encodeUint32` (elements.go:955-963): `len(writer) < int(start+4)` -/
def uint32 (start : Nat) (w : Bytes) (u : Nat) : Res Out :=
  if (w.length : Int) < i64 (up start 4) then tooSmall w else do
  let (_, w) ← put w start w.length (le32 u)
  .ok ⟨4, w, false⟩

/-- `encodeUint64` (elements.go:965-973) -/
def uint64 (start : Nat) (w : Bytes) (u : Nat) : Res Out :=
  if (w.length : Int) < i64 (up start 8) then tooSmall w else do
  let (_, w) ← put w start w.length (le64 u)
  .ok ⟨8, w, false⟩

/-- `Int32NS.Encode` (elements.go:738-746): `len(writer) < int(start)+4`, then `writer[start:start+4]`;
    `signed32ToUnsigned` (975-977) -/
def int32 (start : Nat) (w : Bytes) (i : Int) : Res Out :=
  if (w.length : Int) < i64 (i64 start + 4) then tooSmall w else do
  let (_, w) ← put w start (up start 4) (le32 (u32i i))
  .ok ⟨4, w, false⟩

/-- `Int64NS.Encode` (elements.go:831-835); `signed64ToUnsigned` (979-981) -/
def int64 (start : Nat) (w : Bytes) (i : Int) : Res Out := uint64 start w (u64i i)

/-- `DoubleNS.Encode` (elements.go:112-121): `len(writer) < int(start+8)`, then `writer[start:start+8]` -/
def double (start : Nat) (w : Bytes) (bits : Nat) : Res Out :=
  if (w.length : Int) < i64 (up start 8) then tooSmall w else do
  let (_, w) ← put w start (up start 8) (le64 bits)
  .ok ⟨8, w, false⟩

/-- `StringNS.Encode` (elements.go:156-174), and `JavaScriptNS.Encode`, `SymbolNS.Encode` (605-607, 642-644) -/
def string (start : Nat) (w : Bytes) (s : Bytes) : Res Out :=
  seq (int32 start w (i32 (i32 s.length + 1))) start fun st w => cstring st w s

/-- `BinNS.encodeSubtype2` (elements.go:312-343): `len(writer) < int(start)+9+len(b)` -/
def binarySubtype2 (start : Nat) (w : Bytes) (b : Bytes) : Res Out :=
  if (w.length : Int) < i64 (i64 (i64 start + 9) + b.length) then tooSmall w else
  seq (int32 start w (i32 (i32 b.length + 4))) start fun st w => do
    let w ← setByte w st 2
    seq (.ok ⟨1, w, false⟩) st fun st w =>
      seq (int32 st w (i32 b.length)) st fun st w => do
        let (n, w) ← copyAt w st b
        .ok ⟨n, w, false⟩

/-- `BinNS.Encode` (elements.go:283-310): `len(writer) < int(start)+5+len(b)` -/
def binary (start : Nat) (w : Bytes) (b : Bytes) (btype : UInt8) : Res Out :=
  if btype = 2 then binarySubtype2 start w b else
  if (w.length : Int) < i64 (i64 (i64 start + 5) + b.length) then tooSmall w else
  seq (int32 start w (i32 b.length)) start fun st w => do
    let w ← setByte w st btype
    seq (.ok ⟨1, w, false⟩) st fun st w => do
      let (n, w) ← copyAt w st b
      .ok ⟨n, w, false⟩

/-- `BooleanNS.Encode` (elements.go:415-427): `len(writer) < int(start)+1` -/
def boolean (start : Nat) (w : Bytes) (b : Bool) : Res Out :=
  if (w.length : Int) < i64 (i64 start + 1) then tooSmall w else do
  let w ← setByte w start (if b then 1 else 0)
  .ok ⟨1, w, false⟩

/-- `RegexNS.Encode` (elements.go:499-513) -/
def regex (start : Nat) (w : Bytes) (pattern options : Bytes) : Res Out :=
  seq (cstring start w pattern) start fun st w => cstring st w options

/-- `DBPointerNS.Encode` (elements.go:556-570) -/
def dbpointer (start : Nat) (w : Bytes) (ns oid : Bytes) : Res Out :=
  seq (string start w ns) start fun st w => byteSlice st w oid

/-- `CodeWithScopeNS.Encode` (elements.go:679-703) -/
def codeWithScope (start : Nat) (w : Bytes) (code doc : Bytes) : Res Out :=
  seq (int32 start w (i32 (9 + i32 code.length + i32 doc.length))) start fun st w =>
    seq (string st w code) st fun st w => byteSlice st w doc

/-- `TimestampNS.Encode` (elements.go:781-796) -/
def timestamp (start : Nat) (w : Bytes) (t i : Nat) : Res Out :=
  seq (uint32 start w i) start fun st w => uint32 st w t

/-- `Decimal128NS.Encode` (elements.go:870-886) -/
def decimal128 (start : Nat) (w : Bytes) (high low : Nat) : Res Out :=
  seq (uint64 start w low) start fun st w => uint64 st w high

/-- The common shape of the `Element` methods (elements.go:125-152, 178-205, 215-242, 252-279, 347-374, 384-411, 431-458,
    468-495, 574-601, 611-638, 648-675, 707-734, 750-777, 800-827, 839-866, 890-917): type byte, key, value. -/
def element (tag : UInt8) (key : Bytes) (value : Nat → Bytes → Res Out) (start : Nat) (w : Bytes) : Res Out :=
  seq (byte start w tag) start fun st w =>
    seq (cstring st w key) st fun st w => value st w

/-- `RegexNS.Element` (elements.go:517-552) -/
def regexElement (key pattern options : Bytes) (start : Nat) (w : Bytes) : Res Out :=
  seq (byte start w 0x0B) start fun st w =>
    seq (cstring st w key) st fun st w =>
      seq (cstring st w pattern) st fun st w => cstring st w options

end Birch.Model.Elements64
