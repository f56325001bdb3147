import Verif.Model.Compare

/-
types/objectid.go: hexadecimal text and generation of ObjectIDs.
An `ObjectID` is a list of 12 bytes.
-/

namespace Birch.Model

/-- `fromHexChar`/`reverseHexTable` of the standard library's `encoding/hex` -/
def hexValue (c : UInt8) : Option Nat :=
  if 48 ≤ c.toNat ∧ c.toNat ≤ 57 then some (c.toNat - 48)
  else if 97 ≤ c.toNat ∧ c.toNat ≤ 102 then some (c.toNat - 87)
  else if 65 ≤ c.toNat ∧ c.toNat ≤ 70 then some (c.toNat - 55)
  else none

/-- `hex.DecodeString` (standard library), used by `ObjectIDFromHex` (types/objectid.go:66): `none` for a character
    that is not a hexadecimal digit and for odd length -/
def hexDecode : Bytes → Option Bytes
  | [] => some []
  | [_] => none
  | c :: d :: r =>
    match hexValue c, hexValue d with
    | some a, some b => (hexDecode r).map (UInt8.ofNat (a * 16 + b) :: ·)
    | _, _ => none

/-- `ObjectID.Hex` (types/objectid.go:50-52) -/
def ObjectID.hex (id : Bytes) : Bytes := hexEncode id

/-- `ObjectIDFromHex` (types/objectid.go:65-80) -/
def ObjectID.fromHex (s : Bytes) : Option Bytes :=
  match hexDecode s with
  | none => none
  | some b => if b.length ≠ 12 then none else some b

/-! ### Generation -/

/-- `binary.BigEndian.PutUint32` (standard library) -/
def be32 (v : UInt32) : Bytes := [(v >>> 24).toUInt8, (v >>> 16).toUInt8, (v >>> 8).toUInt8, v.toUInt8]

/-- `putUint24` (types/objectid.go:168-172) -/
def putUint24 (v : UInt32) : Bytes := [(v >>> 16).toUInt8, (v >>> 8).toUInt8, v.toUInt8]

/-- what one goroutine is doing inside `NewObjectID` (types/objectid.go:38-47) -/
inductive Phase where
  /-- not in `NewObjectID` -/
  | idle
  /-- `time.Now()` was read (line 42) -/
  | timed (t : UInt32)
  /-- the atomic increment of `objectIDCounter` returned `n` (line 44) -/
  | counted (t n : UInt32)

/-- the process: the global counter, all goroutines, and the ids returned so far, latest first -/
structure Gen where
  counter : UInt32
  phase : Nat → Phase
  out : List Bytes

/-- one step of one goroutine -/
inductive GenEvent where
  /-- goroutine `g` calls `NewObjectID` and reads the clock, which shows `t` -/
  | call (g : Nat) (t : UInt32)
  /-- goroutine `g` performs `atomic.AddUint32(&objectIDCounter, 1)` -/
  | increment (g : Nat)
  /-- goroutine `g` returns -/
  | return_ (g : Nat)

/-- `processUnique` is the five bytes `unique`, chosen at random when the process starts (types/objectid.go:36) -/
def newID (unique : Bytes) (t n : UInt32) : Bytes := be32 t ++ unique ++ putUint24 n

/-- one step; an event that the goroutine is not ready for does nothing -/
def Gen.step (unique : Bytes) (s : Gen) : GenEvent → Gen
  | .call g t =>
    match s.phase g with
    | .idle => { s with phase := fun g' => if g' = g then .timed t else s.phase g' }
    | _ => s
  | .increment g =>
    match s.phase g with
    | .timed t => { s with counter := s.counter + 1, phase := fun g' => if g' = g then .counted t (s.counter + 1) else s.phase g' }
    | _ => s
  | .return_ g =>
    match s.phase g with
    | .counted t n => { s with phase := fun g' => if g' = g then .idle else s.phase g', out := newID unique t n :: s.out }
    | _ => s

/-- any schedule of any number of goroutines, from a random counter (`readRandomUint32`, types/objectid.go:33, 158-166) -/
def Gen.run (unique : Bytes) (c0 : UInt32) (evs : List GenEvent) : Gen :=
  evs.foldl (Gen.step unique) ⟨c0, fun _ => .idle, []⟩

end Birch.Model
