import Verif.Model.Compare
import Verif.Model.Constructors

/-
Model of the conversion of Go integers and times into elements (constructor.go, x_constructor.go).
-/

namespace Birch.Model
open Birch

/-- a Go integer in an `any`, by its static type (`int` and `uint` have 64 bits) -/
inductive GoInt where
  | int8 (i : Int) | int16 (i : Int) | int32 (i : Int) | int64 (i : Int) | int (i : Int)
  | uint8 (n : Nat) | uint16 (n : Nat) | uint32 (n : Nat) | uint64 (n : Nat) | uint (n : Nat)
  deriving DecidableEq

/-- the `uint` and `uint64` branches of `EC.Interface` (constructor.go:66-74, 82-90) -/
def EC.ofUint64 (key : Bytes) (n : Nat) : Res Value :=
  if n < 2147483647 then EC.int32 key (i32 n)
  else if n > 9223372036854775807 then EC.null key
  else EC.int64 key (i64 n)

/-- the integer branches of `EC.Interface` (constructor.go:49-88).  Conversions to wider types are the identity. -/
def EC.interfaceInt (key : Bytes) : GoInt → Res Value
  | .int8 i => EC.int32 key i
  | .int16 i => EC.int32 key i
  | .int32 i => EC.int32 key i
  | .int64 i => EC.int64 key i
  | .int i => EC.int key i
  | .uint8 n => EC.int32 key n
  | .uint16 n => EC.int32 key n
  | .uint n => EC.ofUint64 key n
  | .uint32 n => if n < 2147483647 then EC.int32 key (i32 n) else EC.int64 key n
  | .uint64 n => EC.ofUint64 key n

/-- the `uint` and `uint64` branches of `ECE.Interface` (constructor.go:165-182) -/
def ECE.ofUint64 (key : Bytes) (n : Nat) : Res Value :=
  if n < 2147483647 then EC.int32 key (i32 n)
  else if n > 9223372036854775807 then .err .other
  else EC.int64 key (i64 n)

/-- `ECE.Interface` (constructor.go:163-197) on integers: the default branch calls `EC.Interface` and rejects Null -/
def ECE.interfaceInt (key : Bytes) : GoInt → Res Value
  | .uint n => ECE.ofUint64 key n
  | .uint64 n => ECE.ofUint64 key n
  | g => do
    let elem ← EC.interfaceInt key g
    if (← type elem) = 0x0A then .err .other else .ok elem

/-- `EC.Time` (constructor.go:386-389); Go's `/` truncates -/
def EC.time (key : Bytes) (t : Time) : Res Value :=
  EC.dateTime key (i64 (i64 (t.sec * 1000) + t.nsec.tdiv 1000000))

end Birch.Model
