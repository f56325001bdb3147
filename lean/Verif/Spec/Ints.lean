import Verif.Model.Ints

/-
Which number a Go integer is, and which are valid.
-/

namespace Birch.Spec
open Birch Model

/-- the number -/
def intVal : GoInt → Int
  | .int8 i => i | .int16 i => i | .int32 i => i | .int64 i => i | .int i => i
  | .uint8 n => n | .uint16 n => n | .uint32 n => n | .uint64 n => n | .uint n => n

/-- the range of the type -/
def inRange : GoInt → Prop
  | .int8 i => -128 ≤ i ∧ i < 128
  | .int16 i => -32768 ≤ i ∧ i < 32768
  | .int32 i => -2147483648 ≤ i ∧ i < 2147483648
  | .int64 i => -9223372036854775808 ≤ i ∧ i < 9223372036854775808
  | .int i => -9223372036854775808 ≤ i ∧ i < 9223372036854775808
  | .uint8 n => n < 256
  | .uint16 n => n < 65536
  | .uint32 n => n < 4294967296
  | .uint64 n => n < 18446744073709551616
  | .uint n => n < 18446744073709551616

/-- nanoseconds since 1970 -/
def nanoseconds (t : Time) : Int := t.sec * 1000000000 + t.nsec

/-- every `time.Time` keeps its nanoseconds in [0, 10^9) -/
def Normal (t : Time) : Prop := 0 ≤ t.nsec ∧ t.nsec < 1000000000

end Birch.Spec
