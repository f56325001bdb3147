import Verif.Base

/- How far behind a bad value an iterator goes. -/

namespace Birch.Spec.ReaderLoops
open Birch

/-- The number of bytes of a bad value of type `t` that are skipped, if `rest` is what there is from its first byte on: the length field of values that have one, with the
    subtype of a binary; a boolean; all that is left of a regular expression that does not end; and nothing of any other. -/
def skipped (t : UInt8) (rest : Bytes) : Nat :=
  if t = 0x02 ∨ t = 0x03 ∨ t = 0x04 ∨ t = 0x0C ∨ t = 0x0D ∨ t = 0x0E ∨ t = 0x0F then if rest.length < 4 then 0 else 4
  else if t = 0x05 then if rest.length < 5 then 0 else 5
  else if t = 0x08 then if rest.length < 1 then 0 else 1
  else if t = 0x0B then rest.length
  else 0

end Birch.Spec.ReaderLoops
