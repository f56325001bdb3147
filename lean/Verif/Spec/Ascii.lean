import Verif.Base

namespace Birch

/-- the bytes of a string of ASCII characters -/
def ascii (s : String) : Bytes := s.toList.map fun c => UInt8.ofNat c.toNat

end Birch
