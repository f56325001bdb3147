import Verif.Spec.Decimal

/-
The texts that stand for decimal numbers, and what they stand for, written down without reference to the code.
-/

namespace Birch.Spec.Decimal
open Birch Model.Decimal

/-- the significant digits: everything from the first digit that is not zero -/
def sig (ds : Bytes) : Bytes := ds.dropWhile (· = 48)

/-- the digits there is room for: 34 significant digits -/
def kept (ds : Bytes) : Bytes := (sig ds).take 34

/-- the digits there is no room for -/
def cut (ds : Bytes) : Bytes := (sig ds).drop 34

/-- nothing but zeros -/
def Zeros (ds : Bytes) : Prop := ∀ c ∈ ds, c = 48

/-- a sign that may be left out; `some true` is minus -/
def signText : Option Bool → Bytes
  | none => []
  | some true => [45]
  | some false => [43]

/-- A number as it is written: sign, digits before the point, the point with the digits after it, and the exponent with its
    letter, its sign and its digits. -/
structure Written where
  sign : Option Bool
  int : Bytes
  frac : Option Bytes
  exp : Option (UInt8 × Option Bool × Bytes)

namespace Written

def fracText : Option Bytes → Bytes
  | none => []
  | some f => 46 :: f

def expText : Option (UInt8 × Option Bool × Bytes) → Bytes
  | none => []
  | some (c, s, ds) => c :: (signText s ++ ds)

def text (w : Written) : Bytes := signText w.sign ++ (w.int ++ (fracText w.frac ++ expText w.exp))

/-- the digits after the point -/
def fraction (w : Written) : Bytes := w.frac.getD []

/-- the digits on both sides of the point -/
def digits (w : Written) : Bytes := w.int ++ w.fraction

/-- the number is negative -/
def neg (w : Written) : Bool := w.sign = some true

/-- The rules for writing: digits are digits, there is at least one, the exponent has a letter `E` or `e` and at least one digit,
    and a point without digits after it is the end. -/
structure Ok (w : Written) : Prop where
  int : ∀ c ∈ w.int, Digit c
  frac : ∀ c ∈ w.fraction, Digit c
  digits : w.digits ≠ []
  last : w.frac = some [] → w.exp = none
  exp : ∀ c s ds, w.exp = some (c, s, ds) → (c = 69 ∨ c = 101) ∧ ds ≠ [] ∧ ∀ c ∈ ds, Digit c

/-- the exponent as written, 0 if it is not -/
def power (w : Written) : Int :=
  match w.exp with
  | none => 0
  | some (_, s, ds) => if s = some true then -(value ds : Int) else value ds

/-- What is read although the format has no room for it: zeros after the 34th digit, as long as they are not followed by a point and
    more digits, and exponents of up to five digits. -/
structure Readable (w : Written) : Prop where
  cut : Zeros (cut w.digits)
  point : Decimal.cut w.int = [] ∨ w.fraction = []
  power : -100000 < w.power ∧ w.power < 100000

/-- the coefficient -/
def coeff (w : Written) : Nat := value (kept w.digits)

/-- the exponent that goes with the coefficient: the number is `± coeff * 10 ^ scale` -/
def scale (w : Written) : Int := w.power - w.fraction.length + (cut w.digits).length

end Written

/-- the same word in whatever case; `word` is in lower case -/
def Cased (word s : Bytes) : Prop := s.length = word.length ∧ ∀ i (h : i < s.length) (h' : i < word.length), s[i] = word[i] ∨ s[i] + 32 = word[i]

/-- the texts that are not numbers: NaN and the infinities, with an optional sign; `0x7C…`, `0x78…` and `0xF8…` are their codes -/
inductive Special : Bytes → Dec → Prop
  | nan {sign s} : Cased "nan".toUTF8.toList s → Special (signText sign ++ s) ⟨0x7C00000000000000, 0⟩
  | inf {sign s} : sign ≠ some true → Cased "inf".toUTF8.toList s ∨ Cased "infinity".toUTF8.toList s → Special (signText sign ++ s) ⟨0x7800000000000000, 0⟩
  | negInf {s} : Cased "inf".toUTF8.toList s ∨ Cased "infinity".toUTF8.toList s → Special (45 :: s) ⟨0xF800000000000000, 0⟩

end Birch.Spec.Decimal
