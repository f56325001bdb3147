import Verif.Model.Decimal
import Verif.Spec.Path

/-
Decimal128 numbers: encoding (IEEE 754-2008, binary integer decimal) and text (the "scientific string" of the
General Decimal Arithmetic specification), written down without reference to the code.
-/

namespace Birch.Spec.Decimal
open Birch Model.Decimal

/-- sign, coefficient `c` and exponent `e` of a finite number that can be represented: `± c * 10^e` -/
def Representable (c : Nat) (e : Int) : Prop := c < 10 ^ 34 ∧ -6176 ≤ e ∧ e ≤ 6111

/-- The encoding of `± c * 10^e`: 1 bit sign, 14 bits biased exponent, 113 bits coefficient. -/
def encode (neg : Bool) (c : Nat) (e : Int) : Dec :=
  ⟨UInt64.ofNat ((if neg then 2 ^ 63 else 0) + (e + 6176).toNat * 2 ^ 49 + c / 2 ^ 64), UInt64.ofNat (c % 2 ^ 64)⟩

/-- sign and decimal digits of the exponent -/
def expText (x : Int) : Bytes := if x < 0 then 45 :: decimalKey (-x).toNat else 43 :: decimalKey x.toNat

/-- The text of `± c * 10^e`: plain or with a decimal point if the exponent is not positive and the number not too
    small, otherwise one digit before the point and an exponent. -/
def text (neg : Bool) (c : Nat) (e : Int) : Bytes :=
  let ds := decimalKey c
  -- the exponent of the leading digit
  let adj : Int := e + ((ds.length : Int) - 1)
  (if neg then [45] else []) ++
    if e ≤ 0 ∧ -6 ≤ adj then
      if e = 0 then ds
      else if (-e).toNat < ds.length then ds.take (ds.length - (-e).toNat) ++ [46] ++ ds.drop (ds.length - (-e).toNat)
      else [48, 46] ++ List.replicate ((-e).toNat - ds.length) 48 ++ ds
    else ds.take 1 ++ (if ds.length = 1 then [] else 46 :: ds.drop 1) ++ [69] ++ expText adj

/-- a decimal digit -/
def Digit (c : UInt8) : Prop := 48 ≤ c.toNat ∧ c.toNat ≤ 57

/-- the number written with the given decimal digits -/
def value (ds : Bytes) : Nat := ds.foldl (fun v c => v * 10 + (c.toNat - 48)) 0

def expPart : Option Int → Bytes
  | none => []
  | some x => 69 :: expText x

/-- a plain way of writing a number: sign, integer digits, fraction digits if any, exponent if any -/
def numeral (neg : Bool) (int frac : Bytes) (exp : Option Int) : Bytes :=
  (if neg then [45] else []) ++ int ++ (if frac = [] then [] else 46 :: frac) ++ expPart exp

end Birch.Spec.Decimal
