import Verif.Model.Value

/-
jsonx: JSON values and their text (jsonx/juniper.go, jsonx/constructor.go, jsonx/marhsal.go, jsonx/write.go).
-/

namespace Birch.Model.Json
open Birch

mutual
/-- A `*jsonx.Value` as the constructors make it (jsonx/juniper.go:70-73, jsonx/constructor.go:154-233).
    `Int`, `Int32` and `Int64` are `int`, `Float64` and `Float32` (converted, which is exact) are `dbl`, given by its bits. -/
inductive JVal where
  /-- a nil pointer -/
  | nil
  | str (s : Bytes)
  | int (n : Int)
  | dbl (bits : UInt64)
  | bool (b : Bool)
  | null
  | obj (d : JElems)
  | arr (a : JVals)
inductive JVals where
  | nil
  | cons (v : JVal) (r : JVals)
/-- the elements of a `jsonx.Document` -/
inductive JElems where
  | nil
  | cons (k : Bytes) (v : JVal) (r : JElems)
end

/-! ### strings (jsonx/write.go) -/

/-- `safeSet` (jsonx/write.go:9-106) -/
def safe (c : UInt8) : Bool := 32 ≤ c ∧ c ≠ 34 ∧ c ≠ 92

/-- `hex` (jsonx/write.go:108) -/
def hexChar (n : UInt8) : UInt8 := if n < 10 then 48 + n else 87 + n

/-- what is written for a byte below 0x80 that is not safe (jsonx/write.go:147-164) -/
def escaped (b : UInt8) : Bytes :=
  if b = 92 ∨ b = 34 then [92, b]
  else if b = 10 then [92, 110]
  else if b = 13 then [92, 114]
  else if b = 9 then [92, 116]
  else [92, 117, 48, 48, hexChar (b >>> 4), hexChar (b &&& 15)]

/-- The slow path (jsonx/write.go:135-177): `pend` is `s[start:i]`, `rest` is `s[i:]`. -/
def slow (out pend : Bytes) : (rest : Bytes) → Bytes
  | [] => out ++ pend ++ [34]
  | b :: rest =>
    if b < 128 then
      if safe b then slow out (pend ++ [b]) rest
      else slow ((if pend = [] then out else out ++ pend) ++ escaped b) [] rest
    else slow out (pend ++ [b]) rest

/-- The fast path (jsonx/write.go:117-130): copies bytes up to the first that needs escaping, then the slow path. -/
def fast (out : Bytes) : (rest : Bytes) → Bytes
  | [] => out ++ [34]
  | c :: rest => if c > 31 ∧ c ≠ 34 ∧ c ≠ 92 then fast (out ++ [c]) rest else slow out [] (c :: rest)

/-- `writeJSONString` (jsonx/write.go:110-178) -/
def writeString (s : Bytes) : Bytes := fast [34] s

/-! ### numbers -/

/-- `fmt.Sprintf("%d", n)` (standard library) -/
def formatInt (n : Int) : Bytes := if n < 0 then 45 :: itoa (-n).toNat else itoa n.toNat

/-- the low `n` decimal digits -/
def lowDigits : Nat → Nat → Bytes
  | 0, _ => []
  | n + 1, x => lowDigits n (x / 10) ++ [UInt8.ofNat (48 + x % 10)]

/-- the fields of a float64: sign, exponent, fraction -/
def sign (b : UInt64) : Bool := b.toNat / 2 ^ 63 = 1
def expField (b : UInt64) : Nat := b.toNat / 2 ^ 52 % 2048
def frac (b : UInt64) : Nat := b.toNat % 2 ^ 52

/-- a finite float64 without its sign is `mant * 2^exp2` -/
def mant (b : UInt64) : Nat := if expField b = 0 then frac b else 2 ^ 52 + frac b
def exp2 (b : UInt64) : Int := if expField b = 0 then -1074 else (expField b : Int) - 1075

/-- `x / d` rounded to the nearest integer, ties to even -/
def roundDiv (x d : Nat) : Nat :=
  if 2 * (x % d) > d ∨ (2 * (x % d) = d ∧ x / d % 2 = 1) then x / d + 1 else x / d

/-- the number times 10^6, rounded -/
def scaled (b : UInt64) : Nat :=
  if 0 ≤ exp2 b then mant b * 2 ^ (exp2 b).toNat * 1000000 else roundDiv (mant b * 1000000) (2 ^ (-exp2 b).toNat)

/-- `fmt.Sprintf("%f", x)` (standard library: six digits after the point, correctly rounded; `NaN`, `+Inf`, `-Inf`) -/
def formatFloat (b : UInt64) : Bytes :=
  if expField b = 2047 then
    if frac b ≠ 0 then [78, 97, 78] else [if sign b then 45 else 43, 73, 110, 102]
  else (if sign b then [45] else []) ++ itoa (scaled b / 1000000) ++ [46] ++ lowDigits 6 (scaled b)

/-! ### documents (jsonx/marhsal.go) -/

mutual
/-- `Value.MarshalJSON` (jsonx/marhsal.go:60-100); `none` is an error -/
def marshal : JVal → Option Bytes
  | .nil => none
  | .str s => some (writeString s)
  | .int n => some (formatInt n)
  | .dbl b => some (formatFloat b)
  | .bool b => some (if b then [116, 114, 117, 101] else [102, 97, 108, 115, 101])
  | .null => some [110, 117, 108, 108]
  | .obj d => (marshalElems true d).map fun t => [123] ++ t ++ [125]
  | .arr a => (marshalVals true a).map fun t => [91] ++ t ++ [93]
/-- the loop of `Document.MarshalJSON` (jsonx/marhsal.go:10-32): the key is written as it is, between quotation marks -/
def marshalElems (first : Bool) : JElems → Option Bytes
  | .nil => some []
  | .cons k v r =>
    match marshal v with
    | none => none
    | some t =>
      match marshalElems false r with
      | none => none
      | some u => some ((if first then [] else [44]) ++ ([34] ++ k ++ [34, 58]) ++ t ++ u)
/-- the loop of `Array.MarshalJSON` (jsonx/marhsal.go:34-58) -/
def marshalVals (first : Bool) : JVals → Option Bytes
  | .nil => some []
  | .cons v r =>
    match marshal v with
    | none => none
    | some t =>
      match marshalVals false r with
      | none => none
      | some u => some ((if first then [] else [44]) ++ t ++ u)
end

end Birch.Model.Json
