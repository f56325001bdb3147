import Verif.Spec.Json
import Verif.Model.Json

/-
Which abstract JSON value a `jsonx` value stands for.
-/

namespace Birch.Spec.Json
open Birch Model.Json

/-- IEEE 754 double precision: the bits `b` are the finite number `± m * 2^k` -/
inductive Double (b : UInt64) : (neg : Bool) → (m : Nat) → (k : Int) → Prop
  | subnormal {neg f} : b.toNat = (if neg then 2 ^ 63 else 0) + f → f < 2 ^ 52 → Double b neg f (-1074)
  | normal {neg : Bool} {x f : Nat} : b.toNat = (if neg then 2 ^ 63 else 0) + x * 2 ^ 52 + f → f < 2 ^ 52 → 0 < x → x < 2047 →
      Double b neg (2 ^ 52 + f) ((x : Int) - 1075)

/-- `n` is an integer nearest to `m * 2^k * 10^6` -/
def Nearest6 (m : Nat) (k : Int) (n : Nat) : Prop :=
  if 0 ≤ k then n = m * 2 ^ k.toNat * 10 ^ 6
  else 2 * (n * 2 ^ (-k).toNat) ≤ 2 * (m * 10 ^ 6) + 2 ^ (-k).toNat ∧ 2 * (m * 10 ^ 6) ≤ 2 * (n * 2 ^ (-k).toNat) + 2 ^ (-k).toNat

mutual
/-- The JSON value has the content of the `jsonx` value: same structure, keys, order, strings and integers; floating point numbers are
    rounded to six digits after the point. -/
inductive Shows : JVal → J → Prop
  | str {s} : Shows (.str s) (.str s)
  | int {n} : Shows (.int n) (.num n 0)
  | dbl {b neg m k} {n : Nat} : Double b neg m k → Nearest6 m k n → Shows (.dbl b) (.num (if neg then -(n : Int) else n) (-6))
  | bool {b} : Shows (.bool b) (.bool b)
  | null : Shows .null .null
  | obj {d es} : ShowsElems d es → Shows (.obj d) (.obj es)
  | arr {a vs} : ShowsVals a vs → Shows (.arr a) (.arr vs)
inductive ShowsElems : JElems → Jes → Prop
  | nil : ShowsElems .nil .nil
  | cons {k v r j js} : Shows v j → ShowsElems r js → ShowsElems (.cons k v r) (.cons k j js)
inductive ShowsVals : JVals → Js → Prop
  | nil : ShowsVals .nil .nil
  | cons {v r j js} : Shows v j → ShowsVals r js → ShowsVals (.cons v r) (.cons j js)
end

/-- a key that needs no escaping -/
def PlainKey (k : Bytes) : Prop := ∀ c ∈ k, 32 ≤ c.toNat ∧ c.toNat ≠ 34 ∧ c.toNat ≠ 92

mutual
/-- no nil values, no infinities and NaNs, no keys that need escaping -/
def Plain : JVal → Prop
  | .nil => False
  | .dbl b => ∃ neg m k, Double b neg m k
  | .obj d => PlainElems d
  | .arr a => PlainVals a
  | _ => True
def PlainElems : JElems → Prop
  | .nil => True
  | .cons k v r => PlainKey k ∧ Plain v ∧ PlainElems r
def PlainVals : JVals → Prop
  | .nil => True
  | .cons v r => Plain v ∧ PlainVals r
end

end Birch.Spec.Json
