import Verif.Model.Gjson

/-
The grammar of JSON (RFC 8259) as a relation between texts and what they stand for.  It does not refer to the functions of the model; only the
values of `jsonx` (`JVal`) and the parameter `Strconv` (the standard library) are taken from there.

`lax = true` allows two things that JSON does not allow: a minus sign without digits before the fraction or exponent (or without anything), and
`\u` escapes of surrogates that are not a pair (which RFC 8259 leaves open; they are read as U+FFFD).
-/

namespace Birch.Spec.JsonText
open Birch Model.Json
open Birch.Model.Gjson (Strconv)

/-- white space -/
def Ws (w : Bytes) : Prop := ∀ c ∈ w, c = 32 ∨ c = 9 ∨ c = 10 ∨ c = 13

/-! ### numbers -/

def Digit (c : UInt8) : Prop := 48 ≤ c ∧ c ≤ 57

/-- one or more digits -/
def Digits (ds : Bytes) : Prop := ds ≠ [] ∧ ∀ c ∈ ds, Digit c

/-- `0`, or digits that do not start with `0` -/
inductive IntPart : Bytes → Prop
  | zero : IntPart [48]
  | digits {ds} : Digits ds → ds.head? ≠ some 48 → IntPart ds

/-- `.` and digits, or nothing -/
inductive Frac : Bytes → Prop
  | none : Frac []
  | some {ds} : Digits ds → Frac (46 :: ds)

/-- `e` or `E`, a sign or none, and digits, or nothing -/
inductive Exp : Bytes → Prop
  | none : Exp []
  | some {e s ds} : e = 101 ∨ e = 69 → s = [] ∨ s = [43] ∨ s = [45] → Digits ds → Exp (e :: (s ++ ds))

inductive Number (lax : Bool) : Bytes → Prop
  | pos {i f e} : IntPart i → Frac f → Exp e → Number lax (i ++ (f ++ e))
  | neg {i f e} : IntPart i → Frac f → Exp e → Number lax (45 :: (i ++ (f ++ e)))
  /-- not JSON -/
  | bare {f e} : lax = true → Frac f → Exp e → Number lax (45 :: (f ++ e))

/-! ### strings -/

def hexDigit (c : UInt8) : Option Nat :=
  if 48 ≤ c ∧ c ≤ 57 then some (c.toNat - 48)
  else if 65 ≤ c ∧ c ≤ 70 then some (c.toNat - 55)
  else if 97 ≤ c ∧ c ≤ 102 then some (c.toNat - 87)
  else none

/-- `h` are four hexadecimal digits for `n` -/
def Hex4 (h : Bytes) (n : Nat) : Prop :=
  ∃ a b c d a' b' c' d', h = [a, b, c, d] ∧ hexDigit a = some a' ∧ hexDigit b = some b' ∧ hexDigit c = some c' ∧ hexDigit d = some d' ∧
    n = a' * 4096 + b' * 256 + c' * 16 + d'

/-- the UTF-8 encoding of a code point -/
def utf8 (n : Nat) : Bytes :=
  if n < 0x80 then [UInt8.ofNat n]
  else if n < 0x800 then [UInt8.ofNat (0xC0 + n / 64), UInt8.ofNat (0x80 + n % 64)]
  else if n < 0x10000 then [UInt8.ofNat (0xE0 + n / 4096), UInt8.ofNat (0x80 + n / 64 % 64), UInt8.ofNat (0x80 + n % 64)]
  else [UInt8.ofNat (0xF0 + n / 262144), UInt8.ofNat (0x80 + n / 4096 % 64), UInt8.ofNat (0x80 + n / 64 % 64), UInt8.ofNat (0x80 + n % 64)]

/-- the character after a backslash and the character it stands for -/
inductive Short : UInt8 → UInt8 → Prop
  | quote : Short 34 34
  | backslash : Short 92 92
  | slash : Short 47 47
  | b : Short 98 8
  | f : Short 102 12
  | n : Short 110 10
  | r : Short 114 13
  | t : Short 116 9

/-- the first and the second half of a surrogate pair -/
def High (n : Nat) : Prop := 0xD800 ≤ n ∧ n < 0xDC00
def Low (n : Nat) : Prop := 0xDC00 ≤ n ∧ n < 0xE000

/-- what is between the quotation marks of a string, and the string -/
inductive Chars (lax : Bool) : Bytes → Bytes → Prop
  | nil : Chars lax [] []
  | plain {c s u} : 32 ≤ c → c ≠ 34 → c ≠ 92 → Chars lax s u → Chars lax (c :: s) (c :: u)
  | short {e c s u} : Short e c → Chars lax s u → Chars lax (92 :: e :: s) (c :: u)
  | point {h n s u} : Hex4 h n → ¬ High n → ¬ Low n → Chars lax s u → Chars lax (92 :: 117 :: (h ++ s)) (utf8 n ++ u)
  | pair {h n h' n' s u} : Hex4 h n → High n → Hex4 h' n' → Low n' → Chars lax s u →
      Chars lax (92 :: 117 :: (h ++ 92 :: 117 :: (h' ++ s))) (utf8 (0x10000 + (n - 0xD800) * 1024 + (n' - 0xDC00)) ++ u)
  /-- a surrogate before another escaped code unit that does not make it a pair: both are replaced -/
  | mismatch {h n h' n' s u} : lax = true → Hex4 h n → High n ∨ Low n → Hex4 h' n' → ¬ (High n ∧ Low n') → Chars lax s u →
      Chars lax (92 :: 117 :: (h ++ 92 :: 117 :: (h' ++ s))) (utf8 0xFFFD ++ u)
  /-- a surrogate before anything else -/
  | lone {h n s u} : lax = true → Hex4 h n → High n ∨ Low n → s.take 2 ≠ [92, 117] → Chars lax s u →
      Chars lax (92 :: 117 :: (h ++ s)) (utf8 0xFFFD ++ u)

/-! ### values -/

mutual
/-- what a text stands for; a number is left as it is written -/
inductive J where
  | null
  | bool (b : Bool)
  | num (t : Bytes)
  | str (s : Bytes)
  | arr (vs : Js)
  | obj (es : Jes)
inductive Js where
  | nil
  | cons (v : J) (r : Js)
inductive Jes where
  | nil
  | cons (k : Bytes) (v : J) (r : Jes)
end

mutual
inductive Val (lax : Bool) : Bytes → J → Prop
  | null : Val lax [110, 117, 108, 108] .null
  | tru : Val lax [116, 114, 117, 101] (.bool true)
  | fals : Val lax [102, 97, 108, 115, 101] (.bool false)
  | num {t} : Number lax t → Val lax t (.num t)
  | str {s u} : Chars lax s u → Val lax (34 :: (s ++ [34])) (.str u)
  | emptyArr {w} : Ws w → Val lax (91 :: (w ++ [93])) (.arr .nil)
  | arr {t vs} : Items lax t vs → Val lax (91 :: (t ++ [93])) (.arr vs)
  | emptyObj {w} : Ws w → Val lax (123 :: (w ++ [125])) (.obj .nil)
  | obj {t es} : Members lax t es → Val lax (123 :: (t ++ [125])) (.obj es)
/-- values separated by commas -/
inductive Items (lax : Bool) : Bytes → Js → Prop
  | last {w t v w'} : Ws w → Val lax t v → Ws w' → Items lax (w ++ (t ++ w')) (.cons v .nil)
  | cons {w t v w' ts vs} : Ws w → Val lax t v → Ws w' → Items lax ts vs → Items lax (w ++ (t ++ (w' ++ 44 :: ts))) (.cons v vs)
/-- keys and values separated by commas -/
inductive Members (lax : Bool) : Bytes → Jes → Prop
  | last {w s k w1 w2 t v w3} : Ws w → Chars lax s k → Ws w1 → Ws w2 → Val lax t v → Ws w3 →
      Members lax (w ++ 34 :: (s ++ 34 :: (w1 ++ 58 :: (w2 ++ (t ++ w3))))) (.cons k v .nil)
  | cons {w s k w1 w2 t v w3 ts es} : Ws w → Chars lax s k → Ws w1 → Ws w2 → Val lax t v → Ws w3 → Members lax ts es →
      Members lax (w ++ 34 :: (s ++ 34 :: (w1 ++ 58 :: (w2 ++ (t ++ (w3 ++ 44 :: ts)))))) (.cons k v es)
end

/-- a JSON text -/
def Text (lax : Bool) (t : Bytes) (j : J) : Prop := ∃ w t' w', t = w ++ (t' ++ w') ∧ Ws w ∧ Val lax t' j ∧ Ws w'

/-! ### `jsonx` values -/

def natValue (ds : Bytes) : Nat := ds.foldl (fun v c => v * 10 + (c.toNat - 48)) 0

/-- `ds` with an optional sign is a decimal numeral of an int64 -/
inductive Int64Text : Bytes → Int → Prop
  | pos {ds} : Digits ds → natValue ds < 2 ^ 63 → Int64Text ds (natValue ds)
  | plus {ds} : Digits ds → natValue ds < 2 ^ 63 → Int64Text (43 :: ds) (natValue ds)
  | neg {ds} : Digits ds → natValue ds ≤ 2 ^ 63 → Int64Text (45 :: ds) (-(natValue ds : Int))

/-- only digits, after an optional minus sign -/
def Integral (t : Bytes) : Prop := Digits t ∨ ∃ ds, t = 45 :: ds ∧ ∀ c ∈ ds, Digit c

/-- `s` is how the number is written when it is converted: as in the text if it has no fraction and exponent, otherwise as `FormatFloat` writes its
    float64 -/
inductive Written (S : Strconv) (t : Bytes) : Bytes → Prop
  | integral : Integral t → Written S t t
  | float : ¬ Integral t → Written S t (S.formatFloat (S.parseFloat t).1)

mutual
/-- the `jsonx` value of what was read: an integer if the number is written like one that fits, otherwise a float64 if it has one -/
inductive Conv (S : Strconv) : J → JVal → Prop
  | null : Conv S .null .null
  | bool {b} : Conv S (.bool b) (.bool b)
  | int {t s i} : Written S t s → Int64Text s i → Conv S (.num t) (.int i)
  | dbl {t s f} : Written S t s → (¬ ∃ i, Int64Text s i) → S.parseFloat s = (f, true) → Conv S (.num t) (.dbl f)
  | str {s} : Conv S (.str s) (.str s)
  | arr {vs a} : ConvVals S vs a → Conv S (.arr vs) (.arr a)
  | obj {es d} : ConvElems S es d → Conv S (.obj es) (.obj d)
inductive ConvVals (S : Strconv) : Js → JVals → Prop
  | nil : ConvVals S .nil .nil
  | cons {v x r y} : Conv S v x → ConvVals S r y → ConvVals S (.cons v r) (.cons x y)
inductive ConvElems (S : Strconv) : Jes → JElems → Prop
  | nil : ConvElems S .nil .nil
  | cons {k v x r y} : Conv S v x → ConvElems S r y → ConvElems S (.cons k v r) (.cons k x y)
end

/-! ### writing and reading again -/

mutual
/-- every integer is an int64 (always so for values made by the constructors on 64 bit machines) -/
def Ints : JVal → Prop
  | .int n => -2 ^ 63 ≤ n ∧ n < 2 ^ 63
  | .obj d => IntsElems d
  | .arr a => IntsVals a
  | _ => True
def IntsElems : JElems → Prop
  | .nil => True
  | .cons _ v r => Ints v ∧ IntsElems r
def IntsVals : JVals → Prop
  | .nil => True
  | .cons v r => Ints v ∧ IntsVals r
end

mutual
/-- there is no floating point number -/
def NoFloat : JVal → Prop
  | .dbl _ => False
  | .obj d => NoFloatElems d
  | .arr a => NoFloatVals a
  | _ => True
def NoFloatElems : JElems → Prop
  | .nil => True
  | .cons _ v r => NoFloat v ∧ NoFloatElems r
def NoFloatVals : JVals → Prop
  | .nil => True
  | .cons v r => NoFloat v ∧ NoFloatVals r
end

mutual
/-- the same value, but with what the text of `%f` (`Model.Json.formatFloat`) is read as in the place of floating point numbers -/
inductive Reread (S : Strconv) : JVal → JVal → Prop
  | null : Reread S .null .null
  | bool {b} : Reread S (.bool b) (.bool b)
  | int {n} : Reread S (.int n) (.int n)
  | dbl {b x} : Conv S (.num (Model.Json.formatFloat b)) x → Reread S (.dbl b) x
  | str {s} : Reread S (.str s) (.str s)
  | arr {a b} : RereadVals S a b → Reread S (.arr a) (.arr b)
  | obj {d e} : RereadElems S d e → Reread S (.obj d) (.obj e)
inductive RereadVals (S : Strconv) : JVals → JVals → Prop
  | nil : RereadVals S .nil .nil
  | cons {v x r y} : Reread S v x → RereadVals S r y → RereadVals S (.cons v r) (.cons x y)
inductive RereadElems (S : Strconv) : JElems → JElems → Prop
  | nil : RereadElems S .nil .nil
  | cons {k v x r y} : Reread S v x → RereadElems S r y → RereadElems S (.cons k v r) (.cons k x y)
end

end Birch.Spec.JsonText
