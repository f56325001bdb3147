import Verif.Spec.Bson

/-
JSON texts (RFC 8259), written down as a reader from text to abstract values. It does not refer to the code.
-/

namespace Birch.Spec.Json
open Birch

mutual
/-- an abstract JSON value; the number `m * 10^e` is `num m e`; strings are their UTF-8 bytes -/
inductive J where
  | null
  | bool (b : Bool)
  | num (m e : Int)
  | str (s : Bytes)
  | arr (vs : Js)
  | obj (es : Jes)
inductive Js where
  | nil
  | cons (v : J) (r : Js)
inductive Jes where
  | nil
  | cons (k : Bytes) (v : J) (r : Jes)
end

/-- white space: blank, tab, line feed, carriage return -/
def ws : Bytes → Bytes
  | [] => []
  | c :: r => if c = 32 ∨ c = 9 ∨ c = 10 ∨ c = 13 then ws r else c :: r

/-! ### strings -/

def hexDigit (c : UInt8) : Option Nat :=
  if 48 ≤ c ∧ c ≤ 57 then some (c.toNat - 48)
  else if 65 ≤ c ∧ c ≤ 70 then some (c.toNat - 55)
  else if 97 ≤ c ∧ c ≤ 102 then some (c.toNat - 87)
  else none

/-- four hexadecimal digits -/
def hex4 : Bytes → Option (Nat × Bytes)
  | a :: b :: c :: d :: r => do
    let a ← hexDigit a
    let b ← hexDigit b
    let c ← hexDigit c
    let d ← hexDigit d
    some (a * 4096 + b * 256 + c * 16 + d, r)
  | _ => none

/-- the UTF-8 encoding of a code point -/
def utf8 (n : Nat) : Bytes :=
  if n < 0x80 then [UInt8.ofNat n]
  else if n < 0x800 then [UInt8.ofNat (0xC0 + n / 64), UInt8.ofNat (0x80 + n % 64)]
  else if n < 0x10000 then [UInt8.ofNat (0xE0 + n / 4096), UInt8.ofNat (0x80 + n / 64 % 64), UInt8.ofNat (0x80 + n % 64)]
  else [UInt8.ofNat (0xF0 + n / 262144), UInt8.ofNat (0x80 + n / 4096 % 64), UInt8.ofNat (0x80 + n / 64 % 64), UInt8.ofNat (0x80 + n % 64)]

/-- one escape sequence, after the backslash -/
def escape : Bytes → Option (Bytes × Bytes)
  | [] => none
  | c :: r =>
    if c = 34 ∨ c = 92 ∨ c = 47 then some ([c], r)
    else if c = 98 then some ([8], r)
    else if c = 102 then some ([12], r)
    else if c = 110 then some ([10], r)
    else if c = 114 then some ([13], r)
    else if c = 116 then some ([9], r)
    else if c = 117 then do
      let (n, r) ← hex4 r
      if 0xDC00 ≤ n ∧ n < 0xE000 then none
      else if 0xD800 ≤ n ∧ n < 0xDC00 then
        -- a surrogate pair
        match r with
        | 92 :: 117 :: r => do
          let (m, r) ← hex4 r
          if 0xDC00 ≤ m ∧ m < 0xE000 then some (utf8 (0x10000 + (n - 0xD800) * 1024 + (m - 0xDC00)), r) else none
        | _ => none
      else some (utf8 n, r)
    else none

/-- the characters of a string up to and including the closing quotation mark -/
def chars : Nat → Bytes → Option (Bytes × Bytes)
  | 0, _ => none
  | _ + 1, [] => none
  | fuel + 1, c :: r =>
    if c = 34 then some ([], r)
    else if c < 32 then none
    else if c = 92 then do
      let (u, r) ← escape r
      let (s, r) ← chars fuel r
      some (u ++ s, r)
    else do
      let (s, r) ← chars fuel r
      some (c :: s, r)

/-- a string literal at the beginning of a text: its value and the rest of the text -/
def string (t : Bytes) : Option (Bytes × Bytes) :=
  match t with
  | 34 :: r => chars t.length r
  | _ => none

/-! ### numbers -/

def isDigit (c : UInt8) : Bool := 48 ≤ c ∧ c ≤ 57

def digits : Bytes → Bytes × Bytes
  | [] => ([], [])
  | c :: r => if isDigit c then (c :: (digits r).1, (digits r).2) else ([], c :: r)

def natValue (ds : Bytes) : Nat := ds.foldl (fun v c => v * 10 + (c.toNat - 48)) 0

/-- the fraction: its digits -/
def fraction : Bytes → Option (Bytes × Bytes)
  | 46 :: r => if (digits r).1 = [] then none else some (digits r)
  | r => some ([], r)

/-- the exponent -/
def exponent : Bytes → Option (Int × Bytes)
  | c :: r =>
    if c = 69 ∨ c = 101 then
      let (neg, r) : Bool × Bytes := match r with | 45 :: r => (true, r) | 43 :: r => (false, r) | r => (false, r)
      if (digits r).1 = [] then none
      else some ((if neg then -1 else 1) * (natValue (digits r).1 : Int), (digits r).2)
    else some (0, c :: r)
  | [] => some (0, [])

/-- a number without its sign -/
def unsigned (t : Bytes) : Option (Nat × Int × Bytes) :=
  let (i, r) := digits t
  -- at least one digit, no leading zeros
  if i = [] ∨ (i.head? = some 48 ∧ i ≠ [48]) then none
  else do
    let (f, r) ← fraction r
    let (x, r) ← exponent r
    some (natValue (i ++ f), x - f.length, r)

def number : Bytes → Option (J × Bytes)
  | 45 :: t => (unsigned t).map fun (m, e, r) => (.num (-(m : Int)) e, r)
  | t => (unsigned t).map fun (m, e, r) => (.num m e, r)

/-! ### values -/

mutual
def value : Nat → Bytes → Option (J × Bytes)
  | 0, _ => none
  | fuel + 1, t =>
    match ws t with
    | [] => none
    | c :: r =>
      if c = 123 then do
        let (es, r) ← (match ws r with | 125 :: r => some (.nil, r) | r => members fuel r)
        some (.obj es, r)
      else if c = 91 then do
        let (vs, r) ← (match ws r with | 93 :: r => some (.nil, r) | r => items fuel r)
        some (.arr vs, r)
      else if c = 34 then do
        let (s, r) ← string (c :: r)
        some (.str s, r)
      else if (c :: r).take 4 = [116, 114, 117, 101] then some (.bool true, (c :: r).drop 4)
      else if (c :: r).take 5 = [102, 97, 108, 115, 101] then some (.bool false, (c :: r).drop 5)
      else if (c :: r).take 4 = [110, 117, 108, 108] then some (.null, (c :: r).drop 4)
      else number (c :: r)
/-- one or more members of an object, and the closing brace -/
def members : Nat → Bytes → Option (Jes × Bytes)
  | 0, _ => none
  | fuel + 1, t => do
    let (k, r) ← string (ws t)
    match ws r with
    | 58 :: r => do
      let (v, r) ← value fuel r
      match ws r with
      | 44 :: r => do
        let (es, r) ← members fuel r
        some (.cons k v es, r)
      | 125 :: r => some (.cons k v .nil, r)
      | _ => none
    | _ => none
/-- one or more items of an array, and the closing bracket -/
def items : Nat → Bytes → Option (Js × Bytes)
  | 0, _ => none
  | fuel + 1, t => do
    let (v, r) ← value fuel t
    match ws r with
    | 44 :: r => do
      let (vs, r) ← items fuel r
      some (.cons v vs, r)
    | 93 :: r => some (.cons v .nil, r)
    | _ => none
end

/-- The value of a JSON text, if it is one. (Every level of nesting takes a byte, so the fuel is enough.) -/
def read (t : Bytes) : Option J :=
  match value (2 * t.length + 2) t with
  | some (j, r) => if ws r = [] then some j else none
  | none => none

/-! ### UTF-8 -/

/-- a continuation byte -/
def cont (c : UInt8) : Prop := 0x80 ≤ c.toNat ∧ c.toNat ≤ 0xBF

/-- well-formed UTF-8 (Unicode, table 3-7) -/
inductive Utf8 : Bytes → Prop
  | nil : Utf8 []
  | one {c r} : c.toNat < 0x80 → Utf8 r → Utf8 (c :: r)
  | two {a b r} : 0xC2 ≤ a.toNat → a.toNat ≤ 0xDF → cont b → Utf8 r → Utf8 (a :: b :: r)
  | three {a b c r} : 0xE0 ≤ a.toNat → a.toNat ≤ 0xEF → cont b → (a.toNat = 0xE0 → 0xA0 ≤ b.toNat) → (a.toNat = 0xED → b.toNat ≤ 0x9F) →
      cont c → Utf8 r → Utf8 (a :: b :: c :: r)
  | four {a b c d r} : 0xF0 ≤ a.toNat → a.toNat ≤ 0xF4 → cont b → (a.toNat = 0xF0 → 0x90 ≤ b.toNat) → (a.toNat = 0xF4 → b.toNat ≤ 0x8F) →
      cont c → cont d → Utf8 r → Utf8 (a :: b :: c :: d :: r)

end Birch.Spec.Json
