import Verif.Model.Value

/-
types/decimal.go: 128-bit decimal numbers and their text.
`uint64` and `uint32` are Lean's `UInt64` and `UInt32` (same wrap-around arithmetic);
`int` is `Int`; text is a list of bytes.
-/

namespace Birch.Model.Decimal
open Birch

/-- `Decimal128` (types/decimal.go:19-21) -/
structure Dec where
  h : UInt64
  l : UInt64
  deriving DecidableEq, Repr

/-- `1<<32 - 1` -/
def mask32 : UInt64 := 4294967295

/-- `divmod` (types/decimal.go:128-144). The callers never divide by zero. -/
def divmod (h l : UInt64) (div : UInt32) : UInt64 × UInt64 × UInt32 :=
  let div64 := div.toUInt64
  let a := h >>> 32
  let aq := a / div64
  let ar := a % div64
  let b := ar <<< 32 + (h &&& mask32)
  let bq := b / div64
  let br := b % div64
  let c := br <<< 32 + l >>> 32
  let cq := c / div64
  let cr := c % div64
  let d := cr <<< 32 + (l &&& mask32)
  let dq := d / div64
  let dr := d % div64
  (aq <<< 32 ||| bq, cq <<< 32 ||| dq, dr.toUInt32)

/-- `muladd` (types/decimal.go:350-363) -/
def muladd (h l : UInt64) (mul add : UInt32) : UInt64 × UInt64 × UInt32 :=
  let mul64 := mul.toUInt64
  let a := mul64 * (l &&& mask32)
  let b := a >>> 32 + mul64 * (l >>> 32)
  let c := b >>> 32 + mul64 * (h &&& mask32)
  let d := c >>> 32 + mul64 * (h >>> 32)
  let a := (a &&& mask32) + add.toUInt64
  let b := (b &&& mask32) + a >>> 32
  let c := (c &&& mask32) + b >>> 32
  let d := (d &&& mask32) + c >>> 32
  (d <<< 32 ||| (c &&& mask32), b <<< 32 ||| (a &&& mask32), (d >>> 32).toUInt32)

/-! ### String -/

/-- The variables of the printing loop (types/decimal.go:74-81). `out` is `repr[i:]`, so `i = 48 - len out`. -/
structure Print where
  h : UInt64
  l : UInt64
  rem : UInt32
  out : Bytes
  last : Int
  dot : Int
  e : Int

/-- the index `i` into the 48 byte buffer -/
def Print.i (p : Print) : Int := 48 - p.out.length

/-- `i--; repr[i] = c`, which panics when `i` was 0 -/
def Print.push (p : Print) (c : UInt8) : Res Print :=
  if p.out.length ≥ 48 then .panic else .ok { p with out := c :: p.out }

/-- the decimal point (types/decimal.go:87-94) -/
def Print.insert (p : Print) : Res Print :=
  if p.i < 48 ∧ (p.dot = p.i ∨ (p.l = 0 ∧ p.h = 0 ∧ p.rem > 0 ∧ p.rem < 10 ∧ (p.dot < p.i - 6 ∨ p.e > 0))) then
    Print.push { p with e := p.e + (48 - p.i), last := p.i - 1 - 1, dot := 48 } 46
  else .ok p

/-- the tests after the digit `c` has been written (types/decimal.go:99-110); `true` means `break Loop` -/
def Print.after (c : UInt8) (p : Print) : Print × Bool :=
  if p.l = 0 ∧ p.h = 0 ∧ p.rem = 0 ∧ p.i = 47 ∧ (p.dot < p.i - 5 ∨ p.e > 0) then ({ p with last := p.i }, true)
  else (if c ≠ 48 then { p with last := p.i } else p, p.dot > p.i ∧ p.l = 0 ∧ p.h = 0 ∧ p.rem = 0)

/-- the body of the inner loop (types/decimal.go:86-111) -/
def Print.digit (p : Print) : Res (Print × Bool) := do
  let p ← p.insert
  let c : UInt8 := 48 + (p.rem % 10).toUInt8
  let p ← Print.push { p with rem := p.rem / 10 } c
  .ok (p.after c)

/-- the inner loop, `n` rounds left -/
def Print.digits : Nat → Print → Res (Print × Bool)
  | 0, p => .ok (p, false)
  | n + 1, p => do
    let (p, stop) ← p.digit
    if stop then .ok (p, true) else Print.digits n p

/-- the outer loop (types/decimal.go:83-112), `n` rounds left -/
def Print.chunks : Nat → Print → Res Print
  | 0, p => .ok p
  | n + 1, p => do
    let (h, l, rem) := divmod p.h p.l 1000000000
    let (p, stop) ← Print.digits 9 { p with h := h, l := l, rem := rem }
    if stop then .ok p else Print.chunks n p

/-- `strconv.Itoa` of a signed number (standard library) -/
def itoaI (z : Int) : Bytes := if z < 0 then 45 :: itoa (-z).toNat else itoa z.toNat

/-- `-` in front of the printed digits unless positive, and the exponent (types/decimal.go:114-125);
    `repr[last:]` is `out` without its first `last - i` bytes -/
def Print.finish (p : Print) (pos : Bool) : Res Bytes :=
  if p.last - 1 < 0 ∨ p.last < p.i then .panic
  else
    let s := (if pos then [] else [45]) ++ p.out.drop (p.last - p.i).toNat
    if p.e > 0 then .ok (s ++ [69, 43] ++ itoaI p.e)
    else if p.e < 0 then .ok (s ++ [69] ++ itoaI p.e)
    else .ok s

/-- `Decimal128.String` (types/decimal.go:34-126). In `finish`, `last < i` would show bytes of the buffer that were
    never written; it is modelled as a panic (and never happens). -/
def toString (d : Dec) : Res Bytes :=
  let pos := (d.h >>> 63) &&& 1 = 0
  if (d.h >>> 58) &&& 31 = 0x1F then .ok [78, 97, 78]
  else if (d.h >>> 58) &&& 31 = 0x1E then
    .ok ((if pos then [] else [45]) ++ [73, 110, 102, 105, 110, 105, 116, 121])
  else
    let (e, h, l) : Int × UInt64 × UInt64 :=
      if (d.h >>> 61) &&& 3 = 3 then (((d.h >>> 47) &&& 16383).toNat - 6176, 0, 0)
      else (((d.h >>> 49) &&& 16383).toNat - 6176, d.h &&& 562949953421311, d.l)
    if h = 0 ∧ l = 0 ∧ e = 0 then .ok ((if pos then [] else [45]) ++ [48])
    else do
      let p ← Print.chunks 5 ⟨h, l, 0, [], 48, 48 + e, e⟩
      p.finish pos

/-! ### ParseDecimal128 -/

/-- `dNaN`, `dPosInf`, `dNegInf` (types/decimal.go:146-148) -/
def nan : Dec := ⟨(0x1F : UInt64) <<< 58, 0⟩
def posInf : Dec := ⟨(0x1E : UInt64) <<< 58, 0⟩
def negInf : Dec := ⟨(0x3E : UInt64) <<< 58, 0⟩

/-- ASCII lower case -/
def lower (c : UInt8) : UInt8 := if 65 ≤ c.toNat ∧ c.toNat ≤ 90 then c + 32 else c

/-- `strings.EqualFold` against a lower-case ASCII word made of letters that have no non-ASCII case variants -/
def equalFold (s word : Bytes) : Bool := s.map lower = word

/-- the variables of the scanning loop (types/decimal.go:184-195) -/
structure Scan where
  h : UInt64 := 0
  l : UInt64 := 0
  e : Int := 0
  mul : UInt32 := 1
  add : UInt32 := 0
  dot : Int := -1
  digits : Nat := 0
  i : Nat := 0

/-- `ovr > 0 || h&((1<<15-1)<<49) > 0` -/
def tooLarge (h : UInt64) (ovr : UInt32) : Bool := ovr > 0 ∨ h &&& ((0x7FFF : UInt64) <<< 49) > 0

/-- `h, l, ovr = muladd(h, l, mul, add)` and the check after it; `none` is `dErr` -/
def Scan.flush (p : Scan) : Option Scan :=
  let (h, l, ovr) := muladd p.h p.l p.mul p.add
  if tooLarge h ovr then none else some { p with h := h, l := l, mul := 1, add := 0 }

def isDigit (c : UInt8) : Bool := 48 ≤ c.toNat ∧ c.toNat ≤ 57

/-- The scanning loop (types/decimal.go:197-254) on the rest `s[i:]` of the text, `n = len(s)`; gives the variables and the rest
    of the text at the end of the loop, `none` for `dErr`. -/
def scan (n : Nat) : Bytes → Scan → Option (Scan × Bytes)
  | [], p => some (p, [])
  | c :: rest, p =>
    match (if p.mul = 1000000000 then p.flush else some p) with
    | none => none
    | some p =>
      if isDigit c then
        let p := { p with i := p.i + 1, digits := if c > 48 ∨ p.digits > 0 then p.digits + 1 else p.digits }
        if p.digits > 34 then
          if c = 48 then scan n rest { p with e := p.e + 1 } else none
        else scan n rest { p with mul := p.mul * 10, add := p.add * 10 + (c - 48).toUInt32 }
      else if c = 46 then
        let p := { p with i := p.i + 1 }
        if p.dot ≥ 0 ∨ (p.i = 1 ∧ n = 1) then none
        else
          match rest with
          | [] => some (p, [])
          | c' :: _ => if ¬ isDigit c' ∨ p.e > 0 then none else scan n rest { p with dot := p.i }
      else some (p, c :: rest)

/-- the digits of the exponent (types/decimal.go:283-295); gives `n` and the rest of the text -/
def expDigits : Bytes → Nat → Option (Nat × Bytes)
  | [], n => some (n, [])
  | c :: rest, n =>
    if n < 10000 then
      if isDigit c then expDigits rest (n * 10 + (c.toNat - 48)) else none
    else some (n, c :: rest)

/-- `for div < 1e9 && e < -6176 { div *= 10; e++ }` (types/decimal.go:304-308) -/
def divUp (div : UInt32) (e : Int) : UInt32 × Int :=
  if div < 1000000000 ∧ e < -6176 then divUp (div * 10) (e + 1) else (div, e)
termination_by (-6176 - e).toNat

/-- `for mul < 1e9 && e > 6111 { mul *= 10; e-- }` (types/decimal.go:320-324) -/
def mulUp (mul : UInt32) (e : Int) : UInt32 × Int :=
  if mul < 1000000000 ∧ e > 6111 then mulUp (mul * 10) (e - 1) else (mul, e)
termination_by (e - 6111).toNat

theorem divUp_le (div : UInt32) (e : Int) : e ≤ (divUp div e).2 := by
  unfold divUp
  split
  · have := divUp_le (div * 10) (e + 1); omega
  · simp
termination_by (-6176 - e).toNat

theorem mulUp_le (mul : UInt32) (e : Int) : (mulUp mul e).2 ≤ e := by
  unfold mulUp
  split
  · have := mulUp_le (mul * 10) (e - 1); omega
  · simp
termination_by (e - 6111).toNat

/-- the loop `for e < -6176` (types/decimal.go:302-316) -/
def subnormal (h l : UInt64) (e : Int) : Option (UInt64 × UInt64 × Int) :=
  if _hlt : e < -6176 then
    let r := divmod h l (divUp 1 e).1
    if r.2.2 > 0 then none else subnormal r.1 r.2.1 (divUp 1 e).2
  else some (h, l, e)
termination_by (-6176 - e).toNat
decreasing_by
  have h1 : (divUp 1 e).2 = (divUp (1 * 10) (e + 1)).2 := by rw [divUp, if_pos ⟨by decide, _hlt⟩]
  have h2 := divUp_le (1 * 10) (e + 1)
  omega

/-- the loop `for e > 6111` (types/decimal.go:318-331) -/
def clamped (h l : UInt64) (e : Int) : Option (UInt64 × UInt64 × Int) :=
  if _hgt : e > 6111 then
    let r := muladd h l (mulUp 1 e).1 0
    if tooLarge r.1 r.2.2 then none else clamped r.1 r.2.1 (mulUp 1 e).2
  else some (h, l, e)
termination_by (e - 6111).toNat
decreasing_by
  have h1 : (mulUp 1 e).2 = (mulUp (1 * 10) (e - 1)).2 := by rw [mulUp, if_pos ⟨by decide, _hgt⟩]
  have h2 := mulUp_le (1 * 10) (e - 1)
  omega

/-- The exponent part (types/decimal.go:271-336): given the text after the mantissa, the coefficient and exponent to use and the rest
    of the text. -/
def exponent (h l : UInt64) (e : Int) : Bytes → Option (UInt64 × UInt64 × Int × Bytes)
  | c :: d :: rest =>
    if c = 69 ∨ c = 101 then
      -- the sign
      let signed := d = 45 ∨ d = 43
      if signed ∧ rest = [] then none else
      match expDigits (if signed then rest else d :: rest) 0 with
      | none => none
      | some (n, rest) =>
        let e := e + (if d = 45 then -(n : Int) else n)
        match subnormal h l e with
        | none => none
        | some (h, l, e) =>
          match clamped h l e with
          | none => none
          | some (h, l, e) => if e < -6176 ∨ e > 6111 then none else some (h, l, e, rest)
    else some (h, l, e, c :: d :: rest)
  | rest => some (h, l, e, rest)

/-- everything after the sign and the special words (types/decimal.go:184-348) -/
def parseNumber (neg : Bool) (s : Bytes) : Option Dec :=
  match scan s.length s {} with
  | none => none
  | some (p, rest) =>
    if p.i = 0 then none
    else
      match (if p.mul > 1 then p.flush else some p) with
      | none => none
      | some p =>
        let e := if p.dot ≥ 0 then p.e + (p.dot - p.i) else p.e
        match exponent p.h p.l e rest with
        | none => none
        | some (h, l, e, rest) =>
          if rest ≠ [] then none
          else
            let h := h ||| ((UInt64.ofNat (u64i (e + 6176)) &&& 16383) <<< 49)
            some ⟨if neg then h ||| ((1 : UInt64) <<< 63) else h, l⟩

/-- `ParseDecimal128` (types/decimal.go:156-348); `none` is the error -/
def parse : Bytes → Option Dec
  | [] => none
  | c :: r =>
    let neg : Bool := c = 45
    let s := if neg ∨ c = 43 then r else c :: r
    if (s.length = 3 ∨ s.length = 8) ∧ (s.head? = some 78 ∨ s.head? = some 110 ∨ s.head? = some 73 ∨ s.head? = some 105) then
      if equalFold s [110, 97, 110] then some nan
      else if equalFold s [105, 110, 102] ∨ equalFold s [105, 110, 102, 105, 110, 105, 116, 121] then
        some (if neg then negInf else posInf)
      else none
    else parseNumber neg s

end Birch.Model.Decimal
