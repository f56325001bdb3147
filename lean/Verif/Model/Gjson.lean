import Verif.Model.Json

/-
The JSON reader of jsonx (jsonx/internal/gjson.go, jsonx/unmarshal.go).

The code keeps an index into the text; here a function takes what is left of the text from that index on and gives back what is left afterwards.
Functions that look back (for the backslashes before a quotation mark) are given the characters read so far in the string, the last one first;
looking further back would end at the opening quotation mark.  `Result.Index` and `Result.Num` are left out: the first is not used, the second is a
function of `Result.Raw`.
-/

namespace Birch.Model.Gjson
open Birch Model.Json

/-- what is used of the standard library (`strconv`): `ParseFloat(s, 64)`, its value and whether there is no error, and `FormatFloat(f, 'f', -1, 64)` -/
structure Strconv where
  parseFloat : Bytes → UInt64 × Bool
  formatFloat : UInt64 → Bytes

/-- `Result` (jsonx/internal/gjson.go:51-62) by its `Type`: `Raw` for numbers and JSON, `Str` for strings -/
inductive Result where
  | null
  | bool (b : Bool)
  | num (raw : Bytes)
  | str (s : Bytes)
  | json (raw : Bytes)
  deriving DecidableEq, Repr

/-! ### validation (jsonx/internal/gjson.go:1007-1281) -/

/-- the loops `case ' ', '\t', '\n', '\r': continue` -/
def skipWs : Bytes → Bytes
  | [] => []
  | c :: r => if c = 32 ∨ c = 9 ∨ c = 10 ∨ c = 13 then skipWs r else c :: r

def isHex (c : UInt8) : Bool := (48 ≤ c ∧ c ≤ 57) ∨ (97 ≤ c ∧ c ≤ 102) ∨ (65 ≤ c ∧ c ≤ 70)

def isDigit (c : UInt8) : Bool := 48 ≤ c ∧ c ≤ 57

/-- `validstring` (jsonx/internal/gjson.go:1148-1179) -/
def validString : Bytes → Option Bytes
  | [] => none
  | c :: r =>
    if c < 32 then none
    else if c = 92 then
      match r with
      | [] => none
      | e :: r =>
        if e = 34 ∨ e = 92 ∨ e = 47 ∨ e = 98 ∨ e = 102 ∨ e = 110 ∨ e = 114 ∨ e = 116 then validString r
        else if e = 117 then
          match r with
          | h1 :: h2 :: h3 :: h4 :: r => if isHex h1 ∧ isHex h2 ∧ isHex h3 ∧ isHex h4 then validString r else none
          | _ => none
        else none
    else if c = 34 then some r
    else validString r

/-- `validcolon` (jsonx/internal/gjson.go:1097-1109) -/
def validColon (t : Bytes) : Option Bytes :=
  match skipWs t with
  | [] => none
  | c :: r => if c = 58 then some r else none

/-- the loops over digits in `validnumber` -/
def skipDigits : Bytes → Bytes
  | [] => []
  | c :: r => if isDigit c then skipDigits r else c :: r

/-- the exponent (jsonx/internal/gjson.go:1220-1246) -/
def validExp : Bytes → Option Bytes
  | [] => some []
  | c :: r =>
    if c = 101 ∨ c = 69 then
      match r with
      | [] => none
      | s :: r' =>
        match (if s = 43 ∨ s = 45 then r' else s :: r') with
        | [] => none
        | d :: r => if isDigit d then some (skipDigits r) else none
    else some (c :: r)

/-- the fraction (jsonx/internal/gjson.go:1200-1219) -/
def validFrac : Bytes → Option Bytes
  | [] => some []
  | c :: r =>
    if c = 46 then
      match r with
      | [] => none
      | d :: r => if isDigit d then validExp (skipDigits r) else none
    else validExp (c :: r)

/-- `validnumber` (jsonx/internal/gjson.go:1180-1247), from the first character of the number on -/
def validNumber (t : Bytes) : Option Bytes :=
  match (match t with | c :: r => if c = 45 then r else c :: r | [] => []) with
  | [] => none
  | c :: r => if c = 48 then validFrac r else validFrac (skipDigits (c :: r))

mutual
/-- `validany` (jsonx/internal/gjson.go:1030-1054), `validtrue`, `validfalse`, `validnull` (1249-1269) -/
def validAny : Nat → Bytes → Option Bytes
  | 0, _ => none
  | fuel + 1, t =>
    match skipWs t with
    | [] => none
    | c :: r =>
      if c = 123 then validObject fuel r
      else if c = 91 then validArray fuel r
      else if c = 34 then validString r
      else if c = 45 ∨ isDigit c then validNumber (c :: r)
      else if c = 116 then (if r.take 3 = [114, 117, 101] then some (r.drop 3) else none)
      else if c = 102 then (if r.take 4 = [97, 108, 115, 101] then some (r.drop 4) else none)
      else if c = 110 then (if r.take 3 = [117, 108, 108] then some (r.drop 3) else none)
      else none
/-- `validobject` (jsonx/internal/gjson.go:1055-1096) -/
def validObject : Nat → Bytes → Option Bytes
  | 0, _ => none
  | fuel + 1, t =>
    match skipWs t with
    | [] => none
    | c :: r =>
      if c = 125 then some r
      else if c = 34 then validKey fuel r
      else none
/-- from the label `key` on (jsonx/internal/gjson.go:1065-1092), with `validcomma` (1110-1124) -/
def validKey : Nat → Bytes → Option Bytes
  | 0, _ => none
  | fuel + 1, t =>
    match validString t with
    | none => none
    | some t =>
      match validColon t with
      | none => none
      | some t =>
        match validAny fuel t with
        | none => none
        | some t =>
          match skipWs t with
          | [] => none
          | c :: r =>
            if c = 125 then some r
            else if c = 44 then
              match skipWs r with
              | [] => none
              | q :: r => if q = 34 then validKey fuel r else none
            else none
/-- `validarray` (jsonx/internal/gjson.go:1125-1147) -/
def validArray : Nat → Bytes → Option Bytes
  | 0, _ => none
  | fuel + 1, t =>
    match skipWs t with
    | [] => none
    | c :: r => if c = 93 then some r else validItems fuel (c :: r)
/-- the inner loop of `validarray` (jsonx/internal/gjson.go:1129-1139) -/
def validItems : Nat → Bytes → Option Bytes
  | 0, _ => none
  | fuel + 1, t =>
    match validAny fuel t with
    | none => none
    | some t =>
      match skipWs t with
      | [] => none
      | c :: r =>
        if c = 93 then some r
        else if c = 44 then validItems fuel r
        else none
end

/-- `validpayload` and `validateJSON` (jsonx/internal/gjson.go:1007-1029, 1278-1281).  At most three calls are made per character, so that the fuel is enough. -/
def validateJSON (t : Bytes) : Bool :=
  match validAny (3 * t.length + 1) t with
  | none => false
  | some r => skipWs r = []

/-! ### scanning -/

/-- Whether a quotation mark ends the string (jsonx/internal/gjson.go:502-515, 593-606, 667-680, 973-986): not if an odd number of backslashes is before it -/
def quoteEnds (before : Bytes) : Bool :=
  match before with
  | 92 :: b => (b.takeWhile (· = 92)).length % 2 ≠ 0
  | _ => true

/-- the characters up to the quotation mark that ends the string, and what follows it -/
def scanQuote (before : Bytes) : Bytes → Option (Bytes × Bytes)
  | [] => none
  | c :: r => if c = 34 ∧ quoteEnds before then some (before.reverse, r) else scanQuote (c :: before) r

/-- `parseString` (jsonx/internal/gjson.go:651-687), after the opening quotation mark: the characters of the string and whether one is escaped -/
def parseString (before : Bytes) : Bytes → Option (Bytes × Bool × Bytes)
  | [] => none
  | c :: r =>
    if c = 34 then some (before.reverse, false, r)
    else if c = 92 then (scanQuote (c :: before) r).map fun (s, r) => (s, true, r)
    else parseString (c :: before) r

/-- `squash` and `parseSquash` (jsonx/internal/gjson.go:484-532, 953-998) after the opening bracket: the text up to the closing one and what follows
    it.  `str` holds the characters of a string (or is `none` outside of strings). -/
def squash (depth : Nat) (str : Option Bytes) : Bytes → Bytes × Bytes
  | [] => ([], [])
  | c :: r =>
    match str with
    | some before =>
      let (b, rest) := if c = 34 ∧ quoteEnds before then squash depth none r else squash depth (some (c :: before)) r
      (c :: b, rest)
    | none =>
      if c = 34 then let (b, rest) := squash depth (some []) r; (c :: b, rest)
      else if c = 123 ∨ c = 91 ∨ c = 40 then let (b, rest) := squash (depth + 1) none r; (c :: b, rest)
      else if c = 125 ∨ c = 93 ∨ c = 41 then
        if depth = 1 then ([c], r) else let (b, rest) := squash (depth - 1) none r; (c :: b, rest)
      else let (b, rest) := squash depth none r; (c :: b, rest)

/-- the part of a text up to a character with the property, and the rest -/
def upTo (p : UInt8 → Bool) : Bytes → Bytes × Bytes
  | [] => ([], [])
  | c :: r => if p c then ([], c :: r) else (c :: (upTo p r).1, (upTo p r).2)

/-- `parseNumber` (jsonx/internal/gjson.go:689-699) after the first character -/
def parseNumber (t : Bytes) : Bytes × Bytes := upTo (fun c => c ≤ 32 ∨ c = 44 ∨ c = 93 ∨ c = 125) t

/-- `parseLiteral` (jsonx/internal/gjson.go:701-710) and `tolit` (565-572) after the first character -/
def parseLiteral (t : Bytes) : Bytes × Bytes := upTo (fun c => c < 97 ∨ c > 122) t

/-- `tonum` (jsonx/internal/gjson.go:534-563) after the first character -/
def tonum (t : Bytes) : Bytes × Bytes := upTo (fun c => if c ≤ 45 then c ≤ 32 ∨ c = 44 else if c < 93 then false else ¬ (c = 101 ∨ c = 69)) t

/-! ### escapes -/

def hexVal (c : UInt8) : Option Nat :=
  if 48 ≤ c ∧ c ≤ 57 then some (c.toNat - 48)
  else if 97 ≤ c ∧ c ≤ 102 then some (c.toNat - 87)
  else if 65 ≤ c ∧ c ≤ 70 then some (c.toNat - 55)
  else none

/-- `runeit` (jsonx/internal/gjson.go:826-829): 0 if `ParseUint` fails -/
def runeit (a b c d : UInt8) : Nat :=
  match hexVal a, hexVal b, hexVal c, hexVal d with
  | some a, some b, some c, some d => ((a * 16 + b) * 16 + c) * 16 + d
  | _, _, _, _ => 0

/-- `utf16.IsSurrogate` (standard library) -/
def isSurrogate (n : Nat) : Bool := 0xD800 ≤ n ∧ n < 0xE000

/-- `utf16.DecodeRune` (standard library) -/
def decodeRune (a b : Nat) : Nat :=
  if 0xD800 ≤ a ∧ a < 0xDC00 ∧ 0xDC00 ≤ b ∧ b < 0xE000 then (a - 0xD800) * 1024 + (b - 0xDC00) + 0x10000 else 0xFFFD

/-- `utf8.EncodeRune` (standard library) of a rune below 0x110000 -/
def encodeRune (n : Nat) : Bytes :=
  if n < 0x80 then [UInt8.ofNat n]
  else if n < 0x800 then [UInt8.ofNat (0xC0 + n / 64), UInt8.ofNat (0x80 + n % 64)]
  else if isSurrogate n then [0xEF, 0xBF, 0xBD]
  else if n < 0x10000 then [UInt8.ofNat (0xE0 + n / 4096), UInt8.ofNat (0x80 + n / 64 % 64), UInt8.ofNat (0x80 + n % 64)]
  else [UInt8.ofNat (0xF0 + n / 262144), UInt8.ofNat (0x80 + n / 4096 % 64), UInt8.ofNat (0x80 + n / 64 % 64), UInt8.ofNat (0x80 + n % 64)]

/-- `unescape` (jsonx/internal/gjson.go:832-888) -/
def unescape : Bytes → Bytes
  | [] => []
  | c :: r =>
    if c < 32 then []
    else if c ≠ 92 then c :: unescape r
    else match r with
      | [] => []
      | e :: r =>
        if e = 92 then 92 :: unescape r
        else if e = 47 then 47 :: unescape r
        else if e = 98 then 8 :: unescape r
        else if e = 102 then 12 :: unescape r
        else if e = 110 then 10 :: unescape r
        else if e = 114 then 13 :: unescape r
        else if e = 116 then 9 :: unescape r
        else if e = 34 then 34 :: unescape r
        else if e = 117 then
          match r with
          | h1 :: h2 :: h3 :: h4 :: r =>
            if isSurrogate (runeit h1 h2 h3 h4) then
              match r with
              | x :: y :: k1 :: k2 :: k3 :: k4 :: r' =>
                if x = 92 ∧ y = 117 then encodeRune (decodeRune (runeit h1 h2 h3 h4) (runeit k1 k2 k3 k4)) ++ unescape r'
                else encodeRune (runeit h1 h2 h3 h4) ++ unescape (x :: y :: k1 :: k2 :: k3 :: k4 :: r')
              | r => encodeRune (runeit h1 h2 h3 h4) ++ unescape r
            else encodeRune (runeit h1 h2 h3 h4) ++ unescape r
          | _ => []
        else []

/-- `tostr` (jsonx/internal/gjson.go:574-616) after the opening quotation mark: the length of `raw` without it, and `str` -/
def tostr (t : Bytes) : Nat × Bytes :=
  match parseString [] t with
  | some (s, false, _) => (s.length + 1, s)
  | some (s, true, r) => (if r = [] then s.length else s.length + 1, unescape s)
  | none => (t.length, if 92 ∈ t then unescape t else t)

/-! ### results -/

/-- `parseAny` with `hit` (jsonx/internal/gjson.go:893-951); `none` is `ok = false` -/
def parseAny : Bytes → Option (Result × Bytes)
  | [] => none
  | c :: r =>
    if c = 123 ∨ c = 91 then some (.json (c :: (squash 1 none r).1), (squash 1 none r).2)
    else if c ≤ 32 then parseAny r
    else if c = 34 then
      match parseString [] r with
      | none => none
      | some (s, esc, rest) => some (.str (if esc then unescape s else s), rest)
    else if c = 45 ∨ isDigit c then some (.num (c :: (parseNumber r).1), (parseNumber r).2)
    else if c = 116 then some (.bool true, (parseLiteral r).2)
    else if c = 102 then some (.bool false, (parseLiteral r).2)
    else if c = 110 then some (.null, (parseLiteral r).2)
    else parseAny r

/-- the characters skipped between a key and its value (jsonx/internal/gjson.go:288-293) -/
def skipColon : Bytes → Bytes
  | [] => []
  | c :: r => if c ≤ 32 ∨ c = 44 ∨ c = 58 then skipColon r else c :: r

/-- The loop of `Result.ForEach` for an object (jsonx/internal/gjson.go:271-307), after the opening brace: the keys and values given to the
    iterator, if it goes on.  Every round reads a character, so that the length of the text is enough fuel. -/
def forEach : Nat → Bytes → List (Bytes × Result)
  | 0, _ => []
  | _ + 1, [] => []
  | fuel + 1, c :: r =>
    if c ≠ 34 then forEach fuel r
    else match parseString [] r with
      | none => []
      | some (s, esc, rest) =>
        match parseAny (skipColon rest) with
        | none => []
        | some (v, rest) => (if esc then unescape s else s, v) :: forEach fuel (rest.drop 1)

/-- the loop of `arrayOrMap` for an array (jsonx/internal/gjson.go:364-428), after the opening bracket -/
def arrayItems : Nat → Bytes → List Result
  | 0, _ => []
  | _ + 1, [] => []
  | fuel + 1, c :: r =>
    if c ≤ 32 then arrayItems fuel r
    else if c = 93 ∨ c = 125 then []
    else if c = 123 ∨ c = 91 then .json (c :: (squash 1 none r).1) :: arrayItems fuel (squash 1 none r).2
    else if c = 110 then .null :: arrayItems fuel (parseLiteral r).2
    else if c = 116 then .bool true :: arrayItems fuel (parseLiteral r).2
    else if c = 102 then .bool false :: arrayItems fuel (parseLiteral r).2
    else if c = 34 then .str (tostr r).2 :: arrayItems fuel (r.drop (tostr r).1)
    else if isDigit c ∨ c = 45 then .num (c :: (tonum r).1) :: arrayItems fuel (tonum r).2
    else arrayItems fuel r

/-- `Parse` after the validation (jsonx/internal/gjson.go:443-475); `Result{}` is null -/
def parseTop : Bytes → Result
  | [] => .null
  | c :: r =>
    if c = 123 ∨ c = 91 then .json (c :: r)
    else if c ≤ 32 then parseTop r
    else if isDigit c ∨ c = 45 then .num (c :: (tonum r).1)
    else if c = 110 then .null
    else if c = 116 then .bool true
    else if c = 102 then .bool false
    else if c = 34 then .str (tostr r).2
    else .null

/-- `Parse`, `ParseBytes` (jsonx/internal/gjson.go:436-482) -/
def parse (t : Bytes) : Res Result := if validateJSON t then .ok (parseTop t) else .err .other

/-! ### values (jsonx/unmarshal.go) -/

/-- the digits of `ParseInt(s, 10, 64)` (standard library) -/
def parseDigits : Nat → Bytes → Option Nat
  | n, [] => some n
  | n, c :: r => if isDigit c then parseDigits (n * 10 + (c.toNat - 48)) r else none

/-- `json.Number.Int64`, which is `ParseInt(s, 10, 64)` (standard library); `none` is an error -/
def parseInt (s : Bytes) : Option Int :=
  let (neg, ds) : Bool × Bytes := match s with
    | c :: r => if c = 45 then (true, r) else if c = 43 then (false, r) else (false, c :: r)
    | [] => (false, [])
  if ds = [] then none else
  match parseDigits 0 ds with
  | none => none
  | some n =>
    if neg then (if n ≤ 2 ^ 63 then some (-(n : Int)) else none)
    else if n < 2 ^ 63 then some n else none

/-- `Result.String` of a number (jsonx/internal/gjson.go:71-85) -/
def numString (S : Strconv) (raw : Bytes) : Bytes :=
  match raw with
  | [] => S.formatFloat (S.parseFloat raw).1
  | c :: r => if (if c = 45 then r else c :: r).all isDigit then raw else S.formatFloat (S.parseFloat raw).1

/-- the numbers of `getValueForResult` (jsonx/unmarshal.go:92-100) -/
def number (S : Strconv) (raw : Bytes) : Res JVal :=
  match parseInt (numString S raw) with
  | some i => .ok (.int i)
  | none =>
    let (f, ok) := S.parseFloat (numString S raw)
    if ok then .ok (.dbl f) else .err .other

def collectVals (f : Result → Res JVal) : List Result → Res JVals
  | [] => .ok .nil
  | r :: rs => do
    let v ← f r
    .ok (.cons v (← collectVals f rs))

def collectElems (f : Result → Res JVal) : List (Bytes × Result) → Res JElems
  | [] => .ok .nil
  | (k, r) :: rs => do
    let v ← f r
    .ok (.cons k v (← collectElems f rs))

/-- `getValueForResult` (jsonx/unmarshal.go:82-138).  The fuel bounds the depth. -/
def getValue (S : Strconv) : Nat → Result → Res JVal
  | 0, _ => .oof
  | _ + 1, .str s => .ok (.str s)
  | _ + 1, .null => .ok .null
  | _ + 1, .bool b => .ok (.bool b)
  | _ + 1, .num raw => number S raw
  | fuel + 1, .json raw =>
    match raw with
    | [] => .err .other
    | c :: r =>
      if c = 91 then do .ok (.arr (← collectVals (getValue S fuel) (arrayItems r.length r)))
      else if c = 123 then do .ok (.obj (← collectElems (getValue S fuel) (forEach r.length r)))
      else .err .other

/-- `Value.UnmarshalJSON` (jsonx/unmarshal.go:62-76) -/
def unmarshalValue (S : Strconv) (fuel : Nat) (t : Bytes) : Res JVal := do getValue S fuel (← parse t)

/-- `Document.UnmarshalJSON` (jsonx/unmarshal.go:12-38) into an empty document -/
def unmarshalDocument (S : Strconv) (fuel : Nat) (t : Bytes) : Res JElems := do
  match ← parse t with
  | .json (c :: r) => if c = 123 then collectElems (getValue S fuel) (forEach r.length r) else .err .other
  | _ => .err .other

/-- `Array.UnmarshalJSON` (jsonx/unmarshal.go:40-60) into an empty array -/
def unmarshalArray (S : Strconv) (fuel : Nat) (t : Bytes) : Res JVals := do
  match ← parse t with
  | .json (c :: r) => if c = 91 then collectVals (getValue S fuel) (arrayItems r.length r) else .err .other
  | _ => .err .other

end Birch.Model.Gjson
