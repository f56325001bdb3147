import Verif.Model.Access

/-
Model of path lookup: `Document.Search`, `Array.findElementForStrKey`,
`Reader.RecursiveLookup`.  Documents and arrays are non-nil and hold no nil elements.
-/

namespace Birch.Model
open Birch

/-- `findElemForKey` (document.go:189-196), on the elements of the document -/
def findElemForKey (k : Bytes) : Doc → Res (Option Value)
  | [] => .ok none
  | v :: d => do
    let k' ← key v
    if k' = k then .ok (some v) else findElemForKey k d

/-- the digit loop of `strconv.Atoi`; the range check is made by the caller -/
def atoiDigits (acc : Nat) : Bytes → Option Nat
  | [] => some acc
  | c :: r => if c < 48 ∨ c > 57 then none else atoiDigits (acc * 10 + (c - 48).toNat) r

/-- `strconv.Atoi` (standard library, 64 bit `int`): one optional sign, at least one decimal digit,
    value in the range of `int`.  `none` is an error. -/
def atoi (s : Bytes) : Option Int :=
  let (neg, r) := match s with
    | 45 :: r => (true, r)
    | 43 :: r => (false, r)
    | r => (false, r)
  if r = [] then none else
  match atoiDigits 0 r with
  | none => none
  | some n =>
    if neg then (if n ≤ 9223372036854775808 then some (-(n : Int)) else none)
    else (if n < 9223372036854775808 then some (n : Int) else none)

/-- `convertValueToElem` (element.go:327-351), `EC.Value` (constructor.go:591-593); `none` is nil.
    `v.d.Copy()` gives a document with the same elements. -/
def convertValueToElem (k : Bytes) (v : Value) : Res (Option Value) :=
  if v.offset = 0 ∨ v.data = [] then .ok none else do
  let rest ← slice v.data v.offset v.data.length
  let t ← idx v.data v.start
  let data := t :: (k ++ 0 :: rest)
  match v with
  | .raw _ _ _ => .ok (some (.raw 0 (u32 (k.length + 2)) data))
  | .withDoc _ _ _ d => .ok (some (.withDoc 0 (u32 (k.length + 2)) data d))

/-- `a.Lookup(uint(idx))` (array.go:76-83); negative numbers become at least 2^63 -/
def lookupInt (a : Doc) (i : Int) : Option Value := a[u64i i]?

mutual
/-- `Document.Search` (document.go:163-187) -/
def search (fuel : Nat) : List Bytes → Doc → Res Value
  | [], _ => .err .elementNotFound
  | [k], d => do
    match ← findElemForKey k d with
    | none => .err .elementNotFound
    | some e => .ok e
  | k :: k' :: ks, d => do
    match ← findElemForKey k d with
    | none => .err .elementNotFound
    | some e =>
      match ← mutableDocumentOK fuel e with
      | some sd => search fuel (k' :: ks) sd
      | none =>
        match ← mutableArrayOK fuel e with
        | some ar =>
          match ← findStrKey fuel (k' :: ks) ar with
          | some em => .ok em
          | none => .err .elementNotFound
        | none => .err .elementNotFound

/-- `Array.findElementForStrKey` (array.go:96-124); `none` is nil -/
def findStrKey (fuel : Nat) : List Bytes → Doc → Res (Option Value)
  | [], _ => .ok none
  | [k], a =>
    match atoi k with
    | none => .ok none
    | some i =>
      match lookupInt a i with
      | none => .ok none
      | some val => convertValueToElem k val
  | k :: k' :: ks, a =>
    match atoi k with
    | none => .ok none
    | some i =>
      match lookupInt a i with
      | none => .ok none
      | some val => do
        let viaArray : Res (Option Value) := do
          match ← mutableArrayOK fuel val with
          | some sar => findStrKey fuel (k' :: ks) sar
          | none => .ok none
        match ← mutableDocumentOK fuel val with
        | some sd =>
          match search fuel (k' :: ks) sd with
          | .ok el => .ok (some el)
          | .err _ => viaArray
          | .panic => .panic
          | .oof => .oof
        | none => viaArray
end

mutual
/-- `Reader.RecursiveLookup` (reader.go:113-153) -/
def recursiveLookup (fuel : Nat) (r : Bytes) (path : List Bytes) : Res Value :=
  match path with
  | [] => .err .emptyKey
  | k :: ks => do
    let e ← readerEnd r
    match ← lookupLoop fuel r 4 e k ks with
    | none => .err .elementNotFound
    | some v => .ok v
termination_by (fuel, 1)
/-- the loop of `readElements` (reader.go:239-305) with the callback of `RecursiveLookup`
    (reader.go:120-146); `none` when the loop ends without a match, and an
    `errValidateDone` from the callback ends it with the element -/
def lookupLoop (fuel : Nat) (r : Bytes) (pos end_ : Nat) (k : Bytes) (ks : List Bytes) : Res (Option Value) :=
  match fuel with
  | 0 => .oof
  | fuel + 1 =>
    if pos ≥ end_ then .err .invalidReadOnlyDocument else do
    let t ← idx r pos
    if t = 0 then .ok none else do
    let n ← readerKey r (u32 (pos + 1)) end_
    let off := u32 (u32 (pos + 1) + n)
    let m ← rawSize r pos off
    let elem := Value.raw pos off r
    let k' ← key elem
    if k = k' then
      match ks with
      | [] => .ok (some elem)
      | ks => do
        let t ← type elem
        if t = 0x03 then do
          let sub ← readerDocument fuel elem
          .ok (some (← recursiveLookup fuel sub ks))
        else if t = 0x04 then do
          let sub ← readerArray fuel elem
          .ok (some (← recursiveLookup fuel sub ks))
        else .err .invalidDepthTraversal
    else lookupLoop fuel r (u32 (off + m)) end_ k ks
termination_by (fuel, 0)
end

end Birch.Model
