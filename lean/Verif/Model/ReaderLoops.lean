import Verif.Model.ReaderWalk
/-!
# Loops over a `Reader` iterator that has met an error

`Verif/Model/ReaderWalk.lean` follows the loops over what one call of `Reader.Iterator` returned (reader.go:185-198) up to the first error.  Here the iterator keeps what
it really has after an error: the position, which `Next` has moved already, and the error, which nothing takes away.

* `Value.validate(true)` (value.go:198-482) with the size that it returns beside an error
* `Reader.validateKey` (reader.go:88-102) with the length that it returns beside an error
* `readerIterator.Next`, `Close` (iterator.go:86-128)
* the function that `Iterator` returns (reader.go:190-197)
-/
namespace Birch.Model.ReaderLoops
open Birch Birch.Model

/-- `Value.validate(true)` (value.go:198-482) for a value with `d == nil`: the size, and the error if there is one.  The simplifications are those of `rawSize`. -/
def sized (data : Bytes) (start offset : Nat) : Res (Nat × Option Err) := do
  if data = [] then .ok (0, some .uninitializedElement) else
  let len : Nat := data.length
  let t ← idx data start
  if t = 0x06 ∨ t = 0x0A ∨ t = 0xFF ∨ t = 0x7F then .ok (0, none)
  else if t = 0x01 then
    if len < u32 (offset + 8) then .ok (0, some .tooSmall) else .ok (8, none)
  else if t = 0x02 ∨ t = 0x0D ∨ t = 0x0E then
    if len < u32 (offset + 4) then .ok (0, some .tooSmall) else do
    let l ← readi32 (← slice data offset (u32 (offset + 4)))
    if i32 (i32 (i32 offset + 4) + l) > i32 len then .ok (4, some .tooSmall)
    else .ok (u32 (4 + u32i l), none)
  else if t = 0x03 ∨ t = 0x04 then
    if len < u32 (offset + 4) then .ok (0, some .tooSmall) else do
    let l ← readi32 (← slice data offset (u32 (offset + 4)))
    if l < 5 then .ok (4, some .invalidReadOnlyDocument)
    else if i32 (i32 offset + l) > i32 len then .ok (4, some .tooSmall)
    else .ok (u32 (4 + u32i (u32i l - 4)), none)
  else if t = 0x05 then
    if len < u32 (offset + 5) then .ok (0, some .tooSmall) else do
    let l ← readi32 (← slice data offset (u32 (offset + 4)))
    let st ← idx data (u32 (offset + 4))
    if st > 0x05 ∧ st < 0x80 then .ok (5, some .invalidBinarySubtype)
    else if i32 (i32 (i32 offset + 5) + l) > i32 len then .ok (5, some .tooSmall)
    else .ok (u32 (5 + u32i l), none)
  else if t = 0x07 then
    if len < u32 (offset + 12) then .ok (0, some .tooSmall) else .ok (12, none)
  else if t = 0x08 then
    if len < u32 (offset + 1) then .ok (0, some .tooSmall) else do
    let v ← idx data offset
    if v ≠ 0 ∧ v ≠ 1 then .ok (1, some .invalidBooleanType) else .ok (1, none)
  else if t = 0x09 then
    if len < u32 (offset + 8) then .ok (0, some .tooSmall) else .ok (8, none)
  else if t = 0x0B then
    if offset > len then .panic else
    let n := (cstrAt data offset).length
    if offset + n ≥ len then .ok (u32 n, some .invalidString) else
    let m := (cstrAt data (offset + n + 1)).length
    if offset + n + 1 + m ≥ len then .ok (u32 (n + 1 + m), some .invalidString)
    else .ok (u32 (n + 1 + m + 1), none)
  else if t = 0x0C then
    if len < u32 (offset + 4) then .ok (0, some .tooSmall) else do
    let l ← readi32 (← slice data offset (u32 (offset + 4)))
    if i32 (i32 (i32 (i32 offset + 4) + l) + 12) > i32 len then .ok (4, some .tooSmall)
    else .ok (u32 (4 + u32i l + 12), none)
  else if t = 0x0F then
    if len < u32 (offset + 4) then .ok (0, some .tooSmall) else do
    let l ← readi32 (← slice data offset (u32 (offset + 4)))
    if i32 (i32 offset + l) > i32 len then .ok (4, some .tooSmall)
    else .ok (u32 (4 + u32i (u32i l - 4)), none)
  else if t = 0x10 then
    if len < u32 (offset + 4) then .ok (0, some .tooSmall) else .ok (4, none)
  else if t = 0x11 ∨ t = 0x12 then
    if len < u32 (offset + 8) then .ok (0, some .tooSmall) else .ok (8, none)
  else if t = 0x13 then
    if len < u32 (offset + 16) then .ok (0, some .tooSmall) else .ok (16, none)
  else .ok (0, some .invalidElement)

/-- `Reader.validateKey` (reader.go:88-102): the length, and the error if there is one -/
def keyed (r : Bytes) (pos end_ : Nat) : Res (Nat × Option Err) :=
  let n := ((r.take end_).drop pos).takeWhile (· ≠ 0) |>.length
  if pos + n = end_ then .ok (n, some .invalidKey)
  else if pos + n ≥ r.length then .panic
  else .ok (n + 1, none)

/-- `readerIterator` (iterator.go:55-61); `elem` is left out, as the only element that is used is the one that `Next` has just made -/
structure It where
  r : Bytes
  pos : Nat
  end_ : Nat
  err : Option Err

/-- `newReaderIterator` (iterator.go:64-81) -/
def iterator (r : Bytes) : Res It := do
  let e ← iterEnd r
  .ok ⟨r, 4, e, none⟩

/-- `Next` (iterator.go:86-123): the iterator afterwards, and the element if the result is `true` -/
def next (it : It) : Res (It × Option Value) :=
  if it.pos ≥ it.end_ then .ok ({ it with err := some .invalidReadOnlyDocument }, none) else do
  let t ← idx it.r it.pos
  if t = 0 then .ok (it, none) else do
  let (n, e) ← keyed it.r (u32 (it.pos + 1)) it.end_
  let off := u32 (u32 (it.pos + 1) + n)
  match e with
  | some e => .ok ({ it with pos := off, err := some e }, none)
  | none => do
    let (m, e) ← sized it.r it.pos off
    match e with
    | some e => .ok ({ it with pos := u32 (off + m), err := some e }, none)
    | none => .ok ({ it with pos := u32 (off + m) }, some (.raw it.pos off it.r))

/-- how a loop ends -/
inductive Ending where
  /-- the loop is over, and the body has not got an error -/
  | done
  /-- the body gets the error last -/
  | error (e : Err)
  /-- the body is called again after it has left the loop; the Go runtime panics: "range function continued iteration after function for loop body returned false" -/
  | calledAgain
  | panic
  | oof
  deriving DecidableEq

/-- what follows the inner loop of the function that `Iterator` returns (reader.go:194-196), if the body has not left the loop -/
def close (it : It) : Ending :=
  match it.err with
  | none => .done
  | some e => .error e

/-- `for elem, err := range it` (reader.go:190-197) with a body that leaves the loop at the element with number `stop`: the elements that the body gets, how the loop
    ends, and the iterator afterwards -/
def range : Nat → It → Option Nat → List Value × Ending × It
  | 0, it, _ => ([], .oof, it)
  | fuel + 1, it, stop =>
    match next it with
    | .ok (it', none) => ([], close it', it')
    | .ok (it', some v) =>
      if stop = some 0 then ([v], if it'.err.isSome then .calledAgain else .done, it')
      else
        let x := range fuel it' (stop.map (· - 1))
        (v :: x.1, x.2)
    | .err _ => ([], .panic, it) -- `next` has no such result
    | .panic => ([], .panic, it)
    | .oof => ([], .oof, it)

/-- several such loops, one after the other, over what one call of `Iterator` returned, up to the first panic: what the bodies get and how the loops end -/
def loops (fuel : Nat) : It → List (Option Nat) → List (List Value × Ending)
  | _, [] => []
  | it, stop :: stops =>
    let x := range fuel it stop
    match x.2.1 with
    | .done => (x.1, .done) :: loops fuel x.2.2 stops
    | .error e => (x.1, .error e) :: loops fuel x.2.2 stops
    | e => [(x.1, e)]

end Birch.Model.ReaderLoops
