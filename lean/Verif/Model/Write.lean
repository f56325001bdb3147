import Verif.Model.Value
import Verif.Model.Elements

/-
Model of the serialization code: `writeElement`, `writeByteSlice`, `MarshalBSON`.
-/

namespace Birch.Model
open Birch

/-- an encoder result as the (count, buffer) of a call that succeeded, or the error -/
def encRes (r : Res Elements.Out) : Res (Nat × Bytes) := do
  let o ← r
  if o.failed then .err .tooSmall else .ok (o.n, o.buf)

/-- any error becomes `errTooSmall` (element.go:135-137) -/
def asTooSmall {α : Type} : Res α → Res α
  | .err _ => .err .tooSmall
  | r => r

/-- the check at the top of `Element.writeByteSlice` (element.go:151-166);
    `uint` arithmetic wraps modulo 2^64.  Returns `startToWrite`. -/
def writePrep (key : Bool) (vstart voffset start size : Nat) (b : Bytes) : Res Nat :=
  let needed : Int := (start : Int) + size
  let needed : Int := if key then needed else needed - ((voffset : Int) - vstart - 1)
  if b.length < u64i needed then .err .tooSmall
  else .ok (if key then vstart else voffset)

/-- The two final paths of `Element.writeByteSlice` for `d == nil` (element.go:168-268):
    copy the bytes of the element, for code-with-scope after rewriting the length
    field in `data`.  The model returns the new buffer only: the side effect on the
    element's own (possibly shared) `data` is kept in `Model/Graph`. -/
def rawWrite (startToWrite vstart voffset size start : Nat) (data b : Bytes) : Res (Nat × Bytes) := do
  let t ← if voffset = 0 ∨ data = [] then .panic else idx data vstart
  if t = 0x0F then
    let codeStart := u32 (voffset + 4)
    let cl ← readi32 (← slice data codeStart (u32 (codeStart + 4)))
    let scopeStart := u32 (codeStart + 4 + u32i cl)
    let sl ← readi32 (← slice data scopeStart (u32 (scopeStart + 4)))
    let end_ := i32 (i32 scopeStart + sl)
    let (_, data) ← encRes (Elements.int32 voffset data (i32 (end_ - i32 voffset)))
    copyAt b start (← slice data startToWrite (u32 (vstart + size)))
  else
    copyAt b start (← slice data startToWrite (u32 (vstart + size)))

/-- Length prefix, contents, terminator: the common frame of `Document.writeByteSlice`
    (document.go:236-269) and `Array.writeByteSlice` (array.go:223-268). -/
def frameWrite (start size : Nat) (b : Bytes) (body : Nat → Bytes → Res (Nat × Bytes)) :
    Res (Nat × Bytes) := do
  if b.length < start + size then .err .tooSmall else do
  let (n, b) ← encRes (Elements.int32 start b (i32 size))
  let (m, b) ← body (start + n) b
  let (k, b) ← encRes (Elements.byte (start + n + m) b 0)
  .ok (n + m + k, b)

mutual
/-- `Element.writeElement` (element.go:122-147) into a byte slice, with
    `Element.writeByteSlice` (element.go:150-268) inlined.  Returns the number of bytes
    and the buffer. -/
def elemWrite (fuel : Nat) : Bool → Nat → Bytes → Value → Res (Nat × Bytes)
  | key, start, b, .raw vs vo data => do
      let size ← elemValidate fuel (.raw vs vo data)
      asTooSmall do
      let sw ← writePrep key vs vo start size b
      rawWrite sw vs vo size start data b
  | key, start, b, .withDoc vs vo data d => do
      let size ← elemValidate fuel (.withDoc vs vo data d)
      asTooSmall do
      let sw ← writePrep key vs vo start size b
      let t ← if vo = 0 ∨ data = [] then .panic else idx data vs
      if t = 0x03 then do
        let size := u32i ((size : Int) - ((vo : Int) - vs))
        if key then do
          let (n, b) ← copyAt b start (← slice data sw vo)
          let (m, b) ← frameWrite (start + n) size b (fun p b => elemsWrite fuel p b d)
          .ok (n + m, b)
        else frameWrite start size b (fun p b => elemsWrite fuel p b d)
      else if t = 0x04 then do
        let size := u32i ((size : Int) - ((vo : Int) - vs))
        if key then do
          let (n, b) ← copyAt b start (← slice data sw vo)
          let (m, b) ← frameWrite (start + n) size b (fun p b => valsWrite fuel 0 p b d)
          .ok (n + m, b)
        else frameWrite start size b (fun p b => valsWrite fuel 0 p b d)
      else if t = 0x0F then do
        let cl ← readi32 (← slice data (u32 (vo + 4)) (u32 (u32 (vo + 4) + 4)))
        let lws := i32 (8 + cl)
        let sl ← docValidate fuel d
        let (_, data) ← encRes (Elements.int32 vo data (i32 (lws + i32 sl)))
        let (n, b) ← copyAt b start (← slice data sw (u32 (vo + u32i lws)))
        let (m, b) ← frameWrite (start + n) sl b (fun p b => elemsWrite fuel p b d)
        .ok (n + m, b)
      else rawWrite sw vs vo size start data b

/-- the loop over the elements (document.go:251-259) -/
def elemsWrite (fuel : Nat) : Nat → Bytes → List Value → Res (Nat × Bytes)
  | _, b, [] => .ok (0, b)
  | pos, b, v :: rest => do
      let (n, b) ← elemWrite fuel true pos b v
      let (m, b) ← elemsWrite fuel (pos + n) b rest
      .ok (n + m, b)

/-- the loop over the values of an array (array.go:240-258) -/
def valsWrite (fuel : Nat) : Nat → Nat → Bytes → List Value → Res (Nat × Bytes)
  | _, _, b, [] => .ok (0, b)
  | i, pos, b, v :: rest => do
      let t ← idx v.data v.start
      let b ← Elements.setByte b pos t
      let key := itoa i ++ [0]
      let (_, b) ← copyAt b (pos + 1) key
      let (n, b) ← elemWrite fuel false (pos + 1 + key.length) b v
      let (m, b) ← valsWrite fuel (i + 1) (pos + 1 + key.length + n) b rest
      .ok (1 + key.length + n + m, b)
end

/-- `Document.writeByteSlice` (document.go:236-269) -/
def docWrite (fuel : Nat) (start size : Nat) (b : Bytes) (d : Doc) : Res (Nat × Bytes) :=
  frameWrite start size b (fun p b => elemsWrite fuel p b d)

/-- `Array.writeByteSlice` (array.go:223-268) -/
def arrWrite (fuel : Nat) (start size : Nat) (b : Bytes) (d : Doc) : Res (Nat × Bytes) :=
  frameWrite start size b (fun p b => valsWrite fuel 0 p b d)

/-- `Document.MarshalBSON` (document.go:272-285) -/
def docMarshal (fuel : Nat) (d : Doc) : Res Bytes := do
  let size ← docValidate fuel d
  let (_, b) ← docWrite fuel 0 size (List.replicate size 0) d
  .ok b

/-- `Array.MarshalBSON` (array.go:271-285).  The pooled buffer is taken to be empty
    before `Grow`. -/
def arrMarshal (fuel : Nat) (d : Doc) : Res Bytes := do
  let size ← arrValidate fuel d
  let (_, b) ← arrWrite fuel 0 size (List.replicate size 0) d
  .ok b

/-- `Element.MarshalBSON` (element.go:271-284).  `writeByteSlice` is `elemWrite` without its
    leading `Validate` (which here has just succeeded) and without the error mapping. -/
def elemMarshal (fuel : Nat) (v : Value) : Res Bytes := do
  let size ← elemValidate fuel v
  let (_, b) ← elemWrite fuel true 0 (List.replicate size 0) v
  .ok b

end Birch.Model
