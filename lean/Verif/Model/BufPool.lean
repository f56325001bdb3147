import Verif.Model.Write
import Verif.Model.Stream

/-
Model of the use of the pool of byte buffers (`bufpool`, document.go:22, x/ftdc/collector_better.go:23) at the level of
slices and backing arrays: `Document.ReadFrom`, `NewFromIOReader`, `Array.MarshalBSON`, `Array.String` and the buffers of the
FTDC collectors.  (Model/Write and Model/Stream take the buffers to be fresh and empty.)

The pool itself and `stw.Slice` are outside the repository.  They are taken to be: `Get` returns some buffer
that was `Put` and not been got since, or a new one, as a slice of length 0, whatever its array holds; `Put` makes
the buffer available; `Grow(n)` makes the slice `n` long, within its array if that is large enough, with or
without clearing it, and else in a new array.  All these choices are parameters.
-/

namespace Birch.Model.BufPool
open Birch Model Model.Stream

/-- a slice that starts at the beginning of its array -/
structure Slice where
  arr : Nat
  len : Nat

/-- what `Get` does: take the free buffer with this position, or a new one with this capacity -/
inductive Choice where
  | free (i : Nat)
  | new (cap : Nat)

/-- how `Grow` does it: whether it clears, and how much more than needed it allocates -/
structure Growth where
  clear : Bool
  extra : Nat

/-- backing arrays, the buffers in the pool, and the slices that were returned to callers -/
structure World where
  heap : List Bytes
  free : List Nat
  given : List Slice

/-- the bytes of a slice -/
def bytes (h : List Bytes) (s : Slice) : Bytes := (h.getD s.arr []).take s.len

/-- overwrite part of an array -/
def write (h : List Bytes) (s : Slice) (at_ : Nat) (x : Bytes) : List Bytes :=
  let a := h.getD s.arr []
  h.set s.arr (a.take at_ ++ x ++ a.drop (at_ + x.length))

/-- `bufpool.Get()` -/
def get (c : Choice) (w : World) : World × Slice :=
  match c with
  | .free i =>
    match w.free[i]? with
    | some a => ({ w with free := w.free.eraseIdx i }, ⟨a, 0⟩)
    | none => ({ w with heap := w.heap ++ [[]] }, ⟨w.heap.length, 0⟩)
  | .new cap => ({ w with heap := w.heap ++ [List.replicate cap 0] }, ⟨w.heap.length, 0⟩)

/-- `bufpool.Put(s)` -/
def put (s : Slice) (w : World) : World := { w with free := s.arr :: w.free }

/-- `s.Grow(n)` for a slice of length 0 -/
def grow (g : Growth) (s : Slice) (n : Nat) (w : World) : World × Slice :=
  if n ≤ (w.heap.getD s.arr []).length then
    (if g.clear then { w with heap := write w.heap s 0 (List.replicate n 0) } else w, ⟨s.arr, n⟩)
  else ({ w with heap := w.heap ++ [List.replicate (n + g.extra) 0] }, ⟨w.heap.length, n⟩)

/-- `bytes.Buffer.Write` on a buffer made from `s`: within the array if there is room, else in a new one -/
def bufWrite (extra : Nat) (s : Slice) (x : Bytes) (w : World) : World × Slice :=
  if s.len + x.length ≤ (w.heap.getD s.arr []).length then
    ({ w with heap := write w.heap s s.len x }, ⟨s.arr, s.len + x.length⟩)
  else
    ({ w with heap := w.heap ++ [bytes w.heap s ++ x ++ List.replicate extra 0] }, ⟨w.heap.length, s.len + x.length⟩)

/-- several writes -/
def bufWrites (extra : Nat) (s : Slice) : List Bytes → World → World × Slice
  | [], w => (w, s)
  | x :: xs, w =>
    let (w, s) := bufWrite extra s x w
    bufWrites extra s xs w

/-- what a caller gets -/
inductive Out where
  /-- a slice, with the number of bytes read (0 for the calls that read nothing) -/
  | slice (total : Nat) (s : Slice)
  /-- a string, which has its own memory -/
  | text (t : Bytes)
  | err (total : Nat) (e : Err)
  | panic

/-- return a slice to the caller -/
def give (total : Nat) (s : Slice) (w : World) : World × Out := ({ w with given := w.given ++ [s] }, .slice total s)

/-- `Document.ReadFrom` (document.go:305-332) up to `UnmarshalBSON`: the slice is the one the elements of the document will use.
    `sizeBuf` is put back by the deferred call, `b` is not. -/
def readFrom (c1 c2 : Choice) (g1 g2 : Growth) (src : Source) (w : World) : World × Out :=
  let (w, sizeBuf) := get c1 w
  let (w, sizeBuf) := grow g1 sizeBuf 4 w
  match readFull 4 src with
  | (got, some e, _) => (put sizeBuf { w with heap := write w.heap sizeBuf 0 got }, .err got.length e)
  | (got, none, src) =>
    let w := { w with heap := write w.heap sizeBuf 0 got }
    match readi32 (bytes w.heap sizeBuf) with
    | .ok givenLength =>
      let (w, b) := get c2 w
      if givenLength < 4 then (put sizeBuf w, .panic) else
      let (w, b) := grow g2 b givenLength.toNat w
      let w := { w with heap := write w.heap b 0 (bytes w.heap sizeBuf) }
      match readFull (givenLength.toNat - 4) src with
      | (more, some e, _) => (put sizeBuf { w with heap := write w.heap b 4 more }, .err (got.length + more.length) e)
      | (more, none, _) =>
        let (w, o) := give (got.length + more.length) b { w with heap := write w.heap b 4 more }
        (put sizeBuf w, o)
    | _ => (put sizeBuf w, .panic)

/-- `NewFromIOReader` (reader.go:32-69): the result is in an array of its own -/
def newFromIOReader (c : Choice) (g : Growth) (src : Source) (w : World) : World × Out :=
  let (w, lengthBytes) := get c w
  let (w, lengthBytes) := grow g lengthBytes 4 w
  match readFull 4 src with
  | (got, some e, _) => (put lengthBytes { w with heap := write w.heap lengthBytes 0 got }, .err 0 e)
  | (got, none, src) =>
    let w := { w with heap := write w.heap lengthBytes 0 got }
    if got.length < 4 then (put lengthBytes w, .err 0 .tooSmall) else
    match readi32 (bytes w.heap lengthBytes) with
    | .ok length =>
      if length < 0 then (put lengthBytes w, .err 0 .invalidLength) else
      let reader : Slice := ⟨w.heap.length, length.toNat⟩
      let w := { w with heap := w.heap ++ [(bytes w.heap lengthBytes ++ List.replicate (length.toNat - 4) 0).take length.toNat] }
      if length < 4 then (put lengthBytes w, .panic) else
      match readFull (length.toNat - 4) src with
      | (more, some e, _) => (put lengthBytes { w with heap := write w.heap reader 4 more }, .err 0 e)
      | (more, none, _) =>
        let w := { w with heap := write w.heap reader 4 more }
        if i32 more.length ≠ i32 (length - 4) then (put lengthBytes w, .err 0 .invalidLength) else
        let (w, o) := give 0 reader w
        (put lengthBytes w, o)
    | _ => (put lengthBytes w, .panic)

/-- `Array.MarshalBSON` (array.go:271-285) into a buffer that holds `b` after `Grow` -/
def arrMarshalIn (fuel : Nat) (d : Doc) (b : Bytes) : Res Bytes := do
  let size ← arrValidate fuel d
  let (_, b) ← arrWrite fuel 0 size (b.take size) d
  .ok b

/-- `Array.MarshalBSON` (array.go:271-285); the buffer is not put back.  (After an error nobody has the buffer; what was written into
    it is left out.) -/
def arrayMarshal (fuel : Nat) (d : Doc) (c : Choice) (g : Growth) (w : World) : World × Out :=
  match arrValidate fuel d with
  | .ok size =>
    let (w, b) := get c w
    let (w, b) := grow g b size w
    match arrMarshalIn fuel d (bytes w.heap b) with
    | .ok x => give 0 b { w with heap := write w.heap b 0 x }
    | .err e => (w, .err 0 e)
    | _ => (w, .panic)
  | .err e => (w, .err 0 e)
  | _ => (w, .panic)

/-- `Array.String` (array.go:201-219) for an array whose text is written in the given parts: the string is a copy; what is put
    back is the buffer as it was got -/
def arrayString (parts : List Bytes) (c : Choice) (extra : Nat) (w : World) : World × Out :=
  let (w, bufbuf) := get c w
  let (w, buf) := bufWrites extra bufbuf parts w
  let t := bytes w.heap buf
  (put bufbuf w, .text t)

/-- `buf := bytes.NewBuffer(bufpool.Get())`, writes, `return buf.Bytes()` (x/ftdc/collector_better.go:133-152,
    x/ftdc/collector_dynamic.go:80-92, x/ftdc/collector_uncompressed.go:195-209, x/ftdc/util.go:90-110): nothing is put back -/
def buffer (parts : List Bytes) (c : Choice) (extra : Nat) (w : World) : World × Out :=
  let (w, buf) := get c w
  let (w, buf) := bufWrites extra buf parts w
  give 0 buf w

/-- calls of the package, and callers that overwrite what they were given -/
inductive Call where
  | readFrom (src : Source) (c1 c2 : Choice) (g1 g2 : Growth)
  | newFromIOReader (src : Source) (c : Choice) (g : Growth)
  | arrayMarshal (fuel : Nat) (d : Doc) (c : Choice) (g : Growth)
  | arrayString (parts : List Bytes) (c : Choice) (extra : Nat)
  | buffer (parts : List Bytes) (c : Choice) (extra : Nat)
  /-- the caller writes into the `k`th slice they were given, up to its capacity -/
  | scribble (k : Nat) (x : Bytes)

/-- one call -/
def step (w : World) : Call → World × Out
  | .readFrom src c1 c2 g1 g2 => readFrom c1 c2 g1 g2 src w
  | .newFromIOReader src c g => newFromIOReader c g src w
  | .arrayMarshal fuel d c g => arrayMarshal fuel d c g w
  | .arrayString parts c extra => arrayString parts c extra w
  | .buffer parts c extra => buffer parts c extra w
  | .scribble k x =>
    match w.given[k]? with
    | some s => ({ w with heap := write w.heap s 0 (x.take (w.heap.getD s.arr []).length) }, .text [])
    | none => (w, .text [])

/-- a sequence of calls -/
def run (w : World) : List Call → World × List Out
  | [] => (w, [])
  | c :: cs =>
    let (w, o) := step w c
    let (w, os) := run w cs
    (w, o :: os)

/-- at the start of the program -/
def World.empty : World := ⟨[], [], []⟩

end Birch.Model.BufPool
