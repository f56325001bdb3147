import Verif.Model.DocMap
/-!
# Walking over a `Reader`: `ElementAt` and `Iterator`

* `Reader.ElementAt` (reader.go:158-181)
* `Reader.Iterator` (reader.go:185-198) with `readerIterator` (iterator.go:54-128)

The iterator is made once, when `Iterator` is called, and all loops over what `Iterator` returned share it.  Where it stands after an error is not modelled here (it depends on
what `validate` returns beside the error) but in `Verif/Model/ReaderLoops.lean`.
-/
namespace Birch.Model.ReaderWalk
open Birch Birch.Model

/-- the loop of `readElements` (reader.go:260-300) with the callback of `ElementAt` (reader.go:164-171) and what follows it (reader.go:172-180); `i` is
    `index - current`.  One turn of the loop up to the callback is the same code as `Next` (iterator.go:86-123). -/
def elementAtLoop : Nat → Bytes → Nat → Nat → Nat → Res Value
  | 0, _, _, _, _ => .oof
  | fuel + 1, r, pos, end_, i =>
    match iterNext r pos end_ with
    | .ok none => .err .outOfBounds
    | .ok (some (v, pos')) => if i = 0 then .ok v else elementAtLoop fuel r pos' end_ (i - 1)
    | .err e => .err e
    | .panic => .panic
    | .oof => .oof

/-- `Reader.ElementAt` (reader.go:158-181) -/
def elementAt (fuel : Nat) (r : Bytes) (index : Nat) : Res Value := do
  let e ← readerEnd r
  elementAtLoop fuel r 4 e index

/-- `readerIterator` (iterator.go:55-61) without the element and the error -/
structure Walk where
  r : Bytes
  pos : Nat
  end_ : Nat

/-- `newReaderIterator` (iterator.go:64-81); if it fails, each loop over what `Iterator` returned gets the error alone (reader.go:187-189) -/
def iterator (r : Bytes) : Res Walk := do
  let e ← iterEnd r
  .ok ⟨r, 4, e⟩

/-- `for elem, err := range it` (reader.go:190-197) with a body that leaves the loop at the element with number `stop`: the elements that the body gets,
    and the iterator afterwards, or the error that the body gets last -/
def range : Nat → Walk → Option Nat → List Value × Res Walk
  | 0, _, _ => ([], .oof)
  | fuel + 1, w, stop =>
    match iterNext w.r w.pos w.end_ with
    | .ok none => ([], .ok w)
    | .ok (some (v, pos')) =>
      if stop = some 0 then ([v], .ok { w with pos := pos' })
      else
        let x := range fuel { w with pos := pos' } (stop.map (· - 1))
        (v :: x.1, x.2)
    | .err e => ([], .err e)
    | .panic => ([], .panic)
    | .oof => ([], .oof)

/-- several such loops, one after the other, over what one call of `Iterator` returned; they end with an error -/
def ranges (fuel : Nat) : Walk → List (Option Nat) → List (List Value) × Res Walk
  | w, [] => ([], .ok w)
  | w, stop :: stops =>
    match range fuel w stop with
    | (vs, .ok w') =>
      let x := ranges fuel w' stops
      (vs :: x.1, x.2)
    | (vs, x) => ([vs], x)

end Birch.Model.ReaderWalk
