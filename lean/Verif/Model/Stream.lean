import Verif.Model.Value

/-
Model of reading documents from an `io.Reader`: `io.ReadFull`, `Document.ReadFrom`,
`DC.ReadFrom`/`DCE.ReadFrom` and `NewFromIOReader`.
-/

set_option linter.unusedVariables false

namespace Birch.Model.Stream
open Birch Model

/-- An `io.Reader` that delivers the given segments, one per `Read` (or part of one, when the buffer is
    smaller) and then `io.EOF`.  Segments may be empty (`Read` returning 0, nil).  `eager` readers
    return `io.EOF` together with the last bytes. -/
structure Source where
  segs : List Bytes
  eager : Bool
  deriving DecidableEq, Repr

/-- the bytes not yet delivered -/
def Source.left (s : Source) : Bytes := s.segs.flatten

/-- `r.Read(p)` with `len(p) = n`: the bytes delivered, whether `io.EOF` is returned, and the reader afterwards -/
def Source.read (s : Source) (n : Nat) : Bytes × Bool × Source :=
  match s.segs with
  | [] => ([], true, s)
  | seg :: rest =>
    let segs := if seg.drop n = [] then rest else seg.drop n :: rest
    (seg.take n, segs = [] && s.eager, { s with segs := segs })

/-- loop of `io.ReadAtLeast` (io.go in the standard library): `want` bytes are missing, `got` have arrived -/
def readLoop (want : Nat) (got : Bytes) (s : Source) : Bytes × Bool × Source :=
  if h : want = 0 then (got, false, s) else
  match hr : s.read want with
  | (b, true, s') => (got ++ b, true, s')
  | (b, false, s') => readLoop (want - b.length) (got ++ b) s'
termination_by s.segs.length + want
decreasing_by
  unfold Source.read at hr
  split at hr
  · cases hr
  · next seg rest hs =>
    simp only [Prod.mk.injEq] at hr
    obtain ⟨rfl, -, rfl⟩ := hr
    rw [hs]
    by_cases h2 : seg.drop want = []
    · simp only [h2, if_true, List.length_cons]; omega
    · simp only [if_neg h2, List.length_cons, List.length_take]
      have : ¬ seg.length ≤ want := fun h => h2 (List.drop_eq_nil_of_le h)
      omega

/-- `io.ReadFull(r, buf)` with `len(buf) = want`: bytes read, error, reader afterwards -/
def readFull (want : Nat) (s : Source) : Bytes × Option Err × Source :=
  match readLoop want [] s with
  | (b, eof, s') =>
    if b.length ≥ want then (b, none, s')
    else (b, (if b.length > 0 ∧ eof then some .unexpectedEOF else if eof then some .eof else none), s')

/-- what `ReadFrom` returns: the count, the document or error, and the reader afterwards -/
structure ReadResult (α : Type) where
  total : Nat
  result : Res α
  rest : Source

/-- `Document.ReadFrom` (document.go:305-333).  The buffers of the pool are taken to be fresh (see DESIGN.md);
    a length below 4 (or negative) makes the slice expressions panic. -/
def readFrom (fuel : Nat) (s : Source) : ReadResult Doc :=
  match readFull 4 s with
  | (sizeBuf, some e, s) => ⟨sizeBuf.length, .err e, s⟩
  | (sizeBuf, none, s) =>
    match readi32 sizeBuf with
    | .ok givenLength =>
      if givenLength < 4 then ⟨sizeBuf.length, .panic, s⟩ else
      match readFull (givenLength.toNat - 4) s with
      | (b, some e, s) => ⟨sizeBuf.length + b.length, .err e, s⟩
      | (b, none, s) => ⟨sizeBuf.length + b.length, readDocument fuel (sizeBuf ++ b), s⟩
    | _ => ⟨sizeBuf.length, .panic, s⟩

/-- `DCE.ReadFrom` (x_constructor.go:79-92) -/
def dceReadFrom (fuel : Nat) (s : Source) : Res Doc × Source :=
  let r := readFrom fuel s
  (r.result, r.rest)

/-- `DC.ReadFrom` (x_constructor.go:63-74); `none` is nil -/
def dcReadFrom (fuel : Nat) (s : Source) : Res (Option Doc) × Source :=
  match dceReadFrom fuel s with
  | (.err .eof, s) => (.ok none, s)
  | (.err _, s) => (.panic, s)
  | (.ok d, s) => (.ok (some d), s)
  | (.panic, s) => (.panic, s)
  | (.oof, s) => (.oof, s)

/-- `NewFromIOReader` (reader.go:32-69); for a length of 0 to 3 `reader[4:]` panics -/
def newFromIOReader (s : Source) : Res Bytes × Source :=
  match readFull 4 s with
  | (_, some e, s) => (.err e, s)
  | (lengthBytes, none, s) =>
    if lengthBytes.length < 4 then (.err .tooSmall, s) else
    match readi32 lengthBytes with
    | .ok length =>
      if length < 0 then (.err .invalidLength, s)
      else if length < 4 then (.panic, s) else
      match readFull (length.toNat - 4) s with
      | (_, some e, s) => (.err e, s)
      | (b, none, s) =>
        if i32 b.length ≠ i32 (length - 4) then (.err .invalidLength, s)
        else (.ok (lengthBytes ++ b), s)
    | _ => (.panic, s)

end Birch.Model.Stream
