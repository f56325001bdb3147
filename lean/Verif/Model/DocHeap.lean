import Verif.Base

/-
Model of the mutating and searching methods of `Document` and `Array` (document.go, x_document.go,
unmarshal.go, array.go) at the level of Go slices: every document owns a slice
header into a backing array that lives in a heap, so in-place writes (`Set`, `Delete`,
`append` within capacity) are visible through every slice that shares the array.

Elements are opaque pointers `E`; `none` is the nil pointer.  Documents only look at
elements through `Element.Key` (parameter `keyOf`) and `Value.IsEmpty` (parameter
`isEmpty`).  All slices of the modelled code start at index 0 of their array.  How far
`append` over-allocates is a parameter (`grow`).
-/

namespace Birch.Model.DocHeap
open Birch

variable {E : Type}

/-- a slice header: backing array and length (the capacity is the array's length) -/
structure Slice where
  arr : Nat
  len : Nat

/-- backing arrays -/
abbrev Heap (E : Type) := List (List (Option E))

/-- `Document` (document.go:25-30) -/
structure Document (E : Type) where
  elems : Slice
  cache : List (Bytes × E)
  cacheValid : Bool

/-- everything allocated so far; a `*Document` is an index into `docs` -/
structure World (E : Type) where
  heap : Heap E
  docs : List (Document E)

/-- the backing array of a slice -/
def array (h : Heap E) (s : Slice) : List (Option E) := h.getD s.arr []

/-- `s[i]` -/
def get (h : Heap E) (s : Slice) (i : Nat) : Res (Option E) :=
  if i < s.len then
    match (array h s)[i]? with
    | some x => .ok x
    | none => .panic
  else .panic

/-- `s[i] = x` -/
def put (h : Heap E) (s : Slice) (i : Nat) (x : Option E) : Res (Heap E) :=
  if i < s.len then .ok (h.set s.arr ((array h s).set i x)) else .panic

/-- `append(s, x)` for one value: in place when capacity allows, else into a new array -/
def append1 (grow : Nat → Nat) (h : Heap E) (s : Slice) (x : Option E) : Heap E × Slice :=
  let a := array h s
  if s.len < a.length then (h.set s.arr (a.set s.len x), ⟨s.arr, s.len + 1⟩)
  else (h ++ [a.take s.len ++ x :: List.replicate (grow s.len) none], ⟨h.length, s.len + 1⟩)

/-- `append(s[:i], s[i+1:]...)`: shifts the tail down inside the same array; the last slot keeps its old pointer -/
def removeAt (h : Heap E) (s : Slice) (i : Nat) : Heap E × Slice :=
  let a := array h s
  (h.set s.arr (a.take i ++ ((a.take s.len).drop (i + 1)) ++ a.drop (s.len - 1)), ⟨s.arr, s.len - 1⟩)

/-- a slice holding exactly the given pointers in a fresh array (variadic call, `make` + `copy`) -/
def alloc (h : Heap E) (xs : List (Option E)) : Heap E × Slice := (h ++ [xs], ⟨h.length, xs.length⟩)

/-- loop of `Append` (document.go:63-69) over the slice `src` from index `i`, `n` iterations to go -/
def appendLoop (grow : Nat → Nat) (h : Heap E) (d src : Slice) (i : Nat) : Nat → Res (Heap E × Slice)
  | 0 => .ok (h, d)
  | n + 1 => do
    match ← get h src i with
    | none => .panic
    | some e =>
      let (h, d) := append1 grow h d (some e)
      appendLoop grow h d src (i + 1) n

/-- `Append` (document.go:62-72) -/
def append (grow : Nat → Nat) (h : Heap E) (d : Document E) (src : Slice) : Res (Heap E × Document E) := do
  let (h, s) ← appendLoop grow h d.elems src 0 src.len
  .ok (h, { d with elems := s, cacheValid := false })

/-- loop of `AppendOmitEmpty` (document.go:77-83) -/
def omitLoop (grow : Nat → Nat) (isEmpty : E → Res Bool) (h : Heap E) (d src : Slice) (i : Nat) : Nat → Res (Heap E × Slice)
  | 0 => .ok (h, d)
  | n + 1 => do
    match ← get h src i with
    | none => omitLoop grow isEmpty h d src (i + 1) n
    | some e =>
      if ← isEmpty e then omitLoop grow isEmpty h d src (i + 1) n
      else
        let (h, d) := append1 grow h d (some e)
        omitLoop grow isEmpty h d src (i + 1) n

/-- `AppendOmitEmpty` (document.go:76-87) -/
def appendOmitEmpty (grow : Nat → Nat) (isEmpty : E → Res Bool) (h : Heap E) (d : Document E) (src : Slice) :
    Res (Heap E × Document E) := do
  let (h, s) ← omitLoop grow isEmpty h d.elems src 0 src.len
  .ok (h, { d with elems := s, cacheValid := false })

/-- `Element.Key` (element.go:102-108) of a possibly nil element: empty for nil -/
def keyPtr (keyOf : E → Res Bytes) : Option E → Res Bytes
  | none => .ok []
  | some e => keyOf e

/-- index of the first element with the key, from index `i`, `n` elements to go: the loops of
    `Set` (document.go:101-106), `Delete` (118-124), `findElemForKey` (190-194) -/
def findLoop (keyOf : E → Res Bytes) (k : Bytes) (h : Heap E) (s : Slice) (i : Nat) : Nat → Res (Option Nat)
  | 0 => .ok none
  | n + 1 => do
    let x ← get h s i
    if (← keyPtr keyOf x) = k then .ok (some i) else findLoop keyOf k h s (i + 1) n

/-- `Set` (document.go:96-112): the replacing branch returns without touching `cacheValid` -/
def set (grow : Nat → Nat) (keyOf : E → Res Bytes) (h : Heap E) (d : Document E) (e : Option E) : Res (Heap E × Document E) := do
  match e with
  | none => .panic
  | some e =>
    let k ← keyOf e
    match ← findLoop keyOf k h d.elems 0 d.elems.len with
    | some i => do
      let h ← put h d.elems i (some e)
      .ok (h, d)
    | none =>
      let (h, s) := append1 grow h d.elems (some e)
      .ok (h, { d with elems := s, cacheValid := false })

/-- `Delete` (document.go:117-127): the branch that finds the key returns without touching `cacheValid` -/
def delete (keyOf : E → Res Bytes) (h : Heap E) (d : Document E) (k : Bytes) : Res (Heap E × Document E × Option E) := do
  match ← findLoop keyOf k h d.elems 0 d.elems.len with
  | some i => do
    let x ← get h d.elems i
    let (h, s) := removeAt h d.elems i
    .ok (h, { d with elems := s }, x)
  | none => .ok (h, { d with cacheValid := false }, none)

/-- `Reset` (document.go:153-159) -/
def reset (h : Heap E) (d : Document E) : Heap E × Document E :=
  (h.set d.elems.arr (List.replicate d.elems.len none ++ (array h d.elems).drop d.elems.len),
    { d with elems := ⟨d.elems.arr, 0⟩, cacheValid := false })

/-- `Copy` (document.go:45-51): a new array of the same capacity -/
def copy (h : Heap E) (d : Document E) : Heap E × Document E :=
  let a := array h d.elems
  (h ++ [a.take d.elems.len ++ List.replicate (a.length - d.elems.len) none],
    ⟨⟨h.length, d.elems.len⟩, [], false⟩)

/-- `DC.Make` (x_constructor.go:34) -/
def make (h : Heap E) (n : Nat) : Heap E × Document E :=
  (h ++ [List.replicate n none], ⟨⟨h.length, 0⟩, [], false⟩)

/-- `DC.Elements(src...)` (x_constructor.go:38-40) -/
def elements (grow : Nat → Nat) (h : Heap E) (src : Slice) : Res (Heap E × Document E) :=
  let (h, d) := make h src.len
  append grow h d src

/-- the pointers visible through a slice (`range`, `irt.Slice`) -/
def visible (h : Heap E) (s : Slice) : List (Option E) := (array h s).take s.len

/-- insert `x` into a sorted prefix held in reverse, moving it left while it is less than its neighbour -/
def insertRev (less : E → E → Res Bool) (x : E) : List E → Res (List E)
  | [] => .ok [x]
  | y :: ys => do
    if ← less x y then
      let r ← insertRev less x ys
      .ok (y :: r)
    else .ok (x :: y :: ys)

/-- `insertionSort` of the Go standard library, on a prefix held in reverse -/
def sortLoop (less : E → E → Res Bool) (acc : List E) : List E → Res (List E)
  | [] => .ok acc.reverse
  | x :: xs => do
    let acc ← insertRev less x acc
    sortLoop less acc xs

/-- `sort.Stable`: Go runs exactly this insertion sort up to 20 elements and merges sorted blocks above
    that; the merging is not modelled.  (A stable sort has only one possible result,
    `Spec.Docs.StableSorted`, when `less` is a strict weak order.) -/
def sortStable (less : E → E → Res Bool) (l : List E) : Res (List E) := sortLoop less [] l

/-- the pointers of a slice, none of which may be nil -/
def nonNil : List (Option E) → Res (List E)
  | [] => .ok []
  | none :: _ => .panic
  | some e :: r => do
    let r ← nonNil r
    .ok (e :: r)

/-- `Sorted` (x_document.go:94-100): `Copy` into a fresh slice, sort it, `DC.Elements` of it. -/
def sorted (grow : Nat → Nat) (less : E → E → Res Bool) (h : Heap E) (d : Document E) : Res (Heap E × Document E) := do
  let xs ← sortStable less (← nonNil (visible h d.elems))
  let (h, s) := alloc h (xs.map some)
  elements grow h s

/-- `Len` (document.go:54) -/
def len (d : Document E) : Nat := d.elems.len

/-- `ElementAt` (document.go:131-133) -/
def elementAt (h : Heap E) (d : Document E) (i : Nat) : Res (Option E) := get h d.elems i

/-- `ElementAtOK` (document.go:136-142) -/
def elementAtOK (h : Heap E) (d : Document E) (i : Nat) : Res (Option E × Bool) :=
  if d.elems.len ≤ i then .ok (none, false) else do
  let e ← elementAt h d i
  .ok (e, true)

/-- `Iterator` (document.go:145), run to the end -/
def iterator (h : Heap E) (d : Document E) : List (Option E) := visible h d.elems

/-- `findElemForKey` (document.go:189-196) and `LookupElement` (x_document.go:106-114); nil when absent -/
def lookupElement (keyOf : E → Res Bytes) (h : Heap E) (d : Document E) (k : Bytes) : Res (Option E) := do
  match ← findLoop keyOf k h d.elems 0 d.elems.len with
  | some i => get h d.elems i
  | none => .ok none

/-- `LookupElementErr` (x_document.go:132-139); `LookupErr` (145-152) and `Lookup` (119-126) return its value field -/
def lookupElementErr (keyOf : E → Res Bytes) (h : Heap E) (d : Document E) (k : Bytes) : Res E := do
  match ← lookupElement keyOf h d k with
  | none => .err .elementNotFound
  | some e => .ok e

/-- map insertion that keeps an existing entry (unmarshal.go:100-104) -/
def mapAdd (m : List (Bytes × E)) (k : Bytes) (e : E) : List (Bytes × E) :=
  if (m.lookup k).isSome then m else (k, e) :: m

/-- loop of `refreshCache` (unmarshal.go:99-105); `DocumentMap` is an association list without repeated keys.  A nil element, which no document
    made by the calls below holds, would be put under the empty key; here it is a panic. -/
def cacheLoop (keyOf : E → Res Bytes) (h : Heap E) (s : Slice) (m : List (Bytes × E)) (i : Nat) : Nat → Res (List (Bytes × E))
  | 0 => .ok m
  | n + 1 => do
    match ← get h s i with
    | none => .panic
    | some e => do
      let k ← keyOf e
      cacheLoop keyOf h s (mapAdd m k e) (i + 1) n

/-- `Map` (unmarshal.go:88-109) -/
def map (keyOf : E → Res Bytes) (h : Heap E) (d : Document E) : Res (Document E × List (Bytes × E)) :=
  if d.cacheValid then .ok (d, d.cache) else do
  let m ← cacheLoop keyOf h d.elems [] 0 d.elems.len
  .ok ({ d with cache := m, cacheValid := true }, m)

/-- `Array.Set` (array.go:170-178) -/
def arraySet (h : Heap E) (d : Document E) (i : Nat) (e : E) : Res (Heap E × Document E) :=
  if d.elems.len ≤ i then .panic else do
  let h ← put h d.elems i (some e)
  .ok (h, d)

/-- `Array.Delete` (array.go:189-198); a nil element would be dereferenced -/
def arrayDelete (h : Heap E) (d : Document E) (i : Nat) : Res (Heap E × Document E × Option E) :=
  if d.elems.len ≤ i then .ok (h, d, none) else do
  match ← get h d.elems i with
  | none => .panic
  | some e =>
    let (h, s) := removeAt h d.elems i
    .ok (h, { d with elems := s }, some e)

/-- `Array.Lookup` (array.go:76-83): the value of the element -/
def arrayLookup (h : Heap E) (d : Document E) (i : Nat) : Res E := do
  match ← elementAtOK h d i with
  | (_, false) => .err .outOfBounds
  | (none, true) => .panic
  | (some e, true) => .ok e

/-- `NewArray` (array.go:29-36): one `Append` per value -/
def newArrayLoop (grow : Nat → Nat) (h : Heap E) (d : Document E) : List E → Res (Heap E × Document E)
  | [] => .ok (h, d)
  | e :: es => do
    let (h, s) := alloc h [some e]
    let (h, d) ← append grow h d s
    newArrayLoop grow h d es

/-- `NewArray` (array.go:29-36) -/
def newArray (grow : Nat → Nat) (h : Heap E) (args : List E) : Res (Heap E × Document E) :=
  let (h, d) := make h args.length
  newArrayLoop grow h d args

/-- the loop of `UnmarshalBSON` (document.go:293-299) over the elements the reader yields before it ends or fails -/
def unmarshalLoop (grow : Nat → Nat) (h : Heap E) (s : Slice) : List E → Heap E × Slice
  | [] => (h, s)
  | e :: es =>
    let (h, s) := append1 grow h s (some e)
    unmarshalLoop grow h s es

/-- `UnmarshalBSON` (document.go:288-302) as an update of the document: a new array; `cacheValid` is not touched -/
def unmarshal (grow : Nat → Nat) (h : Heap E) (d : Document E) (es : List E) : Heap E × Document E :=
  let (h, s) := unmarshalLoop grow (h ++ [List.replicate 128 none]) ⟨h.length, 0⟩ es
  (h, { d with elems := s })

/-- one call on a document; arguments of `Append` etc. are non-nil elements, those of `AppendOmitEmpty` may be nil -/
inductive Call (E : Type) where
  | make (n : Nat)
  | elements (args : List E)
  | append (d : Nat) (args : List E)
  | appendOmitEmpty (d : Nat) (args : List (Option E))
  /-- `d.Extend(d2)` (document.go:149) -/
  | extend (d d2 : Nat)
  | set (d : Nat) (e : E)
  | delete (d : Nat) (k : Bytes)
  | reset (d : Nat)
  | copy (d : Nat)
  | sorted (d : Nat)
  | map (d : Nat)
  /-- `d.UnmarshalBSON(b)` where the reader yields the elements `args` -/
  | unmarshal (d : Nat) (args : List E)
  /-- Arrays hold one document and otherwise use its methods: `MakeArray` (array.go:40), `Append` (162), `Extend` (182),
      `Reset` (48) are the calls `make`, `append`, `extend`, `reset`; `E` is then a one-value element `&Element{value}` -/
  | newArray (args : List E)
  | arraySet (d i : Nat) (e : E)
  | arrayDelete (d i : Nat)

/-- what a call returns besides documents -/
inductive Out (E : Type) where
  | none
  | elem (e : Option E)
  | map (m : List (Bytes × E))

/-- the parameters of the model -/
structure Params (E : Type) where
  grow : Nat → Nat
  keyOf : E → Res Bytes
  isEmpty : E → Res Bool
  /-- `Elements.Less` (x_document.go:41-72) -/
  less : E → E → Res Bool

/-- the document behind a pointer -/
def deref (w : World E) (d : Nat) : Res (Document E) :=
  match w.docs[d]? with
  | some x => .ok x
  | none => .panic

/-- store a document's new header -/
def store (w : World E) (d : Nat) (r : Heap E × Document E) : World E := ⟨r.1, w.docs.set d r.2⟩

/-- a newly created document -/
def push (w : World E) (r : Heap E × Document E) : World E := ⟨r.1, w.docs ++ [r.2]⟩

/-- execute one call -/
def step (P : Params E) (w : World E) : Call E → Res (World E × Out E)
  | .make n => .ok (push w (make w.heap n), .none)
  | .elements args => do
    let (h, s) := alloc w.heap (args.map some)
    .ok (push w (← elements P.grow h s), .none)
  | .append d args => do
    let x ← deref w d
    let (h, s) := alloc w.heap (args.map some)
    .ok (store w d (← append P.grow h x s), .none)
  | .appendOmitEmpty d args => do
    let x ← deref w d
    let (h, s) := alloc w.heap args
    .ok (store w d (← appendOmitEmpty P.grow P.isEmpty h x s), .none)
  | .extend d d2 => do
    let x ← deref w d
    let y ← deref w d2
    .ok (store w d (← append P.grow w.heap x y.elems), .none)
  | .set d e => do
    let x ← deref w d
    .ok (store w d (← set P.grow P.keyOf w.heap x (some e)), .none)
  | .delete d k => do
    let x ← deref w d
    let (h, x, e) ← delete P.keyOf w.heap x k
    .ok (store w d (h, x), .elem e)
  | .reset d => do
    let x ← deref w d
    .ok (store w d (reset w.heap x), .none)
  | .copy d => do
    let x ← deref w d
    .ok (push w (copy w.heap x), .none)
  | .sorted d => do
    let x ← deref w d
    .ok (push w (← sorted P.grow P.less w.heap x), .none)
  | .map d => do
    let x ← deref w d
    let (x, m) ← map P.keyOf w.heap x
    .ok (store w d (w.heap, x), .map m)
  | .unmarshal d args => do
    let x ← deref w d
    .ok (store w d (unmarshal P.grow w.heap x args), .none)
  | .newArray args => do
    .ok (push w (← newArray P.grow w.heap args), .none)
  | .arraySet d i e => do
    let x ← deref w d
    .ok (store w d (← arraySet w.heap x i e), .none)
  | .arrayDelete d i => do
    let x ← deref w d
    let (h, x, e) ← arrayDelete w.heap x i
    .ok (store w d (h, x), .elem e)

/-- execute a sequence of calls -/
def run (P : Params E) (w : World E) : List (Call E) → Res (World E × List (Out E))
  | [] => .ok (w, [])
  | c :: cs => do
    let (w, o) ← step P w c
    let (w, os) ← run P w cs
    .ok (w, o :: os)

/-- nothing allocated yet -/
def World.empty : World E := ⟨[], []⟩

end Birch.Model.DocHeap
