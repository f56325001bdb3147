import Verif.Model.Access
import Verif.Model.Constructors
import Verif.Model.Search

/-
Model of values, elements and documents as objects that refer to each other and to byte slices (value.go, element.go,
document.go, x_element.go), for what is shared between them.  `Model/Value` and `Model/Write` are the same code on trees.

Objects are numbered.  Nil pointers inside documents are not represented, as in `Model/Value`.  A document is the list of
its elements; how its slice is shared is in `Model/DocHeap`.
-/

namespace Birch.Model.Graph
open Birch

/-- a `[]byte`: the array it is a part of, where it begins and how long it is.  An empty one stands for nil. -/
structure Span where
  buf : Nat
  lo : Nat
  len : Nat
  deriving DecidableEq

/-- `Value` (value.go:23-41) -/
structure VObj where
  start : Nat
  offset : Nat
  data : Span
  d : Option Nat
  deriving DecidableEq

/-- All objects: byte arrays, values, elements (which are pointers to values, element.go:26-28) and documents; and how many of each
    there are. -/
structure World where
  bufs : Nat → Bytes
  nb : Nat
  vals : Nat → VObj
  nv : Nat
  elems : Nat → Nat
  ne : Nat
  docs : Nat → List Nat
  nd : Nat

def upd {α : Type} (f : Nat → α) (i : Nat) (x : α) : Nat → α := fun j => if j = i then x else f j

/-- the bytes of a slice -/
def World.bytes (w : World) (s : Span) : Bytes := ((w.bufs s.buf).drop s.lo).take s.len

/-- a computation that changes objects; what it did before an error or a panic stays -/
def M (α : Type) : Type := World → World × Res α

instance : Monad M where
  pure a := fun w => (w, .ok a)
  bind m f := fun w =>
    match m w with
    | (w, .ok a) => f a w
    | (w, .err e) => (w, .err e)
    | (w, .panic) => (w, .panic)
    | (w, .oof) => (w, .oof)

def lift {α : Type} (r : Res α) : M α := fun w => (w, r)

/-- something read from the objects -/
def look {α : Type} (f : World → Res α) : M α := fun w => (w, f w)

/-! ### new objects -/

def newBuf (b : Bytes) : M Nat := fun w => ({ w with bufs := upd w.bufs w.nb b, nb := w.nb + 1 }, .ok w.nb)

def newVal (v : VObj) : M Nat := fun w => ({ w with vals := upd w.vals w.nv v, nv := w.nv + 1 }, .ok w.nv)

def newElem (p : Nat) : M Nat := fun w => ({ w with elems := upd w.elems w.ne p, ne := w.ne + 1 }, .ok w.ne)

def newDoc (es : List Nat) : M Nat := fun w => ({ w with docs := upd w.docs w.nd es, nd := w.nd + 1 }, .ok w.nd)

/-! ### copies -/

/-- `Value.Copy` (value.go:45-52) -/
def copyValue (p : Nat) : M Nat := do newVal (← look fun w => .ok (w.vals p))

/-- `Value.Set` (value.go:56-61) -/
def setValueTo (p q : Nat) : M Unit := fun w => ({ w with vals := upd w.vals p (w.vals q) }, .ok ())

/-- `Element.Copy` (element.go:36-38) -/
def copyElement (e : Nat) : M Nat := do newElem (← copyValue (← look fun w => .ok (w.elems e)))

/-- `Element.SetValue` (x_element.go:4) -/
def setValue (e p : Nat) : M Unit := fun w => ({ w with elems := upd w.elems e p }, .ok ())

/-- `Document.Copy` (document.go:45-51) -/
def copyDocument (d : Nat) : M Nat := do newDoc (← look fun w => .ok (w.docs d))

/-- the elements of a document become these; `Append`, `Set`, `Delete` and so on (document.go:62-159) do nothing else to the objects here -/
def change (d : Nat) (es : List Nat) : M Unit := fun w => ({ w with docs := upd w.docs d es }, .ok ())

/-! ### the tree an object stands for -/

def mapRes {α β : Type} (f : α → Res β) : List α → Res (List β)
  | [] => .ok []
  | x :: xs => do
    let y ← f x
    let ys ← mapRes f xs
    .ok (y :: ys)

/-- a value with everything in it -/
def viewVal (w : World) : Nat → Nat → Res Value
  | 0, _ => .oof
  | n + 1, p =>
    let v := w.vals p
    match v.d with
    | none => .ok (.raw v.start v.offset (w.bytes v.data))
    | some d => do
      let es ← mapRes (fun e => viewVal w n (w.elems e)) (w.docs d)
      .ok (.withDoc v.start v.offset (w.bytes v.data) es)

/-- a document with everything in it -/
def viewDoc (w : World) (n d : Nat) : Res Doc := mapRes (fun e => viewVal w n (w.elems e)) (w.docs d)

/-! ### constructing and reading -/

/-- a new element with its own bytes, and a document or none (e.g. constructor.go:229-246) -/
def construct (b : Bytes) (offset : Nat) (d : Option Nat) : M Nat := do
  let i ← newBuf b
  newElem (← newVal ⟨0, offset, ⟨i, 0, b.length⟩, d⟩)

/-- `EC.SubDocument` and `EC.Array` (constructor.go:229-246, 276-293), by type -/
def withDocument (tag : UInt8) (key : Bytes) (d : Nat) : M Nat := do
  construct (← lift (EC.header tag key)) (u32 (1 + key.length + 1)) (some d)

/-- `convertValueToElem` (element.go:327-351), `EC.Value`; `none` is nil -/
def convertValueToElem (key : Bytes) (p : Nat) : M (Option Nat) := do
  let v ← look fun w => .ok (w.vals p)
  let data ← look fun w => .ok (w.bytes v.data)
  if v.offset = 0 ∨ data = [] then pure none else do
  let rest ← lift (slice data v.offset data.length)
  let t ← lift (idx data v.start)
  let d ← match v.d with
    | none => pure none
    | some d => do pure (some (← copyDocument d))
  pure (some (← construct (t :: (key ++ 0 :: rest)) (u32 (key.length + 2)) d))

/-- the elements that were read from a slice refer to it (iterator.go:106-112) -/
def newElems (s : Span) : List Value → M (List Nat)
  | [] => pure []
  | v :: vs => do
    let e ← newElem (← newVal ⟨v.start, v.offset, s, none⟩)
    let es ← newElems s vs
    pure (e :: es)

/-- `ReadDocument` (document.go:34-42, 288-302) -/
def readDocument (n : Nat) (s : Span) : M Nat := do
  let vs ← look fun w => Model.readDocument n (w.bytes s)
  newDoc (← newElems s vs)

/-- what `MutableDocument`, `MutableArray` (`v.d = ...`, value.go:614-625, 672-681) and `MutableJavaScriptWithScope` (value.go:999-1014) do: the
    part of the bytes in which the document is -/
def docSpan (w : World) (v : VObj) : Res Span := do
  let data := w.bytes v.data
  let t ← if v.offset = 0 ∨ data = [] then .panic else idx data v.start
  if t = 0x03 ∨ t = 0x04 then do
    let l ← rdU32 (← slice data v.offset (u32 (v.offset + 4)))
    let part ← slice data v.offset (u32 (v.offset + u32i (i32 l)))
    .ok ⟨v.data.buf, v.data.lo + v.offset, part.length⟩
  else if t = 0x0F then do
    let l ← rdU32 (← slice data v.offset (u32 (v.offset + 4)))
    let sl ← readi32 (← slice data (u32 (v.offset + 4)) (u32 (v.offset + 8)))
    let _ ← slice data (u32 (v.offset + 8)) (u32i ((v.offset : Int) + 8 + u32i sl - 1))
    let part ← slice data (u32 (v.offset + 8 + u32i sl)) (u32 (v.offset + u32i (i32 l)))
    .ok ⟨v.data.buf, v.data.lo + u32 (v.offset + 8 + u32i sl), part.length⟩
  else .panic

def orPanic {α : Type} (m : M α) : M α := fun w =>
  match m w with
  | (w, .err _) => (w, .panic)
  | r => r

/-- `v.d = d` -/
def keep (p : Nat) (v : VObj) (d : Nat) : M Nat := fun w => ({ w with vals := upd w.vals p { v with d := some d } }, .ok d)

/-- `MutableDocument`, `MutableArray`, `MutableJavaScriptWithScope` (value.go:605-626, 663-684, 990-1017): the document.
    If there is a document already, only the checks of `Model.openValue` are made. -/
def openValue (n p : Nat) : M Nat := do
  let v ← look fun w => .ok (w.vals p)
  match v.d with
  | some d => do
    let _ ← look fun w => Model.openValue n (.withDoc v.start v.offset (w.bytes v.data) [])
    pure d
  | none => do
    let s ← look fun w => docSpan w v
    keep p v (← orPanic (readDocument n s))

/-! ### marshalling -/

def asTooSmall {α : Type} (m : M α) : M α := fun w =>
  match m w with
  | (w, .err _) => (w, .err .tooSmall)
  | r => r

/-- `elements.Int32.Encode(offset, v.data, x)` (element.go:228, 258): writes into the bytes of the value, which others may share -/
def setLength (v : VObj) (x : Int) : M Unit := fun w =>
  match encRes (Elements.int32 v.offset (w.bytes v.data) x) with
  | .ok (_, b) =>
    let old := w.bufs v.data.buf
    ({ w with bufs := upd w.bufs v.data.buf (old.take v.data.lo ++ b ++ old.drop (v.data.lo + b.length)) }, .ok ())
  | .err e => (w, .err e)
  | .panic => (w, .panic)
  | .oof => (w, .oof)

/-- the end of `Element.writeByteSlice` for `d == nil` (element.go:168-268) -/
def rawWrite (startToWrite size start : Nat) (v : VObj) (b : Bytes) : M (Nat × Bytes) := do
  let data ← look fun w => .ok (w.bytes v.data)
  let t ← lift (if v.offset = 0 ∨ data = [] then .panic else idx data v.start)
  if t = 0x0F then do
    let codeStart := u32 (v.offset + 4)
    let cl ← lift do readi32 (← slice data codeStart (u32 (codeStart + 4)))
    let scopeStart := u32 (codeStart + 4 + u32i cl)
    let sl ← lift do readi32 (← slice data scopeStart (u32 (scopeStart + 4)))
    let end_ := i32 (i32 scopeStart + sl)
    setLength v (i32 (end_ - i32 v.offset))
    look fun w => do copyAt b start (← slice (w.bytes v.data) startToWrite (u32 (v.start + size)))
  else lift do copyAt b start (← slice data startToWrite (u32 (v.start + size)))

/-- `Document.writeByteSlice` (document.go:236-269) and `Array.writeByteSlice` (array.go:223-268) around their loops -/
def frameWrite (start size : Nat) (b : Bytes) (body : Nat → Bytes → M (Nat × Bytes)) : M (Nat × Bytes) := do
  if b.length < start + size then lift (.err .tooSmall) else do
  let (n, b) ← lift (encRes (Elements.int32 start b (i32 size)))
  let (m, b) ← body (start + n) b
  let (k, b) ← lift (encRes (Elements.byte (start + n + m) b 0))
  pure (n + m + k, b)

/-- the loop over the elements (document.go:251-259); `f` writes a value -/
def elemsWrite (f : Nat → Bytes → Nat → M (Nat × Bytes)) : Nat → Bytes → List Nat → M (Nat × Bytes)
  | _, b, [] => pure (0, b)
  | pos, b, e :: rest => do
    let p ← look fun w => .ok (w.elems e)
    let (n, b) ← f pos b p
    let (m, b) ← elemsWrite f (pos + n) b rest
    pure (n + m, b)

/-- the loop over the values of an array (array.go:240-258) -/
def valsWrite (f : Nat → Bytes → Nat → M (Nat × Bytes)) : Nat → Nat → Bytes → List Nat → M (Nat × Bytes)
  | _, _, b, [] => pure (0, b)
  | i, pos, b, e :: rest => do
    let p ← look fun w => .ok (w.elems e)
    let t ← look fun w => idx (w.bytes (w.vals p).data) (w.vals p).start
    let b ← lift (Elements.setByte b pos t)
    let key := itoa i ++ [0]
    let (_, b) ← lift (copyAt b (pos + 1) key)
    let (n, b) ← f (pos + 1 + key.length) b p
    let (m, b) ← valsWrite f (i + 1) (pos + 1 + key.length + n) b rest
    pure (1 + key.length + n + m, b)

/-- `Element.writeElement` (element.go:122-147) into a byte slice, with `Element.writeByteSlice` (element.go:150-268) inlined, for the
    value of the element.  The first number is the fuel of reading, the second that of going down. -/
def elemWrite (n : Nat) : Nat → Bool → Nat → Bytes → Nat → M (Nat × Bytes)
  | 0, _, _, _, _ => lift .oof
  | fuel + 1, key, start, b, p => do
    let v ← look fun w => viewVal w n p
    let size ← lift (elemValidate n v)
    asTooSmall do
    let o ← look fun w => .ok (w.vals p)
    let sw ← lift (writePrep key o.start o.offset start size b)
    match o.d with
    | none => rawWrite sw size start o b
    | some d => do
      let data ← look fun w => .ok (w.bytes o.data)
      let es ← look fun w => .ok (w.docs d)
      let t ← lift (if o.offset = 0 ∨ data = [] then .panic else idx data o.start)
      if t = 0x03 then do
        let size := u32i ((size : Int) - ((o.offset : Int) - o.start))
        if key then do
          let (n', b) ← lift do copyAt b start (← slice data sw o.offset)
          let (m, b) ← frameWrite (start + n') size b (fun p b => elemsWrite (elemWrite n fuel true) p b es)
          pure (n' + m, b)
        else frameWrite start size b (fun p b => elemsWrite (elemWrite n fuel true) p b es)
      else if t = 0x04 then do
        let size := u32i ((size : Int) - ((o.offset : Int) - o.start))
        if key then do
          let (n', b) ← lift do copyAt b start (← slice data sw o.offset)
          let (m, b) ← frameWrite (start + n') size b (fun p b => valsWrite (elemWrite n fuel false) 0 p b es)
          pure (n' + m, b)
        else frameWrite start size b (fun p b => valsWrite (elemWrite n fuel false) 0 p b es)
      else if t = 0x0F then do
        let cl ← lift do readi32 (← slice data (u32 (o.offset + 4)) (u32 (u32 (o.offset + 4) + 4)))
        let lws := i32 (8 + cl)
        let sl ← look fun w => do docValidate n (← viewDoc w n d)
        setLength o (i32 (lws + i32 sl))
        let (n', b) ← look fun w => do copyAt b start (← slice (w.bytes o.data) sw (u32 (o.offset + u32i lws)))
        let (m, b) ← frameWrite (start + n') sl b (fun p b => elemsWrite (elemWrite n fuel true) p b es)
        pure (n' + m, b)
      else rawWrite sw size start o b

/-- `Document.MarshalBSON` (document.go:272-285) -/
def marshal (n d : Nat) : M Bytes := do
  let size ← look fun w => do docValidate n (← viewDoc w n d)
  let es ← look fun w => .ok (w.docs d)
  let (_, b) ← frameWrite 0 size (List.replicate size 0) (fun p b => elemsWrite (elemWrite n n true) p b es)
  pure b

/-! ### programs -/

/-- a call -/
inductive Call where
  | copyValue (p : Nat)
  | set (p q : Nat)
  | copyElement (e : Nat)
  | setValue (e p : Nat)
  | copyDocument (d : Nat)
  | change (d : Nat) (es : List Nat)
  | construct (b : Bytes) (offset : Nat) (d : Option Nat)
  | value (key : Bytes) (p : Nat)
  | read (n : Nat) (s : Span)
  | open (n p : Nat)
  | marshal (n d : Nat)

/-- what a call does to the objects, whether it returns or panics.  `construct` is any constructor of an element (`Model/Constructors`). -/
def Call.run (w : World) : Call → World
  | .copyValue p => (Graph.copyValue p w).1
  | .set p q => (Graph.setValueTo p q w).1
  | .copyElement e => (Graph.copyElement e w).1
  | .setValue e p => (Graph.setValue e p w).1
  | .copyDocument d => (Graph.copyDocument d w).1
  | .change d es => (Graph.change d es w).1
  | .construct b o d => (Graph.construct b o d w).1
  | .value key p => (Graph.convertValueToElem key p w).1
  | .read n s => (Graph.readDocument n s w).1
  | .open n p => (Graph.openValue n p w).1
  | .marshal n d => (Graph.marshal n d w).1

def runAll (w : World) (cs : List Call) : World := cs.foldl Call.run w

end Birch.Model.Graph
