import Verif.Model.Ints
import Verif.Model.Search
import Verif.Model.Write
import Verif.Model.Access

/-
Model of the constructors that take a Go `any` (constructor.go:36-197, x_constructor.go:107-302) and of the export of
values to Go data (`Value.Interface`, value.go:65-126; `ExportMap`, x_document.go:24-33; `Array.Interface`, x_array.go:5-10).

Left out: typed nil pointers, `*jsonx.Document` (see `Model/ExtJson`), and sharing of documents between values.
-/

namespace Birch.Model
open Birch

mutual
/-- A Go value in an `any`, by its dynamic type, as far as the type switches of `EC.Interface` tell types apart.
    A map is the list of its entries in the order in which a `range` loop happens to visit them. -/
inductive Go where
  /-- untyped nil -/
  | nil
  | bool (b : Bool)
  | int (g : GoInt)
  /-- float32 and float64, as bit patterns -/
  | f32 (bits : Nat)
  | f64 (bits : Nat)
  | str (s : Bytes)
  | time (t : Time)
  /-- types.Timestamp -/
  | timestamp (t i : Nat)
  /-- map[string]any -/
  | map (m : GoMap)
  /-- map[any]any; a key is given as the string `bestStringAttempt` (x_utils.go:5-16) makes of it -/
  | mapAny (m : GoMap)
  /-- map[string]string -/
  | mapStr (m : List (Bytes × Bytes))
  /-- []any -/
  | slice (s : GoSlice)
  | strs (l : List Bytes)
  | int64s (l : List Int)
  | int32s (l : List Int)
  | f64s (l : List Nat)
  | f32s (l : List Nat)
  | ints (l : List Int)
  | times (l : List Time)
  /-- []time.Duration, nanoseconds -/
  | durations (l : List Int)
  /-- []*Element, *Element, *Value, []*Value, *Document, *Array: not nil -/
  | elems (d : Doc)
  | elem (v : Value)
  | value (v : Value)
  | values (l : List Value)
  | doc (d : Doc)
  | array (a : Doc)
  /-- birch.Reader -/
  | reader (b : Bytes)
  /-- any other type with `MarshalDocument` (with or without `MarshalBSON`); `none`: the method returns an error -/
  | docMarshaler (r : Option Doc)
  /-- any other type with only `MarshalBSON` -/
  | marshaler (r : Option Bytes)
  /-- []byte, ObjectID, Decimal128{h, l}, types.Regex, types.DBPointer, types.CodeWithScope, time.Duration -/
  | bytes (b : Bytes)
  | oid (id : Bytes)
  | decimal (h l : Nat)
  | regex (p o : Bytes)
  | dbPointer (ns id : Bytes)
  | codeScope (c scope : Bytes)
  | duration (ns : Int)
  /-- a value of any other type without those methods -/
  | other
inductive GoMap where
  | nil
  | cons (k : Bytes) (g : Go) (rest : GoMap)
inductive GoSlice where
  | nil
  | cons (g : Go) (rest : GoSlice)
end

/-- a loop over a slice: `vals[idx] = f(in[idx])`, e.g. x_constructor.go:269-275 -/
def mapRes {α : Type} (f : α → Res Value) : List α → Res (List Value)
  | [] => .ok []
  | a :: rest => do
    let v ← f a
    .ok (v :: (← mapRes f rest))

/-- the end of `EC.Interface` (constructor.go:154-156): Null instead of an error or a nil element -/
def orNull (k : Bytes) : Res (Option Value) → Res Value
  | .ok (some v) => .ok v
  | .ok none => EC.null k
  | .err _ => EC.null k
  | .panic => .panic
  | .oof => .oof

/-- `ECE.Marshaler` (x_constructor.go:238-245), given the result of `MarshalBSON` -/
def ECE.marshaler (k : Bytes) (r : Res Bytes) : Res Value := do
  EC.subDocumentFromReader k (← r)

/-- `ECE.DocumentMarshaler` (x_constructor.go:251-258), given the result of `MarshalDocument` -/
def ECE.documentMarshaler (k : Bytes) (r : Res Doc) : Res Value := do
  EC.subDocument k (← r)

/-- the result of a method outside the package -/
def outcome {α : Type} : Option α → Res α
  | some a => .ok a
  | none => .err .other

/-- `Reader.MarshalBSON` (reader.go:225-231) -/
def readerMarshal (fuel : Nat) (b : Bytes) : Res Bytes := do
  let _ ← readerValidate fuel b
  .ok b

/-- `DC.MapString` (x_constructor.go:107-115) -/
def DC.mapString (m : List (Bytes × Bytes)) : Res Doc := mapRes (fun p => EC.string p.1 p.2) m

mutual
/-- `EC.Interface` (constructor.go:43-159).  `W` is Go's conversion of a float32 to a float64. -/
def EC.interface (W : Nat → Nat) (fuel : Nat) (k : Bytes) : Go → Res Value
  | .nil => EC.null k
  | .bool b => EC.boolean k b
  | .int g => EC.interfaceInt k g
  | .f32 b => EC.double k (W b)
  | .f64 b => EC.double k b
  | .str s => EC.string k s
  | .time t => EC.time k t
  | .timestamp t i => EC.timestamp k t i
  | .map m => do EC.subDocument k (← DC.mapInterface W fuel m)
  | .mapAny m => do EC.subDocument k (← DC.mapInterface W fuel m)
  | .mapStr m => do EC.subDocument k (← DC.mapString m)
  | .slice s => do EC.array k (← EC.sliceValues W fuel s)
  | .strs l => do EC.array k (← mapRes (EC.string []) l)
  | .int64s l => do EC.array k (← mapRes (EC.int64 []) l)
  | .int32s l => do EC.array k (← mapRes (EC.int32 []) l)
  | .f64s l => do EC.array k (← mapRes (EC.double []) l)
  | .f32s l => do EC.array k (← mapRes (fun b => EC.double [] (W b)) l)
  | .ints l => do EC.array k (← mapRes (EC.int []) l)
  | .times l => do EC.array k (← mapRes (EC.time []) l)
  | .durations l => do EC.array k (← mapRes (EC.int64 []) l)
  | .elems d => EC.subDocument k d
  | .elem v => .ok v
  | .value v => orNull k (convertValueToElem k v)
  | .values l => EC.array k l
  | .doc d => EC.subDocument k d
  | .reader b => orNull k (do
      let d ← readDocument fuel b
      .ok (some (← EC.subDocument k d)))
  | .docMarshaler r => orNull k (do .ok (some (← ECE.documentMarshaler k (outcome r))))
  | .array a => orNull k (do .ok (some (← ECE.marshaler k (arrMarshal fuel a))))
  | .marshaler r => orNull k (do .ok (some (← ECE.marshaler k (outcome r))))
  | .bytes _ => EC.null k
  | .oid _ => EC.null k
  | .decimal _ _ => EC.null k
  | .regex _ _ => EC.null k
  | .dbPointer _ _ => EC.null k
  | .codeScope _ _ => EC.null k
  | .duration _ => EC.null k
  | .other => EC.null k
/-- `DC.MapInterface` (x_constructor.go:117-124), the `map[any]any` case of `DC.Interface` (x_constructor.go:178-182) and
    `DC.MapInterfaceInterface` (x_constructor.go:159-165) -/
def DC.mapInterface (W : Nat → Nat) (fuel : Nat) : GoMap → Res Doc
  | .nil => .ok []
  | .cons k g rest => do
    let v ← EC.interface W fuel k g
    .ok (v :: (← DC.mapInterface W fuel rest))
/-- the values of `EC.SliceInterface` (x_constructor.go:278-286); `VC.Interface` is x_constructor.go:383-385 -/
def EC.sliceValues (W : Nat → Nat) (fuel : Nat) : GoSlice → Res Doc
  | .nil => .ok []
  | .cons g rest => do
    let v ← EC.interface W fuel [] g
    .ok (v :: (← EC.sliceValues W fuel rest))
end

/-- the default branch of `ECE.Interface` (constructor.go:187-195) for a value that is not nil -/
def ECE.checked (W : Nat → Nat) (fuel : Nat) (k : Bytes) (g : Go) : Res Value := do
  let elem ← EC.interface W fuel k g
  if (← type elem) = 0x0A then .err .other else .ok elem

/-- `ECE.Interface` (constructor.go:163-197).  `*Document` has `MarshalDocument` (x_document.go:13), `*Element`, `*Array` and
    `Reader` have `MarshalBSON` (element.go:271, array.go:271, reader.go:225), so the Marshaler branches take them. -/
def ECE.interface (W : Nat → Nat) (fuel : Nat) (k : Bytes) : Go → Res Value
  | .int (.uint n) => ECE.ofUint64 k n
  | .int (.uint64 n) => ECE.ofUint64 k n
  | .doc d => ECE.documentMarshaler k (.ok d)
  | .docMarshaler r => ECE.documentMarshaler k (outcome r)
  | .elem v => ECE.marshaler k (elemMarshal fuel v)
  | .array a => ECE.marshaler k (arrMarshal fuel a)
  | .reader b => ECE.marshaler k (readerMarshal fuel b)
  | .marshaler r => ECE.marshaler k (outcome r)
  | .nil => EC.null k
  | g => ECE.checked W fuel k g

/-- `DCE.MapInterface` and `DCE.MapInterfaceInterface` (x_constructor.go:126-157); `ECE.Interface` returns no nil
    element without an error -/
def DCE.mapInterface (W : Nat → Nat) (fuel : Nat) : GoMap → Res Doc
  | .nil => .ok []
  | .cons k g rest => do
    let v ← ECE.interface W fuel k g
    .ok (v :: (← DCE.mapInterface W fuel rest))

/-- the loop of `ECE.SliceInterface` (x_constructor.go:291-300); `VCE.Interface` is x_constructor.go:387-394 -/
def ECE.sliceValues (W : Nat → Nat) (fuel : Nat) : GoSlice → Res Doc
  | .nil => .ok []
  | .cons g rest => do
    let v ← ECE.interface W fuel [] g
    .ok (v :: (← ECE.sliceValues W fuel rest))

/-- `EC.SliceInterface` (x_constructor.go:278-286) -/
def EC.sliceInterface (W : Nat → Nat) (fuel : Nat) (k : Bytes) (s : GoSlice) : Res Value := do
  EC.array k (← EC.sliceValues W fuel s)

/-- `ECE.SliceInterface` (x_constructor.go:288-303) -/
def ECE.sliceInterface (W : Nat → Nat) (fuel : Nat) (k : Bytes) (s : GoSlice) : Res Value := do
  EC.array k (← ECE.sliceValues W fuel s)

/-- an empty document instead of an error (x_constructor.go:197-199) -/
def orEmpty : Res Doc → Res Doc
  | .err _ => .ok []
  | r => r

/-- `DCE.Marshaler` (x_constructor.go:98-105), given the result of `MarshalBSON`; `DCE.Reader` is `ReadDocument`
    (x_constructor.go:57-59) -/
def DCE.marshaler (fuel : Nat) (r : Res Bytes) : Res Doc := do
  readDocument fuel (← r)

/-- `DC.Interface` (x_constructor.go:167-202) -/
def DC.interface (W : Nat → Nat) (fuel : Nat) : Go → Res Doc
  | .mapStr m => DC.mapString m
  | .map m => DC.mapInterface W fuel m
  | .mapAny m => DC.mapInterface W fuel m
  | .elem v => .ok [v]
  | .doc d => .ok d
  | .reader b => orEmpty (readDocument fuel b)
  | .docMarshaler r => orEmpty (outcome r)
  | .array a => orEmpty (DCE.marshaler fuel (arrMarshal fuel a))
  | .marshaler r => orEmpty (DCE.marshaler fuel (outcome r))
  | .elems d => .ok d
  | _ => .ok []

/-- `DCE.Interface` (x_constructor.go:204-227) -/
def DCE.interface (W : Nat → Nat) (fuel : Nat) : Go → Res Doc
  | .mapStr m => DC.mapString m
  | .map m => DCE.mapInterface W fuel m
  | .mapAny m => DCE.mapInterface W fuel m
  | .reader b => readDocument fuel b
  | .elem v => .ok [v]
  | .elems d => .ok d
  | .doc d => .ok d
  | .docMarshaler r => outcome r
  | .array a => DCE.marshaler fuel (arrMarshal fuel a)
  | .marshaler r => DCE.marshaler fuel (outcome r)
  | _ => .err .other

/-! ### export -/

/-- removes the entry with the key -/
def GoMap.erase (k : Bytes) : GoMap → GoMap
  | .nil => .nil
  | .cons k' g rest => if k' = k then rest.erase k else .cons k' g (rest.erase k)

def GoMap.push (k : Bytes) (g : Go) : GoMap → GoMap
  | .nil => .cons k g .nil
  | .cons k' g' rest => .cons k' g' (rest.push k g)

/-- `m[k] = g`.  The position of the entry is of no importance: the order of a map is arbitrary. -/
def GoMap.assign (k : Bytes) (g : Go) (m : GoMap) : GoMap := (m.erase k).push k g

/-- the loop of `ExportMap` (x_document.go:27-29); `f` is `Value.Interface` -/
def exportLoop (f : Value → Res Go) : Doc → GoMap → Res GoMap
  | [], out => .ok out
  | v :: rest, out => do
    let k ← key v
    let g ← f v
    exportLoop f rest (out.assign k g)

/-- `Array.Interface` (x_array.go:8-10); `f` is `Value.Interface` -/
def exportSlice (f : Value → Res Go) : Doc → Res GoSlice
  | [] => .ok .nil
  | v :: rest => do
    let g ← f v
    .ok (.cons g (← exportSlice f rest))

/-- the bytes of a scope; an error leaves nil (value.go:106-107) -/
def scopeBytes : Res Bytes → Res Bytes
  | .err _ => .ok []
  | r => r

/-- `Value.Interface` (value.go:70-128) of a non-nil value -/
def Value.interface : Nat → Value → Res Go
  | 0, _ => .oof
  | fuel + 1, v => do
    let t ← type v
    if t = 0x01 then do .ok (.f64 (← double v))
    else if t = 0x02 then do .ok (.str (← stringValue v))
    else if t = 0x03 then do
      let d ← mutableDocument (fuel + 1) v
      .ok (.map (← exportLoop (Value.interface fuel) d .nil))
    else if t = 0x04 then do
      let a ← mutableArray (fuel + 1) v
      .ok (.slice (← exportSlice (Value.interface fuel) a))
    else if t = 0x05 then do
      let (_, data) ← binary v
      .ok (.bytes data)
    else if t = 0x06 then .ok .nil
    else if t = 0x07 then do .ok (.oid (← objectID v))
    else if t = 0x08 then do .ok (.bool (← boolean v))
    else if t = 0x09 then do .ok (.time (← time v))
    else if t = 0x0A then .ok .nil
    else if t = 0x0B then do
      let (p, o) ← regex v
      .ok (.regex p o)
    else if t = 0x0C then do
      let (db, pointer) ← dbPointer v
      .ok (.dbPointer db pointer)
    else if t = 0x0D then do .ok (.str (← javaScript v))
    else if t = 0x0E then do .ok (.str (← symbol v))
    else if t = 0x0F then do
      let (code, scope) ← mutableCodeWithScope (fuel + 1) v
      let val ← scopeBytes (docMarshal (fuel + 1) scope)
      .ok (.codeScope code val)
    else if t = 0x10 then do .ok (.int (.int32 (← int32 v)))
    else if t = 0x11 then do
      let (t, i) ← timestamp v
      .ok (.timestamp t i)
    else if t = 0x12 then do .ok (.int (.int64 (← int64 v)))
    else if t = 0x13 then do
      let (h, l) ← decimal128 v
      .ok (.decimal h l)
    else if t = 0xFF then .ok .nil
    else if t = 0x7F then .ok .nil
    else .ok .nil

/-- `Document.ExportMap` (x_document.go:26-33) -/
def exportMap (fuel : Nat) (d : Doc) : Res Go := do
  .ok (.map (← exportLoop (Value.interface fuel) d .nil))

end Birch.Model
