import Verif.Model.GoValue
import Verif.Spec.Ints
import Verif.Spec.Rep

/-
What Go data stands for in BSON, and what BSON values look like as Go data.
The type `Go` of Go values comes from the model; nothing else does except `Time`, `GoInt` and the in-memory values that
Go data may contain (through `Rep`).
-/

namespace Birch.Spec
open Birch Model

/-- integer types wider than 16 bits whose values from 2^31-1 on are written as int64; an `int64` always is -/
def wide : GoInt → Bool
  | .int8 _ => false
  | .int16 _ => false
  | .int32 _ => false
  | .uint8 _ => false
  | .uint16 _ => false
  | .int64 _ => true
  | .int i => 2147483647 ≤ i
  | .uint32 n => 2147483647 ≤ n
  | .uint64 n => 2147483647 ≤ n
  | .uint n => 2147483647 ≤ n

/-- the BSON integer for a Go integer -/
def intBson (g : GoInt) : BVal := if wide g then .int64 (intVal g) else .int32 (intVal g)

/-- in the range of its type, below 2^63, and not a Go `int` below -2^31 (see C23 for those) -/
def IntFits (g : GoInt) : Prop :=
  inRange g ∧ intVal g < 9223372036854775808 ∧ ∀ i, g = .int i → -2147483648 ≤ i

/-- whole milliseconds since 1970, rounded down -/
def millis (t : Time) : Int := nanoseconds t / 1000000

/-- a time -/
def TimeFits (t : Time) : Prop :=
  Normal t ∧ -9223372036854775808 ≤ millis t ∧ millis t < 9223372036854775808

/-- the fields of a map of strings -/
def strFields : List (Bytes × Bytes) → Fields
  | [] => .nil
  | (k, s) :: rest => .cons k (.string s) (strFields rest)

/-- an array -/
def valsOf {α : Type} (f : α → BVal) : List α → Vals
  | [] => .nil
  | a :: rest => .cons (f a) (valsOf f rest)

mutual
/-- `Denotes W g t`: the Go value `g` stands for the BSON value `t`.  `W` widens a float32 to a float64. -/
inductive Denotes (W : Nat → Nat) : Go → BVal → Prop
  | nil : Denotes W .nil .null
  | bool (b : Bool) : Denotes W (.bool b) (.bool b)
  | int (g : GoInt) : IntFits g → Denotes W (.int g) (intBson g)
  | f32 (b : Nat) : Denotes W (.f32 b) (.double (W b))
  | f64 (b : Nat) : Denotes W (.f64 b) (.double b)
  | str (s : Bytes) : Denotes W (.str s) (.string s)
  | time (t : Time) : TimeFits t → Denotes W (.time t) (.datetime (millis t))
  | timestamp (t i : Nat) : Denotes W (.timestamp t i) (.timestamp t i)
  | map {m : GoMap} {fs : Fields} : DenotesMap W m fs → Denotes W (.map m) (.doc fs)
  | mapAny {m : GoMap} {fs : Fields} : DenotesMap W m fs → Denotes W (.mapAny m) (.doc fs)
  | mapStr (m : List (Bytes × Bytes)) : Denotes W (.mapStr m) (.doc (strFields m))
  | slice {s : GoSlice} {vs : Vals} : DenotesSlice W s vs → Denotes W (.slice s) (.array vs)
  | strs (l : List Bytes) : Denotes W (.strs l) (.array (valsOf .string l))
  | int64s (l : List Int) : Denotes W (.int64s l) (.array (valsOf .int64 l))
  | int32s (l : List Int) : Denotes W (.int32s l) (.array (valsOf .int32 l))
  | f64s (l : List Nat) : Denotes W (.f64s l) (.array (valsOf .double l))
  | f32s (l : List Nat) : Denotes W (.f32s l) (.array (valsOf (fun b => .double (W b)) l))
  | ints (l : List Int) : (∀ i ∈ l, IntFits (.int i)) → Denotes W (.ints l) (.array (valsOf (fun i => intBson (.int i)) l))
  | times (l : List Time) : (∀ t ∈ l, TimeFits t) → Denotes W (.times l) (.array (valsOf (fun t => .datetime (millis t)) l))
  | durations (l : List Int) : Denotes W (.durations l) (.array (valsOf .int64 l))
  | elems {d : Doc} {fs : Fields} : RepFields d fs → Denotes W (.elems d) (.doc fs)
  /-- the buffer of a `*Value` is copied, so it must not be too large for a new key -/
  | value {v : Value} {k : Bytes} {t : BVal} : Rep v k t → v.data.length < 1073741824 → Denotes W (.value v) t
  | values {l : List Value} {vs : Vals} : RepVals l vs → Denotes W (.values l) (.array vs)
  | doc {d : Doc} {fs : Fields} : RepFields d fs → Denotes W (.doc d) (.doc fs)
  | reader (fs : Fields) : Denotes W (.reader (encDoc fs)) (.doc fs)
  | docMarshaler {d : Doc} {fs : Fields} : RepFields d fs → Denotes W (.docMarshaler (some d)) (.doc fs)
  | marshaler (fs : Fields) : Denotes W (.marshaler (some (encDoc fs))) (.doc fs)
/-- a map, visited in this order, stands for a document in the same order -/
inductive DenotesMap (W : Nat → Nat) : GoMap → Fields → Prop
  | nil : DenotesMap W .nil .nil
  | cons (k : Bytes) {g : Go} {t : BVal} {m : GoMap} {fs : Fields} :
      Denotes W g t → DenotesMap W m fs → DenotesMap W (.cons k g m) (.cons k t fs)
inductive DenotesSlice (W : Nat → Nat) : GoSlice → Vals → Prop
  | nil : DenotesSlice W .nil .nil
  | cons {g : Go} {t : BVal} {s : GoSlice} {vs : Vals} :
      Denotes W g t → DenotesSlice W s vs → DenotesSlice W (.cons g s) (.cons t vs)
  /-- in a slice an element counts as its value -/
  | elem {v : Value} {k : Bytes} {t : BVal} {s : GoSlice} {vs : Vals} :
      Rep v k t → DenotesSlice W s vs → DenotesSlice W (.cons (.elem v) s) (.cons t vs)
end

/-- as `DenotesMap`, but null only stands for nil (and not for a `*Value` that is null) -/
inductive DenotesMapStrict (W : Nat → Nat) : GoMap → Fields → Prop
  | nil : DenotesMapStrict W .nil .nil
  | cons (k : Bytes) {g : Go} {t : BVal} {m : GoMap} {fs : Fields} :
      Denotes W g t → (t = .null → g = .nil) → DenotesMapStrict W m fs → DenotesMapStrict W (.cons k g m) (.cons k t fs)

inductive DenotesSliceStrict (W : Nat → Nat) : GoSlice → Vals → Prop
  | nil : DenotesSliceStrict W .nil .nil
  | cons {g : Go} {t : BVal} {s : GoSlice} {vs : Vals} :
      Denotes W g t → (t = .null → g = .nil) → DenotesSliceStrict W s vs → DenotesSliceStrict W (.cons g s) (.cons t vs)

/-- the Go values that stand for whole documents -/
inductive DenotesDoc (W : Nat → Nat) : Go → Fields → Prop
  | map {m : GoMap} {fs : Fields} : DenotesMapStrict W m fs → DenotesDoc W (.map m) fs
  | mapAny {m : GoMap} {fs : Fields} : DenotesMapStrict W m fs → DenotesDoc W (.mapAny m) fs
  | mapStr (m : List (Bytes × Bytes)) : DenotesDoc W (.mapStr m) (strFields m)
  | elem {v : Value} {k : Bytes} {t : BVal} : Rep v k t → DenotesDoc W (.elem v) (.cons k t .nil)
  | elems {d : Doc} {fs : Fields} : RepFields d fs → DenotesDoc W (.elems d) fs
  | doc {d : Doc} {fs : Fields} : RepFields d fs → DenotesDoc W (.doc d) fs
  | reader (fs : Fields) : DenotesDoc W (.reader (encDoc fs)) fs
  | docMarshaler {d : Doc} {fs : Fields} : RepFields d fs → DenotesDoc W (.docMarshaler (some d)) fs
  | marshaler (fs : Fields) : DenotesDoc W (.marshaler (some (encDoc fs))) fs

/-- entries of one map before the entries of another -/
def GoMap.append : GoMap → GoMap → GoMap
  | .nil, n => n
  | .cons k g rest, n => .cons k g (GoMap.append rest n)

def GoSlice.append : GoSlice → GoSlice → GoSlice
  | .nil, n => n
  | .cons g rest, n => .cons g (GoSlice.append rest n)

/-- the fields "0", "1", ... of an array written as a document -/
def numbered : Nat → Vals → Fields
  | _, .nil => .nil
  | i, .cons t rest => .cons (decimalKey i) t (numbered (i + 1) rest)

/-- Go values that are no documents -/
def NotDocument : Go → Prop
  | .map _ => False
  | .mapAny _ => False
  | .mapStr _ => False
  | .elem _ => False
  | .elems _ => False
  | .doc _ => False
  | .array _ => False
  | .reader _ => False
  | .docMarshaler (some _) => False
  | .marshaler (some _) => False
  | _ => True

/-- Go values the constructors have no case for -/
def Unsupported : Go → Prop
  | .bytes _ => True
  | .oid _ => True
  | .decimal _ _ => True
  | .regex _ _ => True
  | .dbPointer _ _ => True
  | .codeScope _ _ => True
  | .duration _ => True
  | .other => True
  | _ => False

/-! ### export -/

/-- the keys of a document, in order -/
def Fields.keys : Fields → List Bytes
  | .nil => []
  | .cons k _ rest => k :: rest.keys

mutual
/-- A BSON value as Go data.  Types without a Go counterpart: a binary loses its subtype, code and symbols become strings,
    undefined, null, MinKey and MaxKey all become nil. -/
def goOf : BVal → Go
  | .double b => .f64 b
  | .string s => .str s
  | .doc fs => .map (goOfFields fs)
  | .array vs => .slice (goOfVals vs)
  | .binary _ b => .bytes b
  | .undefined => .nil
  | .oid id => .oid id
  | .bool b => .bool b
  | .datetime ms => .time ⟨ms / 1000, ms % 1000 * 1000000⟩
  | .null => .nil
  | .regex p o => .regex p o
  | .dbpointer ns id => .dbPointer ns id
  | .js c => .str c
  | .symbol s => .str s
  | .codeScope c fs => .codeScope c (encDoc fs)
  | .int32 i => .int (.int32 i)
  | .timestamp t i => .timestamp t i
  | .int64 i => .int (.int64 i)
  | .decimal h l => .decimal h l
  | .minKey => .nil
  | .maxKey => .nil
/-- of fields with the same key only the last one counts -/
def goOfFields : Fields → GoMap
  | .nil => .nil
  | .cons k t rest => if k ∈ rest.keys then goOfFields rest else .cons k (goOf t) (goOfFields rest)
def goOfVals : Vals → GoSlice
  | .nil => .nil
  | .cons t rest => .cons (goOf t) (goOfVals rest)
end

mutual
/-- values whose Go form can be imported again: doubles, strings, booleans, dates, nulls, int32, int64, timestamps, arrays
    of these, and documents of these without repeated keys -/
def Portable : BVal → Prop
  | .double _ => True
  | .string _ => True
  | .bool _ => True
  | .datetime _ => True
  | .null => True
  | .int32 _ => True
  | .int64 _ => True
  | .timestamp _ _ => True
  | .doc fs => PortableFields fs
  | .array vs => PortableVals vs
  | _ => False
def PortableFields : Fields → Prop
  | .nil => True
  | .cons k t rest => k ∉ rest.keys ∧ Portable t ∧ PortableFields rest
def PortableVals : Vals → Prop
  | .nil => True
  | .cons t rest => Portable t ∧ PortableVals rest
end

mutual
/-- the same Go data with the entries of maps visited in another order, at any depth -/
inductive Shuffled : Go → Go → Prop
  | refl (g : Go) : Shuffled g g
  | map {m m' : GoMap} : ShuffledMap m m' → Shuffled (.map m) (.map m')
  | slice {s s' : GoSlice} : ShuffledSlice s s' → Shuffled (.slice s) (.slice s')
inductive ShuffledMap : GoMap → GoMap → Prop
  | nil : ShuffledMap .nil .nil
  | cons (k : Bytes) {g g' : Go} {m m' : GoMap} : Shuffled g g' → ShuffledMap m m' → ShuffledMap (.cons k g m) (.cons k g' m')
  | swap (k l : Bytes) (g h : Go) (m : GoMap) : ShuffledMap (.cons k g (.cons l h m)) (.cons l h (.cons k g m))
  | trans {a b c : GoMap} : ShuffledMap a b → ShuffledMap b c → ShuffledMap a c
inductive ShuffledSlice : GoSlice → GoSlice → Prop
  | nil : ShuffledSlice .nil .nil
  | cons {g g' : Go} {s s' : GoSlice} : Shuffled g g' → ShuffledSlice s s' → ShuffledSlice (.cons g s) (.cons g' s')
end

mutual
/-- the same value with the fields of documents in another order, at any depth -/
inductive SameUpToOrder : BVal → BVal → Prop
  | refl (t : BVal) : SameUpToOrder t t
  | doc {fs gs : Fields} : SameFields fs gs → SameUpToOrder (.doc fs) (.doc gs)
  | array {vs ws : Vals} : SameVals vs ws → SameUpToOrder (.array vs) (.array ws)
inductive SameFields : Fields → Fields → Prop
  | nil : SameFields .nil .nil
  | cons (k : Bytes) {t u : BVal} {fs gs : Fields} : SameUpToOrder t u → SameFields fs gs → SameFields (.cons k t fs) (.cons k u gs)
  | swap (k l : Bytes) (t u : BVal) (fs : Fields) : SameFields (.cons k t (.cons l u fs)) (.cons l u (.cons k t fs))
  | trans {a b c : Fields} : SameFields a b → SameFields b c → SameFields a c
inductive SameVals : Vals → Vals → Prop
  | nil : SameVals .nil .nil
  | cons {t u : BVal} {vs ws : Vals} : SameUpToOrder t u → SameVals vs ws → SameVals (.cons t vs) (.cons u ws)
end

end Birch.Spec
