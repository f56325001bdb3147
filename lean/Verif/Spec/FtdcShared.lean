import Verif.Model.FtdcShared
import Verif.Spec.Graph
import Verif.Spec.FtdcLayout

/- What a collector refers to, and programs that leave that alone. -/

namespace Birch.Spec.Shared
open Birch Model Model.Graph Model.Shared Spec.Graph

/-- the document now has these fields -/
def Says (w : World) (d : Nat) (fs : Fields) : Prop := Made w (.doc d) ∧ ∃ n tree, viewDoc w n d = .ok tree ∧ RepFields tree fs

/-- the objects a value that is kept from the last sample consists of: the value and its bytes -/
def OfLast (w : World) (c : Collector) (o : Obj) : Prop :=
  ∃ t p, (t, Held.at p) ∈ c.last ∧ (o = .val p ∨ o = .buf (w.vals p).data.buf)

/-- the objects the reference document and the metadata consist of -/
def OfDocs (w : World) (c : Collector) (o : Obj) : Prop :=
  ∃ d, (c.reference = some d ∨ c.metadata = some d) ∧ Reach w (.doc d) o

/-- the metadata now has these fields, if there is any -/
def SaysMeta (w : World) : Option Nat → Option Fields → Prop
  | none, none => True
  | some m, some fs => Says w m fs
  | _, _ => False

/-- the document that is added first -/
def firstAdded : List Step → Option Nat
  | [] => none
  | .call _ :: rest => firstAdded rest
  | .add d :: _ => some d

/-- A program that adds documents with the fields `fss`.  Between the calls of `Add` it does not write to any object in `keep`, which depends on the collector at that time. -/
def Adds (fsub : Nat → Nat → Nat) (n : Nat) (keep : World → Collector → Obj → Prop) : World → Collector → List Step → List Fields → Prop
  | _, _, [], fss => fss = []
  | w, c, .call k :: rest, fss => Args w k ∧ (∀ o, keep w c o → ¬ Writes w k o) ∧ Adds fsub n keep (k.run w) c rest fss
  | w, c, .add d :: rest, fss =>
    ∃ fs gss, fss = fs :: gss ∧ Says w d fs ∧ ∀ w' c' e, c.add fsub n d w = (w', .ok (c', e)) → Adds fsub n keep w' c' rest gss

mutual
/-- int64s, and documents and arrays of them -/
def _root_.Birch.Spec.BVal.Counters : BVal → Prop
  | .doc fs => fs.Counters
  | .array vs => vs.Counters
  | .int64 _ => True
  | _ => False
def _root_.Birch.Spec.Fields.Counters : Fields → Prop
  | .nil => True
  | .cons _ v rest => v.Counters ∧ rest.Counters
def _root_.Birch.Spec.Vals.Counters : Vals → Prop
  | .nil => True
  | .cons v rest => v.Counters ∧ rest.Counters
end

mutual
/-- `g` with the differences of the numbers of `c` to those of `f` added -/
def _root_.Birch.Spec.BVal.moved : (g f c : BVal) → BVal
  | .doc g, f, c => match f, c with | .doc f, .doc c => .doc (g.moved f c) | _, _ => .doc g
  | .array g, f, c => match f, c with | .array f, .array c => .array (g.moved f c) | _, _ => .array g
  | .int64 g, f, c => match f, c with | .int64 f, .int64 c => .int64 (i64 (g + c - f)) | _, _ => .int64 g
  | g, _, _ => g
def _root_.Birch.Spec.Fields.moved : (g f c : Fields) → Fields
  | .cons k vg g, f, c => match f, c with | .cons _ vf f, .cons _ vc c => .cons k (vg.moved vf vc) (g.moved f c) | _, _ => .cons k vg g
  | .nil, _, _ => .nil
def _root_.Birch.Spec.Vals.moved : (g f c : Vals) → Vals
  | .cons vg g, f, c => match f, c with | .cons vf f, .cons vc c => .cons (vg.moved vf vc) (g.moved f c) | _, _ => .cons vg g
  | .nil, _, _ => .nil
end

/-- `chunkPayload` of the samples `f0 :: fss`, but that the first sample was replaced by `g` after the differences had been taken -/
def payloadOn (sub : Nat → Nat → Nat) (g f0 : Fields) (fss : List Fields) : Bytes :=
  encDoc g ++ le32 f0.cells.length ++ le32 fss.length ++
    (runs (byMetric f0.cells.length (diffRows sub f0.cells (fss.map Fields.cells)))).flatMap leb128

/-- a document with the metadata, if there are any, and one with the payload -/
def documentsOf (zip : Bytes → Bytes) (ms : Int) (md : Option Fields) (payload : Bytes) : Bytes :=
  (match md with | none => [] | some m => encDoc (metaDocument ms m)) ++
    encDoc (chunkDocument ms (le32 (payload.length % 4294967296) ++ zip payload))

/-- `chunkLayout`, likewise -/
def layoutOn (sub : Nat → Nat → Nat) (zip : Bytes → Bytes) (ms : Int) (md : Option Fields) (g f0 : Fields) (fss : List Fields) : Bytes :=
  documentsOf zip ms md (payloadOn sub g f0 fss)

end Birch.Spec.Shared
