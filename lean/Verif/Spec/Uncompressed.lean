import Verif.Spec.ExtJson
import Verif.Spec.FtdcDocs
import Verif.Model.FtdcUncompressed

/- Streams of documents. -/

namespace Birch.Spec
open Birch

/-- the number of fields of the first document that has any, given the numbers of fields -/
def width : List Nat → Nat
  | [] => 0
  | n :: r => if n = 0 then width r else n

/-- Lines of extended JSON: `text` consists of a line for each document, which has no newline but the one at its end and is the JSON
    text of an object that stands for the document. -/
def IsLines (C : Model.ExtJson.Clock) : List Fields → (text : Bytes) → Prop
  | [], text => text = []
  | fs :: fss, text => ∃ line rest es, text = line ++ 10 :: rest ∧ (10 : UInt8) ∉ line ∧ Json.read line = some (.obj es) ∧ ExtJson.ExtFields C fs es ∧
      IsLines C fss rest

/-- the documents in one of the formats: the BSON documents one after the other, or lines of JSON -/
def IsFile (C : Model.ExtJson.Clock) : Model.Ftdc.Format → List Fields → (text : Bytes) → Prop
  | .bson, fss, text => text = (fss.map encDoc).flatten
  | .json, fss, text => IsLines C fss text

end Birch.Spec
