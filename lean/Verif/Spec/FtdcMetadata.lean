import Verif.Spec.FtdcLayout
import Verif.Model.FtdcMetadata

/- Which metadata a chunk has. -/

namespace Birch.Spec
open Birch

/-- The documents of a file, and for each of its chunks the last document before it that says about itself that it is metadata; `md` is the one from before. -/
inductive InForce : (md : Option Fields) → (file : List Fields) → (chunks : List (Option Fields)) → Prop where
  | done {md} : InForce md [] []
  | metadata {md f file ms} : MetaDoc f → InForce (some f) file ms → InForce md (f :: file) ms
  | other {md f file ms} : ¬ MetaDoc f → ¬ ChunkDoc f → InForce md file ms → InForce md (f :: file) ms
  | chunk {md f file ms} : ChunkDoc f → InForce md file ms → InForce md (f :: file) (md :: ms)

/-- the metadata after the calls: that of the last `SetMetadata`, if nothing has removed it since -/
def metadataAfter (removes : Model.Ftdc.Call → Bool) : Option Model.Doc → List Model.Ftdc.Call → Option Model.Doc
  | md, [] => md
  | md, c :: cs =>
    metadataAfter removes (match c with
      | .setMetadata d => some d
      | c => if removes c then none else md) cs

/-- for each chunk the metadata written with it or with the last chunk before it that has any, as documents of the file -/
def carried : Option Fields → List LaidChunk → List (Option Fields)
  | _, [] => []
  | md, c :: cs =>
    let md := match c.metadata with
      | some m => some (metaDocument c.ms m)
      | none => md
    md :: carried md cs

end Birch.Spec
