import Verif.Model.JsonStream

/- What `CollectJSONStream` should do (C85). -/

namespace Birch.Spec.JsonStream
open Birch Model.JsonStream

variable {α : Type}

/-- the samples of the lines before the first that is none -/
def parsed (parse : Bytes → Option (Except Err α)) : List Bytes → List α
  | [] => []
  | l :: ls =>
    match parse l with
    | some (.ok d) => d :: parsed parse ls
    | _ => []

/-- each line is a sample -/
def AllOk (parse : Bytes → Option (Except Err α)) (ls : List Bytes) : Prop := ∀ l ∈ ls, ∃ d, parse l = some (.ok d)

/-- nothing more happens unless the flush timer fires or the context is cancelled -/
def Idle (S : Sys α) (s : State α) : Prop := ∀ t, Step S false s t → t = { s with cancelled := true }

/-- lines, each ended by a newline -/
def joined : List Bytes → Bytes
  | [] => []
  | l :: ls => l ++ 10 :: joined ls

/-- a line that is read as it is -/
def Line (l : Bytes) : Prop := (10 : UInt8) ∉ l ∧ l.length < 65536 ∧ l.getLast? ≠ some 13

/-- the error of the first event that ends `follow`: that the context is done, or an error of the watcher -/
def firstEnd (evs : List Event) : Option Err :=
  evs.findSome? fun
    | .done => some .other
    | .watcherError e => some e
    | _ => none

end Birch.Spec.JsonStream
