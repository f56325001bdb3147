import Verif.Model.Shell
import Verif.Spec.Wire
import Verif.Spec.Registry

/-
Specification of the shell package: the fields of the documents of its responses, and the answer to each command.
-/

namespace Birch.Spec.Shell
open Birch Spec Model.Shell

/-- an `int` that the constructors keep: `EC.Int` cuts smaller ones to 32 bits -/
def Kept (i : Int) : Prop := -2147483648 ≤ i ∧ i < 9223372036854775808

/-- `int` as a value -/
def ofInt (i : Int) : BVal := if i < 2147483647 then .int32 i else .int64 i

/-- `{ok: …, errmsg: …, …}` -/
def errorFields (r : ErrorResponse) (rest : Fields) : Fields := .cons [111, 107] (ofInt r.ok) (.cons [101, 114, 114, 109, 115, 103] (.string r.message) rest)

/-- `{…, minWireVersion: …, maxWireVersion: …}` -/
def isMasterFields (r : IsMasterResponse) : Fields := errorFields r.error
  (.cons [109, 105, 110, 87, 105, 114, 101, 86, 101, 114, 115, 105, 111, 110] (ofInt r.minWireVersion)
    (.cons [109, 97, 120, 87, 105, 114, 101, 86, 101, 114, 115, 105, 111, 110] (ofInt r.maxWireVersion) .nil))

/-- `{…, name: "…"}` -/
def textFields (name : Bytes) (r : TextResponse) : Fields := errorFields r.error (.cons name (.string r.text) .nil)

def strings : List Bytes → Vals
  | [] => .nil
  | s :: ss => .cons (.string s) (strings ss)

/-- `{…, log: […]}` -/
def logFields (r : LogResponse) : Fields := errorFields r.error (.cons [108, 111, 103] (.array (strings r.log)) .nil)

/-- the number of an integer value -/
def number : BVal → Option Int
  | .int32 i => some i
  | .int64 i => some i
  | _ => none

/-- the text of a string value -/
def text : BVal → Option Bytes
  | .string s => some s
  | _ => none

/-- the texts of an array of strings -/
def texts : BVal → Option (List Bytes)
  | .array vs => vs.toList.mapM text
  | _ => none

/-- the fields of a document taken in, one after the other, until one is refused -/
def takeIn {α : Type} (f : α → Bytes → BVal → Option α) (a : α) : Fields → Option α
  | .nil => some a
  | .cons k t fs => (f a k t).bind fun a => takeIn f a fs

/-- how a response takes in a field -/
def takeError (r : ErrorResponse) (k : Bytes) (t : BVal) : Option ErrorResponse :=
  if k = [111, 107] then (number t).map fun i => { r with ok := i }
  else if k = [101, 114, 114, 109, 115, 103] then (text t).map fun s => { r with message := s }
  else some r

def takeIsMaster (r : IsMasterResponse) (k : Bytes) (t : BVal) : Option IsMasterResponse :=
  if k = [109, 105, 110, 87, 105, 114, 101, 86, 101, 114, 115, 105, 111, 110] then (number t).map fun i => { r with minWireVersion := i }
  else if k = [109, 97, 120, 87, 105, 114, 101, 86, 101, 114, 115, 105, 111, 110] then (number t).map fun i => { r with maxWireVersion := i }
  else (takeError r.error k t).map fun e => { r with error := e }

def takeText (name : Bytes) (r : TextResponse) (k : Bytes) (t : BVal) : Option TextResponse :=
  if k = name then (text t).map fun s => { r with text := s }
  else (takeError r.error k t).map fun e => { r with error := e }

/-- the lines of the log are looked for under "version" -/
def takeLog (r : LogResponse) (k : Bytes) (t : BVal) : Option LogResponse :=
  if k = [118, 101, 114, 115, 105, 111, 110] then (texts t).map fun ss => { r with log := ss }
  else (takeError r.error k t).map fun e => { r with error := e }

/-- the bytes of the responses fit a BSON document -/
def Small (fs : Fields) : Prop := (encDoc fs).length < 2147483648

/-- what the service at `addr` answers -/
def answer (addr : Bytes) : Handler → Fields
  | .isMaster => isMasterFields ⟨⟨1, []⟩, 0, 6⟩
  | .whatsMyURI => textFields [121, 111, 117] ⟨⟨1, []⟩, addr⟩
  | .buildInfo => textFields [118, 101, 114, 115, 105, 111, 110] ⟨⟨1, []⟩, [48, 46, 48, 46, 48]⟩
  | .getLog => logFields ⟨⟨1, []⟩, []⟩
  | _ => errorFields ⟨0, []⟩ .nil

def ascii (s : String) : Bytes := s.toList.map fun c => UInt8.ofNat c.toNat

/-- the names of the commands that a handler is for -/
def commands : Handler → List Bytes
  | .isMaster => [ascii "isMaster"]
  | .whatsMyURI => [ascii "whatsmyuri"]
  | .buildInfo => [ascii "buildInfo", ascii "buildinfo"]
  | .endSessions => [ascii "endSessions"]
  | .getCmdLineOpts => [ascii "getCmdLineOpts"]
  | .getFreeMonitoringStatus => [ascii "getFreeMonitoringStatus"]
  | .getLog => [ascii "getLog"]
  | .listCollections => [ascii "listCollections"]
  | .replSetGetStatus => [ascii "replSetGetStatus"]

end Birch.Spec.Shell
