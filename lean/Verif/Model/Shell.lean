import Verif.Model.WireSock
import Verif.Model.Registry
import Verif.Model.Constructors
import Verif.Model.Access

/-
Model of the shell package (x/mrpc/shell): the documents of its responses, their messages, and the service that answers the commands of a shell.
Simplified: the receiver of an `UnmarshalDocument` that fails is not looked at; error texts.
-/

namespace Birch.Model.Shell
open Birch Model Model.Wire Model.Registry

/-- "ok" -/
def kOk : Bytes := [111, 107]
/-- "errmsg" -/
def kErrmsg : Bytes := [101, 114, 114, 109, 115, 103]
/-- "minWireVersion" -/
def kMin : Bytes := [109, 105, 110, 87, 105, 114, 101, 86, 101, 114, 115, 105, 111, 110]
/-- "maxWireVersion" -/
def kMax : Bytes := [109, 97, 120, 87, 105, 114, 101, 86, 101, 114, 115, 105, 111, 110]
/-- "you" -/
def kYou : Bytes := [121, 111, 117]
/-- "version" -/
def kVersion : Bytes := [118, 101, 114, 115, 105, 111, 110]
/-- "log" -/
def kLog : Bytes := [108, 111, 103]

/-! ### io.go -/

/-- `intOK` (x/mrpc/shell/io.go:10-16) -/
def boolInt (ok : Bool) : Int := if ok then 1 else 0

/-- `ErrorResponse` (x/mrpc/shell/io.go:20-23) -/
structure ErrorResponse where
  ok : Int
  message : Bytes
  deriving DecidableEq, Repr

/-- `MakeErrorResponse` (x/mrpc/shell/io.go:27-34); `none` is a nil error -/
def makeErrorResponse (ok : Bool) (err : Option Bytes) : ErrorResponse := ⟨boolInt ok, err.getD []⟩

/-- `MakeSuccessResponse` (x/mrpc/shell/io.go:63-66) -/
def makeSuccessResponse : ErrorResponse := ⟨boolInt true, []⟩

/-- `ErrorResponse.MarshalDocument` (x/mrpc/shell/io.go:36-40) -/
def marshalError (r : ErrorResponse) : Res Doc := do
  let a ← EC.int kOk r.ok
  let b ← EC.string kErrmsg r.message
  .ok [a, b]

/-- `ErrorResponse.UnmarshalDocument` (x/mrpc/shell/io.go:42-61) -/
def unmarshalError (r : ErrorResponse) : Doc → Res ErrorResponse
  | [] => .ok r
  | e :: d => do
    let k ← key e
    if k = kOk then
      match ← intOK e with
      | some i => unmarshalError { r with ok := i } d
      | none => .err .other
    else if k = kErrmsg then
      match ← stringValueOK e with
      | some s => unmarshalError { r with message := s } d
      | none => .err .other
    else unmarshalError r d

/-- `ErrorResponse.SuccessOrError` (x/mrpc/shell/io.go:68-76): the text of the error; `none` is nil -/
def successOrError (r : ErrorResponse) : Option Bytes :=
  if r.message ≠ [] then some r.message
  else if r.ok = 0 then some "response was not ok".toUTF8.toList
  else none

/-- `isMasterResponse` (x/mrpc/shell/io.go:78-82) -/
structure IsMasterResponse where
  error : ErrorResponse
  minWireVersion : Int
  maxWireVersion : Int
  deriving DecidableEq, Repr

/-- x/mrpc/shell/io.go:84-89 -/
def marshalIsMaster (r : IsMasterResponse) : Res Doc := do
  let d ← marshalError r.error
  let a ← EC.int kMin r.minWireVersion
  let b ← EC.int kMax r.maxWireVersion
  .ok (d ++ [a, b])

/-- the loop of `isMasterResponse.UnmarshalDocument` (x/mrpc/shell/io.go:96-113) -/
def isMasterLoop (r : IsMasterResponse) : Doc → Res IsMasterResponse
  | [] => .ok r
  | e :: d => do
    let k ← key e
    if k = kMin then
      match ← intOK e with
      | some i => isMasterLoop { r with minWireVersion := i } d
      | none => .err .other
    else if k = kMax then
      match ← intOK e with
      | some i => isMasterLoop { r with maxWireVersion := i } d
      | none => .err .other
    else isMasterLoop r d

/-- x/mrpc/shell/io.go:91-114 -/
def unmarshalIsMaster (r : IsMasterResponse) (d : Doc) : Res IsMasterResponse := do
  isMasterLoop { r with error := ← unmarshalError r.error d } d

/-- `makeIsMasterResponse` (x/mrpc/shell/io.go:116-122) -/
def makeIsMasterResponse (min max : Int) : IsMasterResponse := ⟨makeSuccessResponse, min, max⟩

/-- `whatsMyURIResponse` and `buildInfoResponse` (x/mrpc/shell/io.go:125-128, 161-164): an error response and a string -/
structure TextResponse where
  error : ErrorResponse
  text : Bytes
  deriving DecidableEq, Repr

/-- the two `MarshalDocument` (x/mrpc/shell/io.go:130-133, 166-169); `name` is "you" or "version" -/
def marshalText (name : Bytes) (r : TextResponse) : Res Doc := do
  let d ← marshalError r.error
  let a ← EC.string name r.text
  .ok (d ++ [a])

/-- the loops of the two `UnmarshalDocument` (x/mrpc/shell/io.go:140-152, 176-187) -/
def textLoop (name : Bytes) (r : TextResponse) : Doc → Res TextResponse
  | [] => .ok r
  | e :: d => do
    let k ← key e
    if k = name then
      match ← stringValueOK e with
      | some s => textLoop name { r with text := s } d
      | none => .err .other
    else textLoop name r d

/-- the two `UnmarshalDocument` (x/mrpc/shell/io.go:135-153, 171-188) -/
def unmarshalText (name : Bytes) (r : TextResponse) (d : Doc) : Res TextResponse := do
  textLoop name { r with error := ← unmarshalError r.error d } d

/-- `makeWhatsMyURIResponse`, `makeBuildInfoResponse` (x/mrpc/shell/io.go:155-157, 190-192) -/
def makeText (s : Bytes) : TextResponse := ⟨makeSuccessResponse, s⟩

/-- `getLogResponse` (x/mrpc/shell/io.go:196-199) -/
structure LogResponse where
  error : ErrorResponse
  log : List Bytes
  deriving DecidableEq, Repr

/-- the values `VC.String` of `EC.SliceString` (x_constructor.go:268-276) -/
def stringValues : List Bytes → Res Doc
  | [] => .ok []
  | s :: ss => do
    let v ← EC.string [] s
    .ok (v :: (← stringValues ss))

/-- x/mrpc/shell/io.go:201-204 -/
def marshalLog (r : LogResponse) : Res Doc := do
  let d ← marshalError r.error
  let vs ← stringValues r.log
  let a ← EC.array kLog vs
  .ok (d ++ [a])

/-- the loop over the array (x/mrpc/shell/io.go:220-229) -/
def logStrings : Doc → Res (List Bytes)
  | [] => .ok []
  | v :: d => do
    match ← stringValueOK v with
    | some s => .ok (s :: (← logStrings d))
    | none => .err .other

/-- the loop of `getLogResponse.UnmarshalDocument` (x/mrpc/shell/io.go:211-231): the key is "version" -/
def logLoop (fuel : Nat) (r : LogResponse) : Doc → Res LogResponse
  | [] => .ok r
  | e :: d => do
    let k ← key e
    if k = kVersion then
      match ← mutableArrayOK fuel e with
      | some a => logLoop fuel { r with log := ← logStrings a } d
      | none => .err .other
    else logLoop fuel r d

/-- x/mrpc/shell/io.go:206-234 -/
def unmarshalLog (fuel : Nat) (r : LogResponse) (d : Doc) : Res LogResponse := do
  logLoop fuel { r with error := ← unmarshalError r.error d } d

/-- `makeGetLogResponse` (x/mrpc/shell/io.go:236-238) -/
def makeLog (log : List Bytes) : LogResponse := ⟨makeSuccessResponse, log⟩

/-! ### util.go -/

/-- `ResponseToMessage` (x/mrpc/shell/util.go:52-57) -/
def responseToMessage (fuel : Nat) (t : Int) (d : Doc) : Res Message :=
  if t = OP_MSG then newOpMessage fuel false [d] [] else .ok (newReply 0 0 0 1 [d])

/-- "mrpc.$cmd" (x/mrpc/shell/util.go:67) -/
def requestNamespace : Bytes := [109, 114, 112, 99, 46, 36, 99, 109, 100]

/-- `RequestToMessage` (x/mrpc/shell/util.go:60-69) -/
def requestToMessage (fuel : Nat) (t : Int) (d : Doc) : Res Message :=
  if t = OP_MSG then newOpMessage fuel false [d] [] else .ok (newQuery requestNamespace 0 0 1 (some d) (some []))

/-- the loop over the sections of an OP_MSG (x/mrpc/shell/util.go:76-80, 100-104); the document of a body is dereferenced by `Documents`
    (x/mrpc/mongowire/wire_message.go:49-51) -/
def bodyDocument : List Item → Res Doc
  | [] => .err .other
  | .body none :: _ => .panic
  | .body (some d) :: _ => .ok d
  | .sequence .. :: is => bodyDocument is

/-- `RequestMessageToDocument` (x/mrpc/shell/util.go:73-88); `none` is a nil document -/
def requestMessageToDocument : Message → Res (Option Doc)
  | .msg _ _ _ _ _ _ items _ => do .ok (some (← bodyDocument items))
  | .command _ _ _ args _ _ _ => .ok args
  | _ => .err .other

/-- `ResponseMessageToDocument` (x/mrpc/shell/util.go:92-108) -/
def responseMessageToDocument : Message → Res (Option Doc)
  | .reply _ _ _ _ _ docs =>
    match docs with
    | [] => .panic
    | d :: _ => .ok (some d)
  | .commandReply _ r _ _ => .ok r
  | .msg _ _ _ _ _ _ items _ => do .ok (some (← bodyDocument items))
  | _ => .err .other

/-- what `WriteErrorResponse`, `WriteOKResponse` and `WriteNotOKResponse` send (x/mrpc/shell/util.go:20-49): `(false, some text)`, `(true, none)` and
    `(false, none)` -/
def statusMessage (fuel : Nat) (t : Int) (ok : Bool) (err : Option Bytes) : Res Message := do
  responseToMessage fuel t (← marshalError (makeErrorResponse ok err))

/-! ### service.go -/

/-- the handlers of the service -/
inductive Handler where
  | isMaster
  | whatsMyURI
  | buildInfo
  | endSessions
  | getCmdLineOpts
  | getFreeMonitoringStatus
  | getLog
  | listCollections
  | replSetGetStatus
  deriving DecidableEq, Repr

/-- the commands and their handlers (x/mrpc/shell/service.go:36-77): isMaster, whatsmyuri, buildinfo, buildInfo, endSessions, getLog, replSetGetStatus,
    getFreeMonitoringStatus, listCollections, getCmdLineOpts.  Go visits the map in any order. -/
def handlers : List (Bytes × Handler) := [
  ([105, 115, 77, 97, 115, 116, 101, 114], .isMaster),
  ([119, 104, 97, 116, 115, 109, 121, 117, 114, 105], .whatsMyURI),
  ([98, 117, 105, 108, 100, 105, 110, 102, 111], .buildInfo),
  ([98, 117, 105, 108, 100, 73, 110, 102, 111], .buildInfo),
  ([101, 110, 100, 83, 101, 115, 115, 105, 111, 110, 115], .endSessions),
  ([103, 101, 116, 76, 111, 103], .getLog),
  ([114, 101, 112, 108, 83, 101, 116, 71, 101, 116, 83, 116, 97, 116, 117, 115], .replSetGetStatus),
  ([103, 101, 116, 70, 114, 101, 101, 77, 111, 110, 105, 116, 111, 114, 105, 110, 103, 83, 116, 97, 116, 117, 115], .getFreeMonitoringStatus),
  ([108, 105, 115, 116, 67, 111, 108, 108, 101, 99, 116, 105, 111, 110, 115], .listCollections),
  ([103, 101, 116, 67, 109, 100, 76, 105, 110, 101, 79, 112, 116, 115], .getCmdLineOpts)]

/-- `registerHandlers` (x/mrpc/shell/service.go:52-77) on the registry of the service, visiting the handlers in the given order -/
def registerHandlers (o : Ops Handler) : List (Bytes × Handler) → Res (Ops Handler)
  | [] => .ok o
  | (name, h) :: hs => do
    let o ← o.add ⟨OP_COMMAND, [], name, none⟩ (some h)
    let o ← o.add ⟨OP_MSG, [], name, none⟩ (some h)
    registerHandlers o hs

/-- "0.0.0" -/
def buildVersion : Bytes := [48, 46, 48, 46, 48]

/-- the message that a handler sends (x/mrpc/shell/service.go:83-140), given the address of the service and the op code of the request -/
def handle (fuel : Nat) (addr : Bytes) (h : Handler) (t : Int) : Res Message :=
  match h with
  | .isMaster => do responseToMessage fuel t (← marshalIsMaster (makeIsMasterResponse 0 6))
  | .whatsMyURI => do responseToMessage fuel t (← marshalText kYou (makeText addr))
  | .buildInfo => do responseToMessage fuel t (← marshalText kVersion (makeText buildVersion))
  | .getLog => do responseToMessage fuel t (← marshalLog (makeLog []))
  | .endSessions | .getCmdLineOpts | .getFreeMonitoringStatus | .listCollections | .replSetGetStatus => statusMessage fuel t false none

end Birch.Model.Shell
