import Verif.Model.Registry
import Verif.Model.WireSock

/-
Model of the service (x/mrpc/service.go) as it runs: `Run`, and for one connection `dispatchRequest` with the goroutines it starts for the handlers,
as transition systems.  What a handler does is a parameter: the bytes it writes for a message, one `Write` after the other, and whether it panics then;
it goes on after a `Write` that fails.  The connection delivers the segments of a `Stream.Source`; a `Write` to it is atomic, reaches the client as long as
the connection is not closed, and fails afterwards.  TLS (x/mrpc/service.go:93-99) is left out, as `Run` does not make such connections, and so are error
handlers that panic and the text of errors.  The registry does not change while messages are dispatched.
-/

namespace Birch.Model.Service
open Birch Model Model.Wire Model.Registry

/-! ### `dispatchRequest` -/

/-- what the error handlers are called with: `panic responding to request`, `reading message`, `undefined scope`, `error closing connection` -/
inductive Fault where
  | panic
  | reading (e : Err)
  | undefined
  | closing
  deriving DecidableEq

/-- `dispatchRequest` (x/mrpc/service.go:81-125): in `ReadMessage`, with a message, in the deferred function before `conn.Close()`, returned -/
inductive Dispatcher where
  | reading
  | got (m : Message)
  | closing
  | ended

/-- the goroutine of a handler (x/mrpc/service.go:123): the bytes it has yet to write, and whether it still runs -/
structure Handling (H : Type) where
  handler : H
  message : Message
  left : List Bytes
  running : Bool

structure Sys (H : Type) where
  ops : Ops H
  fuel : Nat
  /-- what a handler writes for a message -/
  writes : H → Message → List Bytes
  /-- A handler panics after it has written. -/
  panics : H → Message → Bool

structure State (H : Type) where
  dispatcher : Dispatcher
  /-- what the client has yet to send -/
  conn : Stream.Source
  /-- the goroutines of handlers, in the order in which they were started -/
  tasks : List (Handling H)
  /-- what the client gets, each with the number of the goroutine that wrote it -/
  out : List (Nat × Bytes)
  /-- how often `conn.Close()` was called -/
  closes : Nat
  /-- the calls of each error handler -/
  errors : List Fault
  ctxDone : Bool
  crashed : Bool

/-- `go s.dispatchRequest(ctx, conn)` (x/mrpc/service.go:77) -/
def new {H : Type} (src : Stream.Source) : State H := ⟨.reading, src, [], [], 0, [], false, false⟩

inductive Step {H : Type} (y : Sys H) : State H → State H → Prop where
  /-- `ReadMessage` returns a message (x/mrpc/service.go:102).  Results of reads are lost only when the context is done. -/
  | read {s fs m src fs'} : s.crashed = false → s.dispatcher = .reading → (s.ctxDone = false → fs = []) → readMessage y.fuel fs s.conn = (.ok m, src, fs') →
      Step y s { s with dispatcher := .got m, conn := src }
  /-- `ReadMessage` returns an error (x/mrpc/service.go:103-113) -/
  | readErr {s fs e src fs'} : s.crashed = false → s.dispatcher = .reading → (s.ctxDone = false → fs = []) → readMessage y.fuel fs s.conn = (.err e, src, fs') →
      Step y s { s with dispatcher := .closing, conn := src, errors := s.errors ++ if e = .eof ∨ s.ctxDone = true then [] else [.reading e] }
  /-- `ReadMessage` panics: `recover` (x/mrpc/service.go:83-85) -/
  | readPanic {s fs src fs'} : s.crashed = false → s.dispatcher = .reading → (s.ctxDone = false → fs = []) → readMessage y.fuel fs s.conn = (.panic, src, fs') →
      Step y s { s with dispatcher := .closing, conn := src, errors := s.errors ++ [.panic] }
  /-- `go handler(ctx, conn, m)` (x/mrpc/service.go:115-123) -/
  | start {s m h} : s.crashed = false → s.dispatcher = .got m → dispatch y.ops m = .ok (some h) →
      Step y s { s with dispatcher := .reading, tasks := s.tasks ++ [⟨h, m, y.writes h m, true⟩] }
  /-- `if !ok` (x/mrpc/service.go:118-121) -/
  | undefined {s m} : s.crashed = false → s.dispatcher = .got m → dispatch y.ops m = .ok none →
      Step y s { s with dispatcher := .closing, errors := s.errors ++ [.undefined] }
  /-- `m.Scope()` or `s.registry.Get(scope)` panics: `recover` (x/mrpc/service.go:83-85) -/
  | scopePanic {s m} : s.crashed = false → s.dispatcher = .got m → dispatch y.ops m = .panic →
      Step y s { s with dispatcher := .closing, errors := s.errors ++ [.panic] }
  /-- `conn.Close()` (x/mrpc/service.go:87-90) -/
  | close {s} (failed : Bool) : s.crashed = false → s.dispatcher = .closing →
      Step y s { s with dispatcher := .ended, closes := s.closes + 1, errors := s.errors ++ if failed then [.closing] else [] }
  /-- A handler writes. -/
  | write {s} {i : Nat} {t : Handling H} {b bs} : s.crashed = false → s.tasks[i]? = some t → t.running = true → t.left = b :: bs → s.closes = 0 →
      Step y s { s with tasks := s.tasks.set i { t with left := bs }, out := s.out ++ [(i, b)] }
  /-- A handler writes to the closed connection. -/
  | writeFail {s} {i : Nat} {t : Handling H} {b bs} : s.crashed = false → s.tasks[i]? = some t → t.running = true → t.left = b :: bs → s.closes ≠ 0 →
      Step y s { s with tasks := s.tasks.set i { t with left := bs } }
  /-- A handler returns. -/
  | return {s} {i : Nat} {t : Handling H} : s.crashed = false → s.tasks[i]? = some t → t.running = true → t.left = [] → y.panics t.handler t.message = false →
      Step y s { s with tasks := s.tasks.set i { t with running := false } }
  /-- A handler panics: nothing recovers, the process ends. -/
  | panic {s} {i : Nat} {t : Handling H} : s.crashed = false → s.tasks[i]? = some t → t.running = true → t.left = [] → y.panics t.handler t.message = true →
      Step y s { s with crashed := true }
  /-- The context of `Run` ends. -/
  | cancel {s} : s.crashed = false → Step y s { s with ctxDone := true }

inductive Steps {H : Type} (y : Sys H) : State H → State H → Prop where
  | refl {s} : Steps y s s
  | step {s t u} : Step y s t → Steps y t u → Steps y s u

/-! ### `Run` -/

/-- `Run` (x/mrpc/service.go:57-79): before `ctx.Err()`, in `l.Accept()`, returned -/
inductive Loop where
  | checking
  | accepting
  | returned
  deriving DecidableEq

structure Run (C : Type) where
  loop : Loop
  ctxDone : Bool
  /-- the connections for which `dispatchRequest` was started -/
  dispatched : List C
  /-- the errors of `Accept` given to the error handlers -/
  reported : Nat

/-- after `net.Listen` (x/mrpc/service.go:58) -/
def Run.new {C : Type} : Run C := ⟨.checking, false, [], 0⟩

/-- What `Accept` returns: a connection, `context.Canceled` or `context.DeadlineExceeded`, or another error.  `none` is a step of `Run` on its own or the end of the context. -/
inductive Accepted (C : Type) where
  | conn (c : C)
  | ctxErr
  | err

inductive Run.Step {C : Type} : Run C → Option (Accepted C) → Run C → Prop where
  | cancel {r} : Step r none { r with ctxDone := true }
  /-- `if ctx.Err() != nil { return nil }` (x/mrpc/service.go:65-67) -/
  | done {r} : r.loop = .checking → r.ctxDone = true → Step r none { r with loop := .returned }
  | live {r} : r.loop = .checking → r.ctxDone = false → Step r none { r with loop := .accepting }
  /-- `go s.dispatchRequest(ctx, conn)` (x/mrpc/service.go:77) -/
  | conn {r c} : r.loop = .accepting → Step r (some (.conn c)) { r with loop := .checking, dispatched := r.dispatched ++ [c] }
  /-- (x/mrpc/service.go:70-71) -/
  | ctxErr {r} : r.loop = .accepting → Step r (some .ctxErr) { r with loop := .returned }
  /-- (x/mrpc/service.go:72-74) -/
  | err {r} : r.loop = .accepting → Step r (some .err) { r with loop := .checking, reported := r.reported + 1 }

inductive Run.Steps {C : Type} : Run C → List (Option (Accepted C)) → Run C → Prop where
  | refl {r} : Steps r [] r
  | step {r t u l ls} : Run.Step r l t → Steps t ls u → Steps r (l :: ls) u

end Birch.Model.Service
