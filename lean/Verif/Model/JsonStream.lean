import Verif.Base

/-
Model of `CollectJSONStream` (x/ftdc/metrics/json.go:150-219) with the goroutine of `getSource` that reads lines from a reader or a file (x/ftdc/metrics/json.go:46-111), as a transition
system, and of `follow` (x/ftdc/metrics/json.go:221-258) as a function of the events it sees.

What is made of a line (`jsonx.DCE.Bytes` and `birch.DCE.JSONX`) is a function that gives a sample, an error or a panic.  The collector is the list of samples that it holds.
Where `Add` and `flusher` can fail, they can at any time.
-/

namespace Birch.Model.JsonStream
open Birch

/-! ### lines -/

/-- `bufio.Scanner` of the standard library with `ScanLines`: how much of the source the tokens so far have taken, and whether it has met the end (`some true`) or a line
    that is too long (`some false`).  What it has read beyond that is not modelled: it does not change what it gives. -/
structure Scanner where
  pos : Nat
  ended : Option Bool

/-- `NewScanner` -/
def Scanner.new : Scanner := ⟨0, none⟩

/-- a trailing "\r" is dropped -/
def dropCR (l : Bytes) : Bytes := if l.getLast? = some 13 then l.dropLast else l

/-- `Scan` with the source having these contents: up to the next newline; the rest at the end of the source; nothing if there is none in 65536 bytes (`MaxScanTokenSize`), and
    nothing once the end was met, as then the source is not read again -/
def Scanner.scan (contents : Bytes) (s : Scanner) : Option Bytes × Scanner :=
  match s.ended with
  | some _ => (none, s)
  | none =>
    let rest := contents.drop s.pos
    let line := (rest.take 65536).takeWhile (· ≠ 10)
    if line.length < 65536 ∧ line.length < rest.length then (some (dropCR line), ⟨s.pos + line.length + 1, none⟩)
    else if 65536 ≤ rest.length then (none, ⟨s.pos, some false⟩)
    else if rest = [] then (none, ⟨s.pos, some true⟩)
    else (some (dropCR rest), ⟨contents.length, some true⟩)

/-- `for stream.Scan()`: the tokens.  Each takes something, or is the last; so there are at most as many as bytes. -/
def Scanner.loop (contents : Bytes) : Nat → Scanner → List Bytes × Scanner
  | 0, s => ([], s)
  | n + 1, s =>
    match s.scan contents with
    | (none, s) => ([], s)
    | (some t, s) => let (ts, s) := Scanner.loop contents n s; (t :: ts, s)

/-- all tokens of a source that does not change -/
def scanLines (contents : Bytes) : List Bytes := (Scanner.new.loop contents (contents.length + 2)).1

/-! ### options -/

/-- `validate` (x/ftdc/metrics/json.go:31-44) for options with or without an input source, file name and `Follow`: is there no error? -/
def validate (input file follow : Bool) : Bool :=
  let bothSpecified := !input && !file
  let neitherSpecified := input && file
  if bothSpecified || neitherSpecified then false
  else if follow && !file then false
  else true

/-! ### collecting -/

/-- the sources (x/ftdc/metrics/json.go:51-76, 77-111) -/
inductive Mode where
  | reader
  | file
  deriving DecidableEq

/-- a source, and what is made of a line; `none` is a panic.  `openErr` and `closeErr` are for files;
    `fails` says whether `Add` and `flusher` can fail. -/
structure Sys (α : Type) where
  mode : Mode
  parse : Bytes → Option (Except Err α)
  openErr : Option Err
  closeErr : Option Err
  fails : Bool

/-- where the goroutine of the source is: before `os.Open`; at `Scan`; at the send; at the deferred `errs <- f.Close()`; at the deferred `close(errs)`; at the deferred
    `recover()` after a panic; at the end -/
inductive Source (α : Type) where
  | opening
  | scanning
  | sending (d : α)
  | finishing (panicked : Bool)
  | closing (panicked : Bool)
  | recovering
  | ended

/-- the state: the lines not read yet; `errs` with room for 2; the context; what `CollectJSONStream` has returned, if it has; the samples that the collector holds; the samples
    of each file written -/
structure State (α : Type) where
  lines : List Bytes
  source : Source α
  errs : List (Option Err)
  closed : Bool
  cancelled : Bool
  returned : Option (Option Err)
  pending : List α
  files : List (List α)
  crashed : Bool

/-- the start (x/ftdc/metrics/json.go:159-196, 47-48) -/
def new {α : Type} (S : Sys α) (contents : Bytes) : State α where
  lines := scanLines contents
  source := match S.mode with | .reader => .scanning | .file => .opening
  errs := []
  closed := false
  cancelled := false
  returned := none
  pending := []
  files := []
  crashed := false

/-- after the loop or an error: a file has a deferred `Close` -/
def Sys.leave {α : Type} (S : Sys α) (panicked : Bool) : Source α := match S.mode with | .reader => .closing panicked | .file => .finishing panicked

/-- the files after `flusher` (x/ftdc/metrics/json.go:170-194), if it succeeds: another one, unless the collector has no samples -/
def State.written {α : Type} (s : State α) : List (List α) := if s.pending.isEmpty then s.files else s.files ++ [s.pending]

/-- the steps; the flag is for those of the flush timer -/
inductive Step {α : Type} (S : Sys α) : Bool → State α → State α → Prop where
  | open {s} : s.crashed = false → s.source = .opening → S.openErr = none → Step S false s { s with source := .scanning }
  | openFail {s e} : s.crashed = false → s.source = .opening → S.openErr = some e → Step S false s { s with source := .closing false, errs := s.errs ++ [some e] }
  | scan {s l ls d} : s.crashed = false → s.source = .scanning → s.lines = l :: ls → S.parse l = some (.ok d) → Step S false s { s with lines := ls, source := .sending d }
  | parseFail {s l ls e} : s.crashed = false → s.source = .scanning → s.lines = l :: ls → S.parse l = some (.error e) → s.errs.length < 2 →
      Step S false s { s with lines := ls, source := S.leave false, errs := s.errs ++ [some e] }
  | panic {s l ls} : s.crashed = false → s.source = .scanning → s.lines = l :: ls → S.parse l = none → Step S false s { s with lines := ls, source := S.leave true }
  | eof {s} : s.crashed = false → s.source = .scanning → s.lines = [] → Step S false s { s with source := S.leave false }
  /-- with a file the send is given up if the context is cancelled -/
  | skip {s d} : s.crashed = false → s.source = .sending d → S.mode = .file → s.cancelled = true → Step S false s { s with source := .scanning }
  | closeFile {s p} : s.crashed = false → s.source = .finishing p → s.errs.length < 2 → Step S false s { s with source := .closing p, errs := s.errs ++ [S.closeErr] }
  | closeErrs {s p} : s.crashed = false → s.source = .closing p → Step S false s { s with source := if p then .recovering else .ended, closed := true }
  /-- `errs <- …` after `close(errs)`: a panic in a deferred function -/
  | crash {s} : s.crashed = false → s.source = .recovering → Step S false s { s with crashed := true }
  /-- `doc := <-docs` and `Add` -/
  | take {s d} : s.crashed = false → s.returned = none → s.source = .sending d → Step S false s { s with source := .scanning, pending := s.pending ++ [d] }
  | takeFail {s d x} : S.fails = true → s.crashed = false → s.returned = none → s.source = .sending d → Step S false s { s with source := .scanning, returned := some (some x) }
  /-- `err := <-errs` with nil or `io.EOF`; a closed channel gives nil -/
  | finish {s e q} : s.crashed = false → s.returned = none → (s.errs = e :: q ∨ s.errs = [] ∧ q = [] ∧ s.closed = true ∧ e = none) → (e = none ∨ e = some .eof) →
      Step S false s { s with errs := q, files := s.written, pending := [], returned := some e }
  | finishFail {s e q x} : S.fails = true → s.crashed = false → s.returned = none → (s.errs = e :: q ∨ s.errs = [] ∧ q = [] ∧ s.closed = true ∧ e = none) → (e = none ∨ e = some .eof) →
      Step S false s { s with errs := q, returned := some (some x) }
  | fail {s e q} : s.crashed = false → s.returned = none → s.errs = some e :: q → e ≠ .eof → Step S false s { s with errs := q, returned := some (some e) }
  | abort {s} : s.crashed = false → s.returned = none → s.cancelled = true → Step S false s { s with returned := some (some .other) }
  | tick {s} : s.crashed = false → s.returned = none → Step S true s { s with files := s.written, pending := [] }
  | tickFail {s x} : S.fails = true → s.crashed = false → s.returned = none → Step S true s { s with returned := some (some x) }
  | cancel {s} : s.crashed = false → s.cancelled = false → Step S false s { s with cancelled := true }

/-- steps: how many are not of the flush timer, and how many are -/
inductive Steps {α : Type} (S : Sys α) : State α → Nat → Nat → State α → Prop where
  | refl {s} : Steps S s 0 0 s
  | step {s t u n k} : Step S false s t → Steps S t n k u → Steps S s (n + 1) k u
  | tick {s t u n k} : Step S true s t → Steps S t n k u → Steps S s n (k + 1) u

/-! ### following a file -/

/-- what `follow` waits for (x/ftdc/metrics/json.go:239-257); a write comes with the contents that the file has then -/
inductive Event where
  | write (contents : Bytes)
  | otherEvent
  | watcherError (e : Err)
  | done

/-- the lines go to the handler until it fails: those it got and its error -/
def handleAll (handler : Bytes → Option Err) : List Bytes → List Bytes × Option Err
  | [] => ([], none)
  | t :: ts =>
    match handler t with
    | some e => ([t], some e)
    | none => let (us, e) := handleAll handler ts; (t :: us, e)

/-- the loop of `follow` (x/ftdc/metrics/json.go:238-257): the lines that go to the handler, and what is returned, if it is -/
def follow (handler : Bytes → Option Err) : Scanner → List Event → List Bytes × Option (Option Err)
  | _, [] => ([], none)
  | _, .done :: _ => ([], some (some .other))
  | _, .watcherError e :: _ => ([], some (some e))
  | s, .otherEvent :: evs => follow handler s evs
  | s, .write c :: evs =>
    let (ts, s) := s.loop c (c.length + 2)
    match handleAll handler ts with
    | (us, some e) => (us, some (some e))
    | (us, none) =>
      if s.ended = some false then (us, some (some .other))
      else let (vs, r) := follow handler s evs; (us ++ vs, r)

end Birch.Model.JsonStream
