import Verif.Model.Wire

/-
Model of `ReadMessage` and `SendMessage` (x/mrpc/mongowire/sock.go).

Both start a goroutine for every `Read`/`Write` and wait for its result or the end of the context.  When the context is done while the goroutine holds
its result, the goroutine may drop it and close the channel, and the caller may receive from the closed channel instead of seeing the end of the
context: it then goes on as if the call had returned `0, nil`.  Which of these happens is the `Fate` of the call.
-/

namespace Birch.Model.Wire
open Birch Model

/-- What becomes of a call in a goroutine: its result arrives (`reported`), the caller sees the end of the context (`cancelled`), or the
    goroutine drops the result and the caller reads zero values from the closed channel (`lost`). -/
inductive Fate where
  | reported
  | cancelled
  | lost
  deriving DecidableEq, Repr

/-- a step of the schedule: without one, results arrive -/
def fate : List Fate → Fate × List Fate
  | [] => (.reported, [])
  | f :: fs => (f, fs)

/-- The loop of `ReadMessage` (x/mrpc/mongowire/sock.go:59-87), `want` being `header.Size - 4`: what is collected in `restBuf`, or `none` if the
    context ended.  Every `Read` is given a buffer of `want` bytes.  `io.EOF` ends the loop and bytes that came with it are dropped.  The fuel
    bounds the number of reads. -/
def readRest (want : Int) : Nat → List Fate → Nat → Bytes → Stream.Source → Res (Option Bytes) × Stream.Source × List Fate
  | 0, fs, _, _, s => (.oof, s, fs)
  | fuel + 1, fs, read, got, s =>
    if ¬ i32 read < want then (.ok (some got), s, fs) else
    match s.read want.toNat, fate fs with
    | (_, _, s), (.cancelled, fs) => (.ok none, s, fs)
    | (_, _, s), (.lost, fs) => readRest want fuel fs read got s
    | (b, eof, s), (.reported, fs) =>
      if eof then (.ok (some got), s, fs)
      else if b.length = 0 then readRest want fuel fs read got s
      else readRest want fuel fs (read + b.length) (got ++ b) s

/-- what follows the loop (x/mrpc/mongowire/sock.go:90-98) -/
def finishRead (fuel : Nat) (size : Int) (buf : Bytes) : Res Message :=
  if buf.length < 12 then .err .other else do
  let requestID ← readi32 buf
  let responseTo ← readi32 (buf.drop 4)
  let opCode ← readi32 (buf.drop 8)
  parse fuel ⟨size, requestID, responseTo, opCode⟩ (buf.drop 12)

/-- `ReadMessage` (x/mrpc/mongowire/sock.go:14-99): the message, the connection and the schedule afterwards.  The size is taken from a single `Read`. -/
def readMessage (fuel : Nat) (fs : List Fate) (s : Stream.Source) : Res Message × Stream.Source × List Fate :=
  match s.read 4, fate fs with
  | (_, _, s), (.cancelled, fs) => (.err .other, s, fs)
  | (_, _, s), (.lost, fs) => (.err .other, s, fs)
  | (b, eof, s), (.reported, fs) =>
    if eof then (.err .eof, s, fs)
    else if b.length ≠ 4 then (.err .other, s, fs)
    else match readi32 b with
      | .ok size =>
        if size > 200 * 1024 * 1024 then (.err .other, s, fs)
        else if size < 0 then (.err .other, s, fs)
        else match readRest (size - 4) fuel fs 0 [] s with
          | (.ok (some buf), s, fs) => (finishRead fuel size buf, s, fs)
          | (.ok none, s, fs) => (.err .other, s, fs)
          | (.err e, s, fs) => (.err e, s, fs)
          | (.panic, s, fs) => (.panic, s, fs)
          | (.oof, s, fs) => (.oof, s, fs)
      | _ => (.panic, s, fs)

/-- One `Write` of `SendMessage`: how many bytes the writer takes, whether it returns an error, and the fate of its result. -/
structure Attempt where
  n : Nat
  failed : Bool
  fate : Fate
  deriving DecidableEq, Repr

/-- how `SendMessage` ends: `nil`, an error, a panic (`buf[res.n:]` beyond the end), or not within the attempts given -/
inductive SendResult where
  | sent
  | error
  | panic
  | running
  deriving DecidableEq, Repr

/-- `SendMessage` (x/mrpc/mongowire/sock.go:101-131) of the bytes `buf`: what the writer has received and the result -/
def send : List Attempt → (buf : Bytes) → Bytes × SendResult
  | [], _ => ([], .running)
  | a :: as, buf =>
    match a.fate with
    | .cancelled => (buf.take a.n, .error)
    | .lost => if 0 = buf.length then (buf.take a.n, .sent) else
      let (out, r) := send as buf
      (buf.take a.n ++ out, r)
    | .reported =>
      if a.failed then (buf.take a.n, .error)
      else if a.n = buf.length then (buf.take a.n, .sent)
      else if buf.length < a.n then (buf.take a.n, .panic) else
      let (out, r) := send as (buf.drop a.n)
      (buf.take a.n ++ out, r)

end Birch.Model.Wire
