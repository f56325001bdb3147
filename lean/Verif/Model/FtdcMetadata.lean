import Verif.Model.FtdcCollectors

/-
The metadata of FTDC collectors (x/ftdc): `SetMetadata` and `Reset` of the batch and the dynamic collector, and callers that use all methods of a collector.
-/

namespace Birch.Model.Ftdc
open Birch Model

/-- `Reset` (x/ftdc/collector_batch.go:41-43) -/
def Batch.reset (c : Batch) : Batch := { c with chunks := [Better.new c.maxSamples] }

/-- `Reset` (x/ftdc/collector_dynamic.go:42-45) -/
def Dynamic.reset (c : Dynamic) : Dynamic := { c with chunks := [Batch.new c.maxSamples], hash := [] }

/-- `SetMetadata` with a document (x/ftdc/collector_dynamic.go:47-49) -/
def Dynamic.setMetadata (c : Dynamic) (d : Doc) : Res Dynamic :=
  match c.chunks with
  | [] => .panic
  | ch :: rest => do
    let ch ← ch.setMetadata d
    .ok { c with chunks := ch :: rest }

/-- `SetMetadata` and `Reset` of a streaming dynamic collector: that of the embedded one, and x/ftdc/collector_streaming.go:98-102 -/
def StreamingDynamic.setMetadata (c : StreamingDynamic) (d : Doc) : StreamingDynamic := { c with base := c.base.setMetadata d }
def StreamingDynamic.reset (c : StreamingDynamic) : StreamingDynamic := ⟨[], 0, renew c.base⟩

/-- a call of a method of a collector; `flush` is `FlushCollector` with the collector's own writer (x/ftdc/collector_streaming.go:57-78) -/
inductive Call where
  | add (d : Doc)
  | setMetadata (d : Doc)
  | reset
  | flush

/-- the methods of a collector -/
structure Methods (σ : Type) where
  add : σ → Doc → Res (σ × Option Err)
  setMetadata : σ → Doc → Res σ
  reset : σ → σ
  flush : σ → Res (σ × Option Err)

/-- a call; the caller carries on after an error -/
def Methods.call {σ : Type} (m : Methods σ) (c : σ) : Call → Res σ
  | .add d => do .ok (← m.add c d).1
  | .setMetadata d => m.setMetadata c d
  | .reset => .ok (m.reset c)
  | .flush => do .ok (← m.flush c).1

def Methods.calls {σ : Type} (m : Methods σ) : σ → List Call → Res σ
  | c, [] => .ok c
  | c, x :: xs => do m.calls (← m.call c x) xs

/-- `FlushCollector` (x/ftdc/collector_streaming.go:57-78) of a collector that is not a streaming one, with a writer that takes everything; what is written is left out -/
def flushOf {σ : Type} (info : σ → Nat × Nat) (resolve : σ → Res Bytes) (reset : σ → σ) (c : σ) : Res (σ × Option Err) :=
  if (info c).1 = 0 then .ok (c, none)
  else match resolve c with
    | .ok _ => .ok (reset c, none)
    | .err e => .ok (c, some e)
    | .panic => .panic
    | .oof => .oof

/-- the base collector (x/ftdc/collector_better.go) -/
def Better.methods (fsub : Nat → Nat → Nat) (zip : Bytes → Bytes) (now : Nat → Time) (fuel : Nat) : Methods Better :=
  ⟨fun c d => c.add fsub fuel d, fun c d => .ok (c.setMetadata d), Better.reset, flushOf Better.info (fun c => c.resolve zip (now 0) fuel) Better.reset⟩

/-- the batch collector (x/ftdc/collector_batch.go) -/
def Batch.methods (fsub : Nat → Nat → Nat) (zip : Bytes → Bytes) (now : Nat → Time) (fuel : Nat) : Methods Batch :=
  ⟨fun c d => c.add fsub fuel d, Batch.setMetadata, Batch.reset, flushOf Batch.info (fun c => c.resolve zip now fuel) Batch.reset⟩

/-- the dynamic collector (x/ftdc/collector_dynamic.go) -/
def Dynamic.methods (fsub : Nat → Nat → Nat) (zip : Bytes → Bytes) (now : Nat → Time) (fuel : Nat) : Methods Dynamic :=
  ⟨fun c d => c.add fsub fuel d, Dynamic.setMetadata, Dynamic.reset, flushOf Dynamic.info (fun c => c.resolve zip now fuel) Dynamic.reset⟩

/-- the streaming collector (x/ftdc/collector_streaming.go:10-51) -/
def Streaming.methods (fsub : Nat → Nat → Nat) (zip : Bytes → Bytes) (now : Nat → Time) (fuel : Nat) : Methods Streaming :=
  ⟨fun c d => c.add fsub zip now fuel d, fun c d => .ok (c.setMetadata d), Streaming.reset, fun c => c.flush zip now fuel⟩

/-- the streaming dynamic collector (x/ftdc/collector_streaming.go:80-129) -/
def StreamingDynamic.methods (fsub : Nat → Nat → Nat) (zip : Bytes → Bytes) (now : Nat → Time) (fuel : Nat) : Methods StreamingDynamic :=
  ⟨fun c d => c.add fsub zip now fuel d, fun c d => .ok (c.setMetadata d), StreamingDynamic.reset, fun c => c.flush zip now fuel⟩

end Birch.Model.Ftdc
