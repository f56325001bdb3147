import Verif.Proofs.BufPool
import Verif.Spec.Ascii

/-
C99: buffers that are taken from the pool and given back to it.
-/

namespace Birch.Props
open Birch Model Model.Stream Model.BufPool Spec Spec.BufPool Proofs.BufPool

/-- Whatever is called, in any order and with any choice of buffers by the pool: the bytes of a slice that a call returned stay as they
    are, unless the caller writes into that very slice. -/
theorem C99_kept {cs cs' : List Call} {w w' : World} {os os' : List Out} (h : run World.empty cs = (w, os)) (h' : run w cs' = (w', os'))
    {k : Nat} {s : Slice} (hk : (slices os)[k]? = some s) (hs : ∀ x, .scribble k x ∉ cs') : bytes w'.heap s = bytes w.heap s := by
  obtain ⟨a1, a2, -⟩ := run_ok cs empty_ok
  rw [h] at a1 a2
  obtain ⟨-, -, b3⟩ := run_ok cs' a1
  rw [h'] at b3
  have := b3 k s (by rw [a2]; simpa [World.empty] using hk) hs
  rw [BufPool.bytes, BufPool.bytes, List.getD, List.getD, this]

/-- the same read twice, an array printed in between, then the first result overwritten: the second stays -/
def poolSrc : Source := ⟨[[5, 0], [0, 0, 0, 9, 9]], true⟩

def poolCalls : List Call :=
  [.readFrom poolSrc (.new 8) (.new 0) ⟨false, 3⟩ ⟨true, 0⟩, .readFrom poolSrc (.free 0) (.new 5) ⟨false, 0⟩ ⟨false, 0⟩]

def poolMore : List Call :=
  [.arrayString [ascii "bson.Array", ascii "[]"] (.free 0) 4, .scribble 0 [1, 2, 3, 4, 5, 6], .buffer [[7], [8, 9]] (.free 0) 0,
    .newFromIOReader poolSrc (.free 3) ⟨true, 2⟩]

example : (slices (run World.empty poolCalls).2)[1]?.map (bytes (run (run World.empty poolCalls).1 poolMore).1.heap) = some [5, 0, 0, 0, 0] := by
  decide +kernel

example : (slices (run World.empty poolCalls).2)[0]?.map (bytes (run (run World.empty poolCalls).1 poolMore).1.heap) = some [1, 2, 3, 4, 5] := by
  decide +kernel

example {s : Slice} (hk : (slices (run World.empty poolCalls).2)[1]? = some s) :
    bytes (run (run World.empty poolCalls).1 poolMore).1.heap s = bytes (run World.empty poolCalls).1.heap s :=
  C99_kept rfl rfl hk (by simp [poolMore])

/-- No two slices that were returned share memory, and none shares memory with a buffer in the pool. -/
theorem C99_apart {cs : List Call} {w : World} {os : List Out} (h : run World.empty cs = (w, os)) {i : Nat} {s : Slice}
    (hi : (slices os)[i]? = some s) : s.arr ∉ w.free ∧ ∀ (j : Nat) (t : Slice), (slices os)[j]? = some t → i ≠ j → s.arr ≠ t.arr := by
  obtain ⟨a1, a2, -⟩ := run_ok cs empty_ok
  rw [h] at a1 a2
  have a3 : w.given = slices os := by simpa [World.empty] using a2
  rw [← a3] at hi ⊢
  refine ⟨fun hm => ?_, fun j t hj hne => given_apart a1 hi hj hne⟩
  have hn := a1.nd
  rw [List.nil_append] at hn
  exact (List.nodup_append.mp hn).2.2 s.arr (List.mem_map.mpr ⟨s, List.mem_of_getElem? hi, rfl⟩) _ hm rfl

example : (run World.empty poolCalls).1.free = [0] := by decide +kernel

example : (slices (run World.empty poolCalls).2).map (·.arr) = [2, 3] := by decide +kernel

/-- `Document.ReadFrom` uses exactly the bytes that came, whatever the buffers of the pool contained. -/
theorem C99_read {cs : List Call} {w : World} {os : List Out} (h : run World.empty cs = (w, os)) (src : Source) (c1 c2 : Choice) (g1 g2 : Growth)
    {n : Nat} {body rest : Bytes} (hn : n = body.length + 4) (hl : n < 2147483648) (hs : src.left = le32 n ++ body ++ rest) :
    ∃ s, (step w (.readFrom src c1 c2 g1 g2)).2 = .slice n s ∧ bytes (step w (.readFrom src c1 c2 g1 g2)).1.heap s = le32 n ++ body := by
  have a1 := (run_ok cs empty_ok).1
  rw [h] at a1
  exact readFrom_full a1 hn hl hs

/-- a pool whose buffers are full of other bytes -/
def poolDirty : List Call := [.arrayString [List.replicate 40 77] (.new 64) 0, .arrayString [List.replicate 40 78] (.new 64) 0]

example : (run World.empty poolDirty).1.free = [1, 0] ∧ ((run World.empty poolDirty).1.heap.getD 1 []).take 3 = [78, 78, 78] := by decide +kernel

example : ∃ s, (step (run World.empty poolDirty).1 (.readFrom poolSrc (.free 0) (.free 0) ⟨false, 0⟩ ⟨false, 0⟩)).2 = .slice 5 s ∧
    bytes (step (run World.empty poolDirty).1 (.readFrom poolSrc (.free 0) (.free 0) ⟨false, 0⟩ ⟨false, 0⟩)).1.heap s = le32 5 ++ [0] :=
  C99_read (cs := poolDirty) rfl poolSrc _ _ _ _ (body := [0]) (rest := [9, 9]) rfl (by decide) (by decide)

/-- When the stream ends early, `ReadFrom` returns an error and the number of bytes there were: it never takes the rest of a buffer for
    what did not come. -/
theorem C99_read_short {cs : List Call} {w : World} {os : List Out} (h : run World.empty cs = (w, os)) (src : Source) (c1 c2 : Choice)
    (g1 g2 : Growth) : (src.left.length < 4 → (step w (.readFrom src c1 c2 g1 g2)).2 = .err src.left.length (if src.left = [] then .eof else .unexpectedEOF)) ∧
    ∀ (n : Nat) (body : Bytes), body.length + 4 < n → n < 2147483648 → src.left = le32 n ++ body →
      (step w (.readFrom src c1 c2 g1 g2)).2 = .err (4 + body.length) (if body = [] then .eof else .unexpectedEOF) := by
  have a1 := (run_ok cs empty_ok).1
  rw [h] at a1
  exact ⟨fun hs => readFrom_head hs, fun n body hn hl hs => readFrom_short a1 hn hl hs⟩

example : (step (run World.empty poolDirty).1 (.readFrom ⟨[[6, 0, 0], [0, 0]], false⟩ (.free 0) (.free 0) ⟨false, 0⟩ ⟨false, 0⟩)).2 = .err 5 .unexpectedEOF :=
  (C99_read_short (cs := poolDirty) rfl ⟨[[6, 0, 0], [0, 0]], false⟩ _ _ _ _).2 6 [0] (by decide) (by decide) (by decide)

/-- `NewFromIOReader` returns exactly the bytes that came. -/
theorem C99_reader {cs : List Call} {w : World} {os : List Out} (h : run World.empty cs = (w, os)) (src : Source) (c : Choice) (g : Growth)
    {n : Nat} {body rest : Bytes} (hn : n = body.length + 4) (hl : n < 2147483648) (hs : src.left = le32 n ++ body ++ rest) :
    ∃ s, (step w (.newFromIOReader src c g)).2 = .slice 0 s ∧ bytes (step w (.newFromIOReader src c g)).1.heap s = le32 n ++ body := by
  have a1 := (run_ok cs empty_ok).1
  rw [h] at a1
  exact newFromIOReader_full a1 hn hl hs

example : ∃ s, (step (run World.empty poolDirty).1 (.newFromIOReader poolSrc (.free 1) ⟨false, 0⟩)).2 = .slice 0 s ∧
    bytes (step (run World.empty poolDirty).1 (.newFromIOReader poolSrc (.free 1) ⟨false, 0⟩)).1.heap s = le32 5 ++ [0] :=
  C99_reader (cs := poolDirty) rfl poolSrc _ _ (body := [0]) (rest := [9, 9]) rfl (by decide) (by decide)

/-- `Array.MarshalBSON` of an array of proper values returns the bytes of BSON, whatever the buffer contained.  (Missing from the full claim:
    values of elements whose key has a NUL, see `C99_stale`.) -/
theorem C99_marshal_partial {cs : List Call} {w : World} {os : List Out} (h : run World.empty cs = (w, os)) {d : Doc} {vs : Vals}
    (hr : RepVals d vs) (hl : (wrapDoc (vs.encFrom 0)).length < 2147483648) {fuel : Nat} (hf : (wrapDoc (vs.encFrom 0)).length < fuel)
    (c : Choice) (g : Growth) :
    ∃ s, (step w (.arrayMarshal fuel d c g)).2 = .slice 0 s ∧ bytes (step w (.arrayMarshal fuel d c g)).1.heap s = wrapDoc (vs.encFrom 0) := by
  have a1 := (run_ok cs empty_ok).1
  rw [h] at a1
  exact arrayMarshal_rep hr hl hf a1

example : ∃ s, (step (run World.empty poolDirty).1 (.arrayMarshal 100 [.raw 0 3 [8, 97, 0, 1], .raw 0 3 [10, 98, 0]] (.free 0) ⟨false, 0⟩)).2 = .slice 0 s ∧
    bytes (step (run World.empty poolDirty).1 (.arrayMarshal 100 [.raw 0 3 [8, 97, 0, 1], .raw 0 3 [10, 98, 0]] (.free 0) ⟨false, 0⟩)).1.heap s =
      [12, 0, 0, 0, 8, 48, 0, 1, 10, 49, 0, 0] := by
  have hr : RepVals [.raw 0 3 [8, 97, 0, 1], .raw 0 3 [10, 98, 0]] (.cons (.bool true) (.cons .null .nil)) := ⟨⟨[97], by simp [NulFree], by simp [BVal.WF], by decide, [], [], by decide, rfl, rfl⟩,
    ⟨[98], by simp [NulFree], by simp [BVal.WF], by decide, [], [], by decide, rfl, rfl⟩, trivial⟩
  obtain ⟨s, h1, h2⟩ := C99_marshal_partial (cs := poolDirty) (w := (run World.empty poolDirty).1) rfl hr (by decide) (fuel := 100) (by decide) (.free 0) ⟨false, 0⟩
  exact ⟨s, h1, h2.trans (by decide)⟩

/-- `Array.String` returns what was written, and so do the calls of ftdc that return a buffer of the pool. -/
theorem C99_text {cs : List Call} {w : World} {os : List Out} (h : run World.empty cs = (w, os)) (parts : List Bytes) (c : Choice) (extra : Nat) :
    (step w (.arrayString parts c extra)).2 = .text parts.flatten ∧
    ∃ s, (step w (.buffer parts c extra)).2 = .slice 0 s ∧ bytes (step w (.buffer parts c extra)).1.heap s = parts.flatten := by
  have a1 := (run_ok cs empty_ok).1
  rw [h] at a1
  exact ⟨(arrayString_ok a1).2.2, (buffer_ok a1).2.2⟩

example : (step (run World.empty poolDirty).1 (.arrayString [[1], [2, 3]] (.free 0) 0)).2 = .text [1, 2, 3] :=
  (C99_text (cs := poolDirty) rfl [[1], [2, 3]] _ _).1

/-- The value of an element whose key is `a NUL b`, in an array: `MarshalBSON` returns `b.length + 1` bytes of what the buffer contained
    before, unless `Grow` clears it. -/
theorem C99_stale {cs : List Call} {w : World} {os : List Out} (h : run World.empty cs = (w, os)) (a b : Bytes) (t : BVal) (ha : NulFree a)
    (hs : t.Scalar) (wf : t.WF) (hl : a.length + b.length + t.enc.length < 2147483000) {m : Nat} (hb : b.length + 1 + m = t.enc.length)
    {fuel : Nat} (hf : t.enc.length < fuel) {i r extra : Nat} (hi : w.free[i]? = some r) (hc : t.enc.length + 8 ≤ (w.heap.getD r []).length) :
    ∃ v, buildVal (a ++ [0] ++ b) t = .ok v ∧
      ∃ s, (step w (.arrayMarshal fuel [v] (.free i) ⟨false, extra⟩)).2 = .slice 0 s ∧
        bytes (step w (.arrayMarshal fuel [v] (.free i) ⟨false, extra⟩)).1.heap s =
          le32 (t.enc.length + 8) ++ [t.tag, 48, 0] ++ t.enc.take m ++ [0] ++ (((w.heap.getD r []).take (t.enc.length + 8)).drop (m + 8)) := by
  have a1 := (run_ok cs empty_ok).1
  rw [h] at a1
  have hk : beforeNul (a ++ [0] ++ b) = a := by
    have := Proofs.beforeNul_append ha b
    simpa using this
  refine ⟨_, Proofs.buildVal_scalar _ t hs (by simp; omega), ?_⟩
  exact arrayMarshal_cut _ wf hs (by simp; omega) hf (by rw [hk]; simp; omega) a1 hi hc

/-- a text that was printed before -/
def poolSecret : List Call := [.arrayString [ascii "0123456789 password"] (.new 64) 0]

/-- It is not so that the bytes returned by `Array.MarshalBSON` depend on the array only: here they end with a part of a text that was
    printed before. -/
theorem C99_not_clean : ∃ (v : Value) (s : Slice), buildVal [97, 0, 98, 99, 100, 101] (.int64 0) = .ok v ∧
    (step (run World.empty poolSecret).1 (.arrayMarshal 100 [v] (.free 0) ⟨false, 0⟩)).2 = .slice 0 s ∧
    bytes (step (run World.empty poolSecret).1 (.arrayMarshal 100 [v] (.free 0) ⟨false, 0⟩)).1.heap s =
      [16, 0, 0, 0, 18, 48, 0, 0, 0, 0, 0] ++ ascii "passw" := by
  have := C99_stale (cs := poolSecret) rfl [97] [98, 99, 100, 101] (.int64 0) (by simp [NulFree]) trivial (by simp [BVal.WF]) (by decide) (m := 3) (by decide)
    (fuel := 100) (by decide) (i := 0) (r := 0) (extra := 0) (by decide +kernel) (by decide +kernel)
  obtain ⟨v, h1, s, h2, h3⟩ := this
  refine ⟨v, s, h1, h2, h3.trans ?_⟩
  decide +kernel

end Birch.Props
