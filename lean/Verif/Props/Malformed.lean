import Verif.Proofs.Malformed
import Verif.Proofs.Fuel
import Verif.Props.Documents

/-
C21 on malformed values, C12, C13 and C51 with nil elements.
-/

namespace Birch.Props
open Birch Model Spec Proofs Proofs.Malformed

/-! ### C21 -/

/-- A value whose data is cut off anywhere equals nothing that is well-formed, in either order, and not even itself. -/
theorem C21_truncated {fuel s o : Nat} {data q : Bytes} {t : BVal} (wf : t.WF) (hl : t.enc.length < 2147483640) (hs : idx data s = .ok t.tag) (ho : o ≤ data.length)
    (he : t.enc = data.drop o ++ q) (hq : q ≠ []) {w : Value} {k : Bytes} {u : BVal} (g : Rep w k u) (hu : u.enc.length < 2147483640) (hf : 2147483640 ≤ fuel) :
    equal fuel (.raw s o data) w = .ok false ∧ equal fuel w (.raw s o data) = .ok false ∧ equal fuel (.raw s o data) (.raw s o data) = .ok false := by
  have hr := readValue_truncated wf (by omega) he hq
  have hd : docToBytes fuel (.raw s o data) t.tag = .ok (data.drop o) := by
    simp only [docToBytes, sliceFrom]; rw [if_pos ho]
  obtain ⟨p, hp⟩ := docToBytes_rep (fuel := fuel) g (by omega) (by omega)
  refine ⟨?_, ?_, ?_⟩
  · unfold equal
    rw [(rep_key g).2.1]
    simp only [Value.data, Value.start, hs, Res.bind_ok]
    split
    · rfl
    · next h =>
      have h : t.tag = u.tag := by simpa using h
      rw [hd, Res.bind_ok, h, hp]
      simp only [Res.bind_ok, checkEqualVal]
      rw [← h, hr]; simp [orFalse]
  · unfold equal
    rw [(rep_key g).2.1]
    simp only [Value.data, Value.start, hs, Res.bind_ok]
    split
    · rfl
    · next h =>
      have h : u.tag = t.tag := by simpa using h
      rw [hp, Res.bind_ok, h, hd]
      simp only [Res.bind_ok, checkEqualVal]
      have := readValue_enc (rep_wf g) (by omega) p
      rw [← h] at hr ⊢
      rw [this]
      simp [hr, orFalse]
  · unfold equal
    simp only [Value.data, Value.start, hs, Res.bind_ok]
    rw [hd]
    simp [checkEqualVal, hr, orFalse]

/-- a string `"hi"` without its NUL -/
example {w : Value} {k : Bytes} {u : BVal} (g : Rep w k u) (hu : u.enc.length < 2147483640) :=
  C21_truncated (fuel := 2147483640) (s := 0) (o := 2) (data := [0x02, 0, 3, 0, 0, 0, 104, 105]) (q := [0]) (t := .string [104, 105]) (by simp [BVal.WF]) (by decide) (by decide) (by decide) (by decide) (by decide)
    g hu (Nat.le_refl _)

/-- A value of an unknown type equals nothing: not a value of the same unknown type, not itself. -/
theorem C21_unknown {fuel s o s' o' : Nat} {data data' : Bytes} {τ : UInt8} (h : ∀ t : BVal, t.tag ≠ τ) (hs : idx data s = .ok τ) (ho : o ≤ data.length)
    (hs' : idx data' s' = .ok τ) (ho' : o' ≤ data'.length) : equal fuel (.raw s o data) (.raw s' o' data') = .ok false := by
  unfold equal
  simp only [Value.data, Value.start, hs, hs', Res.bind_ok, docToBytes, sliceFrom]
  rw [if_pos ho, if_pos ho']
  simp [checkEqualVal, readValue_unknown h, orFalse]

example : ∀ t : BVal, t.tag ≠ 0x14 := by intro t; cases t <;> simp [BVal.tag]

/-- A document that cannot be marshaled (one of its elements is invalid, say) equals nothing, in either order. -/
theorem C21_invalid {fuel s o : Nat} {data : Bytes} {d : Doc} {e : Err} (hs : idx data s = .ok 0x03) (hm : docMarshal fuel d = .err e) {w : Value} {k : Bytes} {u : BVal}
    (g : Rep w k u) (hu : u.enc.length < 2147483640) (hf : 2147483640 ≤ fuel) :
    equal fuel (.withDoc s o data d) w = .ok false ∧ equal fuel w (.withDoc s o data d) = .ok false := by
  obtain ⟨p, hp⟩ := docToBytes_rep (fuel := fuel) g (by omega) (by omega)
  constructor
  · unfold equal
    rw [(rep_key g).2.1]
    simp only [Value.data, Value.start, hs, Res.bind_ok]
    split
    · rfl
    · simp only [docToBytes, ↓reduceIte, hm]; rfl
  · unfold equal
    rw [(rep_key g).2.1]
    simp only [Value.data, Value.start, hs, Res.bind_ok]
    split
    · rfl
    · next h =>
      have h : u.tag = 0x03 := by simpa using h
      rw [hp, Res.bind_ok, h]
      simp only [docToBytes, ↓reduceIte, hm]; rfl

/-- a document with an uninitialized element -/
example (n : Nat) : docMarshal (n + 2) [.raw 0 0 []] = .err .uninitializedElement := rfl

/-- a document with a string of length -5 -/
def negativeString : Bytes := [11, 0, 0, 0, 0x02, 0, 0xFB, 0xFF, 0xFF, 0xFF, 0]

/-- `Equal` can panic: on an element of a document that `Reader.Validate` accepts and `ReadDocument` reads. -/
theorem C21_accepted_panics : ∃ v n, Returns (fun fuel => readerValidate fuel negativeString) (.ok n) ∧
    Returns (fun fuel => readDocument fuel negativeString) (.ok [v]) ∧ ∀ fuel, equal fuel v v = .panic ∧ elemEqual fuel v v = .panic := by
  have he : ∀ fuel, equal fuel (.raw 4 6 negativeString) (.raw 4 6 negativeString) = .panic := fun _ => by
    simp only [equal, docToBytes]; decide
  refine ⟨.raw 4 6 negativeString, 6, readerValidate_returns (n := 3) (by decide +kernel) (by simp), readDocument_returns (n := 3) ?_ (by simp), fun fuel => ⟨he fuel, ?_⟩⟩
  · unfold readDocument
    rw [show iterEnd negativeString = .ok 11 by decide +kernel, Res.bind_ok]
    unfold iterLoop
    rw [if_neg (by decide), show idx negativeString 4 = .ok 2 by decide, Res.bind_ok, if_neg (by decide),
      show readerKey negativeString (u32 (4 + 1)) 11 = .ok 1 by decide, Res.bind_ok]
    dsimp only
    rw [show rawSize negativeString 4 (u32 (u32 (4 + 1) + 1)) = .ok 4294967295 by decide, Res.bind_ok,
      show u32 (u32 (u32 (4 + 1) + 1) + 4294967295) = 5 by decide]
    unfold iterLoop
    rw [if_neg (by decide), show idx negativeString 5 = .ok 0 by decide, Res.bind_ok, if_pos (by decide)]
    rfl
  · unfold elemEqual
    rw [show key (.raw 4 6 negativeString) = .ok [] by decide]
    simp [he fuel]

/-! ### nil elements -/

section
open Proofs.DocHeap Spec.DocView
open Birch.Model.DocHeap (World Params)
variable {E : Type}

/-- `Append` panics when one of the elements is nil, on every document. -/
theorem C12_append_nil {P : Params E} {M : Spec.Docs.Sem E} (hm : Means P M) {w : World E} (hw : Reached P w) {d : Nat} {doc : Model.DocHeap.Document E}
    (hd : w.docs[d]? = some doc) (args : List (Option E)) (hn : none ∈ args) :
    Model.DocHeap.append P.grow (Model.DocHeap.alloc w.heap args).1 doc (Model.DocHeap.alloc w.heap args).2 = .panic := by
  obtain ⟨s, R⟩ := reached_rep hm hw
  have hlt : doc.elems.arr < w.heap.length := by
    have hi := (List.getElem?_eq_some_iff.mp hd).1
    rw [R.len] at hi
    exact (R.owns d doc s[d] hd (List.getElem?_eq_getElem hi)).1.lt
  unfold Model.DocHeap.append
  rw [appendLoop_nil P.grow _ args rfl _ 0 _ _ (by simp [Model.DocHeap.alloc]) (by simp [Model.DocHeap.alloc]; omega) (by simp [Model.DocHeap.alloc]) (by simpa using hn)]
  rfl

/-- the list document likewise -/
theorem C51_nil (l : List E) (args : List (Option E)) (hn : none ∈ args) : BList.append l args = .panic ∧ BList.prepend l args = .panic :=
  ⟨blist_append_nil args l hn, blist_prepend_nil args l hn⟩

example : BList.append [1] [some 2, none] = .panic := (C51_nil [1] [some 2, none] (by simp)).1

end

end Birch.Props
