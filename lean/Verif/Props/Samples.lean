import Verif.Proofs.Samples
import Verif.Proofs.WireTrunc
import Verif.Spec.Ascii
import Verif.Props.FtdcCollect
import Verif.Props.Totality

/-
C88 (what a sample given to a collector may be).  `W` widens a float32, `global` is the registered marshaler, if any.
-/

namespace Birch.Props
open Birch Model Model.Samples Spec Proofs

/-- A sample is read as the document it stands for, whether it is a document, bytes, a `Reader`, a type with a marshaling method, an array or a map. -/
theorem C88_sample (W : Nat → Nat) {fuel : Nat} (global : Option Marshaler) {s : Sample} {fs : Fields} (h : Stands W s fs) (wf : fs.WF)
    (hl : (encDoc fs).length < 1073741824) (hf : 1073741824 ≤ fuel) :
    ∃ d, readSample W fuel global s = .ok d ∧ RepFields d fs :=
  readSample_rep W global h wf hl hf

/-- `map[string]any{"b": int64(7), "a": true}` -/
def exMapBA : GoMap := .cons [98] (.int (.int64 7)) (.cons [97] (.bool true) .nil)
def exMapAB : GoMap := .cons [97] (.bool true) (.cons [98] (.int (.int64 7)) .nil)
/-- {"b": 7, "a": true} -/
def exFieldsBA : Fields := .cons [98] (.int64 7) (.cons [97] (.bool true) .nil)
def exFieldsAB : Fields := .cons [97] (.bool true) (.cons [98] (.int64 7) .nil)

theorem exFits (i : Int) (h : -9223372036854775808 ≤ i) (h' : i < 9223372036854775808) : IntFits (.int64 i) :=
  ⟨⟨h, h'⟩, h', by rintro _ ⟨⟩⟩

theorem exMapBA_denotes (W : Nat → Nat) : DenotesMap W exMapBA exFieldsBA :=
  .cons _ (.int _ (exFits 7 (by decide) (by decide))) (.cons _ (.bool _) .nil)

theorem exMapAB_denotes (W : Nat → Nat) : DenotesMap W exMapAB exFieldsAB :=
  .cons _ (.bool _) (.cons _ (.int _ (exFits 7 (by decide) (by decide))) .nil)

example (W : Nat → Nat) : Stands W (.go (.map exMapBA)) exFieldsAB ∧ exFieldsAB.WF ∧ (encDoc exFieldsAB).length < 1073741824 :=
  ⟨.map (exMapBA_denotes W) ⟨.swap _ _ _, by simp [exFieldsAB, Fields.toList]; decide⟩, by simp [exFieldsAB, Fields.WF, BVal.WF, NulFree], by decide +kernel⟩

/-- The order in which a map is visited does not matter for the fields of the sample: they are in the order of the keys. -/
theorem C88_map_order (W : Nat → Nat) {fuel : Nat} (global : Option Marshaler) {m m' : GoMap} {fs fs' : Fields} (h : DenotesMap W m fs) (h' : DenotesMap W m' fs')
    (hp : fs'.toList.Perm fs.toList) (hn : fs.keys.Nodup) (wf : fs.WF) (hl : (encDoc fs).length < 1073741824) (hf : 1073741824 ≤ fuel) :
    ∃ gs, KeyOrder fs gs ∧ (∃ d, readSample W fuel global (.go (.map m)) = .ok d ∧ RepFields d gs) ∧
      ∃ d, readSample W fuel global (.go (.map m')) = .ok d ∧ RepFields d gs := by
  have hsz := hl
  simp only [encDoc, wrapDoc_length] at hl
  obtain ⟨d, gs, h1, h2, h3⟩ := readMap_rep W (fuel := fuel) (readsMap_denotes h) wf hn (by omega) (by omega)
  have h3' : KeyOrder fs' gs := ⟨h3.same.trans hp.symm, h3.ascending⟩
  have wf' := (enc_perm h3.same.symm).1 (by rwa [ofList_toList])
  rw [ofList_toList] at wf'
  have hl' : (encDoc gs).length < 1073741824 := by
    simp only [encDoc, wrapDoc_length] at hsz ⊢
    rw [← (keyOrder_size h3).2]; exact hsz
  exact ⟨gs, h3, ⟨d, h1, h2⟩, C88_sample W global (.map h' h3') wf' hl' hf⟩

example (W : Nat → Nat) := C88_map_order W (fuel := 1073741824) none (exMapBA_denotes W) (exMapAB_denotes W) (.swap _ _ _)
  (by decide) (by simp [exFieldsBA, Fields.WF, BVal.WF, NulFree]) (by decide +kernel) (by decide)

/-- Nil, maps of strings, sets and failed marshaling are errors, as are bytes that end in the middle of a document, whatever marshaler is registered. -/
theorem C88_refused (W : Nat → Nat) (fuel : Nat) (global : Option Marshaler) :
    (∀ s, Refused s → ∃ e, readSample W fuel global s = .err e) ∧
    ∀ (fs : Fields) (b rest : Bytes), encDoc fs = b ++ rest → rest ≠ [] → (encDoc fs).length < 2147483648 →
      ∀ s ∈ [Sample.go (.bytes b), .go (.reader b), .go (.marshaler (some b))], ∃ e, readSample W fuel global s = .err e := by
  constructor
  · intro s h
    cases h <;> exact ⟨_, rfl⟩
  · intro fs b rest h hr hl s hs
    obtain ⟨e, he⟩ := Wire.readDocument_cut fuel hl hr h
    obtain ⟨e', he'⟩ := Wire.readerValidate_cut fuel hl hr h
    simp only [List.mem_cons, List.not_mem_nil, or_false] at hs
    rcases hs with rfl | rfl | rfl
    · exact ⟨e, he⟩
    · exact ⟨e', by simp [readSample, readerMarshal, he']⟩
    · exact ⟨e, by simp [readSample, outcome, he]⟩

-- {"a": null} without its last byte, and a map of strings
example (W : Nat → Nat) := (C88_refused W 7 none).2 (.cons [97] .null .nil) [8, 0, 0, 0, 10, 97, 0] [0] (by rfl) (by simp) (by decide)
example (W : Nat → Nat) := (C88_refused W 7 none).1 _ (.strings [([97], [98])])

/-- Values of other types are read from what the registered marshaler makes of them; it is an error if there is none or if it fails. -/
theorem C88_foreign (W : Nat → Nat) {fuel : Nat} {s : Sample} (h : Foreign s) :
    (∃ e, readSample W fuel none s = .err e) ∧
    (∀ f : Marshaler, f s = none → ∃ e, readSample W fuel (some f) s = .err e) ∧
    ∀ (f : Marshaler) (fs : Fields), f s = some (encDoc fs) → fs.WF → (encDoc fs).length < 2147483648 → (encDoc fs).length < fuel →
      ∃ d, readSample W fuel (some f) s = .ok d ∧ RepFields d fs := by
  have e : ∀ global, readSample W fuel global s = readOther fuel global s := by
    intro global
    cases s with
    | go g => cases g <;> first | rfl | (simp [Foreign] at h)
    | _ => simp [Foreign] at h
  refine ⟨⟨_, (e none).trans rfl⟩, fun f hf => ⟨.other, by rw [e]; simp [readOther, hf, outcome]⟩, fun f fs hf wf hl hfu => ?_⟩
  obtain ⟨d, h1, h2⟩ := readDocument_enc fuel fs wf [] hfu (by simpa using hl)
  rw [List.append_nil] at h1
  exact ⟨d, by rw [e]; simp [readOther, hf, outcome, h1], h2⟩

-- a `*birch.Value`, a slice and a struct
example (v : Value) : Foreign (.go (.value v)) ∧ Foreign (.go (.slice .nil)) ∧ Foreign (.go .other) := ⟨trivial, trivial, trivial⟩

/-- A sample that cannot be read leaves the collector and its metadata as they are. -/
theorem C88_error_keeps {σ : Type} (W : Nat → Nat) (fuel : Nat) (global : Option Marshaler) (add : σ → Doc → Res (σ × Option Err)) (c : σ) (b : Ftdc.Better)
    {s : Sample} {e : Err} (h : readSample W fuel global s = .err e) :
    addSample W fuel global add c s = .ok (c, some e) ∧ setMetadata W fuel global b s = .ok (b, some e) := by
  simp [setMetadata, addSample, h]

example (W : Nat → Nat) (c : Ftdc.Better) := C88_error_keeps W 0 none (fun c d => c.add (fun a _ => a) 0 d) c c (s := .go .nil) rfl

/-- Not every sample that cannot be read gives an error: bytes with a negative length make `Add` and `SetMetadata` of every collector panic. -/
theorem C88_negative_length_panics {σ : Type} (W : Nat → Nat) (global : Option Marshaler) (add : σ → Doc → Res (σ × Option Err)) (c : σ) (b : Ftdc.Better) :
    ∃ N, ∀ fuel, N ≤ fuel → addSample W fuel global add c (.go (.bytes [0xFF, 0xFF, 0xFF, 0xFF, 0x0A])) = .panic ∧
      setMetadata W fuel global b (.go (.bytes [0xFF, 0xFF, 0xFF, 0xFF, 0x0A])) = .panic := by
  obtain ⟨N, h⟩ := C10_readDocument_panics
  refine ⟨N, fun fuel hf => ?_⟩
  have h' : readDocument fuel [0xFF, 0xFF, 0xFF, 0xFF, 0x0A] = .panic := h fuel hf
  simp [setMetadata, addSample, readSample, h']

/-- Metadata may be given like a sample. -/
theorem C88_metadata (W : Nat → Nat) {fuel : Nat} (global : Option Marshaler) (c : Ftdc.Better) {s : Sample} {fs : Fields} (h : Stands W s fs) (wf : fs.WF)
    (hl : (encDoc fs).length < 1073741824) (hf : 1073741824 ≤ fuel) :
    ∃ d, setMetadata W fuel global c s = .ok (c.setMetadata d, none) ∧ RepFields d fs := by
  obtain ⟨d, h1, h2⟩ := C88_sample W global h wf hl hf
  exact ⟨d, by simp [setMetadata, addSample, h1], h2⟩

example (W : Nat → Nat) := C88_metadata W none (Ftdc.Better.new 1) (Stands.bytes (W := W) exFieldsAB) (by simp [exFieldsAB, Fields.WF, BVal.WF, NulFree]) (by decide +kernel)
  (Nat.le_refl 1073741824)

/-- Samples of any of these kinds that stand for documents of the same structure are all taken by a base collector that is large enough, and their numbers are
    read back (without doubles and timestamps, and with dates of the years 1677 to 2262). -/
theorem C88_collected {fsub : Nat → Nat → Nat}
    (hsub : ∀ a b, a < 18446744073709551616 → b < 18446744073709551616 → fsub a b < 18446744073709551616)
    {zip : Bytes → Bytes} {unzip : Bytes → Option Bytes} (hz : ∀ b, unzip (zip b) = some b) (W : Nat → Nat) {fuel : Nat} (hf : 1073741824 ≤ fuel)
    (global : Option Marshaler) {ss : List Sample} {fss : List Fields} (hlen : ss.length = fss.length)
    (hst : ∀ (i : Nat) s fs, ss[i]? = some s → fss[i]? = some fs → Stands W s fs) (hne : fss ≠ [])
    (hw : ∀ fs ∈ fss, fs.WF ∧ (encDoc fs).length < 1073741824) (hs : ∀ f ∈ fss, ∀ g ∈ fss, f.metrics.SameShape g.metrics)
    (hk : ∀ f ∈ fss, f.metrics.Kept) {max : Nat} (hmax : fss.length ≤ max + 1) (h32 : fss.length < 4294967296) :
    ∃ N, ∀ n, N ≤ n → ∃ c, addSamples W fuel global (fun c d => c.add fsub n d) (Ftdc.Better.new max) ss = .ok (c, ss.map fun _ => none) ∧
      ((∀ p, Returns c.payload (.ok p) → (zip p).length ≤ 2147482000) → ∀ now, ∃ bytes, Returns (c.resolve zip now) (.ok bytes) ∧
        ∀ s : Stream.Source, s.left = bytes → ∃ M, ∀ m, M ≤ m → ∃ ds, Ftdc.readStructuredMetrics unzip m s = .ok ds ∧
          RepDocs ds (fss.map Fields.metrics)) := by
  obtain ⟨docs, h1, h2⟩ := readSamples_rep W global hf hlen hst hw
  obtain ⟨N, h3⟩ := C33_kept_partial hsub hz h2 hne (fun fs hfs => by have := (hw fs hfs).2; omega) hs hk hmax h32 none nofun
  refine ⟨N, fun n hn => ?_⟩
  obtain ⟨c, h4, h5⟩ := h3 n hn
  refine ⟨c, ?_, h5⟩
  rw [addSamples_ok h1, addSamples_docs]
  have : (ss.map fun _ => (none : Option Err)) = fss.map fun _ => none := by rw [List.map_const', List.map_const', hlen]
  rw [this]
  exact h4

example (W : Nat → Nat) : ∀ (i : Nat) s fs, [Sample.go (.map exMapBA), .go (.bytes (encDoc exFieldsAB))][i]? = some s → [exFieldsAB, exFieldsAB][i]? = some fs → Stands W s fs := by
  intro i s fs h1 h2
  match i with
  | 0 =>
    simp only [List.getElem?_cons_zero, Option.some.injEq] at h1 h2
    subst h1 h2
    exact .map (exMapBA_denotes W) ⟨.swap _ _ _, by simp [exFieldsAB, Fields.toList]; decide⟩
  | 1 =>
    simp only [List.getElem?_cons_succ, List.getElem?_cons_zero, Option.some.injEq] at h1 h2
    subst h1 h2
    exact .bytes _
  | i + 2 => simp at h1

/-- Of a map of integers nothing is recorded: maps of type `map[string]int`, `map[string]int64`, `map[string]uint` and `map[string]uint64` are taken without error and are
    read back as empty documents. -/
theorem C88_int_maps_lost {fsub : Nat → Nat → Nat}
    (hsub : ∀ a b, a < 18446744073709551616 → b < 18446744073709551616 → fsub a b < 18446744073709551616)
    {zip : Bytes → Bytes} {unzip : Bytes → Option Bytes} (hz : ∀ b, unzip (zip b) = some b) (W : Nat → Nat) (fuel : Nat)
    (global : Option Marshaler) (maps : List (List (Bytes × GoInt))) (hne : maps ≠ [])
    {max : Nat} (hmax : maps.length ≤ max + 1) (h32 : maps.length < 4294967296) :
    ∃ N, ∀ n, N ≤ n → ∃ c, addSamples W fuel global (fun c d => c.add fsub n d) (Ftdc.Better.new max) (maps.map Sample.intMap) = .ok (c, maps.map fun _ => none) ∧
      ((∀ p, Returns c.payload (.ok p) → (zip p).length ≤ 2147482000) → ∀ now, ∃ bytes, Returns (c.resolve zip now) (.ok bytes) ∧
        ∀ s : Stream.Source, s.left = bytes → ∃ M, ∀ m, M ≤ m → ∃ ds, Ftdc.readStructuredMetrics unzip m s = .ok ds ∧
          RepDocs ds (maps.map fun _ => .nil)) := by
  have h1 : (maps.map Sample.intMap).map (readSample W fuel global) = (maps.map fun _ => ([] : Doc)).map Res.ok := by
    simp only [List.map_map]
    exact List.map_congr_left fun m _ => rfl
  have h2 : RepDocs (maps.map fun _ => ([] : Doc)) (maps.map fun _ => Fields.nil) := by
    clear hne hmax h32 h1
    induction maps with
    | nil => simp [RepDocs]
    | cons m ms ih => exact ⟨by simp [RepFields], ih⟩
  have hm : ∀ f ∈ maps.map (fun _ => Fields.nil), f = .nil := by
    intro f hf; simp only [List.mem_map] at hf; obtain ⟨_, _, rfl⟩ := hf; rfl
  obtain ⟨N, h3⟩ := C33_kept_partial hsub hz h2 (by simpa using hne) (fun fs hfs => by rw [hm fs hfs]; decide)
    (fun f hf g hg => by rw [hm f hf, hm g hg]; simp [Fields.metrics, Fields.SameShape]) (fun f hf => by rw [hm f hf]; simp [Fields.metrics, Fields.Kept])
    (max := max) (by simpa using hmax) (by simpa using h32) none nofun
  refine ⟨N, fun n hn => ?_⟩
  obtain ⟨c, h4, h5⟩ := h3 n hn
  refine ⟨c, ?_, ?_⟩
  · rw [addSamples_ok h1, addSamples_docs]
    simp only [List.map_map] at h4
    exact h4
  · have : (maps.map fun _ => Fields.nil).map Fields.metrics = maps.map fun _ => Fields.nil := by
      simp only [List.map_map]
      exact List.map_congr_left fun m _ => rfl
    rw [this] at h5
    exact h5

example (W : Nat → Nat) := C88_int_maps_lost (fsub := fun a _ => a) (fun _ _ h _ => h) (zip := id) (unzip := some) (fun _ => rfl) W 5 none
  [[(ascii "requests", .int64 7), (ascii "errors", .int64 1)], [(ascii "requests", .int64 9)]] (by simp) (max := 1) (by simp) (by simp)

/-- In a `map[string]any` the entries whose values are of types unknown to the constructors (durations, object ids, byte slices, structs) are null in the sample and no metric, and
    there is no error. -/
theorem C88_unknown_dropped (W : Nat → Nat) {fuel : Nat} (global : Option Marshaler) {m : GoMap} {fs : Fields} (h : ReadsMap W m fs) (hn : fs.keys.Nodup) (wf : fs.WF)
    (hl : (encDoc fs).length < 1073741824) (hf : 1073741824 ≤ fuel) :
    ∃ d gs, readSample W fuel global (.go (.map m)) = .ok d ∧ RepFields d gs ∧ KeyOrder fs gs ∧
      ∀ k g, GoMap.Holds k g m → Unsupported g → (k, .null) ∈ gs.toList ∧ k ∉ gs.metrics.keys := by
  simp only [encDoc, wrapDoc_length] at hl
  obtain ⟨d, gs, h1, h2, h3⟩ := readMap_rep W (fuel := fuel) h wf hn (by omega) (by omega)
  refine ⟨d, gs, h1, h2, h3, fun k g hk hg => ?_⟩
  have h4 := h3.same.symm.subset (readsMap_null hg h hk)
  refine ⟨h4, null_no_metric ?_ h4⟩
  rw [← keys_toList] at hn ⊢
  exact (h3.same.map Prod.fst).nodup_iff.mpr hn

/-- `map[string]any{"n": int64(7), "elapsed": time.Second}` -/
example (W : Nat → Nat) := C88_unknown_dropped W (fuel := 1073741824) none
  (ReadsMap.known (ascii "n") (.int _ (exFits 7 (by decide) (by decide))) (.unknown (ascii "elapsed") (g := .duration 1000000000) trivial .nil))
  (by decide) (by simp [Fields.WF, BVal.WF, NulFree, ascii, intBson, wide, intVal]) (by decide +kernel) (by decide)

/-- `map[string]any{"a": map[string]any{k: int32(i), l: int32(j)}}`, with the inner map visited in this order -/
def exInner (k l : UInt8) (i j : Int) : GoMap := .cons [97] (.map (.cons [k] (.int (.int32 i)) (.cons [l] (.int (.int32 j)) .nil))) .nil
/-- {"a": {k: i, l: j}} -/
def exInnerFields (k l : UInt8) (i j : Int) : Fields := .cons [97] (.doc (.cons [k] (.int32 i) (.cons [l] (.int32 j) .nil))) .nil

theorem exInner_wf {k l : UInt8} {i j : Int} (hk : k ≠ 0) (hl : l ≠ 0) (hi : -2147483648 ≤ i ∧ i < 2147483648) (hj : -2147483648 ≤ j ∧ j < 2147483648) :
    (exInnerFields k l i j).WF := by
  simp [exInnerFields, Fields.WF, BVal.WF, NulFree, hk, hl, hi, hj]

theorem exInner_size (k l : UInt8) (i j : Int) : (encDoc (exInnerFields k l i j)).length = 27 := by
  simp [exInnerFields, encDoc, wrapDoc_length, Fields.enc, BVal.enc]

theorem exInner_read (W : Nat → Nat) {fuel : Nat} (hf : 1073741824 ≤ fuel) (global : Option Marshaler) {k l : UInt8} {i j : Int} (hk : k ≠ 0) (hl : l ≠ 0)
    (hi : -2147483648 ≤ i ∧ i < 2147483648) (hj : -2147483648 ≤ j ∧ j < 2147483648) :
    ∃ d, readSample W fuel global (.go (.map (exInner k l i j))) = .ok d ∧ RepFields d (exInnerFields k l i j) := by
  have fits : ∀ i : Int, -2147483648 ≤ i ∧ i < 2147483648 → IntFits (.int32 i) := fun i h =>
    ⟨h, show i < _ by omega, by rintro _ ⟨⟩⟩
  have h : DenotesMap W (exInner k l i j) (exInnerFields k l i j) :=
    .cons _ (.map (.cons _ (.int _ (fits i hi)) (.cons _ (.int _ (fits j hj)) .nil))) .nil
  exact C88_sample W global (.map h ⟨.refl _, by simp [exInnerFields, Fields.toList]⟩) (exInner_wf hk hl hi hj) (by rw [exInner_size]; decide) hf

/-- Maps inside a map are recorded in the order in which they are visited.  If the map `{"a": {"x": i, "y": j}}` is added twice and its inner map is visited in another order the
    second time, then the second sample is read back as `{"a": {"x": j, "y": i}}`: the values have changed places, without an error. -/
theorem C88_nested_swapped {fsub : Nat → Nat → Nat}
    (hsub : ∀ a b, a < 18446744073709551616 → b < 18446744073709551616 → fsub a b < 18446744073709551616)
    {zip : Bytes → Bytes} {unzip : Bytes → Option Bytes} (hz : ∀ b, unzip (zip b) = some b) (W : Nat → Nat) {fuel : Nat} (hf : 1073741824 ≤ fuel)
    (global : Option Marshaler) (i j : Int) (hi : -2147483648 ≤ i ∧ i < 2147483648) (hj : -2147483648 ≤ j ∧ j < 2147483648) :
    Shuffled (.map (exInner 120 121 i j)) (.map (exInner 121 120 j i)) ∧
    ∃ N, ∀ n, N ≤ n → ∃ c, addSamples W fuel global (fun c d => c.add fsub n d) (Ftdc.Better.new 1)
        [.go (.map (exInner 120 121 i j)), .go (.map (exInner 121 120 j i))] = .ok (c, [none, none]) ∧
      ((∀ p, Returns c.payload (.ok p) → (zip p).length ≤ 2147482000) → ∀ now, ∃ bytes, Returns (c.resolve zip now) (.ok bytes) ∧
        ∀ s : Stream.Source, s.left = bytes → ∃ M, ∀ m, M ≤ m → ∃ ds, Ftdc.readStructuredMetrics unzip m s = .ok ds ∧
          RepDocs ds [exInnerFields 120 121 i j, exInnerFields 120 121 j i]) := by
  refine ⟨.map (.cons _ (.map (.swap _ _ _ _ _)) .nil), ?_⟩
  obtain ⟨d1, a1, a2⟩ := exInner_read W hf global (k := 120) (l := 121) (by decide) (by decide) hi hj
  obtain ⟨d2, b1, b2⟩ := exInner_read W hf global (k := 121) (l := 120) (by decide) (by decide) hj hi
  obtain ⟨d3, _, c2⟩ := exInner_read W hf global (k := 120) (l := 121) (by decide) (by decide) hj hi
  have sz : ∀ k l i j, (exInnerFields k l i j).enc.length < 100 := by
    intro k l i j
    have := exInner_size k l i j
    simp only [encDoc, wrapDoc_length] at this
    omega
  have mt : ∀ k l i j, (exInnerFields k l i j).metrics = exInnerFields k l i j := fun _ _ _ _ => rfl
  obtain ⟨N, h⟩ := C33_kept_partial hsub hz (docs := [d1, d3]) (fss := [exInnerFields 120 121 i j, exInnerFields 120 121 j i]) ⟨a2, c2, trivial⟩ (by simp)
    (by simp [exInner_size])
    (by
      simp only [List.mem_cons, List.not_mem_nil, or_false]
      rintro f (rfl | rfl) g (rfl | rfl) <;> simp only [mt] <;> simp [exInnerFields, Fields.SameShape, BVal.SameShape, BVal.tag])
    (by
      simp only [List.mem_cons, List.not_mem_nil, or_false]
      rintro f (rfl | rfl) <;> rw [mt] <;> simp [exInnerFields, Fields.Kept, BVal.Kept])
    (max := 1) (by simp) (by simp) none nofun
  refine ⟨max N 1000, fun n hn => ?_⟩
  obtain ⟨c, h4, h5⟩ := h n (by omega)
  refine ⟨c, ?_, h5⟩
  rw [addSamples_ok (docs := [d1, d2]) (by simp [a1, b1]), addSamples_docs]
  have x1 := Ftdc.extract_rep n a2 (by have := sz 120 121 i j; omega) (by have := sz 120 121 i j; omega)
  have x2 := Ftdc.extract_rep n b2 (by have := sz 121 120 j i; omega) (by have := sz 121 120 j i; omega)
  have x3 := Ftdc.extract_rep n c2 (by have := sz 120 121 j i; omega) (by have := sz 120 121 j i; omega)
  have e : Ftdc.numsF (exInnerFields 121 120 j i) = Ftdc.numsF (exInnerFields 120 121 j i) := rfl
  refine Eq.trans ?_ h4
  have hadd : ∀ c : Ftdc.Better, c.reference ≠ none → c.add fsub n d2 = c.add fsub n d3 := by
    intro c hc
    unfold Ftdc.Better.add
    rw [x2, x3, e]
    cases hr : c.reference with
    | none => exact absurd hr hc
    | some _ => rfl
  simp only [Ftdc.newWith, Ftdc.Better.addAll]
  have hfirst : ∃ c1, (Ftdc.Better.new 1).add fsub n d1 = .ok (c1, none) ∧ c1.reference ≠ none := by
    refine ⟨_, by simp only [Ftdc.Better.add, Ftdc.Better.new, x1, Res.bind_ok]; rfl, by simp⟩
  obtain ⟨c1, hc1, hr⟩ := hfirst
  rw [hc1]
  simp only [Res.bind_ok]
  rw [hadd c1 hr]

example (W : Nat → Nat) := C88_nested_swapped (fsub := fun a _ => a) (fun _ _ h _ => h) (zip := id) (unzip := some) (fun _ => rfl) W (Nat.le_refl 1073741824) none 1 2
  (by decide) (by decide)

end Birch.Props
