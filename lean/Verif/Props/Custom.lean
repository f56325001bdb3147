import Verif.Proofs.Custom

/-
C78: named numbers (`events.Custom`) as documents.
-/

namespace Birch.Props
open Birch Model Model.Custom Spec Proofs

/-- `Add` takes numbers, booleans, times and slices of these, and puts the point at the end, with its value as it is.  It refuses
    every other type, and `int8`, `int16`, `uint8`, `uint16` and `uint`, and then changes nothing. -/
theorem C78_add (ps : Custom) (k : Bytes) (v : Val) :
    (NumberType v ∧ ¬ SmallOrUint v → add ps k v = (ps ++ [⟨k, v⟩], none)) ∧
    (¬ NumberType v ∨ SmallOrUint v → ∃ e, add ps k v = (ps, some e)) := by
  have hk : known v = true ↔ NumberType v ∧ ¬ SmallOrUint v := by
    cases v with
    | go g =>
      cases g with
      | int g => cases g <;> simp [known, NumberType, SmallOrUint]
      | _ => simp [known, NumberType, SmallOrUint]
    | _ => simp [known, NumberType, SmallOrUint]
  refine ⟨fun h => ?_, fun h => ⟨.other, ?_⟩⟩
  · rw [add, if_pos (hk.mpr h)]
  · rw [add, if_neg]
    rw [hk]
    rintro ⟨h1, h2⟩
    rcases h with h | h
    · exact h h1
    · exact h2 h

example : NumberType (.bools [true]) ∧ ¬ SmallOrUint (.bools [true]) ∧ SmallOrUint (.go (.int (.uint 7))) ∧ ¬ NumberType (.go (.str [97])) := by
  simp [NumberType, SmallOrUint]

/-- The document of a `Custom` has one field per point, with its name and its value, in the stable order of the names: points with the
    same name are all there, in the order in which they were added.  The points themselves are left in this order.
    Missing (and false, see `C78_accepted_refused` and `C78_int_truncated`): `[]bool`, `[]uint32`, `[]uint64`, `uint64` from 2^63 on,
    `int` below -2^31, all of which `Add` takes. -/
theorem C78_document_partial (W : Nat → Nat) (fuel : Nat) (ps : Custom) (fs : Fields) (h : PointsAre W ps fs) (wf : fs.WF)
    (hl : (encDoc fs).length < 1073741824) (hf : 1073741824 ≤ fuel) :
    ∃ rs gs d, StableSort byName ps rs ∧ PointsAre W rs gs ∧ marshalDocument W fuel ps = .ok (rs, .ok d) ∧ RepFields d gs ∧
      marshalBSON W fuel ps = .ok (rs, .ok (encDoc gs)) := by
  have hs := Proofs.Custom.sort_spec ps
  obtain ⟨gs, h1, h2⟩ := Proofs.Custom.pointsAre_perm hs.perm.symm h
  have hl' : (encDoc gs).length < 1073741824 := by
    simp only [encDoc, wrapDoc_length] at hl ⊢
    rw [← h2.size]; exact hl
  obtain ⟨d, h3, h4, h5⟩ := Proofs.Custom.marshal_rep h1 (h2.wf.mp wf) hl' hf
  exact ⟨_, gs, d, hs, h1, h3, h4, h5⟩

/-- b: int(7), a: 1.5, b: []int64{3, 4}, a: true -/
def customSample : Custom :=
  [⟨[98], .go (.int (.int 7))⟩, ⟨[97], .go (.f64 0x3FF8000000000000)⟩, ⟨[98], .go (.int64s [3, 4])⟩, ⟨[97], .go (.bool true)⟩]

def customFields : Fields :=
  .cons [98] (.int32 7) (.cons [97] (.double 0x3FF8000000000000) (.cons [98] (.array (.cons (.int64 3) (.cons (.int64 4) .nil))) (.cons [97] (.bool true) .nil)))

theorem customSample_are (W : Nat → Nat) : PointsAre W customSample customFields := by
  have h7 : Denotes W (.int (.int 7)) (.int32 7) := Denotes.int (.int 7) ⟨by simp [inRange], by simp [intVal], by simp⟩
  have hs : Denotes W (.int64s [3, 4]) (.array (.cons (.int64 3) (.cons (.int64 4) .nil))) := Denotes.int64s [3, 4]
  exact .cons (p := ⟨[98], .go (.int (.int 7))⟩) h7 (by simp) (.cons (p := ⟨[97], .go (.f64 0x3FF8000000000000)⟩) (.f64 _) (by simp)
    (.cons (p := ⟨[98], .go (.int64s [3, 4])⟩) hs (by simp) (.cons (p := ⟨[97], .go (.bool true)⟩) (.bool true) (by simp) .nil)))

theorem customFields_wf : customFields.WF := by simp [customFields, Fields.WF, BVal.WF, Vals.WF, NulFree]

example (W : Nat → Nat) := C78_document_partial W 1073741824 customSample customFields (customSample_are W) customFields_wf (by decide +kernel) (by decide)

/-- Reading the document of fields puts one point per field after the points that are already there: nothing is replaced, not even
    points with the same name. -/
theorem C78_unmarshal (ps : Custom) (fs : Fields) (wf : fs.WF) (hd : fs.NoDecimal) (hl : (encDoc fs).length < 2147483648) :
    Returns (fun fuel => unmarshalBSON fuel ps (encDoc fs)) (.ok (ps ++ pointsOf fs)) :=
  Proofs.Custom.unmarshal_rep fs ps wf hd hl

example := C78_unmarshal customSample customFields customFields_wf (by simp [customFields, Fields.NoDecimal, BVal.NoDecimal, Vals.NoDecimal]) (by decide +kernel)

/-- Numbers written and read again: the points come back in name order, each as `comesBack` says.  Writing what was read gives the same bytes. -/
theorem C78_roundtrip (W : Nat → Nat) (fuel : Nat) (ps : Custom) (fs : Fields) (h : PointsAre W ps fs) (hn : ∀ p ∈ ps, NumberType p.value)
    (wf : fs.WF) (hl : (encDoc fs).length < 1073741824) (hf : 1073741824 ≤ fuel) :
    ∃ rs b qs, StableSort byName ps rs ∧ marshalBSON W fuel ps = .ok (rs, .ok b) ∧ Returns (fun fuel => unmarshalBSON fuel [] b) (.ok qs) ∧
      qs = rs.map (fun p => ⟨p.name, comesBack W p.value⟩) ∧ marshalBSON W fuel qs = .ok (qs, .ok b) := by
  have h1 := Proofs.Custom.sort_spec ps
  obtain ⟨gs, h2, h7⟩ := Proofs.Custom.pointsAre_perm h1.perm.symm h
  have wf' := h7.wf.mp wf
  have hp := Proofs.Custom.points_portable h2 (fun p hp => hn p (h1.perm.mem_iff.mp hp))
  have hl' : (encDoc gs).length < 1073741824 := by
    simp only [encDoc, wrapDoc_length] at hl ⊢
    rw [← h7.size]; exact hl
  obtain ⟨d, h3, h4, h5⟩ := Proofs.Custom.marshal_rep (fuel := fuel) h2 wf' hl' hf
  have hr := Proofs.Custom.unmarshal_rep gs [] wf' (Proofs.Custom.portable_fields hp) (by omega)
  rw [List.nil_append] at hr
  have hnames := Proofs.Custom.pointsOf_names h2
  refine ⟨_, _, _, h1, h5, hr, Proofs.Custom.points_back h2 (fun p hp => hn p (h1.perm.mem_iff.mp hp)), ?_⟩
  have hsort := Proofs.Custom.sort_sorted (Proofs.Custom.sorted_names hnames.symm h1.sorted)
  obtain ⟨d', _, _, h10⟩ := Proofs.Custom.marshal_rep (W := W) (fuel := fuel) (ps := pointsOf gs) (gs := gs) (by rw [hsort]; exact Proofs.Custom.pointsOf_are hp wf') wf' hl' hf
  rw [hsort] at h10
  exact h10

example (W : Nat → Nat) := C78_roundtrip W 1073741824 customSample customFields (customSample_are W) (by simp [customSample, NumberType]) customFields_wf
  (by decide +kernel) (by decide)

/-- `int64`, `int32`, `float64`, `bool`, and times in whole milliseconds come back as they were.  The "consistent round trip semantics" of the comment do
    not hold for any other type: an `int` comes back as an `int32` or `int64`, a `float32` as a `float64`, a slice as a `[]any`. -/
theorem C78_kept (W : Nat → Nat) (v : Val) (t : BVal) (hn : NumberType v) (h : Denotes W v.any t) : Exact v ↔ comesBack W v = v := by
  cases v with
  | go g =>
    cases g <;> simp only [NumberType] at hn <;> simp [comesBack, Exact]
    case int g => cases g <;> simp [sized, wide, intVal] <;> (try split) <;> simp
    case time t =>
      obtain ⟨s, n⟩ := t
      simp only [truncated, Time.mk.injEq, true_and]
      omega
  | bools l => cases h
  | uint32s l => cases h
  | uint64s l => cases h

example : comesBack id (.go (.f32 7)) ≠ .go (.f32 7) := fun h => (C78_kept id (.go (.f32 7)) _ trivial (.f32 7)).mpr h

example : ¬ Exact (.go (.int (.int 7))) ∧ Exact (.go (.time ⟨5, 2000000⟩)) ∧ ¬ Exact (.go (.time ⟨5, 2000001⟩)) := by simp [Exact]

/-- The claim of C78 is false for some values that `Add` takes: one `[]bool`, `[]uint32` or `[]uint64`, or one `uint64` from 2^63 on, and
    `MarshalDocument` and `MarshalBSON` return an error, whatever the other points are.  The points are sorted all the same. -/
theorem C78_accepted_refused (W : Nat → Nat) (fuel : Nat) (ps : Custom)
    (ha : ∀ p ∈ ps, NulFree p.name ∧ p.name.length + 2 < 1073741824 ∧ (Writable W p ∨ Unwritable p.value)) (hu : ∃ p ∈ ps, Unwritable p.value)
    (hf : 1073741824 ≤ fuel) :
    ∃ rs, StableSort byName ps rs ∧ marshalDocument W fuel ps = .ok (rs, .err .other) ∧ marshalBSON W fuel ps = .ok (rs, .err .other) := by
  have hs := Proofs.Custom.sort_spec ps
  have hm : marshalDocument W fuel ps = .ok (Docs.sort byName ps, .err .other) := by
    unfold marshalDocument
    rw [Proofs.Custom.sort_eq, Res.bind_ok, Proofs.Custom.build_refuses hf (fun p hp => ha p (hs.perm.mem_iff.mp hp))]
    obtain ⟨p, hp, h⟩ := hu
    exact ⟨p, hs.perm.mem_iff.mpr hp, h⟩
  refine ⟨_, hs, hm, ?_⟩
  unfold marshalBSON
  rw [hm]
  rfl

/-- {"b": 1, "a": []bool{true}}: both calls of `Add` return nil, and then nothing can be written -/
example : ∃ ps rs, add [] [98] (.go (.int (.int64 1))) = (ps, none) ∧ (add ps [97] (.bools [true])).2 = none ∧
    marshalBSON id 1073741824 (add ps [97] (.bools [true])).1 = .ok (rs, .err .other) := by
  have h1 : Denotes id (.int (.int64 1)) (.int64 1) := Denotes.int (.int64 1) ⟨by simp [inRange], by simp [intVal], by simp⟩
  obtain ⟨rs, _, _, h⟩ := C78_accepted_refused id 1073741824 [⟨[98], .go (.int (.int64 1))⟩, ⟨[97], .bools [true]⟩]
    (by
      intro p hp
      rcases List.mem_cons.mp hp with rfl | hp
      · exact ⟨by simp [NulFree], by decide, .inl ⟨_, h1, by simp, by simp [BVal.WF], by simp [BVal.enc, le64]⟩⟩
      · rw [List.mem_singleton] at hp
        subst hp
        exact ⟨by simp [NulFree], by decide, .inr (.type trivial)⟩)
    ⟨⟨[97], .bools [true]⟩, by simp, .type (v := .bools [true]) trivial⟩ (by decide)
  exact ⟨_, rs, rfl, rfl, h⟩

/-- An `int` below -2^31, which `Add` takes, is written as another number, without an error. -/
theorem C78_int_truncated (W : Nat → Nat) (fuel : Nat) (k : Bytes) (i : Int) (hk : NulFree k) (hl : k.length + 20 < 1073741824)
    (h0 : -9223372036854775808 ≤ i) (h1 : i < -2147483648) (hf : 1073741824 ≤ fuel) :
    ∃ j, j ≠ i ∧ marshalBSON W fuel [⟨k, .go (.int (.int i))⟩] = .ok ([⟨k, .go (.int (.int i))⟩], .ok (encDoc (.cons k (.int32 j) .nil))) := by
  have hj : ∃ j, j ≠ i ∧ -2147483648 ≤ j ∧ j < 2147483648 ∧ i32 i = j := ⟨i32 i, by unfold i32; omega, by unfold i32; omega, by unfold i32; omega, rfl⟩
  obtain ⟨j, hji, hj0, hj1, hj2⟩ := hj
  obtain ⟨v, hv, hr⟩ := buildVal_rep k (.int32 j) hk (by simp only [BVal.WF]; omega) (by simp [BVal.enc]; omega)
  have hi : ECE.interface W fuel k (.int (.int i)) = .ok v := by
    simp only [ECE.interface, ECE.checked, EC.interface, EC.interfaceInt, EC.int]
    rw [if_pos (by omega), hj2]
    have hv' : EC.int32 k j = .ok v := hv
    rw [hv', Res.bind_ok, type_rep hr]
    rfl
  refine ⟨j, hji, ?_⟩
  have hb : docOf W fuel [⟨k, .go (.int (.int i))⟩] [] = .ok [v] := by
    rw [Proofs.Custom.build_cons]
    simp only [Val.any]
    rw [hi]
    rfl
  have hlen : (encDoc (.cons k (.int32 j) .nil)).length < 1073741824 := by
    simp [encDoc, wrapDoc_length, Fields.enc, BVal.enc]
    omega
  have hd : docMarshal fuel [v] = .ok (encDoc (.cons k (.int32 j) .nil)) := docMarshal_rep fuel ⟨hr, trivial⟩ (by omega) (by omega)
  unfold marshalBSON marshalDocument
  rw [Proofs.Custom.sort_eq]
  simp only [Docs.sort, List.foldl, Docs.insertDesc, List.reverse_singleton, Res.bind_ok]
  rw [hb]
  simp only [Res.bind_ok]
  rw [hd]

example := C78_int_truncated id 1073741824 [97] (-2147483649) (by simp [NulFree]) (by decide) (by decide) (by decide) (by decide)

end Birch.Props
