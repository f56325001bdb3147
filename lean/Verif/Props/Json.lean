import Verif.Proofs.Json

/-
C29, C30: JSON text.
-/

namespace Birch.Props
open Birch Spec.Json Model.Json Proofs.Json

/-! ### C29 -/

/-- The text written for a string is a JSON string literal whose value is the string, whatever follows it. -/
theorem C29_string (s rest : Bytes) : Spec.Json.string (writeString s ++ rest) = some (s, rest) := string_write s rest

-- a quotation mark, a backslash, a line feed, a control character and é
example := C29_string [34, 92, 10, 1, 0xC3, 0xA9] [44]
example : writeString [34, 92, 10, 1, 0xC3, 0xA9] = [34, 92, 34, 92, 92, 92, 110, 92, 117, 48, 48, 48, 49, 0xC3, 0xA9, 34] := by decide +kernel

/-- The text is well-formed UTF-8 if the string is. -/
theorem C29_utf8 (s : Bytes) (h : Utf8 s) : Utf8 (writeString s) := by
  rw [write_eq, List.append_assoc]
  exact .one (by decide) (esc_utf8 h)

example := C29_utf8 [0xC3, 0xA9, 10] (.two (by decide) (by decide) (by unfold cont; decide) (.one (by decide) .nil))

/-! ### C30 -/

/-- Marshalling gives JSON text with the same content, for every nesting of documents and arrays. Missing from the full claim: keys that need
    escaping, and floating point numbers, which are rounded to six digits after the point (see the counterexamples). -/
theorem C30_marshal_partial (v : JVal) (h : Plain v) : ∃ t j, marshal v = some t ∧ Spec.Json.read t = some j ∧ Shows v j := read_marshal h

/-- `{"a":[-5,"x",{}],"b":2.5}` -/
def sampleJson : JVal := .obj (.cons [97] (.arr (.cons (.int (-5)) (.cons (.str [120]) (.cons (.obj .nil) .nil))))
  (.cons [98] (.dbl 0x4004000000000000) .nil))

example := C30_marshal_partial sampleJson (by
  unfold sampleJson
  simp only [Plain, PlainElems, PlainVals, PlainKey]
  refine ⟨by decide, ⟨trivial, trivial, trivial, trivial⟩, by decide, ⟨false, _, _, .normal (x := 1024) (f := 2 ^ 50) rfl (by decide) (by decide) (by decide)⟩, trivial⟩)

/-- The full claim is false: a key is not escaped, so a document with one field can be written as one with two fields. -/
theorem C30_key_counterexample :
    ∃ (k : Bytes) (t : Bytes), marshal (.obj (.cons k (.int 1) .nil)) = some t ∧
      Spec.Json.read t = some (.obj (.cons [97] (.num 2 0) (.cons [98] (.num 1 0) .nil))) :=
  -- the key is a":2,"b
  ⟨[97, 34, 58, 50, 44, 34, 98], _, rfl, by with_unfolding_all rfl⟩

/-- … and other keys give text that is not JSON. -/
theorem C30_key_invalid : ∃ (k : Bytes) (t : Bytes), marshal (.obj (.cons k (.int 1) .nil)) = some t ∧ Spec.Json.read t = none :=
  ⟨[34], _, rfl, by decide +kernel⟩

/-- Small numbers (here 2^-24) are written as 0, -/
theorem C30_precision_lost : ∃ b t, Double b false (2 ^ 52) (-76) ∧ marshal (.dbl b) = some t ∧ Spec.Json.read t = some (.num 0 (-6)) :=
  ⟨0x3E70000000000000, _, .normal (x := 999) (f := 0) rfl (by decide) (by decide) (by decide), rfl, by with_unfolding_all rfl⟩

/-- and NaN is written although JSON has no such number. -/
theorem C30_nan_invalid : ∃ t, marshal (.dbl 0x7FF8000000000000) = some t ∧ Spec.Json.read t = none :=
  ⟨_, rfl, by decide +kernel⟩

end Birch.Props
