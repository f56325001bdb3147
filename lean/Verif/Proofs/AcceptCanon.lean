import Verif.Proofs.AcceptCopy

/- Canonical encodings follow the grammar of `Spec/Accept`. -/

namespace Birch.Proofs
open Birch Model Spec

theorem loose_string (t : UInt8) (s : Bytes) (ht : t = 0x02 ∨ t = 0x0D ∨ t = 0x0E) : Loose t (encString s) := by
  have := Loose.text t (s ++ [0]) ht
  simpa [encString] using this

theorem loose_wrap (t : UInt8) (s : Bytes) (ht : t = 0x03 ∨ t = 0x04) : Loose t (wrapDoc s) := by
  have := Loose.embedded t (s ++ [0]) ht (by simp)
  simpa [wrapDoc] using this

theorem loose_enc (v : BVal) (wf : v.WF) : Loose v.tag v.enc := by
  cases v with
  | double => exact .eight _ _ (by simp [BVal.tag]) (by simp [BVal.enc])
  | string s => exact loose_string _ s (by simp [BVal.tag])
  | doc fs => simp only [BVal.enc]; exact loose_wrap _ _ (by simp [BVal.tag])
  | array vs => simp only [BVal.enc]; exact loose_wrap _ _ (by simp [BVal.tag])
  | binary st b =>
    simp only [BVal.WF] at wf
    simp only [BVal.enc, BVal.tag]
    split
    · have := Loose.binary st (le32 b.length ++ b) wf
      simpa [Nat.add_comm 4] using this
    · have := Loose.binary st b wf
      simpa using this
  | undefined => exact .empty _ (by simp [BVal.tag])
  | oid id => exact .oid _ wf
  | bool b => exact .bool _ (by cases b <;> simp)
  | datetime => exact .eight _ _ (by simp [BVal.tag]) (by simp [BVal.enc])
  | null => exact .empty _ (by simp [BVal.tag])
  | regex p o =>
    have := Loose.regex p o wf.1 wf.2
    simpa [BVal.enc, BVal.tag] using this
  | dbpointer ns id =>
    have := Loose.dbpointer (ns ++ [0]) id wf
    simpa [BVal.enc, BVal.tag, encString] using this
  | js s => exact loose_string _ s (by simp [BVal.tag])
  | symbol s => exact loose_string _ s (by simp [BVal.tag])
  | codeScope c fs =>
    simp only [BVal.enc, BVal.tag]
    exact .code _
  | int32 => exact .int32 _ (by simp [BVal.enc])
  | timestamp => exact .eight _ _ (by simp [BVal.tag]) (by simp [BVal.enc])
  | int64 => exact .eight _ _ (by simp [BVal.tag]) (by simp [BVal.enc])
  | decimal => exact .decimal _ (by simp [BVal.enc])
  | minKey => exact .empty _ (by simp [BVal.tag])
  | maxKey => exact .empty _ (by simp [BVal.tag])

/-- the elements of a document, as the grammar sees them -/
def itemsOf (fs : Fields) : List Item := fs.toList.map fun kv => (kv.2.tag, kv.1, kv.2.enc)

/-- the elements of an array from index `i`, as the grammar sees them -/
def itemsFrom : Nat → Vals → List Item
  | _, .nil => []
  | i, .cons v r => (v.tag, decimalKey i, v.enc) :: itemsFrom (i + 1) r

theorem items_enc (rest : Bytes) : ∀ (fs : Fields), fs.WF → Items (itemsOf fs) (fs.enc ++ 0 :: rest) rest
  | .nil, _ => by simpa [itemsOf, Fields.toList, Fields.enc] using Items.stop rest
  | .cons k v r, wf => by
    have := Items.item wf.1 (loose_enc v wf.2.1) (items_enc rest r wf.2.2)
    simpa [itemsOf, Fields.toList, Fields.enc] using this

theorem items_encFrom (rest : Bytes) : ∀ (i : Nat) (vs : Vals), vs.WF → Items (itemsFrom i vs) (vs.encFrom i ++ 0 :: rest) rest
  | _, .nil, _ => by simpa [itemsFrom, Vals.encFrom] using Items.stop rest
  | i, .cons v r, wf => by
    have := Items.item (decimalKey_nulFree i) (loose_enc v wf.1) (items_encFrom rest (i + 1) r wf.2)
    simpa [itemsFrom, Vals.encFrom] using this

theorem accepted_wrap {es : List Item} {x rest : Bytes} (h : Items es (x ++ 0 :: rest) rest) : Accepted (wrapDoc x ++ rest) es (wrapDoc x).length := by
  refine ⟨x.length + 5, x ++ 0 :: rest, rest, by simp [wrapDoc], h, ?_, ?_, ?_⟩ <;> simp <;> omega

theorem accepted_wrap' {es : List Item} {x : Bytes} (h : Items es (x ++ [0]) []) : Accepted (wrapDoc x) es (wrapDoc x).length := by
  have := accepted_wrap h
  rwa [List.append_nil] at this

mutual
theorem deep_val : ∀ (v : BVal), v.WF → v.tag = 0x03 ∨ v.tag = 0x04 → Deep v.enc
  | .doc fs, wf, _ => by
    simp only [BVal.enc]
    exact .intro (accepted_wrap' (items_enc [] fs wf)) (deep_fields fs wf)
  | .array vs, wf, _ => by
    simp only [BVal.enc]
    exact .intro (accepted_wrap' (items_encFrom [] 0 vs wf)) (deep_vals 0 vs wf)
  | .double _, _, h | .string _, _, h | .binary _ _, _, h | .undefined, _, h | .oid _, _, h | .bool _, _, h | .datetime _, _, h | .null, _, h
  | .regex _ _, _, h | .dbpointer _ _, _, h | .js _, _, h | .symbol _, _, h | .codeScope _ _, _, h | .int32 _, _, h | .timestamp _ _, _, h
  | .int64 _, _, h | .decimal _ _, _, h | .minKey, _, h | .maxKey, _, h => by simp [BVal.tag] at h
theorem deep_fields : ∀ (fs : Fields), fs.WF → ∀ e ∈ itemsOf fs, e.1 = 0x03 ∨ e.1 = 0x04 → Deep e.2.2
  | .nil, _, e, he, _ => by simp [itemsOf, Fields.toList] at he
  | .cons k v r, wf, e, he, h => by
    have he : e = (v.tag, k, v.enc) ∨ e ∈ itemsOf r := by simpa [itemsOf, Fields.toList] using he
    cases he with
    | inl he => subst he; exact deep_val v wf.2.1 h
    | inr he => exact deep_fields r wf.2.2 e he h
theorem deep_vals : ∀ (i : Nat) (vs : Vals), vs.WF → ∀ e ∈ itemsFrom i vs, e.1 = 0x03 ∨ e.1 = 0x04 → Deep e.2.2
  | _, .nil, _, e, he, _ => by simp [itemsFrom] at he
  | i, .cons v r, wf, e, he, h => by
    have he : e = (v.tag, decimalKey i, v.enc) ∨ e ∈ itemsFrom (i + 1) r := by simpa [itemsFrom] using he
    cases he with
    | inl he => subst he; exact deep_val v wf.1 h
    | inr he => exact deep_vals (i + 1) r wf.2 e he h
end

end Birch.Proofs
