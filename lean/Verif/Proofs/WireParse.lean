import Verif.Proofs.Wire

/-
Lemmas about parsing wire messages.
-/

namespace Birch.Proofs.Wire
open Birch Spec Spec.Wire Model Model.Wire Proofs

theorem dropA {a b : Bytes} {n : Nat} (k : Nat) (h : n = a.length + k) : (a ++ b).drop n = b.drop k := by
  rw [h, List.drop_append, List.drop_eq_nil_of_le (by omega), List.nil_append]; congr 1; omega

theorem readCString_cstring {s : Bytes} (h : NulFree s) (r : Bytes) : readCString (cstring s ++ r) = .ok s := by
  induction s with
  | nil => rfl
  | cons c s ih =>
    have hc : c ≠ 0 := h c (by simp)
    have e : cstring (c :: s) ++ r = c :: (cstring s ++ r) := by simp [cstring]
    rw [e]
    unfold readCString
    rw [if_neg hc, ih (fun x hx => h x (by simp [hx]))]
    rfl

theorem readi32_int32 {z : Int} (h : I32 z) (r : Bytes) : readi32 (int32 z ++ r) = .ok z := readi32_le32_int h.1 h.2 r

theorem readInt64_int64 {z : Int} (h : I64 z) (r : Bytes) : readInt64 (int64 z ++ r) = .ok z := by
  unfold readInt64 Wire.int64
  rw [rdU64_le64 (n := twos64 z) (by unfold twos64; omega)]
  simp only [Res.bind_ok]
  exact congrArg Res.ok (i64_u64i h.1 h.2)

theorem readi32_encDoc (fs : Fields) (r : Bytes) (h : (encDoc fs).length < 2147483648) : readi32 (encDoc fs ++ r) = .ok ((encDoc fs).length : Int) := by
  rw [encDoc_len] at *
  unfold encDoc wrapDoc
  rw [List.append_assoc, List.append_assoc, readi32_le32_nat (by omega)]

theorem encDoc_pos (fs : Fields) : 5 ≤ (encDoc fs).length := by rw [encDoc_len]; omega

theorem app_ne_nil (fs : Fields) (r : Bytes) : encDoc fs ++ r ≠ [] := by
  have := encDoc_pos fs
  intro h
  have := congrArg List.length h
  simp only [List.length_append, List.length_nil] at this
  omega

theorem readDocs_rep : ∀ (fss : List Fields) (fuel : Nat), (∀ d ∈ fss, d.WF) → (docs fss).length < 2147483648 → (docs fss).length < fuel →
    ∃ ds, readDocs fuel (docs fss) = .ok ds ∧ RepDocs ds fss
  | [], fuel, _, _, hf => by
    obtain ⟨fuel, rfl⟩ : ∃ k, fuel = k + 1 := ⟨fuel - 1, by omega⟩
    exact ⟨[], rfl, trivial⟩
  | f :: fss, fuel, wf, hl, hf => by
    obtain ⟨fuel, rfl⟩ : ∃ k, fuel = k + 1 := ⟨fuel - 1, by omega⟩
    rw [docs_cons] at *
    have hp := encDoc_pos f
    have hl' := hl
    rw [List.length_append] at hl hf
    obtain ⟨d, h1, h2⟩ := readDocument_enc (fuel + 1) f (wf f (by simp)) (docs fss) (by omega) hl'
    obtain ⟨ds, h3, h4⟩ := readDocs_rep fss fuel (fun x hx => wf x (by simp [hx])) (by omega) (by omega)
    refine ⟨d :: ds, ?_, h2, h4⟩
    unfold readDocs
    rw [if_neg (app_ne_nil _ _), h1]
    simp only [Res.bind_ok]
    rw [getDocSize_rep h2 (by omega) (by omega)]
    simp only [Res.bind_ok]
    rw [List.drop_left, h3]
    rfl

theorem sliceFrom_left (a b : Bytes) : sliceFrom (a ++ b) a.length = .ok b := by
  unfold sliceFrom
  simp

theorem readOutputs_rep : ∀ (fss : List Fields) (fuel : Nat), (∀ d ∈ fss, d.WF) → (docs fss).length < 2147483648 → (docs fss).length < fuel →
    ∃ ds, readOutputs fuel (docs fss) = .ok ds ∧ RepDocs ds fss
  | [], fuel, _, _, hf => by
    obtain ⟨fuel, rfl⟩ : ∃ k, fuel = k + 1 := ⟨fuel - 1, by omega⟩
    exact ⟨[], rfl, trivial⟩
  | f :: fss, fuel, wf, hl, hf => by
    obtain ⟨fuel, rfl⟩ : ∃ k, fuel = k + 1 := ⟨fuel - 1, by omega⟩
    rw [docs_cons] at *
    have hp := encDoc_pos f
    have hl' := hl
    rw [List.length_append] at hl hf
    obtain ⟨d, h1, h2⟩ := readDocument_enc (fuel + 1) f (wf f (by simp)) (docs fss) (by omega) hl'
    obtain ⟨ds, h3, h4⟩ := readOutputs_rep fss fuel (fun x hx => wf x (by simp [hx])) (by omega) (by omega)
    refine ⟨d :: ds, ?_, h2, h4⟩
    unfold readOutputs
    rw [if_neg (app_ne_nil _ _), h1]
    simp only [Res.bind_ok]
    rw [getDocSize_rep h2 (by omega) (by omega)]
    simp only [Res.bind_ok]
    rw [sliceFrom_left]
    simp only [Res.bind_ok]
    rw [h3]
    rfl

theorem readInputs_rep : ∀ (fss : List Fields) (fuel : Nat), (∀ d ∈ fss, d.WF) → (docs fss).length < 2147483648 → (docs fss).length < fuel →
    ∃ ds, readInputs fuel (docs fss) = .ok ds ∧ RepDocs ds fss
  | [], fuel, _, _, hf => by
    obtain ⟨fuel, rfl⟩ : ∃ k, fuel = k + 1 := ⟨fuel - 1, by omega⟩
    exact ⟨[], rfl, trivial⟩
  | f :: fss, fuel, wf, hl, hf => by
    obtain ⟨fuel, rfl⟩ : ∃ k, fuel = k + 1 := ⟨fuel - 1, by omega⟩
    rw [docs_cons] at *
    have hp := encDoc_pos f
    have hl' := hl
    rw [List.length_append] at hl hf
    obtain ⟨d, h1, h2⟩ := readDocument_enc (fuel + 1) f (wf f (by simp)) (docs fss) (by omega) hl'
    obtain ⟨ds, h3, h4⟩ := readInputs_rep fss fuel (fun x hx => wf x (by simp [hx])) (by omega) (by omega)
    refine ⟨d :: ds, ?_, h2, h4⟩
    unfold readInputs
    rw [if_neg (app_ne_nil _ _), h1]
    simp only [Res.bind_ok]
    rw [docValidate_rep h2 (by omega) (by omega)]
    simp only [Res.bind_ok]
    rw [sliceFrom_left]
    simp only [Res.bind_ok]
    rw [h3]
    rfl

theorem sliceI_left (a b : Bytes) : sliceI (a ++ b) 0 (a.length : Int) = .ok a := by
  unfold sliceI slice
  rw [if_pos (by omega), if_pos (by simp)]
  simp

theorem readPayloadDocs_rep (rest : Bytes) : ∀ (fss : List Fields) (fuel : Nat) (R : Int), (∀ d ∈ fss, d.WF) → (docs fss).length < 2147483648 →
    (docs fss).length < fuel → R ≤ (docs fss).length → ((docs fss).length : Int) - 1 ≤ R →
    ∃ ds, readPayloadDocs fuel R (docs fss ++ rest) = .ok (ds, rest) ∧ RepDocs ds fss
  | [], fuel, R, _, _, hf, h1, h2 => by
    obtain ⟨fuel, rfl⟩ : ∃ k, fuel = k + 1 := ⟨fuel - 1, by omega⟩
    refine ⟨[], ?_, trivial⟩
    unfold readPayloadDocs
    rw [if_pos (by simpa [docs] using h1)]
    rfl
  | f :: fss, fuel, R, wf, hl, hf, hR1, hR2 => by
    obtain ⟨fuel, rfl⟩ : ∃ k, fuel = k + 1 := ⟨fuel - 1, by omega⟩
    rw [docs_cons] at *
    have hp := encDoc_pos f
    rw [List.length_append] at hl hf hR1 hR2
    obtain ⟨d, h1, h2⟩ := readDocument_enc (fuel + 1) f (wf f (by simp)) [] (by omega) (by rw [List.append_nil]; omega)
    obtain ⟨ds, h3, h4⟩ := readPayloadDocs_rep rest fss fuel (R - ((encDoc f).length : Int)) (fun x hx => wf x (by simp [hx])) (by omega) (by omega) (by omega)
      (by omega)
    refine ⟨d :: ds, ?_, h2, h4⟩
    rw [List.append_nil] at h1
    unfold readPayloadDocs
    rw [if_neg (by omega), List.append_assoc, readi32_encDoc f _ (by omega)]
    simp only [Res.bind_ok]
    rw [sliceI_left]
    simp only [Res.bind_ok]
    rw [h1]
    simp only [Res.bind_ok]
    rw [Int.toNat_natCast, List.drop_left, h3]
    rfl

theorem idx_cons (c : UInt8) (b : Bytes) : idx (c :: b) 0 = .ok c := rfl

theorem readItems_rep {kind : Nat} (hk : kind ≤ 1) (rest : Bytes) (hr : rest.length ≤ 4) : ∀ (ss : List WSection) (fuel : Nat), (∀ s ∈ ss, s.WF) →
    (ss.flatMap (WSection.enc kind) ++ rest).length < 2147483647 → (ss.flatMap (WSection.enc kind)).length < fuel →
    ∃ is, readItems fuel (ss.flatMap (WSection.enc kind) ++ rest) = .ok (is, rest) ∧ RepItems is ss
  | [], fuel, _, _, hf => by
    obtain ⟨fuel, rfl⟩ : ∃ k, fuel = k + 1 := ⟨fuel - 1, by omega⟩
    refine ⟨[], ?_, trivial⟩
    unfold readItems
    rw [if_pos (by simpa using hr)]
    rfl
  | .body f :: ss, fuel, wf, hl, hf => by
    obtain ⟨fuel, rfl⟩ : ∃ k, fuel = k + 1 := ⟨fuel - 1, by omega⟩
    rw [List.flatMap_cons] at *
    have hp := encDoc_pos f
    simp only [List.length_append, WSection.enc, List.length_cons] at hl hf
    obtain ⟨d, h1, h2⟩ := readDocument_enc (fuel + 1) f (wf (.body f) (by simp)) [] (by omega) (by rw [List.append_nil]; omega)
    obtain ⟨is, h3, h4⟩ := readItems_rep hk rest hr ss fuel (fun x hx => wf x (by simp [hx])) (by rw [List.length_append]; omega) (by omega)
    rw [List.append_nil] at h1
    refine ⟨.body (some d) :: is, ?_, ⟨d, rfl, h2⟩, h4⟩
    unfold readItems
    rw [if_neg (by simp only [List.length_append, WSection.enc, List.length_cons]; omega)]
    simp only [WSection.enc, List.cons_append, idx_cons, Res.bind_ok, List.drop_succ_cons, List.drop_zero, if_true]
    rw [List.append_assoc, readi32_encDoc f _ (by omega)]
    simp only [Res.bind_ok]
    rw [sliceI_left]
    simp only [Res.bind_ok, h1]
    rw [getDocSize_rep h2 (by omega) (by omega)]
    simp only [Res.bind_ok]
    rw [List.drop_left, h3]
    rfl
  | .sequence id fss :: ss, fuel, wf, hl, hf => by
    obtain ⟨fuel, rfl⟩ : ∃ k, fuel = k + 1 := ⟨fuel - 1, by omega⟩
    rw [List.flatMap_cons] at *
    simp only [List.length_append, WSection.enc, List.length_cons, le32_length, cstring_length] at hl hf
    obtain ⟨wf1, wf2⟩ : NulFree id ∧ ∀ d ∈ fss, d.WF := wf (.sequence id fss) (by simp)
    obtain ⟨is, h3, h4⟩ := readItems_rep hk rest hr ss fuel (fun x hx => wf x (by simp [hx])) (by rw [List.length_append]; omega) (by omega)
    obtain ⟨ds, h1, h2⟩ := readPayloadDocs_rep (ss.flatMap (WSection.enc kind) ++ rest) fss (fuel + 1)
      (((kind + 4 + (id.length + 1) + (docs fss).length : Nat) : Int) - 1 - 4 - id.length - 1) wf2 (by omega) (by omega) (by omega) (by omega)
    refine ⟨.sequence ((kind + 4 + (id.length + 1) + (docs fss).length : Nat) : Int) id ds :: is, ?_, ⟨rfl, h2⟩, h4⟩
    unfold readItems
    rw [if_neg (by simp only [List.length_append, WSection.enc, List.length_cons, le32_length, cstring_length]; omega)]
    simp only [WSection.enc, List.cons_append, idx_cons, Res.bind_ok, List.drop_succ_cons, List.drop_zero]
    rw [if_neg (by decide), if_pos trivial]
    simp only [List.append_assoc]
    rw [readi32_le32_nat (by omega)]
    simp only [Res.bind_ok]
    rw [dropA (n := 4) 0 rfl, List.drop_zero, readCString_cstring wf1]
    simp only [Res.bind_ok]
    rw [dropA (n := 4 + (id.length + 1)) (id.length + 1) rfl, dropA (a := cstring id) 0 (by simp), List.drop_zero, h1]
    simp only [Res.bind_ok]
    rw [h3]
    rfl

theorem indexDot_append {db : Bytes} (h : (46 : UInt8) ∉ db) (r : Bytes) : indexDot (db ++ 46 :: r) = some db.length := by
  induction db with
  | nil => rfl
  | cons c db ih =>
    simp only [List.mem_cons, not_or] at h
    simp only [List.cons_append, indexDot]
    rw [if_neg (fun e => h.1 e.symm), ih h.2]
    rfl

theorem indexDot_none {ns : Bytes} (h : (46 : UInt8) ∉ ns) : indexDot ns = none := by
  induction ns with
  | nil => rfl
  | cons c ns ih =>
    simp only [List.mem_cons, not_or] at h
    simp only [indexDot]
    rw [if_neg (fun e => h.1 e.symm), ih h.2]
    rfl

/-- every name either has no dot or is split at its first one -/
theorem split_dot (ns : Bytes) : (46 : UInt8) ∉ ns ∨ ∃ db r, (46 : UInt8) ∉ db ∧ ns = db ++ 46 :: r := by
  induction ns with
  | nil => exact .inl (by simp)
  | cons c ns ih =>
    by_cases hc : c = 46
    · exact .inr ⟨[], ns, by simp, by simp [hc]⟩
    · rcases ih with h | ⟨db, r, h, rfl⟩
      · exact .inl (by simp only [List.mem_cons, not_or]; exact ⟨fun e => hc e.symm, h⟩)
      · exact .inr ⟨c :: db, r, by simp only [List.mem_cons, not_or]; exact ⟨fun e => hc e.symm, h⟩, rfl⟩

theorem isCommand_iff (ns : Bytes) : namespaceIsCommand ns = true ↔ CommandNs ns := by
  unfold namespaceIsCommand
  rcases split_dot ns with h | ⟨db, r, h, rfl⟩
  · rw [indexDot_none h]
    simp only [Bool.false_eq_true, false_iff]
    rintro ⟨db, r, -, rfl⟩
    simp at h
  · rw [indexDot_append h]
    simp only [List.length_append, List.length_cons]
    constructor
    · intro hi
      split at hi
      · cases hi
      · simp only [decide_eq_true_eq] at hi
        cases r with
        | nil => simp at hi
        | cons c r =>
          refine ⟨db, r, h, ?_⟩
          simp at hi
          rw [hi]
    · rintro ⟨db', r', h', e⟩
      have e1 := indexDot_append h r
      rw [e, indexDot_append h' (36 :: r')] at e1
      simp only [Option.some.injEq] at e1
      have e2 := List.append_inj e e1.symm
      obtain ⟨rfl, e2⟩ := e2
      simp only [List.cons.injEq, true_and] at e2
      subst e2
      rw [if_neg (by simp)]
      simp

/-- what the code keeps as the header of a parsed message -/
def parsed (h : Header) (kind : Nat) : WMsg → Header
  | .msg f ss c => { h with size := ((WMsg.msg f ss c).body kind).length }
  | _ => h

theorem readIds_rep : ∀ (ids : List Int), (∀ i ∈ ids, I64 i) → readIds ids.length (ids.flatMap int64) = .ok ids
  | [], _ => rfl
  | i :: ids, h => by
    rw [List.flatMap_cons]
    simp only [List.length_cons, readIds]
    rw [readInt64_int64 (h i (by simp))]
    simp only [Res.bind_ok]
    rw [dropA (n := 8) 0 rfl, List.drop_zero, readIds_rep ids (fun x hx => h x (by simp [hx]))]
    rfl

theorem parse_query {fuel : Nat} {h : Header} {f s n : Int} {ns : Bytes} {x : Fields} {y : Option Fields} {kind : Nat}
    (wf : (WMsg.query f ns s n x y).WF) (hl : ((WMsg.query f ns s n x y).body kind).length < 2147483648)
    (hf : ((WMsg.query f ns s n x y).body kind).length < fuel) :
    ∃ q p, RepFields q x ∧ (match y with | none => p = none | some y => RepDoc p y) ∧
      parseQuery fuel h ((WMsg.query f ns s n x y).body kind) =
        if namespaceIsCommand ns then convertToCommand ns q else .ok (.query h f s n ns (some q) p) := by
  obtain ⟨w1, w2, w3, w4, w5, w6⟩ := wf
  simp only [WMsg.body, List.append_assoc, List.length_append, int32_length, cstring_length] at hl hf ⊢
  have hlen : (int32 f ++ (cstring ns ++ (int32 s ++ (int32 n ++ (encDoc x ++ docs y.toList))))).length =
      4 + (ns.length + 1) + 8 + (encDoc x).length + (docs y.toList).length := by simp; omega
  obtain ⟨q, h1, h2⟩ := readDocument_enc fuel x w5 (docs y.toList) (by omega) (by simp only [List.length_append]; omega)
  have hp : ∃ p, (match y with | none => p = none | some y => RepDoc p y) ∧
      readProject fuel (4 + (ns.length + 1) + 8 + (encDoc x).length) (int32 f ++ (cstring ns ++ (int32 s ++ (int32 n ++ (encDoc x ++ docs y.toList))))) =
        .ok p := by
    unfold readProject
    rw [hlen, dropA (n := 4 + (ns.length + 1) + 8 + (encDoc x).length) (ns.length + 1 + 8 + (encDoc x).length) (by simp; omega),
      dropA (a := cstring ns) (8 + (encDoc x).length) (by simp; omega), dropA (n := 8 + (encDoc x).length) (4 + (encDoc x).length) (by simp; omega),
      dropA (n := 4 + (encDoc x).length) (encDoc x).length (by simp), dropA (a := encDoc x) 0 (by simp), List.drop_zero]
    cases y with
    | none => exact ⟨none, rfl, if_neg (by simp [docs])⟩
    | some y =>
      have e : docs (some y).toList = encDoc y := by simp [docs]
      rw [e] at hl hf ⊢
      have := encDoc_pos y
      obtain ⟨p, h3, h4⟩ := readDocument_enc fuel y (w6 y rfl) [] (by omega) (by rw [List.append_nil]; omega)
      rw [List.append_nil] at h3
      refine ⟨some p, ⟨p, rfl, h4⟩, ?_⟩
      rw [if_pos (by omega), h3]
      simp only [Res.bind_ok]
      rw [getDocSize_rep h4 (by omega) (by omega)]
      rfl
  obtain ⟨p, hp1, hp2⟩ := hp
  refine ⟨q, p, h2, hp1, ?_⟩
  unfold parseQuery
  rw [hlen, if_neg (by omega), readi32_int32 w1]
  simp only [Res.bind_ok]
  rw [dropA (n := 4) 0 rfl, List.drop_zero, readCString_cstring w2]
  simp only [Res.bind_ok]
  rw [if_neg (by omega), dropA (n := 4 + (ns.length + 1)) (ns.length + 1) rfl, dropA (a := cstring ns) 0 (by simp), List.drop_zero, readi32_int32 w3]
  simp only [Res.bind_ok]
  rw [dropA (n := 4 + (ns.length + 1) + 4) (ns.length + 1 + 4) (by simp; omega), dropA (a := cstring ns) 4 (by simp), dropA (n := 4) 0 rfl, List.drop_zero,
    readi32_int32 w4]
  simp only [Res.bind_ok]
  rw [dropA (n := 4 + (ns.length + 1) + 8) (ns.length + 1 + 8) (by simp; omega), dropA (a := cstring ns) 8 (by simp), dropA (n := 8) 4 rfl,
    dropA (n := 4) 0 rfl, List.drop_zero, h1]
  simp only [Res.bind_ok]
  rw [getDocSize_rep h2 (by omega) (by omega)]
  simp only [Res.bind_ok]
  rw [hp2]
  rfl

set_option linter.unusedSimpArgs false
section dispatch
variable {fuel : Nat} {h : Header} {b : Bytes}

theorem parse_Reply (hc : h.opCode = 1) : parse fuel h b = parseReply fuel h b := by
  simp [parse, hc, OP_REPLY, OP_UPDATE, OP_INSERT, OP_QUERY, OP_GET_MORE, OP_DELETE, OP_KILL_CURSORS, OP_COMMAND, OP_COMMAND_REPLY, OP_MSG]
theorem parse_Update (hc : h.opCode = 2001) : parse fuel h b = parseUpdate fuel h b := by
  simp [parse, hc, OP_REPLY, OP_UPDATE, OP_INSERT, OP_QUERY, OP_GET_MORE, OP_DELETE, OP_KILL_CURSORS, OP_COMMAND, OP_COMMAND_REPLY, OP_MSG]
theorem parse_Insert (hc : h.opCode = 2002) : parse fuel h b = parseInsert fuel h b := by
  simp [parse, hc, OP_REPLY, OP_UPDATE, OP_INSERT, OP_QUERY, OP_GET_MORE, OP_DELETE, OP_KILL_CURSORS, OP_COMMAND, OP_COMMAND_REPLY, OP_MSG]
theorem parse_Query (hc : h.opCode = 2004) : parse fuel h b = parseQuery fuel h b := by
  simp [parse, hc, OP_REPLY, OP_UPDATE, OP_INSERT, OP_QUERY, OP_GET_MORE, OP_DELETE, OP_KILL_CURSORS, OP_COMMAND, OP_COMMAND_REPLY, OP_MSG]
theorem parse_GetMore (hc : h.opCode = 2005) : parse fuel h b = parseGetMore h b := by
  simp [parse, hc, OP_REPLY, OP_UPDATE, OP_INSERT, OP_QUERY, OP_GET_MORE, OP_DELETE, OP_KILL_CURSORS, OP_COMMAND, OP_COMMAND_REPLY, OP_MSG]
theorem parse_Delete (hc : h.opCode = 2006) : parse fuel h b = parseDelete fuel h b := by
  simp [parse, hc, OP_REPLY, OP_UPDATE, OP_INSERT, OP_QUERY, OP_GET_MORE, OP_DELETE, OP_KILL_CURSORS, OP_COMMAND, OP_COMMAND_REPLY, OP_MSG]
theorem parse_KillCursors (hc : h.opCode = 2007) : parse fuel h b = parseKillCursors h b := by
  simp [parse, hc, OP_REPLY, OP_UPDATE, OP_INSERT, OP_QUERY, OP_GET_MORE, OP_DELETE, OP_KILL_CURSORS, OP_COMMAND, OP_COMMAND_REPLY, OP_MSG]
theorem parse_Command (hc : h.opCode = 2010) : parse fuel h b = parseCommand fuel h b := by
  simp [parse, hc, OP_REPLY, OP_UPDATE, OP_INSERT, OP_QUERY, OP_GET_MORE, OP_DELETE, OP_KILL_CURSORS, OP_COMMAND, OP_COMMAND_REPLY, OP_MSG]
theorem parse_CommandReply (hc : h.opCode = 2011) : parse fuel h b = parseCommandReply fuel h b := by
  simp [parse, hc, OP_REPLY, OP_UPDATE, OP_INSERT, OP_QUERY, OP_GET_MORE, OP_DELETE, OP_KILL_CURSORS, OP_COMMAND, OP_COMMAND_REPLY, OP_MSG]
theorem parse_Msg (hc : h.opCode = 2013) : parse fuel h b = parseMsg fuel h b := by
  simp [parse, hc, OP_REPLY, OP_UPDATE, OP_INSERT, OP_QUERY, OP_GET_MORE, OP_DELETE, OP_KILL_CURSORS, OP_COMMAND, OP_COMMAND_REPLY, OP_MSG]

end dispatch

theorem parse_rep {fuel kind : Nat} (hk : kind ≤ 1) {h : Header} {w : WMsg} (hc : h.opCode = w.code) (wf : w.WF) (hu : ¬ w.Upconverted)
    (hl : (w.body kind).length < 2147483640) (hf : (w.body kind).length < fuel) :
    ∃ m, parse fuel h (w.body kind) = .ok m ∧ RepMsg m w ∧ m.header = parsed h kind w := by
  cases w with
  | query f ns s n x y =>
    rw [parse_Query hc]
    obtain ⟨q, p, h1, h2, h3⟩ := parse_query (h := h) wf (show _ < 2147483648 by omega) hf
    rw [h3, if_neg (fun e => hu ((isCommand_iff ns).mp e))]
    exact ⟨_, rfl, ⟨x, y, rfl, ⟨q, rfl, h1⟩, h2⟩, rfl⟩
  | reply f c s n fss =>
    rw [parse_Reply hc]
    obtain ⟨w1, w2, w3, w4, w5⟩ := wf
    simp only [WMsg.body, List.append_assoc, List.length_append, int32_length, int64_length] at hl hf ⊢
    obtain ⟨ds, h1, h2⟩ := readDocs_rep fss fuel w5 (by omega) (by omega)
    refine ⟨.reply h f c s n ds, ?_, ⟨fss, rfl, h2⟩, rfl⟩
    unfold parseReply
    rw [if_neg (by simp; omega), readi32_int32 w1]
    simp only [Res.bind_ok]
    rw [dropA (n := 4) 0 rfl, List.drop_zero, readInt64_int64 w2]
    simp only [Res.bind_ok]
    rw [dropA (n := 12) 8 rfl, dropA (n := 8) 0 rfl, List.drop_zero, readi32_int32 w3]
    simp only [Res.bind_ok]
    rw [dropA (n := 16) 12 rfl, dropA (n := 12) 4 rfl, dropA (n := 4) 0 rfl, List.drop_zero, readi32_int32 w4]
    simp only [Res.bind_ok]
    rw [dropA (n := 20) 16 rfl, dropA (n := 16) 8 rfl, dropA (n := 8) 4 rfl, dropA (n := 4) 0 rfl, List.drop_zero, h1]
    rfl
  | update ns f x y =>
    rw [parse_Update hc]
    obtain ⟨w1, w2, w3, w4⟩ := wf
    simp only [WMsg.body, List.append_assoc, List.length_append, int32_length, cstring_length] at hl hf ⊢
    have hlen : (int32 0 ++ (cstring ns ++ (int32 f ++ (encDoc x ++ encDoc y)))).length =
      4 + (ns.length + 1) + 4 + (encDoc x).length + (encDoc y).length := by simp; omega
    obtain ⟨a, h1, h2⟩ := readDocument_enc fuel x w3 (encDoc y) (by omega) (by simp only [List.length_append]; omega)
    obtain ⟨b, h3, h4⟩ := readDocument_enc fuel y w4 [] (by omega) (by simp only [List.append_nil]; omega)
    rw [List.append_nil] at h3
    refine ⟨.update h 0 f ns (some a) (some b), ?_, ⟨x, y, rfl, rfl, ⟨a, rfl, h2⟩, ⟨b, rfl, h4⟩⟩, rfl⟩
    unfold parseUpdate
    rw [hlen, if_neg (by omega), readi32_int32 (by unfold I32; omega)]
    simp only [Res.bind_ok]
    rw [dropA (n := 4) 0 rfl, List.drop_zero, readCString_cstring w1]
    simp only [Res.bind_ok]
    rw [if_neg (by omega), dropA (n := 4 + (ns.length + 1)) (ns.length + 1) rfl, dropA (a := cstring ns) 0 (by simp), List.drop_zero, readi32_int32 w2]
    simp only [Res.bind_ok]
    rw [dropA (n := 4 + (ns.length + 1) + 4) (ns.length + 1 + 4) (by simp; omega), dropA (a := cstring ns) 4 (by simp), dropA (n := 4) 0 rfl,
      List.drop_zero, h1]
    simp only [Res.bind_ok]
    rw [getDocSize_rep h2 (by omega) (by omega)]
    simp only [Res.bind_ok]
    rw [if_neg (by omega), dropA (n := 4 + (ns.length + 1) + 4 + (encDoc x).length) (ns.length + 1 + 4 + (encDoc x).length) (by simp; omega),
      dropA (a := cstring ns) (4 + (encDoc x).length) (by simp; omega), dropA (n := 4 + (encDoc x).length) (encDoc x).length (by simp),
      dropA (a := encDoc x) 0 (by simp), List.drop_zero, h3]
    simp only [Res.bind_ok]
    rw [getDocSize_rep h4 (by omega) (by omega)]
    rfl
  | insert f ns fss =>
    rw [parse_Insert hc]
    obtain ⟨w1, w2, w3⟩ := wf
    simp only [WMsg.body, List.append_assoc, List.length_append, int32_length, cstring_length] at hl hf ⊢
    obtain ⟨ds, h1, h2⟩ := readDocs_rep fss fuel w3 (by omega) (by omega)
    refine ⟨.insert h f ns ds, ?_, ⟨fss, rfl, h2⟩, rfl⟩
    unfold parseInsert
    rw [if_neg (by simp), readi32_int32 w1]
    simp only [Res.bind_ok]
    rw [dropA (n := 4) 0 rfl, List.drop_zero, readCString_cstring w2]
    simp only [Res.bind_ok]
    rw [dropA (n := 4 + (ns.length + 1)) (ns.length + 1) rfl, dropA (a := cstring ns) 0 (by simp), List.drop_zero, h1]
    rfl
  | getMore ns n c =>
    rw [parse_GetMore hc]
    obtain ⟨w1, w2, w3⟩ := wf
    simp only [WMsg.body, List.append_assoc, List.length_append, int32_length, int64_length, cstring_length] at hl hf ⊢
    have hlen : (int32 0 ++ (cstring ns ++ (int32 n ++ int64 c))).length = 4 + (ns.length + 1) + 12 := by simp; omega
    refine ⟨.getMore h 0 n c ns, ?_, ⟨rfl, rfl⟩, rfl⟩
    unfold parseGetMore
    rw [hlen, if_neg (by omega), readi32_int32 (by unfold I32; omega)]
    simp only [Res.bind_ok]
    rw [dropA (n := 4) 0 rfl, List.drop_zero, readCString_cstring w1]
    simp only [Res.bind_ok]
    rw [if_neg (by omega), dropA (n := 4 + (ns.length + 1)) (ns.length + 1) rfl, dropA (a := cstring ns) 0 (by simp), List.drop_zero, readi32_int32 w2]
    simp only [Res.bind_ok]
    rw [dropA (n := 4 + (ns.length + 1) + 4) (ns.length + 1 + 4) (by simp; omega), dropA (a := cstring ns) 4 (by simp), dropA (n := 4) 0 rfl,
      List.drop_zero]
    have := readInt64_int64 w3 []
    rw [List.append_nil] at this
    rw [this]
    rfl
  | delete ns f x =>
    rw [parse_Delete hc]
    obtain ⟨w1, w2, w3⟩ := wf
    simp only [WMsg.body, List.append_assoc, List.length_append, int32_length, cstring_length] at hl hf ⊢
    have hlen : (int32 0 ++ (cstring ns ++ (int32 f ++ encDoc x))).length = 4 + (ns.length + 1) + 4 + (encDoc x).length := by simp; omega
    obtain ⟨a, h1, h2⟩ := readDocument_enc fuel x w3 [] (by omega) (by simp only [List.append_nil]; omega)
    rw [List.append_nil] at h1
    refine ⟨.delete h 0 f ns (some a), ?_, ⟨x, rfl, rfl, ⟨a, rfl, h2⟩⟩, rfl⟩
    unfold parseDelete
    rw [hlen, if_neg (by omega), readi32_int32 (by unfold I32; omega)]
    simp only [Res.bind_ok]
    rw [dropA (n := 4) 0 rfl, List.drop_zero, readCString_cstring w1]
    simp only [Res.bind_ok]
    rw [if_neg (by omega), dropA (n := 4 + (ns.length + 1)) (ns.length + 1) rfl, dropA (a := cstring ns) 0 (by simp), List.drop_zero, readi32_int32 w2]
    simp only [Res.bind_ok]
    rw [dropA (n := 4 + (ns.length + 1) + 4) (ns.length + 1 + 4) (by simp; omega), dropA (a := cstring ns) 4 (by simp), dropA (n := 4) 0 rfl,
      List.drop_zero, h1]
    simp only [Res.bind_ok]
    rw [getDocSize_rep h2 (by omega) (by omega)]
    rfl
  | killCursors ids =>
    rw [parse_KillCursors hc]
    simp only [WMsg.WF] at wf
    simp only [WMsg.body, List.append_assoc, List.length_append, int32_length, flatMap_int64_length] at hl hf ⊢
    refine ⟨.killCursors h 0 ids.length ids, ?_, ⟨rfl, rfl, rfl⟩, rfl⟩
    unfold parseKillCursors
    rw [if_neg (by simp only [List.length_append, int32_length]; omega), readi32_int32 (by unfold I32; omega)]
    simp only [Res.bind_ok]
    rw [dropA (n := 4) 0 rfl, List.drop_zero, readi32_int32 (by unfold I32; omega), dropA (n := 8) 4 rfl, dropA (n := 4) 0 rfl, List.drop_zero]
    simp only [Res.bind_ok]
    rw [if_neg (by rw [flatMap_int64_length]; omega), alloc, if_neg (by omega)]
    simp only [Res.bind_ok]
    rw [Int.toNat_natCast, readIds_rep ids wf]
    rfl
  | command db name x y fss =>
    rw [parse_Command hc]
    obtain ⟨w1, w2, w3, w4, w5⟩ := wf
    simp only [WMsg.body, List.append_assoc, List.length_append, cstring_length] at hl hf ⊢
    obtain ⟨a, h1, h2⟩ := readDocument_enc fuel x w3 (encDoc y ++ docs fss) (by omega) (by simp only [List.length_append]; omega)
    obtain ⟨b, h3, h4⟩ := readDocument_enc fuel y w4 (docs fss) (by omega) (by simp only [List.length_append]; omega)
    obtain ⟨ds, h5, h6⟩ := readInputs_rep fss fuel w5 (by omega) (by omega)
    refine ⟨.command h db name (some a) (some b) ds false, ?_, ⟨x, y, fss, rfl, ⟨a, rfl, h2⟩, ⟨b, rfl, h4⟩, h6, rfl⟩, rfl⟩
    unfold parseCommand
    rw [readCString_cstring w1]
    simp only [Res.bind_ok]
    rw [if_neg (by simp only [List.length_append, cstring_length]; omega), dropA (a := cstring db) 0 (by simp), List.drop_zero,
      readCString_cstring w2]
    simp only [Res.bind_ok]
    rw [if_neg (by simp only [List.length_append, cstring_length]; omega), dropA (a := cstring name) 0 (by simp), List.drop_zero, h1]
    simp only [Res.bind_ok]
    rw [docValidate_rep h2 (by omega) (by omega)]
    simp only [Res.bind_ok]
    rw [if_neg (by simp only [List.length_append]; omega), dropA (a := encDoc x) 0 (by simp), List.drop_zero, h3]
    simp only [Res.bind_ok]
    rw [docValidate_rep h4 (by omega) (by omega)]
    simp only [Res.bind_ok]
    rw [if_neg (by simp only [List.length_append]; omega), dropA (a := encDoc y) 0 (by simp), List.drop_zero, h5]
    rfl
  | commandReply x y fss =>
    rw [parse_CommandReply hc]
    obtain ⟨w3, w4, w5⟩ := wf
    simp only [WMsg.body, List.append_assoc, List.length_append] at hl hf ⊢
    obtain ⟨a, h1, h2⟩ := readDocument_enc fuel x w3 (encDoc y ++ docs fss) (by omega) (by simp only [List.length_append]; omega)
    obtain ⟨b, h3, h4⟩ := readDocument_enc fuel y w4 (docs fss) (by omega) (by simp only [List.length_append]; omega)
    obtain ⟨ds, h5, h6⟩ := readOutputs_rep fss fuel w5 (by omega) (by omega)
    refine ⟨.commandReply h (some a) (some b) ds, ?_, ⟨x, y, fss, rfl, ⟨a, rfl, h2⟩, ⟨b, rfl, h4⟩, h6⟩, rfl⟩
    unfold parseCommandReply
    rw [h1]
    simp only [Res.bind_ok]
    rw [getDocSize_rep h2 (by omega) (by omega)]
    simp only [Res.bind_ok]
    rw [if_neg (by simp only [List.length_append]; omega), dropA (a := encDoc x) 0 (by simp), List.drop_zero, h3]
    simp only [Res.bind_ok]
    rw [getDocSize_rep h4 (by omega) (by omega)]
    simp only [Res.bind_ok]
    rw [if_neg (by simp only [List.length_append]; omega), dropA (a := encDoc y) 0 (by simp), List.drop_zero, h5]
    rfl
  | msg f ss c =>
    rw [parse_Msg hc]
    obtain ⟨w1, w2, w3⟩ := wf
    have hr : (c.toList.flatMap int32).length ≤ 4 := by cases c <;> simp
    simp only [WMsg.body, List.append_assoc, List.length_append, le32_length] at hl hf
    obtain ⟨is, h1, h2⟩ := readItems_rep hk (c.toList.flatMap int32) hr ss fuel w2 (by rw [List.length_append]; omega) (by omega)
    refine ⟨.msg { h with size := (((WMsg.msg f ss c).body kind).length : Nat) } [] f [] [] [] is (c.getD 0), ?_, ⟨ss, c, rfl, h2, rfl, rfl, rfl, rfl⟩, rfl⟩
    unfold parseMsg
    rw [if_neg (by simp only [WMsg.body, List.append_assoc, List.length_append, le32_length]; omega)]
    simp only [WMsg.body, List.append_assoc, List.length_append, le32_length]
    have hfl : readi32 (le32 f ++ (ss.flatMap (WSection.enc kind) ++ c.toList.flatMap int32)) = .ok (i32 f) := by
      unfold readi32; rw [rdU32_le32 w1]; rfl
    have hfl' : u32i (i32 (f : Int)) = f := by unfold u32i i32; omega
    rw [hfl]
    simp only [Res.bind_ok]
    rw [dropA (n := 4) 0 rfl, List.drop_zero, h1, hfl']
    simp only [Res.bind_ok]
    cases c with
    | none =>
      simp only [Option.toList_none, List.flatMap_nil, List.length_nil] at hl hf ⊢
      rw [if_neg (by omega), if_neg (by omega), i32_nat (by omega)]
      rfl
    | some c =>
      obtain ⟨w4, w5, w6⟩ := w3 c rfl
      simp only [Option.toList_some, List.flatMap_cons, List.flatMap_nil, List.append_nil, int32_length] at hl hf ⊢
      have e := readi32_int32 w4 []
      rw [List.append_nil] at e
      rw [if_pos ⟨w6, trivial⟩, e]
      simp only [Res.bind_ok]
      rw [if_pos ⟨w6, trivial⟩, i32_nat (by omega)]
      rfl

/-! ### NewOpMessage -/

theorem itemSize_rep {fuel : Nat} : ∀ {ds : List Doc} {fss : List Fields} (n : Int), RepDocs ds fss → (docs fss).length < 2147483648 →
    (docs fss).length < fuel → ∃ k, itemSize fuel ds n = .ok k
  | [], [], n, _, _, _ => ⟨n, rfl⟩
  | [], _ :: _, _, h, _, _ => by simp [RepDocs] at h
  | _ :: _, [], _, h, _, _ => by simp [RepDocs] at h
  | d :: ds, f :: fss, n, h, hl, hf => by
    rw [docs_cons, List.length_append] at *
    unfold itemSize
    rw [getDocSize_rep h.1 (by omega) (by omega)]
    simp only [Res.bind_ok]
    exact itemSize_rep _ h.2 (by omega) (by omega)

theorem newItems_rep {fuel : Nat} : ∀ {items : List (Bytes × List Doc)} {seqs : List (Bytes × List Fields)},
    items.map (·.1) = seqs.map (·.1) → (∀ p ∈ items.zip seqs, RepDocs p.1.2 p.2.2) → (∀ p ∈ seqs, (docs p.2).length < 2147483648) →
    (∀ p ∈ seqs, (docs p.2).length < fuel) → ∃ is, newItems fuel items = .ok is ∧ RepItems is (seqs.map fun p => .sequence p.1 p.2)
  | [], [], _, _, _, _ => ⟨[], rfl, trivial⟩
  | [], _ :: _, h, _, _, _ => by simp at h
  | _ :: _, [], h, _, _, _ => by simp at h
  | (id, ds) :: items, (id', fss) :: seqs, h, hr, hl, hf => by
    simp only [List.map_cons, List.cons.injEq] at h
    simp only [List.zip_cons_cons, List.mem_cons, forall_eq_or_imp] at hr hl hf
    obtain ⟨k, hk⟩ := itemSize_rep 0 hr.1 hl.1 hf.1
    obtain ⟨is, h1, h2⟩ := newItems_rep h.2 hr.2 hl.2 hf.2
    exact ⟨.sequence k id ds :: is, by rw [newItems, hk, Res.bind_ok, h1, Res.bind_ok], ⟨h.1, hr.1⟩, h2⟩

theorem bodies_rep : ∀ {ds : List Doc} {xs : List Fields}, RepDocs ds xs → RepItems (ds.map fun d => .body (some d)) (xs.map .body)
  | [], [], _ => trivial
  | [], _ :: _, h => by simp [RepDocs] at h
  | _ :: _, [], h => by simp [RepDocs] at h
  | d :: _, _ :: _, h => ⟨⟨d, rfl, h.1⟩, bodies_rep h.2⟩

theorem repItems_append : ∀ {a b : List Item} {x y : List WSection}, RepItems a x → RepItems b y → RepItems (a ++ b) (x ++ y)
  | [], _, [], _, _, h => h
  | [], _, _ :: _, _, h, _ => by simp [RepItems] at h
  | _ :: _, _, [], _, h, _ => by simp [RepItems] at h
  | _ :: _, _, _ :: _, _, h, h' => ⟨h.1, repItems_append h.2 h'⟩

end Birch.Proofs.Wire
