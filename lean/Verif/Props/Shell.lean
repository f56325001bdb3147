import Verif.Proofs.Shell
import Verif.Props.Registry

/-
C46 (documents of the shell package), C54 (answers of the shell service).
-/

namespace Birch.Props
open Birch Model Model.Wire Model.Registry Model.Shell Spec Spec.Wire Spec.Registry Spec.Shell Proofs Proofs.Wire Proofs.Shell

/-! ### C46 -/

/-- The document of an error response has the fields `ok` and `errmsg`; unmarshaling it, or what is read from its bytes, into any response gives the response. -/
theorem C46_error (r q : ErrorResponse) (h : Kept r.ok) (hs : Small (errorFields r .nil)) :
    ∃ d, marshalError r = .ok d ∧ RepFields d (errorFields r .nil) ∧ unmarshalError q d = .ok r ∧
      ∃ b d', Returns (fun fuel => docMarshal fuel d) (.ok b) ∧ Returns (fun fuel => readDocument fuel b) (.ok d') ∧ unmarshalError q d' = .ok r := by
  obtain ⟨d, e, hd⟩ := marshalError_rep h (small_error hs).1 (d' := []) (rest := .nil) trivial
  rw [List.append_nil] at hd
  exact ⟨d, e, hd, through hd hs fun d' hd' => unmarshalError_rep hd' trivial⟩

example : Kept 1 ∧ Small (errorFields ⟨1, [110, 111]⟩ .nil) := by unfold Kept Small; decide +kernel

/-- the same for the response to `isMaster` -/
theorem C46_isMaster (r q : IsMasterResponse) (h : Kept r.error.ok) (h1 : Kept r.minWireVersion) (h2 : Kept r.maxWireVersion) (hs : Small (isMasterFields r)) :
    ∃ d, marshalIsMaster r = .ok d ∧ RepFields d (isMasterFields r) ∧ unmarshalIsMaster q d = .ok r ∧
      ∃ b d', Returns (fun fuel => docMarshal fuel d) (.ok b) ∧ Returns (fun fuel => readDocument fuel b) (.ok d') ∧ unmarshalIsMaster q d' = .ok r := by
  obtain ⟨d, e, hd⟩ := marshalIsMaster_rep h h1 h2 (small_error hs).1
  exact ⟨d, e, hd, through hd hs fun d' hd' => unmarshalIsMaster_rep hd'⟩

example : Kept 2147483647 ∧ Kept (-5) ∧ Small (isMasterFields ⟨⟨1, []⟩, -5, 2147483647⟩) := by unfold Kept Small; decide +kernel

/-- the same for the responses to `whatsmyuri` (`you`) and `buildInfo` (`version`) -/
theorem C46_text (name : Bytes) (hn : name = [121, 111, 117] ∨ name = [118, 101, 114, 115, 105, 111, 110]) (r q : TextResponse) (h : Kept r.error.ok)
    (hs : Small (textFields name r)) :
    ∃ d, marshalText name r = .ok d ∧ RepFields d (textFields name r) ∧ unmarshalText name q d = .ok r ∧
      ∃ b d', Returns (fun fuel => docMarshal fuel d) (.ok b) ∧ Returns (fun fuel => readDocument fuel b) (.ok d') ∧ unmarshalText name q d' = .ok r := by
  have hx : NulFree name ∧ name.length < 10 ∧ name ≠ kOk ∧ name ≠ kErrmsg := by
    rcases hn with rfl | rfl <;> simp [NulFree, kOk, kErrmsg]
  have hl := small_error hs
  simp [Fields.enc, BVal.enc] at hl
  obtain ⟨d, e, hd⟩ := marshalText_rep hx.1 hx.2.1 h hl.1 (by omega)
  exact ⟨d, e, hd, through hd hs fun d' hd' => unmarshalText_rep hx.2.2.1 hx.2.2.2 hd'⟩

example : Small (textFields [121, 111, 117] ⟨⟨1, []⟩, [49, 58, 50]⟩) := by unfold Small; decide +kernel

/-- The document of the response to `getLog` has the lines of the log; but unmarshaling gives only the error response, and the log that was there before.
    Missing: the log. -/
theorem C46_log_partial (r q : LogResponse) (h : Kept r.error.ok) (hs : Small (logFields r)) (fuel : Nat) :
    ∃ d, marshalLog r = .ok d ∧ RepFields d (logFields r) ∧ unmarshalLog fuel q d = .ok ⟨r.error, q.log⟩ ∧
      ∃ b d', Returns (fun fuel => docMarshal fuel d) (.ok b) ∧ Returns (fun fuel => readDocument fuel b) (.ok d') ∧ unmarshalLog fuel q d' = .ok ⟨r.error, q.log⟩ := by
  have hl := small_error hs
  obtain ⟨d, e, hd⟩ := marshalLog_rep h hl.1 (fun s hs' => by
    have := strings_length (n := 0) hs'
    simp [Fields.enc, BVal.enc, wrapDoc_length] at hl
    omega)
  exact ⟨d, e, hd, through hd hs fun d' hd' => unmarshalLog_rep hd'⟩

example : Small (logFields ⟨⟨1, []⟩, [[97], [98, 99]]⟩) := by unfold Small; decide +kernel

/-- `makeGetLogResponse` makes a response that is ok, with the lines that it is given. -/
theorem C46_log_made (log : List Bytes) (hs : Small (logFields ⟨⟨1, []⟩, log⟩)) : ∃ d, marshalLog (makeLog log) = .ok d ∧ RepFields d (logFields ⟨⟨1, []⟩, log⟩) := by
  obtain ⟨d, h1, h2, _⟩ := C46_log_partial ⟨⟨1, []⟩, log⟩ ⟨⟨0, []⟩, []⟩ (show Kept 1 by unfold Kept; decide) hs 0
  exact ⟨d, h1, h2⟩

example : ∃ d, marshalLog (makeLog [[97], [98, 99]]) = .ok d ∧ RepFields d (logFields ⟨⟨1, []⟩, [[97], [98, 99]]⟩) :=
  C46_log_made _ (by unfold Small; decide +kernel)

/-- So a log that is not empty is lost. -/
theorem C46_log_lost (r : LogResponse) (h : Kept r.error.ok) (hs : Small (logFields r)) (hl : r.log ≠ []) (fuel : Nat) :
    ∃ d r', marshalLog r = .ok d ∧ unmarshalLog fuel ⟨⟨0, []⟩, []⟩ d = .ok r' ∧ r'.log = [] ∧ r' ≠ r := by
  obtain ⟨d, h1, -, h2, -⟩ := C46_log_partial r ⟨⟨0, []⟩, []⟩ h hs fuel
  exact ⟨d, _, h1, h2, rfl, fun e => hl (by rw [← e])⟩

/-- The number of a response below -2^31 comes back as another one. -/
theorem C46_int_truncated (r q : ErrorResponse) (h0 : -9223372036854775808 ≤ r.ok) (h1 : r.ok < -2147483648) (hs : Small (errorFields r .nil)) :
    ∃ d r', marshalError r = .ok d ∧ unmarshalError q d = .ok r' ∧ r'.message = r.message ∧ r'.ok ≠ r.ok := by
  have hk : Kept (i32 r.ok) := by unfold Kept i32; omega
  have e : EC.int kOk (i32 r.ok) = EC.int kOk r.ok ∨ i32 r.ok = 2147483647 := by
    by_cases hi : i32 r.ok = 2147483647
    · exact .inr hi
    · left
      unfold EC.int
      rw [if_pos (by unfold i32 at *; omega), if_pos (by omega)]
      congr 1
      unfold i32; omega
  rcases e with e | e
  · obtain ⟨d, h2, h3⟩ := marshalError_rep (r := ⟨i32 r.ok, r.message⟩) hk (small_error hs).1 (d' := []) (rest := .nil) trivial
    rw [List.append_nil] at h3
    refine ⟨d, _, ?_, unmarshalError_rep h3 trivial, rfl, ?_⟩
    · unfold marshalError at h2 ⊢
      rw [← h2, ← e]
    · show i32 r.ok ≠ r.ok
      unfold i32; omega
  · -- the value is written as a 32-bit integer all the same
    obtain ⟨a, ha, hra⟩ := buildVal_rep kOk (.int32 2147483647) (by simp [NulFree, kOk]) (by simp only [BVal.WF]; omega) (by simp [BVal.enc, kOk])
    obtain ⟨b, e2, r2⟩ := string_ok (k := kErrmsg) (s := r.message) (by simp [NulFree, kErrmsg]) (by have := (small_error hs).1; simp [kErrmsg]; omega)
    have ha : EC.int32 kOk 2147483647 = .ok a := ha
    refine ⟨[a, b], ⟨2147483647, r.message⟩, ?_, ?_, rfl, ?_⟩
    · unfold marshalError EC.int
      rw [if_pos (by omega), e, ha, Res.bind_ok, e2, Res.bind_ok]
    · have k1 : key a = .ok kOk := key_rep hra
      have k2 : key b = .ok kErrmsg := key_rep r2
      have f : (kErrmsg = kOk) = False := by simp [kErrmsg, kOk]
      simp only [unmarshalError, k1, k2, f, Res.bind_ok, (C09_int a kOk _ hra).1 2147483647 (.inl rfl), Registry.stringOK_rep r2, if_true, if_false]
    · show (2147483647 : Int) ≠ _
      omega

example : Small (errorFields ⟨-3000000000, []⟩ .nil) := by unfold Small; decide +kernel

/-- `SuccessOrError` of what comes back is an error exactly if the response had a message or was not ok. -/
theorem C46_success (r q : ErrorResponse) (h : Kept r.ok) (hs : Small (errorFields r .nil)) :
    ∃ d r', marshalError r = .ok d ∧ unmarshalError q d = .ok r' ∧ (successOrError r' = none ↔ r.message = [] ∧ r.ok ≠ 0) ∧
      (r.message ≠ [] → successOrError r' = some r.message) := by
  obtain ⟨d, h1, -, h2, -⟩ := C46_error r q h hs
  refine ⟨d, r, h1, h2, ?_, ?_⟩
  · unfold successOrError
    by_cases hm : r.message = [] <;> by_cases ho : r.ok = 0 <;> simp [hm, ho]
  · intro hm
    unfold successOrError
    rw [if_pos hm]

/-- Whatever document a response is unmarshaled from, in whatever response: its fields are taken in one after the other, those of other names are passed over, and
    there is an error, not a panic, exactly if one of its fields has another type than the response needs. -/
theorem C46_any (d : Doc) (fs : Fields) (h : RepFields d fs) (hs : Small fs) :
    (∀ q : ErrorResponse, match takeIn takeError q fs with
      | some r => unmarshalError q d = .ok r
      | none => ∃ e, unmarshalError q d = .err e) ∧
    (∀ q : IsMasterResponse, match takeIn takeIsMaster q fs with
      | some r => unmarshalIsMaster q d = .ok r
      | none => ∃ e, unmarshalIsMaster q d = .err e) ∧
    (∀ name, name = [121, 111, 117] ∨ name = [118, 101, 114, 115, 105, 111, 110] → ∀ q : TextResponse, match takeIn (takeText name) q fs with
      | some r => unmarshalText name q d = .ok r
      | none => ∃ e, unmarshalText name q d = .err e) ∧
    ∀ q : LogResponse, match takeIn takeLog q fs with
      | some r => Returns (fun fuel => unmarshalLog fuel q d) (.ok r)
      | none => ∃ e, Returns (fun fuel => unmarshalLog fuel q d) (.err e) := by
  refine ⟨fun q => ?_, fun q => ?_, fun name hn q => ?_, fun q => ?_⟩
  · rw [unmarshalError_takes h]
    cases takeIn takeError q fs with
    | none => exact ⟨_, rfl⟩
    | some r => rfl
  · rw [unmarshalIsMaster_takes h]
    cases takeIn takeIsMaster q fs with
    | none => exact ⟨_, rfl⟩
    | some r => rfl
  · rw [unmarshalText_takes (by rcases hn with rfl | rfl <;> decide) h]
    cases takeIn (takeText name) q fs with
    | none => exact ⟨_, rfl⟩
    | some r => rfl
  · have : Returns (fun fuel => unmarshalLog fuel q d) (Proofs.Shell.orErr (takeIn takeLog q fs)) :=
      ⟨(encDoc fs).length + 1, fun m hm => unmarshalLog_takes h hs (by omega)⟩
    revert this
    cases takeIn takeLog q fs with
    | none => exact fun h => ⟨_, h⟩
    | some r => exact id

/-- `{ok: 1, version: ["a", "b"], ok: 0}` is a log of two lines that is not ok, and no answer to `buildInfo` -/
def exLog : Fields := .cons [111, 107] (.int64 1) (.cons [118, 101, 114, 115, 105, 111, 110]
  (.array (.cons (.string [97]) (.cons (.string [98]) .nil))) (.cons [111, 107] (.int32 0) .nil))
example : (∃ d, RepFields d exLog) ∧ Small exLog ∧ takeIn takeLog ⟨⟨7, []⟩, []⟩ exLog = some ⟨⟨0, []⟩, [[97], [98]]⟩ ∧
    takeIn (takeText [118, 101, 114, 115, 105, 111, 110]) ⟨⟨7, []⟩, []⟩ exLog = none := by
  refine ⟨?_, by unfold Small; decide +kernel, by decide, by decide⟩
  obtain ⟨d, -, h⟩ := buildDoc_rep exLog (by simp [exLog, Fields.WF, BVal.WF, Vals.WF, NulFree]) (by decide)
  exact ⟨d, h⟩

/-! ### C54 -/

/-- A shell service registers a handler for each command and both kinds of request, in whatever order the map is visited, unless one of them has a handler
    already; then it fails.  Other scopes keep the handlers they had. -/
theorem C54_registers (order : List (Bytes × Handler)) (hp : order.Perm handlers) (cs : List (Scope × Option Handler)) :
    ((∀ p ∈ handlers, ∀ t : Int, (t = 2010 ∨ t = 2013) → ∀ x, ¬ Registered cs ⟨t, [], p.1, none⟩ x) →
      ∃ o, registerHandlers (Ops.new.run cs) order = .ok o ∧
        (∀ p ∈ handlers, ∀ t : Int, (t = 2010 ∨ t = 2013) → ∀ db, (∀ x, ¬ Registered cs ⟨t, db, p.1, none⟩ x) → o.get ⟨t, db, p.1, none⟩ = some p.2) ∧
        ∀ s : Scope, (∀ p ∈ handlers, s.command ≠ p.1) → o.get s = (Ops.new.run cs).get s) ∧
    ((∃ p ∈ handlers, ∃ t : Int, (t = 2010 ∨ t = 2013) ∧ ∃ x, Registered cs ⟨t, [], p.1, none⟩ x) → ∃ e, registerHandlers (Ops.new.run cs) order = .err e) := by
  have hn : (order.map (·.1)).Nodup := (hp.map _).nodup_iff.mpr handlers_nodup
  have none : ∀ {o : Ops Handler} {cs : List (Scope × Option Handler)} {s : Scope}, Proofs.Registry.Holds o cs → (∀ h, ¬ Registered cs s h) → o.at s = none := by
    intro o cs s ho hs
    cases e : o.at s with
    | none => rfl
    | some h => exact absurd ((ho.2 s h).mp e) (hs h)
  constructor
  · intro hf
    have hf' : ∀ p ∈ order, p.1 ≠ [] ∧ Free cs p.1 := fun p h => ⟨handlers_named p (hp.mem_iff.mp h), hf p (hp.mem_iff.mp h)⟩
    obtain ⟨o, h1, h2⟩ := register_ok (Proofs.Registry.history cs) hf' hn
    refine ⟨o, h1, ?_, ?_⟩
    · intro p hm t ht db hx
      have hm' := hp.mem_iff.mpr hm
      have hr := registered_adds hm' (hf' p hm').1 (hf' p hm').2 hn ht
      unfold Ops.get
      by_cases hdb : db = []
      · subst hdb
        rw [(h2.2 _ _).mpr hr]
      · rw [none h2 (fun x hx' => hx x ((registered_before (fun _ _ c => absurd c hdb) x).mp hx'))]
        exact (h2.2 _ _).mpr hr
    · intro s hs
      have same : ∀ s : Scope, (∀ p ∈ handlers, s.command ≠ p.1) → o.at s = (Ops.new.run cs).at s := by
        intro s hs
        cases e : (Ops.new.run cs).at s with
        | some h => exact (h2.2 s h).mpr ((registered_before (fun p hm _ => hs p (hp.mem_iff.mp hm)) h).mpr (((Proofs.Registry.history cs).2 s h).mp e))
        | none =>
          refine none h2 fun x hx => ?_
          rw [registered_before (fun p hm _ => hs p (hp.mem_iff.mp hm))] at hx
          rw [((Proofs.Registry.history cs).2 s x).mpr hx] at e
          cases e
      unfold Ops.get
      rw [same s hs, same ⟨s.type, [], s.command, s.payload⟩ hs]
  · rintro ⟨p, hm, t, ht, x, hx⟩
    exact register_err (Proofs.Registry.history cs) ⟨p, hp.mem_iff.mpr hm, fun hf => hf t ht x hx⟩

example : handlers.reverse.Perm handlers := List.reverse_perm _

/-- `m` is serialized, sent in one piece, and read as `m'`. -/
def Carried (fuel : Nat) (m m' : Message) : Prop :=
  ∃ b m1, m.serialize fuel = .ok (b, m1) ∧ readMessage fuel [] ⟨[b], false⟩ = (.ok m', ⟨[], false⟩, [])

theorem carried {m : Message} {w : WMsg} (hm : RepMsg m w) (hfr : Fresh m) (hh : HeaderFor m.header w 19 0) (wf : w.WF) (hu : ¬ w.Upconverted)
    (hl : (w.enc 1 19 0).length ≤ 209715200) {fuel : Nat} (hf : (w.enc 1 19 0).length < fuel) :
    ∃ m', Carried fuel m m' ∧ RepMsg m' w ∧ m'.header.opCode = w.code ∧ m'.header.requestID = 19 ∧ m'.header.responseTo = 0 := by
  obtain ⟨m1, h1, -, -⟩ := C40_serialize m w 19 0 hm hfr hh wf (by omega) fuel hf
  have hlen := enc_length 1 19 0 w
  obtain ⟨m', h2, h3, h4⟩ := parse_rep (kind := 1) (by omega) (h := ⟨(w.enc 1 19 0).length, 19, 0, w.code⟩) rfl wf hu (by omega) (show _ < fuel by omega)
  have h5 := finishRead_body (kind := 1) (w := w) (rid := 19) (rto := 0) (by unfold I32; omega) (by unfold I32; omega) (fuel := fuel) (by omega) hl
  rw [h2] at h5
  refine ⟨m', ⟨_, m1, h1, h5⟩, h3, ?_⟩
  rw [h4]
  cases w <;> simp [parsed]

/-- A request for one of the commands, sent to the service, is dispatched to the handler of the command, and the answer, sent back, says what the command answers. -/
theorem C54_answered (order : List (Bytes × Handler)) (hp : order.Perm handlers) (o : Ops Handler) (ho : registerHandlers Ops.new order = .ok o)
    (addr : Bytes) (ha : addr.length ≤ 209715000) (name : Bytes) (h : Handler) (hn : name ∈ commands h) (v : BVal) (fs : Fields) (d : Doc)
    (hd : RepFields d (.cons name v fs)) (hl : (encDoc (.cons name v fs)).length ≤ 209715000) (t : Int) (fuel : Nat) (hf : 209715200 < fuel) :
    ∃ req req' ans ans' d' d'', requestToMessage fuel t d = .ok req ∧ Carried fuel req req' ∧
      requestMessageToDocument req' = .ok (some d') ∧ RepFields d' (.cons name v fs) ∧ dispatch o req' = .ok (some h) ∧
      handle fuel addr h req'.header.opCode = .ok ans ∧ Carried fuel ans ans' ∧
      responseMessageToDocument ans' = .ok (some d'') ∧ RepFields d'' (answer addr h) := by
  have hn := commands_handlers hn
  have wf := repFields_wf hd
  obtain ⟨o', e1, hget, -⟩ := (C54_registers order hp []).1 (by intro p _ t _ x hx; obtain ⟨-, b, a, e, -⟩ := hx; simp at e)
  have : o' = o := by
    have e1 : registerHandlers Ops.new order = .ok o' := e1
    rw [ho] at e1; cases e1; rfl
  subst this
  have hget' : ∀ t : Int, (t = 2010 ∨ t = 2013) → ∀ db, o'.get ⟨t, db, name, none⟩ = some h := fun t ht db =>
    hget (name, h) hn t ht db (by intro x hx; obtain ⟨-, b, a, e, -⟩ := hx; simp at e)
  have back : ∀ t : Int, ∃ ans ans' d'', handle fuel addr h t = .ok ans ∧ Carried fuel ans ans' ∧ responseMessageToDocument ans' = .ok (some d'') ∧
      RepFields d'' (answer addr h) := by
    intro t
    obtain ⟨m, h1, h2, h3, h4⟩ := answer_ok (show addr.length < 2147483628 by omega) h fuel t
    obtain ⟨d0, hd0, r0⟩ := respDoc h2
    have hlen : (encDoc (answer addr h)).length ≤ addr.length + 140 := by
      cases h <;> simp [answer, isMasterFields, textFields, logFields, errorFields, encDoc, wrapDoc_length, Fields.enc, BVal.enc, ofInt, strings, Vals.encFrom] <;> omega
    have hlen' := respMsg_length t (answer addr h) 1
    obtain ⟨m', c1, c2, -⟩ := carried h2 h3 h4 (respMsg_wf t (repFields_wf r0)) (respMsg_up t _) (by omega) (show _ < fuel by omega)
    obtain ⟨d'', e, r⟩ := respDoc c2
    exact ⟨m, m', d'', h1, c1, e, r⟩
  by_cases ht : t = 2013
  · obtain ⟨m, h1, h2, h3, h4⟩ := opMessage_rep (fuel := fuel) hd
    have hlen := respMsg_length 2013 (.cons name v fs) 1
    have hw : respMsg 2013 (.cons name v fs) = .msg 0 [.body (.cons name v fs)] none := by unfold respMsg; rw [if_pos rfl]
    rw [hw] at hlen
    have wf' : (WMsg.msg 0 [.body (.cons name v fs)] none).WF := by have := respMsg_wf 2013 wf; rwa [hw] at this
    obtain ⟨m', c1, c2, c3, -⟩ := carried h2 h3 h4 wf' id (by omega) (show _ < fuel by omega)
    obtain ⟨ans, ans', d'', b1, b2, b3, b4⟩ := back m'.header.opCode
    have sc := Proofs.Registry.scope_rep c2 c3 (by simp [HasName, bodyOf])
    have : ∃ d', requestMessageToDocument m' = .ok (some d') ∧ RepFields d' (.cons name v fs) := by
      have c2' : RepMsg m' (respMsg 2013 (.cons name v fs)) := by rw [hw]; exact c2
      cases m' with
      | msg hd s f db c o is ck => exact respDoc c2'
      | _ => simp [RepMsg] at c2
    obtain ⟨d', q1, q2⟩ := this
    refine ⟨m, m', ans, ans', d', d'', ?_, c1, q1, q2, ?_, b1, b2, b3, b4⟩
    · unfold requestToMessage
      rw [if_pos (show t = OP_MSG from ht)]
      exact h1
    · unfold dispatch
      rw [sc]
      simp only [Res.bind_ok, scopeOf, bodyOf]
      rw [hget' 2013 (.inr rfl)]
  · have hm : RepMsg (newQuery requestNamespace 0 0 1 (some d) (some [])) (.query 0 requestNamespace 0 1 (.cons name v fs) (some .nil)) :=
      ⟨_, some .nil, rfl, ⟨d, rfl, hd⟩, ⟨[], rfl, trivial⟩⟩
    have wf' : (WMsg.query 0 requestNamespace 0 1 (.cons name v fs) (some .nil)).WF := by
      simp only [WMsg.WF, I32]
      refine ⟨by omega, by simp [NulFree, requestNamespace], by omega, by omega, wf, by simp [Fields.WF]⟩
    have hlen := enc_length 1 19 0 (.query 0 requestNamespace 0 1 (.cons name v fs) (some .nil))
    have hlen' : ((WMsg.query 0 requestNamespace 0 1 (.cons name v fs) (some .nil)).body 1).length = 27 + (encDoc (.cons name v fs)).length := by
      simp [WMsg.body, Wire.int32, docs, encDoc, wrapDoc_length, Fields.enc, requestNamespace, cstring]; omega
    obtain ⟨m1, s1, -, -⟩ := C40_serialize _ _ 19 0 hm trivial ⟨rfl, rfl, rfl⟩ wf' (by omega) fuel (by omega)
    have s2 := finishRead_body (kind := 1) (w := .query 0 requestNamespace 0 1 (.cons name v fs) (some .nil)) (rid := 19) (rto := 0)
      (by unfold I32; omega) (by unfold I32; omega) (fuel := fuel) (by omega) (by omega)
    obtain ⟨d', q1, q2⟩ := C40_query_upconverted ⟨((WMsg.query 0 requestNamespace 0 1 (.cons name v fs) (some .nil)).enc 1 19 0).length, 19, 0, 2004⟩ rfl 0 0 1
      [109, 114, 112, 99] [99, 109, 100] (by simp) name v fs (some .nil) wf' (by rw [show [109, 114, 112, 99] ++ 46 :: 36 :: [99, 109, 100] = requestNamespace from rfl]; omega)
      fuel (by rw [show [109, 114, 112, 99] ++ 46 :: 36 :: [99, 109, 100] = requestNamespace from rfl]; omega)
    have q2 : parse fuel ⟨((WMsg.query 0 requestNamespace 0 1 (.cons name v fs) (some .nil)).enc 1 19 0).length, 19, 0, 2004⟩
      ((WMsg.query 0 requestNamespace 0 1 (.cons name v fs) (some .nil)).body 1) = _ := q2
    obtain ⟨ans, ans', d'', b1, b2, b3, b4⟩ := back 2010
    refine ⟨_, .command ⟨0, 19, 0, 2010⟩ [109, 114, 112, 99] name (some d') none [] true, ans, ans', d', d'', ?_, ⟨_, m1, s1, ?_⟩, rfl, q1, ?_, b1, b2, b3, b4⟩
    · unfold requestToMessage
      rw [if_neg (show ¬ t = OP_MSG from ht)]
    · rw [s2]
      rw [show ((WMsg.query 0 requestNamespace 0 1 (.cons name v fs) (some .nil)).code : Int) = 2004 from rfl, q2]
    · unfold dispatch
      simp only [scope, Res.bind_ok]
      rw [hget' 2010 (.inl rfl)]

/-- Of the sections of an OP_MSG, the first body is the request or the answer, also behind document sequences; there is an error if there is none. -/
theorem C54_first_body (flags : Nat) (ss : List WSection) (c : Option Int) (m : Message) (hm : RepMsg m (.msg flags ss c)) :
    (∀ fs, ss.findSome? (fun s => match s with | .body fs => some fs | _ => none) = some fs →
      ∃ d, RepFields d fs ∧ requestMessageToDocument m = .ok (some d) ∧ responseMessageToDocument m = .ok (some d)) ∧
    (ss.findSome? (fun s => match s with | .body fs => some fs | _ => none) = none →
      requestMessageToDocument m = .err .other ∧ responseMessageToDocument m = .err .other) := by
  cases m with
  | msg hd s f db cl o is ck =>
    obtain ⟨ss', cs, e, h, -⟩ := hm
    cases e
    simp only [requestMessageToDocument, responseMessageToDocument]
    induction ss generalizing is with
    | nil =>
      match is, h with
      | [], _ => exact ⟨by simp, fun _ => ⟨rfl, rfl⟩⟩
    | cons s ss ih =>
      match is, s, h with
      | .body d :: is, .body fs, ⟨⟨d', e, h⟩, _⟩ =>
        subst e
        refine ⟨fun fs' he => ?_, by simp⟩
        simp only [List.findSome?_cons, Option.some.injEq] at he
        subst he
        exact ⟨d', h, rfl, rfl⟩
      | .sequence _ _ _ :: is, .sequence _ _, ⟨_, h⟩ => exact ih is h
  | _ => simp [RepMsg] at hm

example : RepMsg (.msg ⟨0, 19, 0, 2013⟩ [] 0 [] [] [] [.sequence 0 [115] [], .body (some [])] 0) (.msg 0 [.sequence [115] [], .body .nil] none) :=
  ⟨_, _, rfl, ⟨⟨rfl, trivial⟩, ⟨[], rfl, trivial⟩, trivial⟩, rfl, rfl, rfl, rfl⟩

/-- `{isMaster: 1}` -/
example : ∃ o, registerHandlers Ops.new handlers = .ok o ∧ ([105, 115, 77, 97, 115, 116, 101, 114] : Bytes) ∈ commands .isMaster ∧
    (encDoc (.cons [105, 115, 77, 97, 115, 116, 101, 114] (.int32 1) .nil)).length ≤ 209715000 := by
  obtain ⟨o, h, -⟩ := (C54_registers handlers (.refl _) []).1 (by intro p _ t _ x hx; obtain ⟨-, b, a, e, -⟩ := hx; simp at e)
  exact ⟨o, h, by decide, by decide +kernel⟩

/-- The request or the answer in a message of the other kinds: the arguments of a command, the reply of a command reply, the first document of a reply;
    an error otherwise.  But a reply without documents, which a server may send, panics. -/
theorem C54_kinds (m : Message) (w : WMsg) (hm : RepMsg m w) :
    match w with
    | .msg .. => True
    | .command _ _ args _ _ => (∃ d, RepFields d args ∧ requestMessageToDocument m = .ok (some d)) ∧ responseMessageToDocument m = .err .other
    | .commandReply r _ _ => (∃ d, RepFields d r ∧ responseMessageToDocument m = .ok (some d)) ∧ requestMessageToDocument m = .err .other
    | .reply _ _ _ _ docs => requestMessageToDocument m = .err .other ∧ (match docs with
      | [] => responseMessageToDocument m = .panic
      | fs :: _ => ∃ d, RepFields d fs ∧ responseMessageToDocument m = .ok (some d))
    | _ => requestMessageToDocument m = .err .other ∧ responseMessageToDocument m = .err .other := by
  cases m with
  | msg => obtain ⟨_, _, rfl, -⟩ := hm; trivial
  | command =>
    obtain ⟨_, _, _, rfl, ⟨d, rfl, h⟩, -⟩ := hm
    exact ⟨⟨d, h, rfl⟩, rfl⟩
  | commandReply =>
    obtain ⟨_, _, _, rfl, ⟨d, rfl, h⟩, -⟩ := hm
    exact ⟨⟨d, h, rfl⟩, rfl⟩
  | reply _ _ _ _ _ ds =>
    obtain ⟨fss, rfl, h⟩ := hm
    refine ⟨rfl, ?_⟩
    match ds, fss, h with
    | [], [], _ => rfl
    | d :: _, fs :: _, ⟨h, _⟩ => exact ⟨d, h, rfl⟩
  | update => obtain ⟨_, _, rfl, -⟩ := hm; exact ⟨rfl, rfl⟩
  | query => obtain ⟨_, _, rfl, -⟩ := hm; exact ⟨rfl, rfl⟩
  | getMore => obtain ⟨rfl, -⟩ := hm; exact ⟨rfl, rfl⟩
  | insert => obtain ⟨_, rfl, -⟩ := hm; exact ⟨rfl, rfl⟩
  | delete => obtain ⟨_, rfl, -⟩ := hm; exact ⟨rfl, rfl⟩
  | killCursors => obtain ⟨rfl, -⟩ := hm; exact ⟨rfl, rfl⟩

/-- a reply without documents, as a server sends it for a cursor that is not found -/
example := C54_kinds (.reply ⟨36, 5, 19, 1⟩ 1 0 0 0 []) (.reply 1 0 0 0 []) ⟨[], rfl, trivial⟩
example := C54_kinds (.reply ⟨41, 5, 19, 1⟩ 8 0 0 1 [[]]) (.reply 8 0 0 1 [.nil]) ⟨[.nil], rfl, trivial, trivial⟩

/-- The answer of every handler names request 0, whatever the request. -/
theorem C54_response_to (fuel : Nat) (addr : Bytes) (h : Handler) (t : Int) (m : Message) (hm : handle fuel addr h t = .ok m) :
    m.header.responseTo = 0 ∧ m.header.requestID = 19 := by
  have resp : ∀ (d : Doc) (m : Message), responseToMessage fuel t d = .ok m → m.header.responseTo = 0 ∧ m.header.requestID = 19 := by
    intro d m h
    unfold responseToMessage at h
    split at h
    · have : newOpMessage fuel false [d] [] = .ok (.msg ⟨0, 19, 0, OP_MSG⟩ [] 0 [] [] [] [.body (some d)] 0) := rfl
      rw [this] at h
      cases h
      exact ⟨rfl, rfl⟩
    · cases h
      exact ⟨rfl, rfl⟩
  cases h <;> simp only [handle, statusMessage, Res.bind_eq_ok] at hm <;> (obtain ⟨d, -, h⟩ := hm; exact resp d m h)

end Birch.Props
