import Verif.Spec.Shell
import Verif.Proofs.Events
import Verif.Proofs.Registry
import Verif.Proofs.Search
import Verif.Proofs.WireSock
import Verif.Props.Wire
import Verif.Props.Values

namespace Birch.Proofs.Shell
open Birch Model Model.Wire Model.Registry Model.Shell Spec Spec.Wire Spec.Registry Spec.Shell Proofs Proofs.Wire Proofs.Ftdc Proofs.Events Proofs.Registry

/-! ### documents -/

theorem intOK_ofInt {v : Value} {k : Bytes} {i : Int} (h : Rep v k (ofInt i)) : intOK v = .ok (some i) := by
  have e : intOK v = if (ofInt i).tag ≠ 0x12 ∧ (ofInt i).tag ≠ 0x10 then .ok none else (int v >>= fun j => .ok (some j)) := by
    unfold intOK
    rw [if_neg (rep_offset h), (rep_key h).2.1]; rfl
  rw [e]
  unfold ofInt at h ⊢
  by_cases hi : i < 2147483647
  · rw [if_pos hi] at h ⊢
    have e32 : int32OK v = .ok (some i) := by
      have : int32OK v = if (BVal.int32 i).tag ≠ 0x10 then .ok none else (int32 v >>= fun j => .ok (some j)) := by
        unfold int32OK okVariant
        rw [if_neg (rep_offset h), (rep_key h).2.1]; rfl
      rw [this, int32_rep h]; rfl
    unfold int
    rw [e32]; rfl
  · rw [if_neg hi] at h ⊢
    have e32 : int32OK v = .ok none := by
      have : int32OK v = if (BVal.int64 i).tag ≠ 0x10 then .ok none else (int32 v >>= fun j => .ok (some j)) := by
        unfold int32OK okVariant
        rw [if_neg (rep_offset h), (rep_key h).2.1]; rfl
      rw [this]; rfl
    have e64 : int64OK v = .ok (some i) := by
      have : int64OK v = if (BVal.int64 i).tag ≠ 0x12 then .ok none else (int64 v >>= fun j => .ok (some j)) := by
        unfold int64OK okVariant
        rw [if_neg (rep_offset h), (rep_key h).2.1]; rfl
      rw [this, int64_rep h]; rfl
    unfold int
    rw [e32, Res.bind_ok, e64]; rfl

theorem int_ok {k : Bytes} {i : Int} (hk : NulFree k) (hl : k.length < 100) (h : Kept i) : ∃ v, EC.int k i = .ok v ∧ Rep v k (ofInt i) := by
  unfold Kept at h
  unfold EC.int ofInt
  by_cases hi : i < 2147483647
  · rw [if_pos hi, if_pos hi]
    obtain ⟨v, hv, hr⟩ := buildVal_rep k (.int32 i) hk (by simp only [BVal.WF]; omega) (by simp [BVal.enc]; omega)
    have e : i32 i = i := by unfold i32; omega
    exact ⟨v, by rw [e]; simpa only [buildVal] using hv, hr⟩
  · rw [if_neg hi, if_neg hi]
    exact int64_ok hk hl (by unfold Spec.Events.IsInt64; omega)

theorem string_ok {k s : Bytes} (hk : NulFree k) (hl : k.length + s.length + 10 < 2147483648) : ∃ v, EC.string k s = .ok v ∧ Rep v k (.string s) := by
  obtain ⟨v, hv, hr⟩ := buildVal_rep k (.string s) hk (by simp only [BVal.WF]) (by simp [BVal.enc]; omega)
  exact ⟨v, by simpa only [buildVal] using hv, hr⟩

theorem marshalError_rep {r : ErrorResponse} (h : Kept r.ok) (hl : r.message.length < 2147483628) {d' : Doc} {rest : Fields} (hd : RepFields d' rest) :
    ∃ d, marshalError r = .ok d ∧ RepFields (d ++ d') (errorFields r rest) := by
  obtain ⟨a, e1, r1⟩ := int_ok (k := kOk) (by simp [NulFree, kOk]) (by decide) h
  obtain ⟨b, e2, r2⟩ := string_ok (k := kErrmsg) (s := r.message) (by simp [NulFree, kErrmsg]) (by simp [kErrmsg]; omega)
  refine ⟨[a, b], ?_, r1, r2, hd⟩
  unfold marshalError
  rw [e1, Res.bind_ok, e2, Res.bind_ok]

/-- the other fields do not have the names of the fields of an error response -/
def Apart : Fields → Prop
  | .nil => True
  | .cons k _ fs => k ≠ kOk ∧ k ≠ kErrmsg ∧ Apart fs

theorem unmarshalError_rest {r : ErrorResponse} : ∀ {d : Doc} {fs : Fields}, RepFields d fs → Apart fs → unmarshalError r d = .ok r
  | [], .nil, _, _ => rfl
  | v :: d, .cons k t fs, h, ha => by
    simp only [RepFields] at h
    simp only [Apart] at ha
    simp only [unmarshalError, key_rep h.1, Res.bind_ok, ha.1, ha.2.1, if_false]
    exact unmarshalError_rest h.2 ha.2.2
  | [], .cons .., h, _ => by simp [RepFields] at h
  | _ :: _, .nil, h, _ => by simp [RepFields] at h

theorem unmarshalError_rep {q r : ErrorResponse} {d : Doc} {rest : Fields} (h : RepFields d (errorFields r rest)) (ha : Apart rest) :
    unmarshalError q d = .ok r := by
  obtain ⟨v1, d, rfl, r1, h⟩ := repFields_cons h
  obtain ⟨v2, d, rfl, r2, h⟩ := repFields_cons h
  have k1 : key v1 = .ok kOk := key_rep r1
  have k2 : key v2 = .ok kErrmsg := key_rep r2
  have f : (kErrmsg = kOk) = False := by simp [kErrmsg, kOk]
  simp only [unmarshalError, k1, k2, f, Res.bind_ok, intOK_ofInt r1, stringOK_rep r2, if_true, if_false]
  exact unmarshalError_rest h ha

theorem marshalIsMaster_rep {r : IsMasterResponse} (h : Kept r.error.ok) (h1 : Kept r.minWireVersion) (h2 : Kept r.maxWireVersion)
    (hl : r.error.message.length < 2147483628) : ∃ d, marshalIsMaster r = .ok d ∧ RepFields d (isMasterFields r) := by
  obtain ⟨a, e1, r1⟩ := int_ok (k := kMin) (by simp [NulFree, kMin]) (by decide) h1
  obtain ⟨b, e2, r2⟩ := int_ok (k := kMax) (by simp [NulFree, kMax]) (by decide) h2
  obtain ⟨d, e3, r3⟩ := marshalError_rep (r := r.error) h hl (d' := [a, b]) (rest := .cons kMin (ofInt r.minWireVersion) (.cons kMax (ofInt r.maxWireVersion) .nil))
    ⟨r1, r2, trivial⟩
  refine ⟨d ++ [a, b], ?_, r3⟩
  unfold marshalIsMaster
  rw [e3, Res.bind_ok, e1, Res.bind_ok, e2, Res.bind_ok]

theorem unmarshalIsMaster_rep {q r : IsMasterResponse} {d : Doc} (h : RepFields d (isMasterFields r)) : unmarshalIsMaster q d = .ok r := by
  unfold unmarshalIsMaster
  rw [unmarshalError_rep h (by simp [Apart, kOk, kErrmsg]), Res.bind_ok]
  unfold isMasterFields errorFields at h
  obtain ⟨v1, d, rfl, r1, h⟩ := repFields_cons h
  obtain ⟨v2, d, rfl, r2, h⟩ := repFields_cons h
  obtain ⟨v3, d, rfl, r3, h⟩ := repFields_cons h
  obtain ⟨v4, d, rfl, r4, h⟩ := repFields_cons h
  obtain rfl := repFields_nil h
  have k1 : key v1 = .ok kOk := key_rep r1
  have k2 : key v2 = .ok kErrmsg := key_rep r2
  have k3 : key v3 = .ok kMin := key_rep r3
  have k4 : key v4 = .ok kMax := key_rep r4
  have f1 : (kOk = kMin) = False := by simp [kOk, kMin]
  have f2 : (kOk = kMax) = False := by simp [kOk, kMax]
  have f3 : (kErrmsg = kMin) = False := by simp [kErrmsg, kMin]
  have f4 : (kErrmsg = kMax) = False := by simp [kErrmsg, kMax]
  have f5 : (kMax = kMin) = False := by simp [kMin, kMax]
  simp only [isMasterLoop, k1, k2, k3, k4, f1, f2, f3, f4, f5, Res.bind_ok, intOK_ofInt r3, intOK_ofInt r4, if_true, if_false]

theorem marshalText_rep {name : Bytes} (hn : NulFree name) (hnl : name.length < 10) {r : TextResponse} (h : Kept r.error.ok)
    (hl : r.error.message.length < 2147483628) (hl' : r.text.length < 2147483628) : ∃ d, marshalText name r = .ok d ∧ RepFields d (textFields name r) := by
  obtain ⟨a, e1, r1⟩ := string_ok (k := name) (s := r.text) hn (by omega)
  obtain ⟨d, e3, r3⟩ := marshalError_rep (r := r.error) h hl (d' := [a]) (rest := .cons name (.string r.text) .nil) ⟨r1, trivial⟩
  refine ⟨d ++ [a], ?_, r3⟩
  unfold marshalText
  rw [e3, Res.bind_ok, e1, Res.bind_ok]

theorem unmarshalText_rep {name : Bytes} (h1 : name ≠ kOk) (h2 : name ≠ kErrmsg) {q r : TextResponse} {d : Doc} (h : RepFields d (textFields name r)) :
    unmarshalText name q d = .ok r := by
  unfold unmarshalText
  rw [unmarshalError_rep h ⟨h1, h2, trivial⟩, Res.bind_ok]
  unfold textFields errorFields at h
  obtain ⟨v1, d, rfl, r1, h⟩ := repFields_cons h
  obtain ⟨v2, d, rfl, r2, h⟩ := repFields_cons h
  obtain ⟨v3, d, rfl, r3, h⟩ := repFields_cons h
  obtain rfl := repFields_nil h
  have k1 : key v1 = .ok kOk := key_rep r1
  have k2 : key v2 = .ok kErrmsg := key_rep r2
  simp only [textLoop, k1, k2, key_rep r3, Ne.symm h1, Ne.symm h2, Res.bind_ok, stringOK_rep r3, if_true, if_false]

theorem stringValues_rep : ∀ {ss : List Bytes}, (∀ s ∈ ss, s.length < 2147483628) → ∃ d, stringValues ss = .ok d ∧ RepVals d (strings ss)
  | [], _ => ⟨[], rfl, trivial⟩
  | s :: ss, h => by
    obtain ⟨v, e1, r1⟩ := string_ok (k := []) (s := s) (by simp [NulFree]) (by have := h s (by simp); simp; omega)
    obtain ⟨d, e2, r2⟩ := stringValues_rep (ss := ss) (fun s hs => h s (by simp [hs]))
    exact ⟨v :: d, by simp only [stringValues, e1, e2, Res.bind_ok], ⟨⟨[], r1⟩, r2⟩⟩

theorem marshalLog_rep {r : LogResponse} (h : Kept r.error.ok) (hl : r.error.message.length < 2147483628) (hs : ∀ s ∈ r.log, s.length < 2147483628) :
    ∃ d, marshalLog r = .ok d ∧ RepFields d (logFields r) := by
  obtain ⟨vs, e1, r1⟩ := stringValues_rep hs
  obtain ⟨a, e2, r2⟩ := array_rep (k := kLog) (by simp [NulFree, kLog]) (by decide) r1
  obtain ⟨d, e3, r3⟩ := marshalError_rep (r := r.error) h hl (d' := [a]) (rest := .cons kLog (.array (strings r.log)) .nil) ⟨r2, trivial⟩
  refine ⟨d ++ [a], ?_, r3⟩
  unfold marshalLog
  rw [e3, Res.bind_ok, e1, Res.bind_ok, e2, Res.bind_ok]

theorem unmarshalLog_rep {fuel : Nat} {q r : LogResponse} {d : Doc} (h : RepFields d (logFields r)) : unmarshalLog fuel q d = .ok ⟨r.error, q.log⟩ := by
  unfold unmarshalLog
  rw [unmarshalError_rep h (by simp [Apart, kOk, kErrmsg]), Res.bind_ok]
  unfold logFields errorFields at h
  obtain ⟨v1, d, rfl, r1, h⟩ := repFields_cons h
  obtain ⟨v2, d, rfl, r2, h⟩ := repFields_cons h
  obtain ⟨v3, d, rfl, r3, h⟩ := repFields_cons h
  obtain rfl := repFields_nil h
  have k1 : key v1 = .ok kOk := key_rep r1
  have k2 : key v2 = .ok kErrmsg := key_rep r2
  have k3 : key v3 = .ok kLog := key_rep r3
  have f1 : (kOk = kVersion) = False := by simp [kOk, kVersion]
  have f2 : (kErrmsg = kVersion) = False := by simp [kErrmsg, kVersion]
  have f3 : (kLog = kVersion) = False := by simp [kLog, kVersion]
  simp only [logLoop, k1, k2, k3, f1, f2, f3, Res.bind_ok, if_false]

/-! ### messages -/

/-- the message that a document is sent in -/
def respMsg (t : Int) (fs : Fields) : WMsg := if t = 2013 then .msg 0 [.body fs] none else .reply 0 0 0 1 [fs]

theorem opMessage_rep {fuel : Nat} {d : Doc} {fs : Fields} (h : RepFields d fs) :
    ∃ m, newOpMessage fuel false [d] [] = .ok m ∧ RepMsg m (.msg 0 [.body fs] none) ∧ Fresh m ∧ HeaderFor m.header (.msg 0 [.body fs] none) 19 0 := by
  refine ⟨_, rfl, ⟨_, _, rfl, ⟨⟨d, rfl, h⟩, trivial⟩, rfl, rfl, rfl, rfl⟩, rfl, rfl, rfl, rfl⟩

theorem response_rep {fuel : Nat} {t : Int} {d : Doc} {fs : Fields} (h : RepFields d fs) :
    ∃ m, responseToMessage fuel t d = .ok m ∧ RepMsg m (respMsg t fs) ∧ Fresh m ∧ HeaderFor m.header (respMsg t fs) 19 0 := by
  unfold responseToMessage respMsg
  rw [show OP_MSG = 2013 from rfl]
  by_cases ht : t = 2013
  · rw [if_pos ht, if_pos ht]
    exact opMessage_rep h
  · rw [if_neg ht, if_neg ht]
    exact ⟨_, rfl, ⟨_, rfl, h, trivial⟩, trivial, rfl, rfl, rfl⟩

theorem respMsg_up (t : Int) (fs : Fields) : ¬ (respMsg t fs).Upconverted := by
  unfold respMsg; split <;> simp [WMsg.Upconverted]

theorem respMsg_wf (t : Int) {fs : Fields} (h : fs.WF) : (respMsg t fs).WF := by
  unfold respMsg; split <;> simp [WMsg.WF, WSection.WF, I32, I64, h]

theorem respMsg_length (t : Int) (fs : Fields) (kind : Nat) : ((respMsg t fs).enc kind 19 0).length ≤ 36 + (encDoc fs).length := by
  unfold respMsg; split <;> simp [enc_length, WMsg.body, WSection.enc, docs, Wire.int32, Wire.int64] <;> omega

theorem respDoc {t : Int} {fs : Fields} {m : Message} (h : RepMsg m (respMsg t fs)) : ∃ d, responseMessageToDocument m = .ok (some d) ∧ RepFields d fs := by
  unfold respMsg at h
  by_cases ht : t = 2013
  · rw [if_pos ht] at h
    cases m with
    | msg hd s f db c o is ck =>
      obtain ⟨ss, cs, e, h, -⟩ := h
      cases e
      match is, h with
      | [.body d], ⟨⟨d', e, h⟩, _⟩ => subst e; exact ⟨d', rfl, h⟩
    | _ => simp [RepMsg] at h
  · rw [if_neg ht] at h
    cases m with
    | reply hd a b c e ds =>
      obtain ⟨fss, e, h⟩ := h
      cases e
      match ds, h with
      | [d], h => exact ⟨d, rfl, h.1⟩
    | _ => simp [RepMsg] at h

/-- reading the bytes of one message, sent in one piece -/
theorem finishRead_body {kind : Nat} {w : WMsg} {rid rto : Int} (hr : I32 rid) (ht : I32 rto) {fuel : Nat} (hf : 2 < fuel) (hl : (w.enc kind rid rto).length ≤ 209715200) :
    readMessage fuel [] ⟨[w.enc kind rid rto], false⟩ = (parse fuel ⟨(w.enc kind rid rto).length, rid, rto, w.code⟩ (w.body kind), ⟨[], false⟩, []) := by
  have hlen := enc_length kind rid rto w
  have he : w.enc kind rid rto = le32 (16 + (w.body kind).length) ++ (Wire.int32 rid ++ (Wire.int32 rto ++ (le32 w.code ++ w.body kind))) := by
    simp only [WMsg.enc, List.append_assoc]
  generalize hb : (Wire.int32 rid ++ (Wire.int32 rto ++ (le32 w.code ++ w.body kind))) = body at he
  have hbl : body.length = 12 + (w.body kind).length := by rw [← hb]; simp [Wire.int32]; omega
  have hc : w.code < 2147483648 := by cases w <;> simp [WMsg.code]
  have hne : body ≠ [] := by intro h; rw [h] at hbl; simp at hbl; omega
  have arr : Arrives body (unread body []) (unread [] []) := by
    have := Arrives.whole (body := body) [] [] 0 hne
    simpa [unread, hne] using this
  have h1 := readMessage_arrives (size := le32 (body.length + 4)) (x := body) (t := []) rfl (by omega) arr (fuel := fuel) (by simp; omega)
  rw [he, show 16 + (w.body kind).length = body.length + 4 by omega, h1]
  have : finishRead fuel (body.length + 4 : Nat) body = parse fuel ⟨(body.length + 4 : Nat), rid, rto, w.code⟩ (w.body kind) := by
    unfold finishRead
    rw [if_neg (by omega)]
    conv => lhs; rw [← hb]
    rw [readi32_int32 hr, Res.bind_ok, dropA (n := 4) 0 rfl, List.drop_zero, readi32_int32 ht, Res.bind_ok, dropA (n := 8) 4 rfl, dropA (n := 4) 0 rfl,
      List.drop_zero, readi32_le32_nat hc, Res.bind_ok, dropA (n := 12) 8 rfl, dropA (n := 8) 4 rfl, dropA (n := 4) 0 rfl, List.drop_zero]
    rw [hb]
  rw [this]
  simp [unread, Int.add_comm]

/-! ### registration -/

/-- the calls of `Add` that register handlers -/
def adds (hs : List (Bytes × Handler)) : List (Scope × Option Handler) :=
  hs.flatMap fun p => [(⟨2010, [], p.1, none⟩, some p.2), (⟨2013, [], p.1, none⟩, some p.2)]

theorem registered_other {cs : List (Scope × Option Handler)} {s s' : Scope} {h : Option Handler} {x : Handler} (hs : s' ≠ s) :
    Registered (cs ++ [(s', h)]) s x ↔ Registered cs s x := by
  rw [registered_snoc]
  constructor
  · rintro (h | ⟨-, h, -⟩)
    · exact h
    · exact absurd h hs
  · exact .inl

/-- no handler is registered for the command -/
def Free (cs : List (Scope × Option Handler)) (name : Bytes) : Prop := ∀ t : Int, (t = 2010 ∨ t = 2013) → ∀ x, ¬ Registered cs ⟨t, [], name, none⟩ x

theorem free_snoc {cs : List (Scope × Option Handler)} {name name' : Bytes} {t : Int} {h : Option Handler} (hn : name' ≠ name) :
    Free (cs ++ [(⟨t, [], name', none⟩, h)]) name ↔ Free cs name := by
  unfold Free
  constructor <;> intro f u hu x
  · have := f u hu x
    rwa [registered_other (by simp [hn])] at this
  · rw [registered_other (by simp [hn])]
    exact f u hu x

theorem register_ok : ∀ {hs : List (Bytes × Handler)} {o : Ops Handler} {cs : List (Scope × Option Handler)}, Holds o cs →
    (∀ p ∈ hs, p.1 ≠ [] ∧ Free cs p.1) → (hs.map (·.1)).Nodup → ∃ o', registerHandlers o hs = .ok o' ∧ Holds o' (cs ++ adds hs)
  | [], o, cs, ho, _, _ => ⟨o, rfl, by simpa [adds] using ho⟩
  | (name, h) :: hs, o, cs, ho, hf, hn => by
    obtain ⟨h0, h1⟩ := hf _ (List.mem_cons_self ..)
    simp only [List.map_cons, List.nodup_cons, List.mem_map, not_exists, not_and] at hn
    have a1 := add_holds ho ⟨2010, [], name, none⟩ (some h)
    split at a1
    case h_2 =>
      rcases a1.1 with c | c | ⟨x, c⟩
      · exact absurd (by simp [Valid]; exact h0) c
      · cases c
      · exact absurd c (h1 2010 (.inl rfl) x)
    case h_3 => exact a1.elim
    case h_1 o1 e1 =>
    obtain ⟨-, -, -, ho1⟩ := a1
    have a2 := add_holds ho1 ⟨2013, [], name, none⟩ (some h)
    split at a2
    case h_2 =>
      rcases a2.1 with c | c | ⟨x, c⟩
      · exact absurd (by simp [Valid]; exact h0) c
      · cases c
      · rw [registered_other (by simp)] at c
        exact absurd c (h1 2013 (.inr rfl) x)
    case h_3 => exact a2.elim
    case h_1 o2 e2 =>
    obtain ⟨-, -, -, ho2⟩ := a2
    obtain ⟨o', e3, ho3⟩ := register_ok ho2 (fun p hp => by
      have hne : name ≠ p.1 := fun e => hn.1 p hp e.symm
      refine ⟨(hf p (List.mem_cons_of_mem _ hp)).1, ?_⟩
      rw [free_snoc hne, free_snoc hne]
      exact (hf p (List.mem_cons_of_mem _ hp)).2) hn.2
    refine ⟨o', ?_, ?_⟩
    · simp only [registerHandlers, OP_COMMAND, OP_MSG, e1, e2, Res.bind_ok]
      exact e3
    · simpa [adds, List.append_assoc] using ho3

theorem register_err : ∀ {hs : List (Bytes × Handler)} {o : Ops Handler} {cs : List (Scope × Option Handler)}, Holds o cs →
    (∃ p ∈ hs, ¬ Free cs p.1) → ∃ e, registerHandlers o hs = .err e
  | [], _, _, _, h => by simp at h
  | (name, h) :: hs, o, cs, ho, hx => by
    have a1 := add_holds ho ⟨2010, [], name, none⟩ (some h)
    cases e1 : o.add ⟨2010, [], name, none⟩ (some h) with
    | err e => exact ⟨e, by simp only [registerHandlers, OP_COMMAND, e1, Res.bind_err]⟩
    | panic => rw [e1] at a1; exact a1.elim
    | oof => rw [e1] at a1; exact a1.elim
    | ok o1 =>
      rw [e1] at a1
      obtain ⟨-, -, n1, ho1⟩ := a1
      have a2 := add_holds ho1 ⟨2013, [], name, none⟩ (some h)
      cases e2 : o1.add ⟨2013, [], name, none⟩ (some h) with
      | err e => exact ⟨e, by simp only [registerHandlers, OP_COMMAND, OP_MSG, e1, e2, Res.bind_ok, Res.bind_err]⟩
      | panic => rw [e2] at a2; exact a2.elim
      | oof => rw [e2] at a2; exact a2.elim
      | ok o2 =>
        rw [e2] at a2
        obtain ⟨-, -, n2, ho2⟩ := a2
        simp only [registerHandlers, OP_COMMAND, OP_MSG, e1, e2, Res.bind_ok]
        refine register_err ho2 ?_
        obtain ⟨p, hp, hq⟩ := hx
        by_cases hne : name = p.1
        · refine absurd ?_ hq
          intro t ht x
          rw [← hne]
          rcases ht with rfl | rfl
          · exact n1 x
          · have := n2 x
            rwa [registered_other (by simp)] at this
        · refine ⟨p, (List.mem_cons.mp hp).resolve_left (fun e => hne (by rw [e])), ?_⟩
          rw [free_snoc hne, free_snoc hne]
          exact hq

theorem mem_adds {hs : List (Bytes × Handler)} {s : Scope} {h : Handler} :
    (s, some h) ∈ adds hs ↔ ∃ p ∈ hs, (s = ⟨2010, [], p.1, none⟩ ∨ s = ⟨2013, [], p.1, none⟩) ∧ p.2 = h := by
  unfold adds
  simp only [List.mem_flatMap, List.mem_cons, Prod.mk.injEq, Option.some.injEq, List.not_mem_nil, or_false]
  constructor
  · rintro ⟨p, hp, ⟨h1, h2⟩ | ⟨h1, h2⟩⟩
    · exact ⟨p, hp, .inl h1, h2.symm⟩
    · exact ⟨p, hp, .inr h1, h2.symm⟩
  · rintro ⟨p, hp, h1 | h1, h2⟩
    · exact ⟨p, hp, .inl ⟨h1, h2.symm⟩⟩
    · exact ⟨p, hp, .inr ⟨h1, h2.symm⟩⟩

theorem nodup_fst {hs : List (Bytes × Handler)} {p q : Bytes × Handler} (hn : (hs.map (·.1)).Nodup) (hq : q ∈ hs) (hp : p ∈ hs) (hqp : q.1 = p.1) : q = p := by
  induction hs with
  | nil => simp at hp
  | cons r hs ih =>
    simp only [List.map_cons, List.nodup_cons, List.mem_map, not_exists, not_and] at hn
    simp only [List.mem_cons] at hp hq
    rcases hp with rfl | hp <;> rcases hq with rfl | hq
    · rfl
    · exact absurd hqp (hn.1 q hq)
    · exact absurd hqp.symm (hn.1 p hp)
    · exact ih hn.2 hq hp

/-- the handlers are registered afterwards -/
theorem registered_adds {hs : List (Bytes × Handler)} {cs : List (Scope × Option Handler)} {p : Bytes × Handler} (hp : p ∈ hs) (hne : p.1 ≠ []) (hf : Free cs p.1)
    (hn : (hs.map (·.1)).Nodup) {t : Int} (ht : t = 2010 ∨ t = 2013) : Registered (cs ++ adds hs) ⟨t, [], p.1, none⟩ p.2 := by
  have hv : Valid ⟨t, [], p.1, none⟩ := by rcases ht with rfl | rfl <;> simp [Valid] <;> exact hne
  have hm : ((⟨t, [], p.1, none⟩, some p.2) : Scope × Option Handler) ∈ adds hs := by
    rw [mem_adds]
    exact ⟨p, hp, by rcases ht with rfl | rfl <;> simp, rfl⟩
  obtain ⟨x, hx⟩ := registered_exists (cs := cs ++ adds hs) hv (List.mem_append_right _ hm)
  have : x = p.2 := by
    obtain ⟨-, b, a, e, -⟩ := hx
    have hm' : ((⟨t, [], p.1, none⟩, some x) : Scope × Option Handler) ∈ cs ++ adds hs := by rw [e]; simp
    rcases List.mem_append.mp hm' with c | c
    · obtain ⟨y, hy⟩ := registered_exists hv c
      exact absurd hy (hf t ht y)
    · rw [mem_adds] at c
      obtain ⟨q, hq, h1, h2⟩ := c
      have hqp : q.1 = p.1 := by
        rcases h1 with h1 | h1 <;> (simp only [Scope.mk.injEq] at h1; exact h1.2.2.1.symm)
      rw [← h2]
      rw [nodup_fst hn hq hp hqp]
  rwa [this] at hx

/-- other commands are as before -/
theorem registered_before {hs : List (Bytes × Handler)} {cs : List (Scope × Option Handler)} {s : Scope} (hs' : ∀ p ∈ hs, s.context = [] → s.command ≠ p.1) (h : Handler) :
    Registered (cs ++ adds hs) s h ↔ Registered cs s h := by
  have no : ∀ x, (s, some x) ∉ adds hs := by
    intro x hx
    rw [mem_adds] at hx
    obtain ⟨p, hp, h1 | h1, -⟩ := hx <;> (subst h1; exact hs' p hp rfl rfl)
  constructor
  · rintro ⟨hv, b, a, e, hn⟩
    have hm : (s, some h) ∈ cs := by
      have : (s, some h) ∈ cs ++ adds hs := by rw [e]; simp
      exact (List.mem_append.mp this).resolve_right (no h)
    obtain ⟨x, hx⟩ := registered_exists hv hm
    have hx' : Registered (cs ++ adds hs) s x := by
      obtain ⟨hv, b, a, rfl, hn⟩ := hx
      exact ⟨hv, b, a ++ adds hs, by simp, hn⟩
    have e1 := ((history (cs ++ adds hs)).2 s x).mpr hx'
    have e2 := ((history (cs ++ adds hs)).2 s h).mpr ⟨hv, b, a, e, hn⟩
    rw [e1] at e2
    cases e2
    exact hx
  · rintro ⟨hv, b, a, rfl, hn⟩
    exact ⟨hv, b, a ++ adds hs, by simp, hn⟩

theorem commands_handlers {name : Bytes} {h : Handler} (hn : name ∈ commands h) : (name, h) ∈ handlers := by
  have key : ∀ h : Handler, (commands h).all (fun n => (n, h) ∈ handlers) = true := by
    intro h; cases h <;> decide
  simpa using List.all_eq_true.mp (key h) name hn

theorem handlers_nodup : (handlers.map (·.1)).Nodup := by decide

theorem handlers_named : ∀ p ∈ handlers, p.1 ≠ [] := by decide

theorem answer_ok {addr : Bytes} (ha : addr.length < 2147483628) (h : Handler) (fuel : Nat) (t : Int) :
    ∃ m, handle fuel addr h t = .ok m ∧ RepMsg m (respMsg t (answer addr h)) ∧ Fresh m ∧ HeaderFor m.header (respMsg t (answer addr h)) 19 0 := by
  have k : ∀ i : Int, (i = 0 ∨ i = 1 ∨ i = 6) → Kept i := by rintro i (rfl | rfl | rfl) <;> (unfold Kept; omega)
  have st : ∃ m, statusMessage fuel t false none = .ok m ∧ RepMsg m (respMsg t (errorFields ⟨0, []⟩ .nil)) ∧ Fresh m ∧
      HeaderFor m.header (respMsg t (errorFields ⟨0, []⟩ .nil)) 19 0 := by
    obtain ⟨d, e, r⟩ := marshalError_rep (r := ⟨0, []⟩) (k 0 (by simp)) (by simp) (d' := []) (rest := .nil) trivial
    unfold statusMessage
    rw [show makeErrorResponse false none = ⟨0, []⟩ from rfl, e, Res.bind_ok]
    exact response_rep (by simpa using r)
  cases h with
  | isMaster =>
    obtain ⟨d, e, r⟩ := marshalIsMaster_rep (r := makeIsMasterResponse 0 6) (k 1 (by simp)) (k 0 (by simp)) (k 6 (by simp)) (by decide)
    simp only [handle, e, Res.bind_ok]
    exact response_rep r
  | whatsMyURI =>
    obtain ⟨d, e, r⟩ := marshalText_rep (name := kYou) (by simp [NulFree, kYou]) (by decide) (r := makeText addr) (k 1 (by simp)) (by simp [makeText, makeSuccessResponse]) ha
    simp only [handle, e, Res.bind_ok]
    exact response_rep r
  | buildInfo =>
    obtain ⟨d, e, r⟩ := marshalText_rep (name := kVersion) (by simp [NulFree, kVersion]) (by decide) (r := makeText buildVersion) (k 1 (by simp)) (by decide) (by decide)
    simp only [handle, e, Res.bind_ok]
    exact response_rep r
  | getLog =>
    obtain ⟨d, e, r⟩ := marshalLog_rep (r := makeLog []) (k 1 (by simp)) (by decide) (by simp [makeLog])
    simp only [handle, e, Res.bind_ok]
    exact response_rep r
  | _ => exact st

theorem small_error {r : ErrorResponse} {rest : Fields} (h : Small (errorFields r rest)) : r.message.length < 2147483628 ∧ rest.enc.length + 26 < 2147483648 := by
  unfold Small errorFields at h
  have : ∀ i : Int, (ofInt i).enc.length ≥ 4 := by
    intro i; unfold ofInt; split <;> simp [BVal.enc]
  have := this r.ok
  simp [encDoc, wrapDoc_length, Fields.enc, BVal.enc] at h
  omega

theorem strings_length : ∀ {ss : List Bytes} {n : Nat} {s : Bytes}, s ∈ ss → s.length < ((strings ss).encFrom n).length
  | [], _, _, h => by simp at h
  | x :: ss, n, s, h => by
    simp only [strings, Vals.encFrom, BVal.enc, encString_length, List.length_append, List.length_cons, List.length_nil]
    rcases List.mem_cons.mp h with rfl | h
    · omega
    · have := strings_length (n := n + 1) h
      omega

/-- what comes back through bytes -/
theorem through {α : Type} {f : Doc → Res α} {r : α} {d : Doc} {fs : Fields} (hd : RepFields d fs) (hs : Small fs) (h : ∀ d', RepFields d' fs → f d' = .ok r) :
    f d = .ok r ∧ ∃ b d', Returns (fun fuel => docMarshal fuel d) (.ok b) ∧ Returns (fun fuel => readDocument fuel b) (.ok d') ∧ f d' = .ok r := by
  refine ⟨h d hd, ?_⟩
  obtain ⟨d', e0, e2⟩ := readDocument_enc ((encDoc fs).length + 1) _ (repFields_wf hd) [] (by omega) (by unfold Small at hs; simpa using hs)
  rw [List.append_nil] at e0
  exact ⟨_, d', Props.C01_marshal_represented d _ hd hs, readDocument_returns e0 (by simp), h d' e2⟩

/-! ### any document -/

theorem intOK_rep {v : Value} {k : Bytes} {t : BVal} (h : Rep v k t) : intOK v = .ok (number t) := by
  have e := Props.C09_int v k t h
  cases t with
  | int32 i => exact (e.1 i (.inl rfl)).2
  | int64 i => exact (e.1 i (.inr rfl)).2
  | _ => exact (e.2 (by simp [BVal.tag])).2

theorem textOK_rep {v : Value} {k : Bytes} {t : BVal} (h : Rep v k t) : stringValueOK v = .ok (text t) := by
  rw [Registry.stringOK_rep h]
  cases t <;> rfl

/-- the result of taking in -/
def orErr {α : Type} : Option α → Res α
  | some a => .ok a
  | none => .err .other

theorem unmarshalError_takes : ∀ {fs : Fields} {d : Doc} {q : ErrorResponse}, RepFields d fs → unmarshalError q d = orErr (takeIn takeError q fs)
  | .nil, d, q, h => by obtain rfl := repFields_nil h; rfl
  | .cons k t fs, d, q, h => by
    obtain ⟨v, d, rfl, r, h⟩ := repFields_cons h
    simp only [unmarshalError, takeIn, takeError, key_rep r, Res.bind_ok, intOK_rep r, textOK_rep r, kOk, kErrmsg]
    split
    · cases number t with
      | none => rfl
      | some i => exact unmarshalError_takes h
    · split
      · cases text t with
        | none => rfl
        | some i => exact unmarshalError_takes h
      · exact unmarshalError_takes h

/-- a response that first takes in the error, then in a second loop the rest -/
theorem two_loops {α : Type} {emb : α → ErrorResponse → α} {err : α → ErrorResponse} {f g : α → Bytes → BVal → Option α}
    (h2 : ∀ a e, err (emb a e) = e) (h3 : ∀ a e e', emb (emb a e) e' = emb a e')
    (hg : ∀ a e k t, g (emb a e) k t = (g a k t).map (emb · e))
    (hf : ∀ a k t, ((takeError (err a) k t).bind fun e => g (emb a e) k t) = f a k t) : ∀ (fs : Fields) (a : α), emb a (err a) = a →
    ((takeIn takeError (err a) fs).bind fun e => takeIn g (emb a e) fs) = takeIn f a fs
  | .nil, a, h1 => by simp [takeIn, h1]
  | .cons k t fs, a, h1 => by
    simp only [takeIn]
    rw [← hf a k t]
    cases takeError (err a) k t with
    | none => rfl
    | some e1 =>
      simp only [Option.bind_some, hg]
      cases g a k t with
      | none => cases takeIn takeError e1 fs <;> rfl
      | some b =>
        have := two_loops h2 h3 hg hf fs (emb b e1) (by rw [h2, h3])
        simp only [h2, h3] at this
        simpa using this

theorem orErr_bind {α β : Type} (o : Option α) (f : α → Option β) : (orErr o >>= fun a => orErr (f a)) = orErr (o.bind f) := by
  cases o <;> rfl

def onlyIsMaster (r : IsMasterResponse) (k : Bytes) (t : BVal) : Option IsMasterResponse :=
  if k = kMin then (number t).map fun i => { r with minWireVersion := i }
  else if k = kMax then (number t).map fun i => { r with maxWireVersion := i }
  else some r

theorem isMasterLoop_takes : ∀ {fs : Fields} {d : Doc} {q : IsMasterResponse}, RepFields d fs → isMasterLoop q d = orErr (takeIn onlyIsMaster q fs)
  | .nil, d, q, h => by obtain rfl := repFields_nil h; rfl
  | .cons k t fs, d, q, h => by
    obtain ⟨v, d, rfl, r, h⟩ := repFields_cons h
    simp only [isMasterLoop, takeIn, onlyIsMaster, key_rep r, Res.bind_ok, intOK_rep r]
    split
    · cases number t with
      | none => rfl
      | some i => exact isMasterLoop_takes h
    · split
      · cases number t with
        | none => rfl
        | some i => exact isMasterLoop_takes h
      · exact isMasterLoop_takes h

theorem unmarshalIsMaster_takes {fs : Fields} {d : Doc} {q : IsMasterResponse} (h : RepFields d fs) :
    unmarshalIsMaster q d = orErr (takeIn takeIsMaster q fs) := by
  unfold unmarshalIsMaster
  rw [unmarshalError_takes h]
  have : ∀ e, isMasterLoop { q with error := e } d = orErr (takeIn onlyIsMaster { q with error := e } fs) := fun _ => isMasterLoop_takes h
  simp only [this]
  rw [orErr_bind, two_loops (emb := fun a e => { a with error := e }) (err := fun a => a.error) (f := takeIsMaster) (by simp) (by simp) ?_ ?_ fs q rfl]
  · intro a e k t
    unfold onlyIsMaster
    split
    · cases number t <;> rfl
    · split
      · cases number t <;> rfl
      · rfl
  · intro a k t
    unfold onlyIsMaster takeIsMaster
    by_cases h1 : k = kMin
    · subst h1; rfl
    · by_cases h2 : k = kMax
      · subst h2; rfl
      · simp only [if_neg h1, if_neg h2]
        rw [if_neg (show ¬ k = [109, 105, 110, 87, 105, 114, 101, 86, 101, 114, 115, 105, 111, 110] from h1),
          if_neg (show ¬ k = [109, 97, 120, 87, 105, 114, 101, 86, 101, 114, 115, 105, 111, 110] from h2)]
        cases takeError a.error k t <;> rfl

def onlyText (name : Bytes) (r : TextResponse) (k : Bytes) (t : BVal) : Option TextResponse :=
  if k = name then (text t).map fun s => { r with text := s } else some r

theorem textLoop_takes {name : Bytes} : ∀ {fs : Fields} {d : Doc} {q : TextResponse}, RepFields d fs → textLoop name q d = orErr (takeIn (onlyText name) q fs)
  | .nil, d, q, h => by obtain rfl := repFields_nil h; rfl
  | .cons k t fs, d, q, h => by
    obtain ⟨v, d, rfl, r, h⟩ := repFields_cons h
    simp only [textLoop, takeIn, onlyText, key_rep r, Res.bind_ok, textOK_rep r]
    split
    · cases text t with
      | none => rfl
      | some i => exact textLoop_takes h
    · exact textLoop_takes h

theorem unmarshalText_takes {name : Bytes} (hn : name ≠ kOk ∧ name ≠ kErrmsg) {fs : Fields} {d : Doc} {q : TextResponse} (h : RepFields d fs) :
    unmarshalText name q d = orErr (takeIn (takeText name) q fs) := by
  unfold unmarshalText
  rw [unmarshalError_takes h]
  have : ∀ e, textLoop name { q with error := e } d = orErr (takeIn (onlyText name) { q with error := e } fs) := fun _ => textLoop_takes h
  simp only [this]
  rw [orErr_bind, two_loops (emb := fun a e => { a with error := e }) (err := fun a => a.error) (f := takeText name) (by simp) (by simp) ?_ ?_ fs q rfl]
  · intro a e k t
    unfold onlyText
    split
    · cases text t <;> rfl
    · rfl
  · intro a k t
    unfold onlyText takeText
    by_cases h1 : k = name
    · subst h1
      have : takeError a.error k t = some a.error := by
        unfold takeError
        rw [if_neg (show ¬ k = [111, 107] from hn.1), if_neg (show ¬ k = [101, 114, 114, 109, 115, 103] from hn.2)]
      rw [this, Option.bind_some, if_pos rfl, if_pos rfl]
    · simp only [if_neg h1]
      cases takeError a.error k t <;> rfl

def onlyLog (r : LogResponse) (k : Bytes) (t : BVal) : Option LogResponse :=
  if k = kVersion then (texts t).map fun s => { r with log := s } else some r

theorem logStrings_takes : ∀ {vs : Vals} {d : Doc}, RepVals d vs → logStrings d = orErr (vs.toList.mapM text)
  | .nil, [], _ => rfl
  | .cons t vs, v :: d, h => by
    obtain ⟨⟨_, h⟩, hs⟩ := h
    simp only [logStrings, Vals.toList, List.mapM_cons, textOK_rep h, Res.bind_ok, logStrings_takes hs]
    cases text t with
    | none => rfl
    | some s => cases vs.toList.mapM text <;> rfl

theorem logLoop_takes {fuel : Nat} : ∀ {fs : Fields} {d : Doc} {q : LogResponse}, RepFields d fs → (encDoc fs).length < 2147483648 → (encDoc fs).length < fuel →
    logLoop fuel q d = orErr (takeIn onlyLog q fs)
  | .nil, d, q, h, _, _ => by obtain rfl := repFields_nil h; rfl
  | .cons k t fs, d, q, h, hl, hf => by
    obtain ⟨v, d, rfl, r, h⟩ := repFields_cons h
    have hlen : t.enc.length + (encDoc fs).length ≤ (encDoc (.cons k t fs)).length := by
      simp only [encDoc, wrapDoc_length, Fields.enc, List.length_cons, List.length_append]; omega
    have ih := fun q => logLoop_takes (fuel := fuel) (q := q) h (by omega) (by omega)
    have ha := arrOK_rep r (fuel := fuel) (by omega) (by omega)
    simp only [logLoop, takeIn, onlyLog, key_rep r, Res.bind_ok]
    split
    · cases t with
      | array vs =>
        obtain ⟨a, h1, h2⟩ := ha
        rw [h1]
        simp only [Res.bind_ok, logStrings_takes h2, texts]
        cases vs.toList.mapM text with
        | none => rfl
        | some ss => exact ih _
      | _ => simp only at ha; rw [ha]; rfl
    · exact ih q

theorem unmarshalLog_takes {fs : Fields} {d : Doc} {q : LogResponse} {fuel : Nat} (h : RepFields d fs) (hl : (encDoc fs).length < 2147483648)
    (hf : (encDoc fs).length < fuel) : unmarshalLog fuel q d = orErr (takeIn takeLog q fs) := by
  unfold unmarshalLog
  rw [unmarshalError_takes h]
  have : ∀ e, logLoop fuel { q with error := e } d = orErr (takeIn onlyLog { q with error := e } fs) := fun _ => logLoop_takes h hl hf
  simp only [this]
  rw [orErr_bind, two_loops (emb := fun a e => { a with error := e }) (err := fun a => a.error) (f := takeLog) (by simp) (by simp) ?_ ?_ fs q rfl]
  · intro a e k t
    unfold onlyLog
    split
    · cases texts t <;> rfl
    · rfl
  · intro a k t
    unfold onlyLog takeLog
    by_cases h1 : k = kVersion
    · subst h1; rfl
    · simp only [if_neg h1]
      rw [if_neg (show ¬ k = [118, 101, 114, 115, 105, 111, 110] from h1)]
      cases takeError a.error k t <;> rfl

end Birch.Proofs.Shell
