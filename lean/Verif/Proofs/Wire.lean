import Verif.Spec.Wire
import Verif.Proofs.Write
import Verif.Proofs.Access
import Verif.Proofs.Compare

/-
Lemmas about the wire messages.
-/

namespace Birch.Proofs.Wire
open Birch Spec Spec.Wire Model Model.Wire Proofs

/-! ### documents -/

theorem encDoc_len (fs : Fields) : (encDoc fs).length = fs.enc.length + 5 := by simp [encDoc]

theorem docValidate_rep {d : Doc} {fs : Fields} {fuel : Nat} (h : RepFields d fs) (hl : (encDoc fs).length < 2147483648)
    (hf : (encDoc fs).length < fuel) : docValidate fuel d = .ok (encDoc fs).length := by
  rw [encDoc_len] at *
  unfold docValidate
  rw [elemsValidate_rep fuel d fs 5 h (by omega) (by omega), Nat.add_comm]

theorem getDocSize_rep {d : Doc} {fs : Fields} {fuel : Nat} (h : RepFields d fs) (hl : (encDoc fs).length < 2147483648)
    (hf : (encDoc fs).length < fuel) : getDocSize fuel (some d) = .ok (encDoc fs).length := by
  simp only [getDocSize]
  rw [docValidate_rep h hl hf]; rfl

theorem docBytes_rep {d : Doc} {fs : Fields} {fuel : Nat} (h : RepFields d fs) (hl : (encDoc fs).length < 2147483648)
    (hf : (encDoc fs).length < fuel) : docBytes fuel (some d) = .ok (encDoc fs) := by
  simp only [docBytes]
  rw [docMarshal_rep fuel h hl hf]

theorem docs_cons (f : Fields) (l : List Fields) : docs (f :: l) = encDoc f ++ docs l := rfl

theorem docsSize_rep {fuel : Nat} : ∀ {ds : List Doc} {fss : List Fields}, RepDocs ds fss → (docs fss).length < 2147483648 →
    (docs fss).length < fuel → docsSize fuel ds = .ok (docs fss).length
  | [], [], _, _, _ => rfl
  | [], _ :: _, h, _, _ => by simp [RepDocs] at h
  | _ :: _, [], h, _, _ => by simp [RepDocs] at h
  | d :: ds, f :: fss, h, hl, hf => by
    rw [docs_cons, List.length_append] at *
    unfold docsSize
    rw [getDocSize_rep h.1 (by omega) (by omega)]
    simp only [Res.bind_ok]
    rw [docsSize_rep h.2 (by omega) (by omega)]
    rfl

theorem docsBytes_rep {fuel : Nat} : ∀ {ds : List Doc} {fss : List Fields}, RepDocs ds fss → (docs fss).length < 2147483648 →
    (docs fss).length < fuel → docsBytes fuel ds = .ok (docs fss)
  | [], [], _, _, _ => rfl
  | [], _ :: _, h, _, _ => by simp [RepDocs] at h
  | _ :: _, [], h, _, _ => by simp [RepDocs] at h
  | d :: ds, f :: fss, h, hl, hf => by
    rw [docs_cons, List.length_append] at *
    unfold docsBytes
    rw [docBytes_rep h.1 (by omega) (by omega)]
    simp only [Res.bind_ok]
    rw [docsBytes_rep h.2 (by omega) (by omega)]
    rfl

/-! ### serializing -/

theorem int32Bytes_eq (i : Int) : int32Bytes i = int32 i := rfl
theorem int64Bytes_eq (i : Int) : int64Bytes i = int64 i := rfl
theorem cstringBytes_eq (s : Bytes) : cstringBytes s = cstring s := rfl

@[simp] theorem int32_length (i : Int) : (int32 i).length = 4 := rfl
@[simp] theorem int64_length (i : Int) : (int64 i).length = 8 := rfl
@[simp] theorem cstring_length (s : Bytes) : (cstring s).length = s.length + 1 := by simp [cstring]

theorem u32i_nat {n : Nat} (h : n < 4294967296) : u32i (n : Int) = n := by unfold u32i; omega

theorem int32_nat {n : Nat} (h : n < 4294967296) : int32 (n : Int) = le32 n := congrArg le32 (u32i_nat h)

theorem i32_nat {n : Nat} (h : n < 2147483648) : i32 (n : Int) = n := by unfold i32; omega

theorem flatMap_int64_length (ids : List Int) : (ids.flatMap int64).length = 8 * ids.length := by
  induction ids with
  | nil => rfl
  | cons i ids ih => rw [List.flatMap_cons, List.length_append, ih, int64_length, List.length_cons]; omega

theorem item_rep {fuel : Nat} {i : Item} {s : WSection} (h : RepItem i s) (hl : (s.enc 1).length < 2147483648) (hf : (s.enc 1).length < fuel) :
    ∃ i', i.serialize fuel = .ok (s.enc 1, ((s.enc 1).length : Int), i') ∧ RepItem i' s := by
  cases i with
  | body d =>
    cases s with
    | sequence _ _ => exact absurd h (by simp [RepItem])
    | body fs =>
      obtain ⟨d, rfl, h⟩ := h
      simp only [WSection.enc, List.length_cons] at *
      refine ⟨.body (some d), ?_, ⟨d, rfl, h⟩⟩
      simp only [Item.serialize]
      rw [getDocSize_rep h (by omega) (by omega), docBytes_rep h (by omega) (by omega)]
      simp only [Res.bind_ok]
      congr 2; congr 1
      omega
  | sequence n id ds =>
    cases s with
    | body _ => exact absurd h (by simp [RepItem])
    | sequence id' fss =>
      obtain ⟨rfl, h⟩ := h
      simp only [WSection.enc, List.length_cons, List.length_append, le32_length, cstring_length] at *
      refine ⟨.sequence ((1 + 4 + (id.length + 1) + (docs fss).length : Nat) : Int) id ds, ?_, rfl, h⟩
      simp only [Item.serialize]
      rw [docsSize_rep h (by omega) (by omega), docsBytes_rep h (by omega) (by omega)]
      simp only [Res.bind_ok]
      rw [i32_nat (n := 1 + 4 + (id.length + 1) + (docs fss).length) (by omega), int32Bytes_eq, int32_nat (by omega), List.append_assoc]
      congr 2; congr 1
      omega

theorem items_rep {fuel : Nat} : ∀ {is : List Item} {ss : List WSection}, RepItems is ss → (ss.flatMap (WSection.enc 1)).length < 2147483648 →
    (ss.flatMap (WSection.enc 1)).length < fuel →
    ∃ is', itemsSerialize fuel is = .ok (ss.flatMap (WSection.enc 1), ((ss.flatMap (WSection.enc 1)).length : Int), is') ∧ RepItems is' ss
  | [], [], _, _, _ => ⟨[], rfl, trivial⟩
  | [], _ :: _, h, _, _ => by simp [RepItems] at h
  | _ :: _, [], h, _, _ => by simp [RepItems] at h
  | i :: is, s :: ss, h, hl, hf => by
    rw [List.flatMap_cons, List.length_append] at *
    obtain ⟨i', h1, h2⟩ := item_rep h.1 (by omega) (show _ < fuel by omega)
    obtain ⟨is', h3, h4⟩ := items_rep h.2 (by omega) (show _ < fuel by omega)
    refine ⟨i' :: is', ?_, h2, h4⟩
    unfold itemsSerialize
    rw [h1, h3]
    simp

theorem header_bytes {h : Header} {w : WMsg} {kind : Nat} {rid rto : Int} (hh : HeaderFor h w rid rto) {n : Nat} (hn : n = 16 + (w.body kind).length)
    (hl : n < 2147483648) (b : Bytes) (hb : b = w.body kind) : Header.bytes { h with size := i32 n } ++ b = w.enc kind rid rto := by
  subst hb
  have hc : int32 (w.code : Int) = le32 w.code := int32_nat (by cases w <;> simp [WMsg.code])
  simp only [Header.bytes, int32Bytes_eq, WMsg.enc, hh.1, hh.2.1, hh.2.2, i32_nat hl, int32_nat (show n < 4294967296 by omega), hc, ← hn, List.append_assoc]

theorem enc_length (kind : Nat) (rid rto : Int) (w : WMsg) : (w.enc kind rid rto).length = 16 + (w.body kind).length := by
  simp only [WMsg.enc, List.length_append, le32_length, int32_length]

/-- the header after `Serialize` -/
def sent (h : Header) (n : Nat) : Header := { h with size := n }

theorem sent_eq {h : Header} {n k : Nat} (hn : n = k) (hl : n < 2147483648) : { h with size := i32 n } = sent h k := by
  subst hn; simp only [sent, i32_nat hl]

theorem serialize_rep {fuel : Nat} {m : Message} {w : WMsg} {rid rto : Int} (hm : RepMsg m w) (hfr : Fresh m) (hh : HeaderFor m.header w rid rto)
    (wf : w.WF) (hl : (w.enc 1 rid rto).length < 2147483648) (hf : (w.enc 1 rid rto).length < fuel) :
    ∃ m', m.serialize fuel = .ok (w.enc 1 rid rto, m') ∧ RepMsg m' w ∧ m'.header = sent m.header (w.enc 1 rid rto).length := by
  rw [enc_length] at *
  cases m with
  | reply h f c s n ds =>
    obtain ⟨fss, rfl, hd⟩ := hm
    simp only [WMsg.body, List.length_append, int32_length, int64_length] at hl hf ⊢
    have hb := header_bytes (h := h) hh (kind := 1) (n := 16 + 20 + (docs fss).length) (by simp [WMsg.body]; omega) (by omega)
      (int32Bytes f ++ (int64Bytes c ++ (int32Bytes s ++ (int32Bytes n ++ docs fss))))
      (by simp only [WMsg.body, int32Bytes_eq, int64Bytes_eq, List.append_assoc])
    refine ⟨.reply _ f c s n ds, ?_, ⟨fss, rfl, hd⟩, sent_eq (h := h) (n := 16 + 20 + (docs fss).length) (by omega) (by omega)⟩
    simp only [Message.serialize]
    rw [docsSize_rep hd (by omega) (by omega), docsBytes_rep hd (by omega) (by omega)]
    simp only [Res.bind_ok]
    rw [hb]
  | update h r f ns a b =>
    obtain ⟨x, y, rfl, rfl, ⟨a, rfl, ha⟩, ⟨b, rfl, hb⟩⟩ := hm
    simp only [WMsg.body, List.length_append, int32_length, cstring_length] at hl hf ⊢
    have hb' := header_bytes (h := h) hh (kind := 1) (n := 16 + 8 + (ns.length + 1) + (encDoc x).length + (encDoc y).length) (by simp [WMsg.body]; omega) (by omega)
      (int32Bytes 0 ++ (cstringBytes ns ++ (int32Bytes f ++ (encDoc x ++ encDoc y))))
      (by simp only [WMsg.body, int32Bytes_eq, cstringBytes_eq, List.append_assoc])
    refine ⟨.update _ 0 f ns (some a) (some b), ?_, ⟨x, y, rfl, rfl, ⟨a, rfl, ha⟩, ⟨b, rfl, hb⟩⟩,
      sent_eq (h := h) (n := 16 + 8 + (ns.length + 1) + (encDoc x).length + (encDoc y).length) (by omega) (by omega)⟩
    simp only [Message.serialize]
    rw [getDocSize_rep ha (by omega) (by omega), getDocSize_rep hb (by omega) (by omega), docBytes_rep ha (by omega) (by omega),
      docBytes_rep hb (by omega) (by omega)]
    simp only [Res.bind_ok]
    rw [hb']
  | query h f s n ns q p =>
    obtain ⟨x, y, rfl, ⟨q, rfl, hq⟩, hp⟩ := hm
    simp only [WMsg.body, List.length_append, int32_length, cstring_length] at hl hf ⊢
    have hb' := header_bytes (h := h) hh (kind := 1) (n := 16 + 12 + (ns.length + 1) + (encDoc x).length + (docs y.toList).length) (by simp [WMsg.body]; omega) (by omega)
      (int32Bytes f ++ (cstringBytes ns ++ (int32Bytes s ++ (int32Bytes n ++ (encDoc x ++ docs y.toList)))))
      (by simp only [WMsg.body, int32Bytes_eq, cstringBytes_eq, List.append_assoc])
    refine ⟨.query _ f s n ns (some q) p, ?_, ⟨x, y, rfl, ⟨q, rfl, hq⟩, hp⟩,
      sent_eq (h := h) (n := 16 + 12 + (ns.length + 1) + (encDoc x).length + (docs y.toList).length) (by omega) (by omega)⟩
    have hp1 : getDocSize fuel p = .ok (docs y.toList).length ∧ docBytes fuel p = .ok (docs y.toList) := by
      cases y with
      | none => simp only at hp; subst hp; exact ⟨rfl, rfl⟩
      | some y =>
        obtain ⟨p, rfl, hp⟩ := hp
        have e : docs (some y).toList = encDoc y := by simp [docs]
        rw [e] at hl hf ⊢
        exact ⟨getDocSize_rep hp (by omega) (by omega), docBytes_rep hp (by omega) (by omega)⟩
    simp only [Message.serialize]
    rw [getDocSize_rep hq (by omega) (by omega), hp1.1, docBytes_rep hq (by omega) (by omega), hp1.2]
    simp only [Res.bind_ok]
    rw [hb']
  | getMore h r n c ns =>
    obtain ⟨rfl, rfl⟩ := hm
    simp only [WMsg.body, List.length_append, int32_length, int64_length, cstring_length] at hl hf ⊢
    have hb' := header_bytes (h := h) hh (kind := 1) (n := 16 + 16 + (ns.length + 1)) (by simp [WMsg.body]; omega) (by omega)
      (int32Bytes 0 ++ (cstringBytes ns ++ (int32Bytes n ++ int64Bytes c)))
      (by simp only [WMsg.body, int32Bytes_eq, int64Bytes_eq, cstringBytes_eq, List.append_assoc])
    refine ⟨.getMore _ 0 n c ns, ?_, ⟨rfl, rfl⟩, sent_eq (h := h) (n := 16 + 16 + (ns.length + 1)) (by omega) (by omega)⟩
    simp only [Message.serialize]
    rw [hb']
  | insert h f ns ds =>
    obtain ⟨fss, rfl, hd⟩ := hm
    simp only [WMsg.body, List.length_append, int32_length, cstring_length] at hl hf ⊢
    have hb := header_bytes (h := h) hh (kind := 1) (n := 16 + 4 + (ns.length + 1) + (docs fss).length) (by simp [WMsg.body]; omega) (by omega)
      (int32Bytes f ++ (cstringBytes ns ++ docs fss))
      (by simp only [WMsg.body, int32Bytes_eq, cstringBytes_eq, List.append_assoc])
    refine ⟨.insert _ f ns ds, ?_, ⟨fss, rfl, hd⟩, sent_eq (h := h) (n := 16 + 4 + (ns.length + 1) + (docs fss).length) (by omega) (by omega)⟩
    simp only [Message.serialize]
    rw [docsSize_rep hd (by omega) (by omega), docsBytes_rep hd (by omega) (by omega)]
    simp only [Res.bind_ok]
    rw [hb]
  | delete h r f ns a =>
    obtain ⟨x, rfl, rfl, ⟨a, rfl, ha⟩⟩ := hm
    simp only [WMsg.body, List.length_append, int32_length, cstring_length] at hl hf ⊢
    have hb' := header_bytes (h := h) hh (kind := 1) (n := 16 + 8 + (ns.length + 1) + (encDoc x).length) (by simp [WMsg.body]; omega) (by omega)
      (int32Bytes 0 ++ (cstringBytes ns ++ (int32Bytes f ++ encDoc x)))
      (by simp only [WMsg.body, int32Bytes_eq, cstringBytes_eq, List.append_assoc])
    refine ⟨.delete _ 0 f ns (some a), ?_, ⟨x, rfl, rfl, ⟨a, rfl, ha⟩⟩,
      sent_eq (h := h) (n := 16 + 8 + (ns.length + 1) + (encDoc x).length) (by omega) (by omega)⟩
    simp only [Message.serialize]
    rw [getDocSize_rep ha (by omega) (by omega), docBytes_rep ha (by omega) (by omega)]
    simp only [Res.bind_ok]
    rw [hb']
  | killCursors h r n ids =>
    obtain ⟨rfl, rfl, rfl⟩ := hm
    simp only [WMsg.body, List.length_append, int32_length, flatMap_int64_length] at hl hf ⊢
    have hb' := header_bytes (h := h) hh (kind := 1) (n := 16 + 8 + 8 * ids.length) (by simp [WMsg.body, flatMap_int64_length, -List.length_flatMap]; omega) (by omega)
      (int32Bytes 0 ++ (int32Bytes ids.length ++ (ids.map int64Bytes).flatten))
      (by simp only [WMsg.body, int32Bytes_eq, List.flatMap_def, List.append_assoc]; rfl)
    refine ⟨.killCursors _ 0 ids.length ids, ?_, ⟨rfl, rfl, rfl⟩, sent_eq (h := h) (n := 16 + 8 + 8 * ids.length) (by omega) (by omega)⟩
    simp only [Message.serialize]
    rw [show (16 + 8 + 8 * (ids.length : Int)) = ((16 + 8 + 8 * ids.length : Nat) : Int) by omega, hb', alloc, if_neg (by omega)]
    rfl
  | command h db name a m ds up =>
    obtain ⟨x, y, fss, rfl, ⟨a, rfl, ha⟩, ⟨m, rfl, hm⟩, hd, rfl⟩ := hm
    simp only [WMsg.body, List.length_append, cstring_length] at hl hf ⊢
    have hb' := header_bytes (h := h) hh (kind := 1) (n := 16 + (db.length + 1) + (name.length + 1) + (encDoc x).length + (encDoc y).length + (docs fss).length)
      (by simp [WMsg.body]; omega) (by omega)
      (cstringBytes db ++ (cstringBytes name ++ (encDoc x ++ (encDoc y ++ docs fss))))
      (by simp only [WMsg.body, cstringBytes_eq, List.append_assoc])
    refine ⟨.command _ db name (some a) (some m) ds false, ?_, ⟨x, y, fss, rfl, ⟨a, rfl, ha⟩, ⟨m, rfl, hm⟩, hd, rfl⟩,
      sent_eq (h := h) (n := 16 + (db.length + 1) + (name.length + 1) + (encDoc x).length + (encDoc y).length + (docs fss).length) (by omega) (by omega)⟩
    simp only [Message.serialize]
    rw [getDocSize_rep ha (by omega) (by omega), getDocSize_rep hm (by omega) (by omega), docBytes_rep ha (by omega) (by omega),
      docBytes_rep hm (by omega) (by omega), docsSize_rep hd (by omega) (by omega), docsBytes_rep hd (by omega) (by omega)]
    simp only [Res.bind_ok]
    rw [hb']
  | commandReply h a m ds =>
    obtain ⟨x, y, fss, rfl, ⟨a, rfl, ha⟩, ⟨m, rfl, hm⟩, hd⟩ := hm
    simp only [WMsg.body, List.length_append] at hl hf ⊢
    have hb' := header_bytes (h := h) hh (kind := 1) (n := 16 + (encDoc x).length + (encDoc y).length + (docs fss).length)
      (by simp [WMsg.body]; omega) (by omega)
      (encDoc x ++ (encDoc y ++ docs fss))
      (by simp only [WMsg.body, List.append_assoc])
    refine ⟨.commandReply _ (some a) (some m) ds, ?_, ⟨x, y, fss, rfl, ⟨a, rfl, ha⟩, ⟨m, rfl, hm⟩, hd⟩,
      sent_eq (h := h) (n := 16 + (encDoc x).length + (encDoc y).length + (docs fss).length) (by omega) (by omega)⟩
    simp only [Message.serialize]
    rw [getDocSize_rep ha (by omega) (by omega), getDocSize_rep hm (by omega) (by omega), docBytes_rep ha (by omega) (by omega),
      docBytes_rep hm (by omega) (by omega), docsSize_rep hd (by omega) (by omega), docsBytes_rep hd (by omega) (by omega)]
    simp only [Res.bind_ok]
    rw [hb']
  | msg h s f db coll op is c =>
    obtain ⟨ss, cs, rfl, hi, rfl, rfl, rfl, rfl⟩ := hm
    simp only [Fresh] at hfr
    subst hfr
    obtain ⟨wf1, wf2, wf3⟩ := wf
    simp only [WMsg.body, List.length_append, le32_length] at hl hf ⊢
    obtain ⟨is', h1, h2⟩ := items_rep hi (by omega) (show _ < fuel by omega)
    generalize e : ss.flatMap (WSection.enc 1) = body at *
    have hfl : int32Bytes (i32 f) = le32 f := by
      have : u32i (i32 (f : Int)) = f := by unfold u32i i32; omega
      simp only [int32Bytes, this]
    simp only [Message.serialize, ne_eq, not_true_eq_false, if_false]
    rw [h1]
    simp only [Res.bind_ok, hfl]
    cases cs with
    | none =>
      have hb := header_bytes (h := h) hh (kind := 1) (n := 16 + 4 + body.length) (by simp [WMsg.body, e, -List.length_flatMap]; omega)
        (by omega) (le32 f ++ (body ++ [])) (by simp only [WMsg.body, e]; simp)
      refine ⟨.msg _ (WMsg.enc 1 rid rto (.msg f ss none)) f [] [] [] is' 0, ?_, ⟨ss, none, rfl, h2, rfl, rfl, rfl, rfl⟩,
        sent_eq (h := h) (n := 16 + 4 + body.length) (by simp; omega) (by omega)⟩
      simp only [Option.getD_none, not_true_eq_false, false_and, if_false, Int.add_zero]
      rw [show (16 + 4 + (body.length : Int)) = ((16 + 4 + body.length : Nat) : Int) by omega, hb, alloc, if_neg (by omega)]
      rfl
    | some c =>
      obtain ⟨hc1, hc2, hc3⟩ := wf3 c rfl
      simp only [Option.toList_some, List.flatMap_cons, List.flatMap_nil, List.append_nil, int32_length] at hl hf
      have hb := header_bytes (h := h) hh (kind := 1) (n := 16 + 4 + body.length + 4) (by simp [WMsg.body, e, -List.length_flatMap]; omega)
        (by omega) (le32 f ++ (body ++ int32Bytes c)) (by simp only [WMsg.body, e]; simp [int32Bytes_eq])
      refine ⟨.msg _ (WMsg.enc 1 rid rto (.msg f ss (some c))) f [] [] [] is' c, ?_, ⟨ss, some c, rfl, h2, rfl, rfl, rfl, rfl⟩,
        sent_eq (h := h) (n := 16 + 4 + body.length + 4) (by simp; omega) (by omega)⟩
      simp only [Option.getD_some, hc2, hc3, not_false_eq_true, and_self, if_true]
      rw [show (16 + 4 + (body.length : Int) + 4) = ((16 + 4 + body.length + 4 : Nat) : Int) by omega, hb, alloc, if_neg (by omega)]
      rfl

end Birch.Proofs.Wire
