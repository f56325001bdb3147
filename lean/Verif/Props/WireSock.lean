import Verif.Proofs.WireSock
import Verif.Props.Wire

/-
C42, C43: reading and writing messages over a connection.
-/

namespace Birch.Props
open Birch Spec Spec.Wire Model Model.Wire Model.Stream Proofs Proofs.Wire

/-! ### C42 -/

/-- Calls of `ReadMessage` return the messages `ws`, with their ids, in this order; then `io.EOF`. -/
inductive Reads (fuel : Nat) : Source → List (WMsg × Int × Int) → Prop
  | eof (s s' : Source) (h : readMessage fuel [] s = (.err .eof, s', [])) : Reads fuel s []
  | next (s s' : Source) (m : Message) (w : WMsg) (rid rto : Int) (ws : List (WMsg × Int × Int)) (h : readMessage fuel [] s = (.ok m, s', []))
    (hm : RepMsg m w) (h1 : m.header.requestID = rid) (h2 : m.header.responseTo = rto) (h3 : m.header.opCode = w.code) (hs : Reads fuel s' ws) :
    Reads fuel s ((w, rid, rto) :: ws)

/-- a message that can be read: of the protocol, at most 200 MiB, not a query that is made a command -/
def Readable (kind : Nat) (x : WMsg × Int × Int) : Prop :=
  x.1.WF ∧ I32 x.2.1 ∧ I32 x.2.2 ∧ ¬ x.1.Upconverted ∧ (x.1.enc kind x.2.1 x.2.2).length ≤ 209715200

/-- If the size of every message comes with one `Read`, and its rest with one `Read` or in pieces of which the last is its exact end, `ReadMessage` returns
    the messages one by one.  Missing: other segmentations, for which this is false (`C42_split_size`, `C42_overread`, `C42_eager`). -/
theorem C42_frames_partial (kind : Nat) (hk : kind ≤ 1) (ws : List (WMsg × Int × Int)) (hw : ∀ x ∈ ws, Readable kind x) (segs : List Bytes)
    (hd : Delivered segs (ws.map fun x => x.1.enc kind x.2.1 x.2.2)) (fuel : Nat) (hf : segs.length + segs.flatten.length < fuel) : Reads fuel ⟨segs, false⟩ ws := by
  generalize hm : (ws.map fun x => x.1.enc kind x.2.1 x.2.2) = ms at hd
  induction hd generalizing ws with
  | done =>
    cases ws with
    | nil => exact .eof _ _ rfl
    | cons x ws => cases hm
  | next size body x t rest ms hs hb hd ih =>
    cases ws with
    | nil => cases hm
    | cons v ws =>
      obtain ⟨w, rid, rto⟩ := v
      simp only [List.map_cons, List.cons.injEq] at hm
      obtain ⟨he, hm⟩ := hm
      obtain ⟨wf, hr, ht, hu, hl⟩ := hw _ (List.mem_cons_self ..)
      dsimp only at wf hr ht hu hl
      rw [he, List.length_append, hs] at hl
      have e : size = le32 (body.length + 4) := by
        have h := congrArg List.length he
        rw [List.length_append, hs, enc_length] at h
        simp only [WMsg.enc, List.append_assoc] at he
        have := (List.append_inj he (by rw [le32_length, hs])).1
        rw [← this]
        congr 1
        omega
      have hlen : body.length + rest.flatten.length = x.length + t.flatten.length ∧ rest.length ≤ t.length + 1 := by
        have h1 := arrives_length hb
        have h2 := unread_length x t
        rw [unread_flatten] at h1
        omega
      simp only [List.length_cons, List.flatten_cons, List.length_append] at hf
      subst e
      obtain ⟨m, h1, h2, h3⟩ := finishRead_enc hk hr ht wf hu he (by omega) (show body.length < fuel by omega)
      have h4 := readMessage_arrives rfl (by omega) hb (show t.length + 1 < fuel by omega)
      rw [h1] at h4
      refine .next _ _ m w rid rto ws h4 h2 ?_ ?_ ?_ (ih ws (fun x hx => hw x (List.mem_cons_of_mem _ hx)) (by omega) hm)
      all_goals rw [h3]; cases w <;> rfl

/-- `getMore` and `insert`, the first split in three, then the second with its size -/
example : ∃ ws segs, (∀ x ∈ ws, Readable 0 x) ∧ Delivered segs (ws.map fun x => x.1.enc 0 x.2.1 x.2.2) ∧
    ws = [(.getMore [97, 46, 98] 5 9, 7, 0), (.insert 0 [97, 46, 98] [wireFields], 8, 0)] ∧ segs.length = 4 := by
  refine ⟨_, [((WMsg.getMore [97, 46, 98] 5 9).enc 0 7 0).take 10, [], ((WMsg.getMore [97, 46, 98] 5 9).enc 0 7 0).drop 10,
    (WMsg.insert 0 [97, 46, 98] [wireFields]).enc 0 8 0], ?_, ?_, rfl, rfl⟩
  · simp only [List.mem_cons, List.not_mem_nil, or_false, forall_eq_or_imp, forall_eq]
    refine ⟨⟨⟨by simp [NulFree], by unfold I32; decide, by unfold I64; decide⟩, by unfold I32; decide, by unfold I32; decide, id, by decide +kernel⟩,
      ⟨by unfold I32; decide, by simp [NulFree], by simpa using repFields_wf wireDoc_rep⟩, by unfold I32; decide, by unfold I32; decide, id, by decide +kernel⟩
  · refine .next [36, 0, 0, 0] _ [7, 0, 0, 0, 0, 0] _ [(WMsg.insert 0 [97, 46, 98] [wireFields]).enc 0 8 0] _ rfl (.pieces [[7, 0, 0, 0, 0, 0], []] _ _ ?_ ?_) ?_
    · decide
    · decide
    · exact .next [36, 0, 0, 0] _ _ [] [] [] rfl (.whole [] [] 0 (by decide)) .done

/-- All messages in one segment. -/
theorem C42_one_segment_partial (kind : Nat) (hk : kind ≤ 1) (ws : List (WMsg × Int × Int)) (hne : ws ≠ []) (hw : ∀ x ∈ ws, Readable kind x) (fuel : Nat)
    (hf : (ws.flatMap fun x => x.1.enc kind x.2.1 x.2.2).length + 1 < fuel) :
    Reads fuel ⟨[ws.flatMap fun x => x.1.enc kind x.2.1 x.2.2], false⟩ ws := by
  refine C42_frames_partial kind hk ws hw _ ?_ fuel (by simp only [List.length_singleton, List.flatten_cons, List.flatten_nil, List.append_nil]; omega)
  clear hf
  have long : ∀ x : WMsg × Int × Int, x.1.enc kind x.2.1 x.2.2 ≠ [] := fun x h => by have := congrArg List.length h; rw [enc_length] at this; simp at this
  have key : ∀ ws : List (WMsg × Int × Int), Delivered (unread (ws.flatMap fun x => x.1.enc kind x.2.1 x.2.2) []) (ws.map fun x => x.1.enc kind x.2.1 x.2.2) := by
    intro ws
    induction ws with
    | nil => exact .done
    | cons x ws ih =>
      rw [List.flatMap_cons, unread, if_neg (by simp [long x]), List.map_cons]
      have h1 : x.1.enc kind x.2.1 x.2.2 = (x.1.enc kind x.2.1 x.2.2).take 4 ++ (x.1.enc kind x.2.1 x.2.2).drop 4 := (List.take_append_drop 4 _).symm
      have hl : (x.1.enc kind x.2.1 x.2.2).length = 16 + (x.1.body kind).length := enc_length ..
      have hd : (x.1.enc kind x.2.1 x.2.2).drop 4 ≠ [] := by
        intro h; have := congrArg List.length h; rw [List.length_drop, hl] at this; simp at this; omega
      rw [h1, List.append_assoc]
      refine .next _ _ _ _ _ _ (by rw [List.length_take, hl]; omega) ?_ ih
      rw [show ∀ z : Bytes, unread ((x.1.enc kind x.2.1 x.2.2).drop 4 ++ z) [] = List.replicate 0 [] ++ ((x.1.enc kind x.2.1 x.2.2).drop 4 ++ z) :: [] from
        fun z => by rw [unread, if_neg (by simp only [List.append_eq_nil_iff]; exact fun h => hd h.1)]; rfl]
      exact .whole _ _ 0 hd
  have := key ws
  rwa [unread, if_neg] at this
  cases ws with
  | nil => exact absurd rfl hne
  | cons x ws => rw [List.flatMap_cons]; simp [long x]

example : Readable 1 (.killCursors [5, 6], 1, 0) := ⟨by simp [WMsg.WF, I64], by unfold I32; decide, by unfold I32; decide, id, by decide +kernel⟩

/-- If the size does not come with the first `Read`, `ReadMessage` fails, whatever follows. -/
theorem C42_split_size (seg : Bytes) (hs : seg.length < 4) (t : List Bytes) (fuel : Nat) : readMessage fuel [] ⟨seg :: t, false⟩ = (.err .other, ⟨t, false⟩, []) := by
  unfold readMessage
  rw [read_fits (by omega)]
  simp only [fate, Bool.false_eq_true, if_false]
  rw [if_pos (by omega)]

example : ([36, 0] : Bytes).length < 4 := by decide

/-- If the second part of a message comes together with bytes of the next message, as many as fit the buffer are taken for this message. -/
theorem C42_overread (a b y : Bytes) (ha : a ≠ []) (hb : b ≠ []) (hy : y.length ≤ a.length) (hl : (a ++ b).length + 4 ≤ 209715200) (t : List Bytes) (fuel : Nat)
    (hf : 3 ≤ fuel) : readMessage fuel [] ⟨(le32 ((a ++ b).length + 4) ++ a) :: (b ++ y) :: t, false⟩ =
      (finishRead fuel ((a ++ b).length + 4 : Nat) (a ++ (b ++ y)), ⟨t, false⟩, []) := by
  have ha' : 0 < a.length := List.length_pos_iff.mpr ha
  have hb' : 0 < b.length := List.length_pos_iff.mpr hb
  have h4 : (le32 ((a ++ b).length + 4)).length = 4 := le32_length _
  have h := read_part (le32 ((a ++ b).length + 4)) a ((b ++ y) :: t)
  rw [h4, unread, if_neg ha] at h
  have hr : readi32 (le32 ((a ++ b).length + 4)) = .ok (((a ++ b).length + 4 : Nat) : Int) := by
    have := readi32_le32_nat (n := (a ++ b).length + 4) (by omega) []
    simpa using this
  rw [List.length_append] at *
  unfold readMessage
  rw [h]
  simp only [fate, Bool.false_eq_true, if_false, h4, ne_eq, not_true_eq_false, hr]
  rw [if_neg (by omega), if_neg (by omega), show ((a.length + b.length + 4 : Nat) : Int) - 4 = (a.length + b.length : Nat) by omega]
  match fuel, hf with
  | fuel + 3, _ =>
    conv => lhs; unfold readRest
    rw [i32_len (by omega), if_neg (by omega), Int.toNat_natCast, read_fits (by omega)]
    simp only [fate, Bool.false_eq_true, if_false, Nat.zero_add]
    rw [if_neg (by omega)]
    unfold readRest
    rw [i32_len (by omega), if_neg (by omega), Int.toNat_natCast, read_fits (by rw [List.length_append]; omega)]
    simp only [fate, Bool.false_eq_true, if_false]
    rw [if_neg (by rw [List.length_append]; omega)]
    unfold readRest
    rw [List.length_append, i32_len (by omega), if_pos (by omega)]
    rfl

example : ∃ a b y : Bytes, a = List.replicate 20 1 ∧ b = [2] ∧ y = [3] ∧ a ≠ [] ∧ b ≠ [] ∧ y.length ≤ a.length ∧ (a ++ b).length + 4 ≤ 209715200 :=
  ⟨_, _, _, rfl, rfl, rfl, by simp, by simp, by simp, by simp⟩

def cutMore : WMsg := .getMore [97, 46, 98] 5 9
def cutSegs : List Bytes := [(cutMore.enc 0 7 0).take 30, (cutMore.enc 0 7 0).drop 30 ++ (WMsg.killCursors []).enc 0 8 0]

/-- Two messages, the first cut after thirty bytes: the second is never returned, though every byte arrives. -/
theorem C42_not_all_segmentations : ∃ (ws : List (WMsg × Int × Int)) (segs : List Bytes), (∀ x ∈ ws, Readable 0 x) ∧ ws.length = 2 ∧
    segs.flatten = (ws.flatMap fun x => x.1.enc 0 x.2.1 x.2.2) ∧ ∀ fuel, ¬ Reads fuel ⟨segs, false⟩ ws := by
  refine ⟨[(cutMore, 7, 0), (.killCursors [], 8, 0)], cutSegs, ?_, rfl, by decide +kernel, ?_⟩
  · simp only [List.mem_cons, List.not_mem_nil, or_false, forall_eq_or_imp, forall_eq]
    exact ⟨⟨⟨by simp [NulFree], by unfold I32; decide, by unfold I64; decide⟩, by unfold I32; decide, by unfold I32; decide, id, by decide +kernel⟩,
      ⟨by simp [WMsg.WF], by unfold I32; decide, by unfold I32; decide, id, by decide +kernel⟩⟩
  · intro fuel hr
    cases hr with
    | next _ s' m _ _ _ _ h hm h1 h2 h3 hs =>
      by_cases hf : 3 ≤ fuel
      · have := C42_overread ((cutMore.enc 0 7 0).drop 4 |>.take 26) ((cutMore.enc 0 7 0).drop 30) ((WMsg.killCursors []).enc 0 8 0)
          (by decide) (by decide) (by decide +kernel) (by decide +kernel) [] fuel hf
        have e : (le32 ((((cutMore.enc 0 7 0).drop 4 |>.take 26) ++ ((cutMore.enc 0 7 0).drop 30)).length + 4) ++ ((cutMore.enc 0 7 0).drop 4 |>.take 26)) ::
          (((cutMore.enc 0 7 0).drop 30) ++ (WMsg.killCursors []).enc 0 8 0) :: [] = cutSegs := by decide +kernel
        rw [e, h] at this
        injection this with _ this
        injection this with this _
        subst this
        cases hs with
        | next _ s' m _ _ _ _ h =>
          have : readMessage fuel [] ⟨[], false⟩ = (.err .eof, ⟨[], false⟩, []) := rfl
          rw [this] at h
          cases h
      · have : ∀ f : Fin 3, ((readMessage f [] ⟨cutSegs, false⟩).1 >>= fun _ => (.ok () : Res Unit)) = .oof := by decide +kernel
        have := this ⟨fuel, by omega⟩
        rw [h] at this
        cases this

/-- A reader that returns `io.EOF` together with the last bytes: they are dropped, and the message is lost. -/
theorem C42_eager (body : Bytes) (hb : body ≠ []) (hl : body.length + 4 ≤ 209715200) (fuel : Nat) (hf : 0 < fuel) :
    readMessage fuel [] ⟨[le32 (body.length + 4), body], true⟩ = (.err .other, ⟨[], true⟩, []) := by
  have hb' : 0 < body.length := List.length_pos_iff.mpr hb
  have h4 : (le32 (body.length + 4)).length = 4 := le32_length _
  have h : Source.read ⟨[le32 (body.length + 4), body], true⟩ 4 = (le32 (body.length + 4), false, ⟨[body], true⟩) := by
    simp only [Source.read, List.drop_eq_nil_of_le (Nat.le_of_eq h4), if_true, List.take_of_length_le (Nat.le_of_eq h4)]
    simp
  have h' : Source.read ⟨[body], true⟩ body.length = (body, true, ⟨[], true⟩) := by
    simp [Source.read]
  have hr : readi32 (le32 (body.length + 4)) = .ok ((body.length + 4 : Nat) : Int) := by
    have := readi32_le32_nat (n := body.length + 4) (by omega) []
    simpa using this
  unfold readMessage
  rw [h]
  simp only [fate, Bool.false_eq_true, if_false, h4, ne_eq, not_true_eq_false, hr]
  rw [if_neg (by omega), if_neg (by omega), show ((body.length + 4 : Nat) : Int) - 4 = (body.length : Nat) by omega]
  match fuel, hf with
  | fuel + 1, _ =>
    unfold readRest
    rw [i32_len (by omega), if_neg (by omega), Int.toNat_natCast, h']
    simp only [fate, if_true, finishRead]
    rfl

example : ((WMsg.killCursors [5]).enc 0 1 0).drop 4 ≠ [] := by decide

/-! ### C43 -/

/-- As long as no result is lost, `SendMessage` returns nil only if the writer got the message, and in any case the writer got a beginning of it.
    Missing: results lost when the context ends (`C43_duplicate`). -/
theorem C43_send_partial (as : List Attempt) (buf : Bytes) (hl : ∀ a ∈ as, a.fate ≠ .lost) :
    ((send as buf).2 = .sent → (send as buf).1 = buf) ∧ (send as buf).1 <+: buf := by
  induction as generalizing buf with
  | nil => simp [send]
  | cons a as ih =>
    have ha := hl a (by simp)
    have ih := fun b => ih b (fun x hx => hl x (by simp [hx]))
    simp only [send]
    split
    · exact ⟨by simp, List.take_prefix ..⟩
    · next h => exact absurd h ha
    · split
      · exact ⟨by simp, List.take_prefix ..⟩
      · split
        · next h => exact ⟨fun _ => by rw [h, List.take_length], List.take_prefix ..⟩
        · split
          · exact ⟨by simp, List.take_prefix ..⟩
          · obtain ⟨h1, h2⟩ := ih (buf.drop a.n)
            refine ⟨fun h => ?_, ?_⟩
            · dsimp only
              rw [h1 h, List.take_append_drop]
            · obtain ⟨z, hz⟩ := h2
              exact ⟨z, by dsimp only; rw [List.append_assoc, hz, List.take_append_drop]⟩

example : ∃ as : List Attempt, as = [⟨2, false, .reported⟩, ⟨1, false, .reported⟩] ∧ (∀ a ∈ as, a.fate ≠ .lost) ∧ (send as [1, 2, 3]).2 = .sent := by
  refine ⟨_, rfl, by simp, by decide⟩

/-- Whatever the sizes of the writes, a message is sent as it is. -/
theorem C43_chunks (cs : List Bytes) (hne : cs ≠ []) (hc : ∀ c ∈ cs, c ≠ []) :
    send (cs.map fun c => ⟨c.length, false, .reported⟩) cs.flatten = (cs.flatten, .sent) := by
  induction cs with
  | nil => exact absurd rfl hne
  | cons c cs ih =>
    simp only [List.map_cons, send, List.flatten_cons, List.take_left, Bool.false_eq_true, if_false, List.drop_left]
    cases cs with
    | nil => simp
    | cons c' cs =>
      have h' : 0 < c'.length := List.length_pos_iff.mpr (hc c' (by simp))
      rw [if_neg (by simp only [List.flatten_cons, List.length_append]; omega), if_neg (by simp only [List.length_append]; omega),
        ih (by simp) (fun x hx => hc x (by simp [hx]))]

example : ∃ cs : List Bytes, cs = [[1, 2], [3], [4, 5, 6]] ∧ cs ≠ [] ∧ ∀ c ∈ cs, c ≠ [] := ⟨_, rfl, by simp, by simp⟩

/-- An error of the writer is returned, whatever was written before. -/
theorem C43_error (cs : List Bytes) (n : Nat) (as : List Attempt) (rest : Bytes) (hr : rest ≠ []) :
    send (cs.map (fun c => ⟨c.length, false, .reported⟩) ++ ⟨n, true, .reported⟩ :: as) (cs.flatten ++ rest) = (cs.flatten ++ rest.take n, .error) := by
  have hr' : 0 < rest.length := List.length_pos_iff.mpr hr
  induction cs with
  | nil => simp [send]
  | cons c cs ih =>
    simp only [List.map_cons, List.cons_append, send, List.flatten_cons, List.append_assoc, List.take_left, Bool.false_eq_true, if_false, List.drop_left]
    rw [if_neg (by simp only [List.length_append]; omega), if_neg (by simp only [List.length_append]; omega), ih]

example : ([7] : Bytes) ≠ [] := by simp

/-- A message sent, in writes of any size, is read by the other side as a message that says the same. -/
theorem C43_end_to_end (m : Message) (w : WMsg) (rid rto : Int) (hm : RepMsg m w) (hfr : Fresh m) (hh : HeaderFor m.header w rid rto) (hw : Readable 1 (w, rid, rto))
    (fuel : Nat) (hf : (w.enc 1 rid rto).length + 1 < fuel) (as : List Attempt) (hl : ∀ a ∈ as, a.fate ≠ .lost) :
    ∃ b m', m.serialize fuel = .ok (b, m') ∧ ((send as b).2 = .sent → Reads fuel ⟨[(send as b).1], false⟩ [(w, rid, rto)]) := by
  have hl' := hw.2.2.2.2
  dsimp only at hl'
  obtain ⟨m', h1, -, -⟩ := C40_serialize m w rid rto hm hfr hh hw.1 (by omega) fuel (by omega)
  refine ⟨_, m', h1, fun h => ?_⟩
  rw [(C43_send_partial as _ hl).1 h]
  have := C42_one_segment_partial 1 (by omega) [(w, rid, rto)] (by simp) (by simpa using hw) fuel (by simpa using hf)
  simpa using this

example : ∃ m w, w = WMsg.killCursors [5, 6] ∧ RepMsg m w ∧ Fresh m ∧ HeaderFor m.header w 19 0 ∧ Readable 1 (w, 19, 0) :=
  ⟨newKillCursors [5, 6], _, rfl, ⟨rfl, rfl, rfl⟩, trivial, ⟨rfl, rfl, rfl⟩, by simp [WMsg.WF, I64], by unfold I32; decide, by unfold I32; decide, id, by decide +kernel⟩

/-- When the context ends and the result of a write is lost, the message may be written twice, and `SendMessage` returns nil. -/
theorem C43_duplicate (buf : Bytes) (hb : buf ≠ []) :
    send [⟨buf.length, false, .lost⟩, ⟨buf.length, false, .reported⟩] buf = (buf ++ buf, .sent) := by
  have hb' : 0 < buf.length := List.length_pos_iff.mpr hb
  simp only [send]
  rw [if_neg (by omega)]
  simp

example : ([1] : Bytes) ≠ [] := by simp

/-- A writer that takes nothing and reports no error keeps `SendMessage` running. -/
theorem C43_stuck (buf : Bytes) (hb : buf ≠ []) (k : Nat) : send (List.replicate k ⟨0, false, .reported⟩) buf = ([], .running) := by
  have hb' : 0 < buf.length := List.length_pos_iff.mpr hb
  induction k with
  | zero => rfl
  | succ k ih =>
    simp only [List.replicate_succ, send, Bool.false_eq_true, if_false, List.drop_zero, List.take_zero, ih]
    rw [if_neg (by omega), if_neg (by omega)]
    rfl

example : ([1] : Bytes) ≠ [] := by simp

end Birch.Props
