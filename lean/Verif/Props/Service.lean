import Verif.Proofs.Service
import Verif.Props.Registry
import Verif.Props.WireSock

/- C77: the service. -/

namespace Birch.Props
open Birch Spec Model Model.Wire Model.Registry Model.Service Spec.Wire Spec.Registry Spec.Service Proofs.Service

variable {H : Type} {y : Sys H}

/-- a request that kills no cursors, and its bytes -/
private def killNone : Message := .killCursors ⟨24, 1, 0, 2007⟩ 0 0 []
private def killBytes : Bytes := (WMsg.killCursors []).enc 0 1 0

/-- a service that replies to it with one byte, and two such requests -/
private def one : Sys Nat := ⟨Ops.new.run [(⟨2007, [], [], none⟩, some 1)], 100, fun _ _ => [[9]], fun _ _ => false⟩

/-- This killing of cursors was read, and this is left. -/
private def isKill (h : Header) (n : Int) (ids : List Int) (src : Stream.Source) : Res Message × Stream.Source × List Fate → Bool
  | (.ok (.killCursors h' r n' ids'), src', fs) => h' = h ∧ r = 0 ∧ n' = n ∧ ids' = ids ∧ src' = src ∧ fs = []
  | _ => false

private theorem of_isKill {h : Header} {n : Int} {ids : List Int} {src : Stream.Source} {x : Res Message × Stream.Source × List Fate} (e : isKill h n ids src x = true) :
    x = (.ok (.killCursors h 0 n ids), src, []) := by
  unfold isKill at e
  split at e
  · simp only [decide_eq_true_eq] at e
    obtain ⟨rfl, rfl, rfl, rfl, rfl, rfl⟩ := e
    rfl
  · cases e

private theorem kill2 : readMessage 100 [] ⟨[killBytes, killBytes], false⟩ = (.ok killNone, ⟨[killBytes], false⟩, []) := of_isKill (by decide +kernel)
private theorem kill1 : readMessage 100 [] ⟨[killBytes], false⟩ = (.ok killNone, ⟨[], false⟩, []) := of_isKill (by decide +kernel)
private theorem killCut : readMessage 100 [] ⟨[killBytes, [24]], false⟩ = (.ok killNone, ⟨[[24]], false⟩, []) := of_isKill (by decide +kernel)

private theorem one_asks : Asks one ⟨[killBytes, killBytes], false⟩ [(1, killNone), (1, killNone)] none := by
  exact .next kill2 rfl (.next kill1 rfl (.eof rfl))

/-- As long as the context does not end, handlers are started for the messages of the connection in the order in which they came: each message is given once, to the handler
    it is dispatched to, and no other.  When the dispatcher has returned, all of them were started, and the error handlers were called once, or not at all if the client
    closed the connection after a message, besides a call for an error of `Close`. -/
theorem C77_dispatch (src : Stream.Source) (hs : List (H × Message)) (f : Option Fault) (ha : Asks y src hs f) (s : State H) (st : Steps y (new src) s) (hc : s.ctxDone = false) :
    started s <+: hs ∧ (s.dispatcher = .ended → started s = hs ∧ (s.errors = f.toList ∨ s.errors = f.toList ++ [.closing])) := by
  have h := fut_steps ha st hc
  unfold Fut at h
  split at h
  · next e => obtain ⟨⟨rest, _, h⟩, _⟩ := h; exact ⟨⟨rest, h⟩, fun e' => by rw [e] at e'; cases e'⟩
  · next e =>
    refine ⟨?_, fun e' => by rw [e] at e'; cases e'⟩
    obtain ⟨_, ⟨_, rest, _, _, h⟩ | ⟨_, h, _⟩ | ⟨_, h, _⟩⟩ := h
    · exact ⟨_, h⟩
    · exact ⟨[], by simp [h]⟩
    · exact ⟨[], by simp [h]⟩
  · next e => exact ⟨⟨[], by simp [h.1]⟩, fun e' => by rw [e] at e'; cases e'⟩
  · exact ⟨⟨[], by simp [h.1]⟩, fun _ => h⟩

example : ∃ s, Asks one ⟨[killBytes, killBytes], false⟩ [(1, killNone), (1, killNone)] none ∧ Steps one (new ⟨[killBytes, killBytes], false⟩) s ∧ s.ctxDone = false ∧
    s.dispatcher = .ended ∧ s.errors = [] := by
  obtain ⟨s, h1, h2, h3, -⟩ := silent (fun _ _ => rfl) one_asks
  have := (C77_dispatch _ _ _ one_asks s h1 h3).2 h2.2.1
  obtain ⟨u, h4, h5, h6, h7, h8⟩ := finish_dispatcher one_asks (new ⟨[killBytes, killBytes], false⟩) rfl rfl rfl rfl
  have hs := Steps.trans h4 (Steps.one (.close false h6 h5))
  have := (C77_dispatch _ _ _ one_asks _ hs h7).2 rfl
  refine ⟨_, one_asks, hs, h7, rfl, ?_⟩
  rcases this.2 with h | h
  · exact h
  · have hf := fut_steps one_asks h4 h7
    unfold Fut at hf
    rw [h5] at hf
    simp [hf.2]

/-- The same for messages of the protocol after any registrations: the handlers for them get them in order, up to a message without a handler or a reply.
    Missing: contexts that end (`C77_cancelled`) and segmentations with which `ReadMessage` does not find the messages (`C42_not_all_segmentations`). -/
theorem C77_messages_partial (cs : List (Scope × Option H)) (ho : y.ops = Ops.new.run cs) (kind : Nat) (hk : kind ≤ 1) (ws : List (WMsg × Int × Int))
    (hw : ∀ x ∈ ws, Readable kind x) (hn : ∀ x ∈ ws, HasName x.1) (segs : List Bytes) (hd : Delivered segs (ws.map fun x => x.1.enc kind x.2.1 x.2.2))
    (hf : segs.length + segs.flatten.length < y.fuel) (s : State H) (st : Steps y (new ⟨segs, false⟩) s) (hc : s.ctxDone = false) :
    ∃ hs f ms, Wants cs (ws.map (·.1)) hs f ∧ Got ms hs ∧ started s <+: ms ∧
      (s.dispatcher = .ended → started s = ms ∧ (s.errors = f.toList ∨ s.errors = f.toList ++ [.closing])) := by
  obtain ⟨hs, f, hwants⟩ := wants_total (cs := cs) (ws.map (·.1))
  suffices h : ∃ ms, Got ms hs ∧ Asks y ⟨segs, false⟩ ms f by
    obtain ⟨ms, h1, h2⟩ := h
    exact ⟨hs, f, ms, hwants, h1, C77_dispatch _ _ _ h2 s st hc⟩
  have hr := C42_frames_partial kind hk ws hw segs hd y.fuel hf
  clear st hd hf hw
  generalize (⟨segs, false⟩ : Stream.Source) = src at hr
  induction hr generalizing hs f with
  | eof s s' h => cases hwants; exact ⟨[], .nil, .eof h⟩
  | next s s' m w rid rto ws h hm h1 h2 h3 hr ih =>
    have hdisp := C44_dispatch cs m w hm h3 (hn _ (List.mem_cons_self ..))
    rw [← ho] at hdisp
    cases hwants with
    | reply hs => rw [hs] at hdisp; exact ⟨[], .nil, .noScope h hdisp⟩
    | undefined hs hno =>
      rw [hs] at hdisp
      obtain ⟨r, e, ⟨x, rfl, hx⟩ | ⟨x, rfl, hx1, hx2⟩ | ⟨rfl, _, _⟩⟩ := hdisp
      · exact absurd (.inl hx) (hno x)
      · exact absurd (.inr ⟨hx1, hx2⟩) (hno x)
      · exact ⟨[], .nil, .undefined h e⟩
    | next hs hyes hrest =>
      rw [hs] at hdisp
      obtain ⟨ms, h4, h5⟩ := ih (fun x hx => hn x (List.mem_cons_of_mem _ hx)) _ _ hrest
      refine ⟨_, .cons hm h4, .next h ?_ h5⟩
      obtain ⟨r, e, he⟩ := hdisp
      rw [e]
      have uniq : ∀ s a b, Registered cs s a → Registered cs s b → a = b := by
        intro s a b ha hb
        have h1 := (C44_get cs s).1 a ha
        rw [(C44_get cs s).1 b hb] at h1
        cases h1
        rfl
      rcases he with ⟨x, rfl, hx⟩ | ⟨x, rfl, hx1, hx2⟩ | ⟨rfl, hx1, hx2⟩
      · rcases hyes with hy | ⟨hy, _⟩
        · rw [uniq _ _ _ hx hy]
        · exact absurd hx (hy _)
      · rcases hyes with hy | ⟨_, hy⟩
        · exact absurd hy (hx1 _)
        · rw [uniq _ _ _ hx2 hy]
      · rcases hyes with hy | ⟨_, hy⟩
        · exact absurd hy (hx1 _)
        · exact absurd hy (hx2 _)

example : ∃ (cs : List (Scope × Option Nat)) (ws : List (WMsg × Int × Int)) (segs : List Bytes), cs = [(⟨2007, [], [], none⟩, some 1)] ∧
    ws = [(.killCursors [], 1, 0), (.killCursors [], 1, 0), (.getMore [97, 46, 98] 5 9, 7, 0)] ∧ (∀ x ∈ ws, Readable 0 x) ∧ (∀ x ∈ ws, HasName x.1) ∧
    Delivered segs (ws.map fun x => x.1.enc 0 x.2.1 x.2.2) ∧
    Wants cs (ws.map (·.1)) [(1, .killCursors []), (1, .killCursors [])] (some .undefined) := by
  refine ⟨_, _, [killBytes, killBytes, (WMsg.getMore [97, 46, 98] 5 9).enc 0 7 0], rfl, rfl, ?_, ?_, ?_, ?_⟩
  · simp only [List.mem_cons, List.not_mem_nil, or_false, forall_eq_or_imp, forall_eq]
    exact ⟨⟨by simp [WMsg.WF], by unfold I32; decide, by unfold I32; decide, id, by decide +kernel⟩, ⟨by simp [WMsg.WF], by unfold I32; decide, by unfold I32; decide, id, by decide +kernel⟩,
      ⟨⟨by simp [NulFree], by unfold I32; decide, by unfold I64; decide⟩, by unfold I32; decide, by unfold I32; decide, id, by decide +kernel⟩⟩
  · simp [HasName]
  · exact .next [24, 0, 0, 0] _ _ _ _ _ rfl (.whole [] _ 0 (by decide)) (.next [24, 0, 0, 0] _ _ _ _ _ rfl (.whole [] _ 0 (by decide))
      (.next [36, 0, 0, 0] _ _ [] [] [] rfl (.whole [] [] 0 (by decide)) .done))
  · have hreg : HandlerFor [((⟨2007, [], [], none⟩ : Scope), some 1)] ⟨2007, [], [], none⟩ 1 := .inl ⟨by simp [Valid], [], [], rfl, by simp⟩
    refine .next rfl hreg (.next rfl hreg (.undefined rfl ?_))
    have hno : ∀ (s : Scope) (h : Nat), s.type = 2005 → ¬ Registered [((⟨2007, [], [], none⟩ : Scope), some 1)] s h := by
      rintro s h ht ⟨-, b, a, e, -⟩
      have : (s, some h) ∈ b ++ (s, some h) :: a := by simp
      rw [← e] at this
      simp only [List.mem_singleton, Prod.mk.injEq] at this
      rw [this.1] at ht
      cases ht
    rintro h (h' | ⟨_, h'⟩)
    · exact hno _ _ rfl h'
    · exact hno _ _ rfl h'

/-- The connection is closed once, when the dispatcher returns and not before.  Until it is about to, no error is reported; then at most one, and possibly that of `Close`.
    Also when the context ends. -/
theorem C77_closed (src : Stream.Source) (s : State H) (st : Steps y (new src) s) :
    (s.dispatcher = .ended → s.closes = 1) ∧ (s.dispatcher ≠ .ended → s.closes = 0) ∧
    (s.dispatcher = .reading ∨ (∃ m, s.dispatcher = .got m) → s.errors = []) ∧ (s.errors.filter fun e => e ≠ .closing).length ≤ 1 ∧ (s.errors.filter fun e => e = .closing).length ≤ 1 := by
  have hf := faults st
  unfold Faults at hf
  have all : ∀ es : List Fault, es.length ≤ 1 → Fault.closing ∉ es → (es.filter fun e => e ≠ .closing).length ≤ 1 ∧ (es.filter fun e => e = .closing) = [] := by
    intro es h1 h2
    refine ⟨Nat.le_trans (List.length_filter_le ..) h1, ?_⟩
    rw [List.filter_eq_nil_iff]
    intro x hx
    simp only [decide_eq_true_eq]
    rintro rfl
    exact h2 hx
  split at hf
  · next e => simp [e, hf.1, hf.2]
  · next e => simp [e, hf.1, hf.2]
  · next e =>
    have := all _ hf.2.1 hf.2.2
    simp only [e, hf.1, this.2]
    simpa using this.1
  · next e =>
    obtain ⟨h1, es, h2, h3, h4⟩ := hf
    have := all _ h2 h3
    refine ⟨fun _ => h1, fun h => absurd e h, fun h => by rw [e] at h; simp at h, ?_⟩
    rcases h4 with h4 | h4 <;> rw [h4]
    · exact ⟨this.1, by rw [this.2]; simp⟩
    · rw [List.filter_append, List.filter_append, this.2]
      simpa using this.1

example : ∃ s, Steps one (new ⟨[killBytes, [24]], false⟩) s ∧ s.dispatcher = .closing ∧ s.errors = [.reading .other] :=
  ⟨_, .step (.read rfl rfl (fun _ => rfl) killCut) (.step (.start rfl rfl rfl) (.step (.readErr rfl rfl (fun _ => rfl) rfl) .refl)), rfl, rfl⟩

/-- From each handler the client gets a beginning of what it writes, in order; all it has written so far, as long as the connection is not closed.  Nothing arrives later. -/
theorem C77_replies (src : Stream.Source) (s : State H) (st : Steps y (new src) s) (i : Nat) (t : Handling H) (ht : s.tasks[i]? = some t) :
    reply s i <+: y.writes t.handler t.message ∧ (s.dispatcher ≠ .ended → t.running = false → reply s i = y.writes t.handler t.message) ∧
    (s.dispatcher = .ended → ∀ u, Steps y s u → reply u i = reply s i) := by
  obtain ⟨h1, l, h2, h3⟩ := (sent st).task i t ht
  refine ⟨⟨l ++ t.left, by rw [← h2, List.append_assoc]⟩, fun hd hr => ?_, fun hd u hu => ?_⟩
  · rw [← h2, h1 hr, h3 ((C77_closed src s st).2.1 hd)]
    simp
  · unfold reply
    rw [(closed_steps hu (by rw [(C77_closed src s st).1 hd]; simp)).2]

/-- a handler that has written and returned while the next message is awaited -/
example : ∃ s t, Steps one (new ⟨[killBytes, killBytes], false⟩) s ∧ s.tasks[0]? = some t ∧ s.dispatcher = .reading ∧ t.running = false ∧ reply s 0 = [[9]] :=
  ⟨_, _, .step (.read rfl rfl (fun _ => rfl) kill2) (.step (.start rfl rfl rfl)
    (.step (.write (i := 0) rfl rfl rfl rfl rfl) (.step (.return (i := 0) rfl rfl rfl rfl rfl) .refl))), rfl, rfl, rfl, by decide⟩

/-- Whatever the client sends, a handler that waits long enough loses its reply: if the client sends its requests and closes its side, an execution may close the connection
    before any handler writes, and then the client gets nothing at all. -/
theorem C77_reply_lost (hp : ∀ h m, y.panics h m = false) (src : Stream.Source) (hs : List (H × Message)) (f : Option Fault) (ha : Asks y src hs f) :
    ∃ s, Steps y (new src) s ∧ Over s ∧ started s = hs ∧ s.ctxDone = false ∧ s.out = [] := by
  obtain ⟨s, h1, h2, h3, h4⟩ := silent hp ha
  exact ⟨s, h1, h2, ((C77_dispatch src hs f ha s h1 h3).2 h2.2.1).1, h3, h4⟩

example : (∀ h m, one.panics h m = false) ∧ Asks one ⟨[killBytes, killBytes], false⟩ [(1, killNone), (1, killNone)] none := ⟨fun _ _ => rfl, one_asks⟩

/-- Replies need not come in the order of the requests. -/
theorem C77_out_of_order : ∃ (y : Sys Nat) (src : Stream.Source) (m : Message) (s : State Nat), Steps y (new src) s ∧ Over s ∧ started s = [(1, m), (1, m)] ∧ s.errors = [] ∧
    s.out = [(1, [9]), (0, [9])] :=
  ⟨one, ⟨[killBytes, killBytes], false⟩, killNone, _,
    .step (.read rfl rfl (fun _ => rfl) kill2) <| .step (.start rfl rfl rfl) <|
    .step (.read rfl rfl (fun _ => rfl) kill1) <| .step (.start rfl rfl rfl) <|
    .step (.write (i := 1) rfl rfl rfl rfl rfl) <| .step (.write (i := 0) rfl rfl rfl rfl rfl) <| .step (.return (i := 1) rfl rfl rfl rfl rfl) <|
    .step (.return (i := 0) rfl rfl rfl rfl rfl) <| .step (.readErr rfl rfl (fun _ => rfl) rfl) <| .step (.close false rfl rfl) .refl,
    ⟨rfl, rfl, by simp [one, new]⟩, rfl, rfl, rfl⟩

/-- Only a panic of a handler ends the process: what the client sends does not. -/
theorem C77_no_crash (hp : ∀ h m, y.panics h m = false) (src : Stream.Source) (s : State H) (st : Steps y (new src) s) : s.crashed = false :=
  not_crashed hp st rfl

private theorem readReply : readMessage 100 [] ⟨[(WMsg.reply 0 0 0 0 []).enc 0 1 0], false⟩ = (.ok (.reply ⟨36, 1, 0, 1⟩ 0 0 0 0 []), ⟨[], false⟩, []) := by
  have e : (match readMessage 100 [] ⟨[(WMsg.reply 0 0 0 0 []).enc 0 1 0], false⟩ with
    | (.ok (.reply h f c a n []), src, fs) => (h = ⟨36, 1, 0, 1⟩ ∧ f = 0 ∧ c = 0 ∧ a = 0 ∧ n = 0 ∧ src = ⟨[], false⟩ ∧ fs = [] : Bool)
    | _ => false) = true := by decide +kernel
  split at e
  · next h =>
    simp only [decide_eq_true_eq] at e
    obtain ⟨rfl, rfl, rfl, rfl, rfl, rfl, rfl⟩ := e
    exact h
  · cases e

/-- a reply, on which the dispatch panics -/
example : ∃ s m, Steps one (new ⟨[(WMsg.reply 0 0 0 0 []).enc 0 1 0], false⟩) s ∧ s.dispatcher = .closing ∧ s.errors = [.panic] ∧ dispatch one.ops m = .panic ∧ (∀ h m, one.panics h m = false) :=
  ⟨_, .reply ⟨36, 1, 0, 1⟩ 0 0 0 0 [], .step (.read rfl rfl (fun _ => rfl) readReply) (.step (.scopePanic rfl rfl rfl) .refl), rfl, rfl, rfl,
    fun _ _ => rfl⟩

/-- A handler that panics ends the process, as soon as its message has come: panics are recovered only in the dispatcher. -/
theorem C77_handler_panic (src src' : Stream.Source) (fs : List Fate) (m : Message) (h : H) (hr : readMessage y.fuel [] src = (.ok m, src', fs)) (hd : dispatch y.ops m = .ok (some h))
    (hp : y.panics h m = true) : ∃ s, Steps y (new src) s ∧ s.crashed = true := by
  have go : ∀ (l : List Bytes) (s : State H), s.crashed = false → s.closes = 0 → s.tasks = [⟨h, m, l, true⟩] → ∃ t, Steps y s t ∧ t.crashed = true := by
    intro l
    induction l with
    | nil => intro s h1 h2 h3; exact ⟨_, Steps.one (.panic (i := 0) h1 (by rw [h3]; rfl) rfl rfl hp), rfl⟩
    | cons b bs ih =>
      intro s h1 h2 h3
      obtain ⟨t, h4, h5⟩ := ih { s with tasks := s.tasks.set 0 ⟨h, m, bs, true⟩, out := s.out ++ [(0, b)] } h1 h2 (by rw [h3]; rfl)
      exact ⟨t, .step (.write (i := 0) h1 (by rw [h3]; rfl) rfl rfl h2) h4, h5⟩
  obtain ⟨t, h1, h2⟩ := go (y.writes h m) { (new src : State H) with dispatcher := .reading, conn := src', tasks := [⟨h, m, y.writes h m, true⟩] } rfl rfl rfl
  exact ⟨t, .step (.read rfl rfl (fun _ => rfl) hr) (.step (.start rfl rfl hd) h1), h2⟩

example : readMessage one.fuel [] ⟨[killBytes], false⟩ = (.ok killNone, ⟨[], false⟩, []) ∧ dispatch one.ops killNone = .ok (some 1) ∧
    ({ one with panics := fun _ _ => true } : Sys Nat).panics 1 killNone = true := ⟨kill1, rfl, rfl⟩

/-- From every state reached before the context ends, the dispatcher and all handlers can still return. -/
theorem C77_completes (hp : ∀ h m, y.panics h m = false) (src : Stream.Source) (hs : List (H × Message)) (f : Option Fault) (ha : Asks y src hs f) (s : State H)
    (st : Steps y (new src) s) (hc : s.ctxDone = false) : ∃ t, Steps y s t ∧ Over t ∧ started t = hs := by
  obtain ⟨t, h1, h2, h3⟩ := finish hp ha st hc
  exact ⟨t, h1, h2, ((C77_dispatch src hs f ha t (Steps.trans st h1) h3).2 h2.2.1).1⟩

example : ∃ s, Steps one (new ⟨[killBytes, killBytes], false⟩) s ∧ s.ctxDone = false ∧ s.tasks.length = 1 :=
  ⟨_, .step (.read rfl rfl (fun _ => rfl) kill2) (.step (.start rfl rfl rfl) .refl), rfl, rfl⟩

/-- When the context ends, a handler may get a message that the client never sent. -/
theorem C77_cancelled : ∃ (y : Sys Nat) (ws : List (WMsg × Int × Int)) (segs : List Bytes) (s : State Nat) (h : Nat) (m : Message), (∀ x ∈ ws, Readable 0 x) ∧
    Delivered segs (ws.map fun x => x.1.enc 0 x.2.1 x.2.2) ∧ Steps y (new ⟨segs, false⟩) s ∧ started s = [(h, m)] ∧ ∀ x ∈ ws, ¬ RepMsg m x.1 := by
  refine ⟨one, [(.killCursors [1], 1, 0), (.killCursors [], 8, 0)], [((WMsg.killCursors [1]).enc 0 1 0).take 24, ((WMsg.killCursors [1]).enc 0 1 0).drop 24, (WMsg.killCursors []).enc 0 8 0],
    _, 1, .killCursors ⟨32, 1, 0, 2007⟩ 0 1 [34359738392], ?_, ?_,
    .step (.cancel rfl) (.step (.read rfl rfl (fs := [.reported, .reported, .lost, .reported]) (by simp) (of_isKill (h := ⟨32, 1, 0, 2007⟩) (n := 1) (ids := [34359738392]) (src := ⟨[], false⟩) (by decide +kernel)))
      (.step (.start rfl rfl rfl) .refl)), rfl, ?_⟩
  · simp only [List.mem_cons, List.not_mem_nil, or_false, forall_eq_or_imp, forall_eq]
    exact ⟨⟨by simp [WMsg.WF, I64], by unfold I32; decide, by unfold I32; decide, id, by decide +kernel⟩, ⟨by simp [WMsg.WF], by unfold I32; decide, by unfold I32; decide, id, by decide +kernel⟩⟩
  · refine .next [32, 0, 0, 0] _ (((WMsg.killCursors [1]).enc 0 1 0).take 24 |>.drop 4) _ [(WMsg.killCursors []).enc 0 8 0] _ rfl
      (.pieces [((WMsg.killCursors [1]).enc 0 1 0).take 24 |>.drop 4] _ _ (by decide) (by decide)) ?_
    exact .next [24, 0, 0, 0] _ _ [] [] [] rfl (.whole [] [] 0 (by decide)) .done
  · simp [RepMsg]

/-- A client that hangs up is never reported, and once the context has ended no other failure to read is. -/
theorem C77_quiet (src : Stream.Source) (s t : State H) (st : Steps y (new src) s) (st' : Steps y s t) :
    Fault.reading .eof ∉ t.errors ∧ (s.ctxDone = true → ∀ e, Fault.reading e ∈ t.errors → Fault.reading e ∈ s.errors) := by
  have step : ∀ {s t : State H}, Step y s t → (s.ctxDone = true → t.ctxDone = true) ∧ (Fault.reading .eof ∈ t.errors → Fault.reading .eof ∈ s.errors) ∧
      (s.ctxDone = true → ∀ e, Fault.reading e ∈ t.errors → Fault.reading e ∈ s.errors) := by
    intro s t h
    cases h with
    | readErr _ _ _ _ =>
      refine ⟨id, ?_, fun hc e => ?_⟩
      · dsimp only; split
        · simp
        · rename_i hn; simp; rintro (h | h)
          · exact h
          · exact absurd (Or.inl h.symm) hn
      · simp [hc]
    | close failed _ _ => refine ⟨id, ?_, fun _ e => ?_⟩ <;> cases failed <;> simp
    | cancel _ => exact ⟨fun _ => rfl, id, fun _ _ => id⟩
    | _ => refine ⟨id, ?_, fun _ e => ?_⟩ <;> simp
  have eof : ∀ {s t : State H}, Steps y s t → Fault.reading .eof ∈ t.errors → Fault.reading .eof ∈ s.errors := by
    intro s t h
    induction h with
    | refl => exact id
    | step h _ ih => exact fun x => (step h).2.1 (ih x)
  refine ⟨fun h => (by simpa [new] using eof st (eof st' h)), ?_⟩
  clear st
  induction st' with
  | refl => exact fun _ _ => id
  | step h _ ih => exact fun hc e x => (step h).2.2 hc e (ih ((step h).1 hc) e x)

/-- an error of reading after the end of the context -/
example : ∃ s : State Nat, Steps one (new ⟨[[1, 2, 3]], true⟩) s ∧ s.ctxDone = true ∧ s.dispatcher = .closing ∧ s.errors = [] := by
  have h : ∃ e, (readMessage one.fuel [] ⟨[[1, 2, 3]], true⟩).1 = .err e := ⟨_, rfl⟩
  obtain ⟨e, he⟩ := h
  exact ⟨_, .step (.cancel rfl) (.step (.readErr (fs := []) (e := e) (src := (readMessage one.fuel [] ⟨[[1, 2, 3]], true⟩).2.1) (fs' := (readMessage one.fuel [] ⟨[[1, 2, 3]], true⟩).2.2) rfl rfl (fun _ => rfl)
    (Prod.ext he rfl)) .refl), rfl, rfl, by simp [new]⟩

/-! ### `Run` -/

variable {C : Type}

/-- `Run` serves the connections it accepts, each once; it returns only after its context has ended, or when `Accept` says so, and then it serves no more; it reports the other
    errors of `Accept`; and after the context has ended it serves at most one more connection. -/
theorem C77_run (r : Run C) (ls : List (Option (Accepted C))) (st : Run.Steps Run.new ls r) :
    r.dispatched = accepted ls ∧ (r.loop = .returned → r.ctxDone = true ∨ some .ctxErr ∈ ls) ∧ r.reported = refused ls ∧
    (∀ ms t, Run.Steps r (some .ctxErr :: ms) t → t.loop = .returned ∧ accepted ms = []) ∧
    ∀ ms t, r.ctxDone = true → Run.Steps r ms t → (accepted ms).length ≤ 1 := by
  refine ⟨by simpa [Run.new] using run_dispatched st, fun h => ?_, by simpa [Run.new] using run_reported st, fun ms t hs => ?_, fun ms t hc hs => ?_⟩
  · rcases run_returned st h with h | h
    · cases h
    · exact h
  · cases hs with
    | step h hs => cases h; exact run_over hs rfl
  · refine Nat.le_trans (run_last hs hc) ?_
    split <;> omega

/-- one connection before the context ends, one afterwards -/
example : ∃ r : Run Nat, Run.Steps Run.new [none, some (.conn 5), none, none, some (.conn 6), none] r ∧ r.dispatched = [5, 6] ∧ r.loop = .returned :=
  ⟨_, .step (.live rfl rfl) (.step (.conn rfl) (.step (.live rfl rfl) (.step .cancel (.step (.conn rfl) (.step (.done rfl rfl) .refl))))), rfl, rfl⟩

/-- When the context ends while `Run` is in `Accept`, it does not return before `Accept` does. -/
theorem C77_run_waits : ∃ (ls : List (Option (Accepted C))) (r : Run C), Run.Steps Run.new ls r ∧ r.ctxDone = true ∧
    ∀ ms t, Run.Steps r ms t → (∀ l ∈ ms, l = none) → t.loop ≠ .returned := by
  refine ⟨_, _, .step (.live rfl rfl) (.step .cancel .refl), rfl, fun ms t st hm => ?_⟩
  rw [run_waits st rfl hm]
  simp

/-- A listener that is broken keeps `Run` busy: it calls the error handlers as often as one likes and does not return. -/
theorem C77_run_spins (n : Nat) : ∃ (ls : List (Option (Accepted C))) (r : Run C), Run.Steps Run.new ls r ∧ r.reported = n ∧ r.loop ≠ .returned ∧ accepted ls = [] := by
  suffices h : ∃ (ls : List (Option (Accepted C))) (r : Run C), Run.Steps Run.new ls r ∧ r.reported = n ∧ r.loop = .checking ∧ r.ctxDone = false ∧ accepted ls = [] by
    obtain ⟨ls, r, h1, h2, h3, _, h4⟩ := h
    exact ⟨ls, r, h1, h2, by rw [h3]; simp, h4⟩
  induction n with
  | zero => exact ⟨[], _, .refl, rfl, rfl, rfl, rfl⟩
  | succ n ih =>
    obtain ⟨ls, r, h1, h2, h3, h4, h5⟩ := ih
    refine ⟨ls ++ [none, some .err], { r with loop := .checking, reported := r.reported + 1 }, Run.Steps.trans h1 (.step (.live h3 h4) (.step (.err rfl) .refl)), by simp [h2], rfl, h4, ?_⟩
    have : ∀ a b : List (Option (Accepted C)), accepted (a ++ b) = accepted a ++ accepted b := by
      intro a b
      induction a with
      | nil => rfl
      | cons x a ih => cases x with
        | none => simp [accepted, ih]
        | some x => cases x <;> simp [accepted, ih]
    rw [this, h5]
    rfl

end Birch.Props
