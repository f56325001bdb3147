import Verif.Spec.ReadPipe

/- The goroutines of `ReadChunks`. -/

namespace Birch.Proofs.ReadPipe
open Birch Model Model.ReadPipe Spec.ReadPipe

variable {ρ δ γ μ : Type} {y : Sys ρ δ γ μ}

/-- the documents the reader gives from here, and how it ends -/
inductive Docs (y : Sys ρ δ γ μ) : ρ → List δ → Res Unit → Prop where
  | eof {r} : y.read r = .err .eof → Docs y r [] (.ok ())
  | err {r e} : y.read r = .err e → e ≠ .eof → Docs y r [] (.err e)
  | panic {r} : y.read r = .panic → Docs y r [] .panic
  | oof {r} : y.read r = .oof → Docs y r [] .oof
  | cons {r d r' ds e} : y.read r = .ok (d, r') → Docs y r' ds e → Docs y r (d :: ds) e

/-- the chunks of documents, and how the loop ends -/
def chunks (y : Sys ρ δ γ μ) : μ → List δ → List γ × Res Unit
  | _, [] => ([], .ok ())
  | m, d :: ds =>
    match y.parse m d with
    | .ok (m', c) => (c.toList ++ (chunks y m' ds).1, (chunks y m' ds).2)
    | .err e => ([], .err e)
    | .panic => ([], .panic)
    | .oof => ([], .oof)

/-- The goroutine returns this for this end. -/
def Says (f : Option Fault) (e : Res Unit) : Prop := (f = none ∧ e = .ok ()) ∨ ∃ x, f = some (.error x) ∧ e = .err x

def Recorded (cat : List Fault) (e : Res Unit) : Prop := e = .ok () ∨ ∃ x, e = .err x ∧ .error x ∈ cat

theorem Says.recorded {f : Option Fault} {e : Res Unit} (h : Says f e) (cat : List Fault) : Recorded (cat ++ f.toList) e := by
  rcases h with ⟨_, rfl⟩ | ⟨x, rfl, rfl⟩
  · exact .inl rfl
  · exact .inr ⟨x, rfl, by simp⟩

theorem Recorded.append {cat : List Fault} {e : Res Unit} (h : Recorded cat e) (c : List Fault) : Recorded (cat ++ c) e := by
  rcases h with h | ⟨x, h, hm⟩
  · exact .inl h
  · exact .inr ⟨x, h, by simp [hm]⟩

/-- where the reader is -/
def RFut (y : Sys ρ δ γ μ) (e1 : Res Unit) (ctx : Bool) (cat : List Fault) (ds : List δ) : Reader ρ δ → Prop
  | .reading r => Docs y r ds e1
  | .sending d r => ∃ ds', ds = d :: ds' ∧ Docs y r ds' e1
  | .closing f => (ds = [] ∧ Says f e1) ∨ (ctx = true ∧ f = none)
  | .pushing f => (ds = [] ∧ Says f e1) ∨ (ctx = true ∧ f = none)
  | .ended => (ds = [] ∧ Recorded cat e1) ∨ ctx = true

/-- where `readChunks` is -/
def PFut (y : Sys ρ δ γ μ) (C : List γ) (e2 : Res Unit) (ctx ipc : Bool) (cat : List Fault) (cs : List γ) (st : Prop) (ds : List δ) : Parser δ γ μ → Prop
  | .selecting m => ∃ g, chunks y m ds = (g, e2) ∧ cs ++ g = C
  | .parsing m d => ∃ g, chunks y m (d :: ds) = (g, e2) ∧ cs ++ g = C
  | .sending m c => ∃ g, chunks y m ds = (g, e2) ∧ cs ++ c :: g = C
  | .closing f => (cs = C ∧ Says f e2 ∧ (f = none → ipc = true)) ∨ (ctx = true ∧ (f = none ∨ f = some .canceled ∧ st))
  | .pushing f => (cs = C ∧ Says f e2 ∧ (f = none → ipc = true)) ∨ (ctx = true ∧ (f = none ∨ f = some .canceled ∧ st))
  | .ended => (cs = C ∧ Recorded cat e2 ∧ (e2 = .ok () → ipc = true)) ∨ ctx = true

/-- `readChunks` has closed its channel and says how it ended. -/
def PEnd (e2 : Res Unit) (cat : List Fault) : Parser δ γ μ → Prop
  | .pushing f => Says f e2
  | .ended => Recorded cat e2
  | _ => False

/-- `readDiagnostic` has closed its channel and says how it ended. -/
def REnd (e1 : Res Unit) (cat : List Fault) : Reader ρ δ → Prop
  | .pushing f => Says f e1
  | .ended => Recorded cat e1
  | _ => False

def RClosed : Reader ρ δ → Bool
  | .pushing _ => true
  | .ended => true
  | _ => false

def PClosed : Parser δ γ μ → Bool
  | .pushing _ => true
  | .ended => true
  | _ => false

/-- an error with a reason -/
def Just (e1 e2 : Res Unit) (st : Prop) (f : Fault) : Prop := (f = .canceled ∧ st) ∨ ∃ x, f = .error x ∧ (e1 = .err x ∨ e2 = .err x)

structure Inv (y : Sys ρ δ γ μ) (e1 : Res Unit) (C : List γ) (e2 : Res Unit) (cs : List γ) (st : Prop) (s : State ρ δ γ μ) : Prop where
  ctx : s.ctxDone = true ↔ s.consumer = .returned
  ipc : s.ipcClosed = RClosed s.reader
  pipe : s.pipeClosed = PClosed s.parser
  pre : cs <+: C
  fut : ∃ ds, RFut y e1 s.ctxDone s.catcher ds s.reader ∧ PFut y C e2 s.ctxDone s.ipcClosed s.catcher cs st ds s.parser
  fin : s.consumer = .returning ∨ s.consumer = .returned → ¬ st → cs = C ∧ PEnd e2 s.catcher s.parser ∧ (e2 = .ok () → REnd e1 s.catcher s.reader)
  just : ∀ f ∈ s.catcher, Just e1 e2 st f

theorem RFut.append {e1 : Res Unit} {ctx : Bool} {cat : List Fault} {ds : List δ} {r : Reader ρ δ} (h : RFut y e1 ctx cat ds r) (c : List Fault) :
    RFut y e1 ctx (cat ++ c) ds r := by
  cases r <;> simp only [RFut] at h ⊢ <;> try exact h
  rcases h with ⟨h1, h2⟩ | h
  · exact .inl ⟨h1, h2.append c⟩
  · exact .inr h

theorem RFut.ctx {e1 : Res Unit} {ctx : Bool} {cat : List Fault} {ds : List δ} {r : Reader ρ δ} (h : RFut y e1 ctx cat ds r) :
    RFut y e1 true cat ds r := by
  cases r <;> simp only [RFut] at h ⊢ <;> try exact h
  · exact h.imp id fun h => ⟨trivial, h.2⟩
  · exact h.imp id fun h => ⟨trivial, h.2⟩
  · exact .inr trivial

theorem PFut.append {C : List γ} {e2 : Res Unit} {ctx ipc : Bool} {cat : List Fault} {cs : List γ} {st : Prop} {ds : List δ} {p : Parser δ γ μ}
    (h : PFut y C e2 ctx ipc cat cs st ds p) (c : List Fault) : PFut y C e2 ctx ipc (cat ++ c) cs st ds p := by
  cases p <;> simp only [PFut] at h ⊢ <;> try exact h
  rcases h with ⟨h1, h2, h3⟩ | h
  · exact .inl ⟨h1, h2.append c, h3⟩
  · exact .inr h

theorem PFut.ctx {C : List γ} {e2 : Res Unit} {ctx ipc : Bool} {cat : List Fault} {cs : List γ} {st : Prop} {ds : List δ} {p : Parser δ γ μ}
    (h : PFut y C e2 ctx ipc cat cs st ds p) : PFut y C e2 true ipc cat cs st ds p := by
  cases p <;> simp only [PFut] at h ⊢ <;> try exact h
  · exact h.imp id fun h => ⟨trivial, h.2⟩
  · exact h.imp id fun h => ⟨trivial, h.2⟩
  · exact .inr trivial

theorem PFut.ipc {C : List γ} {e2 : Res Unit} {ctx ipc : Bool} {cat : List Fault} {cs : List γ} {st : Prop} {ds : List δ} {p : Parser δ γ μ}
    (h : PFut y C e2 ctx ipc cat cs st ds p) : PFut y C e2 ctx true cat cs st ds p := by
  cases p <;> simp only [PFut] at h ⊢ <;> try exact h
  · exact h.imp (fun h => ⟨h.1, h.2.1, fun _ => trivial⟩) id
  · exact h.imp (fun h => ⟨h.1, h.2.1, fun _ => trivial⟩) id
  · exact h.imp (fun h => ⟨h.1, h.2.1, fun _ => trivial⟩) id

theorem PFut.stop {C : List γ} {e2 : Res Unit} {ctx ipc : Bool} {cat : List Fault} {cs : List γ} {st st' : Prop} {ds : List δ} {p : Parser δ γ μ}
    (h : PFut y C e2 ctx ipc cat cs st ds p) (hs : st → st') : PFut y C e2 ctx ipc cat cs st' ds p := by
  cases p <;> simp only [PFut] at h ⊢ <;> try exact h
  · exact h.imp id fun h => ⟨h.1, h.2.imp id fun h => ⟨h.1, hs h.2⟩⟩
  · exact h.imp id fun h => ⟨h.1, h.2.imp id fun h => ⟨h.1, hs h.2⟩⟩

theorem PEnd.append {e2 : Res Unit} {cat : List Fault} {p : Parser δ γ μ} (h : PEnd e2 cat p) (c : List Fault) : PEnd e2 (cat ++ c) p := by
  cases p <;> simp only [PEnd] at h ⊢ <;> try exact h
  exact h.append c

theorem REnd.append {e1 : Res Unit} {cat : List Fault} {r : Reader ρ δ} (h : REnd e1 cat r) (c : List Fault) : REnd e1 (cat ++ c) r := by
  cases r <;> simp only [REnd] at h ⊢ <;> try exact h
  exact h.append c

theorem Just.stop {e1 e2 : Res Unit} {st st' : Prop} {f : Fault} (h : Just e1 e2 st f) (hs : st → st') : Just e1 e2 st' f :=
  h.imp (fun h => ⟨h.1, hs h.2⟩) id

theorem Says.just {e1 e2 e : Res Unit} {st : Prop} {f : Option Fault} (h : Says f e) (he : e = e1 ∨ e = e2) : ∀ x ∈ f.toList, Just e1 e2 st x := by
  rcases h with ⟨rfl, _⟩ | ⟨x, rfl, rfl⟩
  · simp
  · intro z hz
    rw [Option.toList, List.mem_singleton] at hz
    exact .inr ⟨x, hz, he.imp Eq.symm Eq.symm⟩

theorem inv_new {r : ρ} {m : μ} {D : List δ} {e1 : Res Unit} (h : Docs y r D e1) :
    Inv y e1 (chunks y m D).1 (chunks y m D).2 [] False (new r m) where
  ctx := by simp [new]
  ipc := rfl
  pipe := rfl
  pre := List.nil_prefix
  fut := ⟨D, h, _, rfl, rfl⟩
  fin := by rintro (h | h) <;> cases h
  just := by simp [new]

theorem inv_step {e1 e2 : Res Unit} {C cs : List γ} {st : Prop} {s t : State ρ δ γ μ} {l : Label γ} (hi : Inv y e1 C e2 cs st s) (h : Step y s l t) :
    Inv y e1 C e2 (cs ++ yields [l]) (st ∨ l = .stop) t := by
  obtain ⟨hctx, hipc, hpipe, hpre, ⟨ds, hr, hp⟩, hfin, hj⟩ := hi
  cases h with
  | @read r d r' _ hs hx =>
    simp only [yields, List.append_nil, reduceCtorEq, or_false]
    rw [hs] at hr hipc hfin
    refine ⟨hctx, hipc, hpipe, hpre, ⟨ds, ?_, hp⟩, hfin, hj⟩
    cases hr with
    | cons h1 h2 => rw [hx] at h1; cases h1; exact ⟨_, rfl, h2⟩
    | eof h1 => rw [hx] at h1; cases h1
    | err h1 => rw [hx] at h1; cases h1
    | panic h1 => rw [hx] at h1; cases h1
    | oof h1 => rw [hx] at h1; cases h1
  | @readErr r e _ hs hx =>
    simp only [yields, List.append_nil, reduceCtorEq, or_false]
    rw [hs] at hr hipc hfin
    refine ⟨hctx, hipc, hpipe, hpre, ⟨ds, .inl ?_, hp⟩, hfin, hj⟩
    cases hr with
    | cons h1 h2 => rw [hx] at h1; cases h1
    | eof h1 => rw [hx] at h1; cases h1; exact ⟨rfl, .inl ⟨rfl, rfl⟩⟩
    | err h1 h2 => rw [hx] at h1; cases h1; exact ⟨rfl, .inr ⟨_, by rw [if_neg h2], rfl⟩⟩
    | panic h1 => rw [hx] at h1; cases h1
    | oof h1 => rw [hx] at h1; cases h1
  | readPanic _ hs hx =>
    simp only [yields, List.append_nil, reduceCtorEq, or_false]
    exact ⟨hctx, hipc, hpipe, hpre, ⟨ds, hr, hp⟩, hfin, hj⟩
  | readDone _ hs hx =>
    simp only [yields, List.append_nil, reduceCtorEq, or_false]
    rw [hs] at hr hipc hfin
    exact ⟨hctx, hipc, hpipe, hpre, ⟨ds, .inr ⟨hx, rfl⟩, hp⟩, hfin, hj⟩
  | @readClose e _ hs =>
    simp only [yields, List.append_nil, reduceCtorEq, or_false]
    rw [hs] at hr hipc hfin
    refine ⟨hctx, rfl, hpipe, hpre, ⟨ds, hr, hp.ipc⟩, fun h hn => ?_, hj⟩
    obtain ⟨h1, h2, h3⟩ := hfin h hn
    exact ⟨h1, h2, fun he => (h3 he).elim⟩
  | @readPush e _ hs =>
    simp only [yields, List.append_nil, reduceCtorEq, or_false]
    rw [hs] at hr hipc hfin
    refine ⟨hctx, hipc, hpipe, hpre, ⟨ds, ?_, hp.append _⟩, fun h hn => ?_, ?_⟩
    · exact hr.imp (fun h => ⟨h.1, h.2.recorded _⟩) fun h => h.1
    · obtain ⟨h1, h2, h3⟩ := hfin h hn
      exact ⟨h1, h2.append _, fun he => Says.recorded (h3 he) _⟩
    · intro f hf
      rcases List.mem_append.1 hf with hf | hf
      · exact hj f hf
      · rcases hr with ⟨_, h⟩ | ⟨_, h⟩
        · exact h.just (.inl rfl) f hf
        · rw [h] at hf; cases hf
  | @handOver d r m _ hs hq =>
    simp only [yields, List.append_nil, reduceCtorEq, or_false]
    rw [hs] at hr hipc hfin
    rw [hq] at hp hpipe hfin
    obtain ⟨ds', rfl, hd⟩ := hr
    refine ⟨hctx, hipc, hpipe, hpre, ⟨ds', hd, hp⟩, fun h hn => ?_, hj⟩
    exact (hfin h hn).2.1.elim
  | @parseEnd m _ hq hc =>
    simp only [yields, List.append_nil, reduceCtorEq, or_false]
    rw [hq] at hp hpipe hfin
    refine ⟨hctx, hipc, hpipe, hpre, ⟨ds, hr, ?_⟩, fun h hn => (hfin h hn).2.1.elim, hj⟩
    have key : ds = [] ∨ s.ctxDone = true := by
      rw [hc] at hipc
      cases hs : s.reader with
      | pushing f => rw [hs] at hr; exact hr.imp (fun h => h.1) fun h => h.1
      | ended => rw [hs] at hr; exact hr.imp (fun h => h.1) id
      | _ => rw [hs] at hipc; cases hipc
    rcases key with rfl | hd
    · obtain ⟨g, h1, h2⟩ := hp
      cases h1
      exact .inl ⟨by rw [← h2, List.append_nil], .inl ⟨rfl, rfl⟩, fun _ => hc⟩
    · exact .inr ⟨hd, .inl rfl⟩
  | @parseDone m _ hq hd =>
    simp only [yields, List.append_nil, reduceCtorEq, or_false]
    rw [hq] at hp hpipe hfin
    refine ⟨hctx, hipc, hpipe, hpre, ⟨ds, hr, .inr ⟨hd, .inr ⟨rfl, ?_⟩⟩⟩, fun h hn => (hfin h hn).2.1.elim, hj⟩
    exact Classical.byContradiction fun hn => (hfin (.inr (hctx.1 hd)) hn).2.1
  | @parseNone m d m' _ hq hx =>
    simp only [yields, List.append_nil, reduceCtorEq, or_false]
    rw [hq] at hp hpipe hfin
    refine ⟨hctx, hipc, hpipe, hpre, ⟨ds, hr, ?_⟩, fun h hn => (hfin h hn).2.1.elim, hj⟩
    obtain ⟨g, h1, h2⟩ := hp
    rw [chunks, hx] at h1
    cases h1
    exact ⟨_, rfl, h2⟩
  | @parseSome m d m' c _ hq hx =>
    simp only [yields, List.append_nil, reduceCtorEq, or_false]
    rw [hq] at hp hpipe hfin
    refine ⟨hctx, hipc, hpipe, hpre, ⟨ds, hr, ?_⟩, fun h hn => (hfin h hn).2.1.elim, hj⟩
    obtain ⟨g, h1, h2⟩ := hp
    rw [chunks, hx] at h1
    cases h1
    exact ⟨_, rfl, h2⟩
  | @parseErr m d e _ hq hx =>
    simp only [yields, List.append_nil, reduceCtorEq, or_false]
    rw [hq] at hp hpipe hfin
    refine ⟨hctx, hipc, hpipe, hpre, ⟨ds, hr, .inl ?_⟩, fun h hn => (hfin h hn).2.1.elim, hj⟩
    obtain ⟨g, h1, h2⟩ := hp
    rw [chunks, hx] at h1
    cases h1
    exact ⟨by rw [← h2, List.append_nil], .inr ⟨_, rfl, rfl⟩, by simp⟩
  | parsePanic _ hq hx =>
    simp only [yields, List.append_nil, reduceCtorEq, or_false]
    exact ⟨hctx, hipc, hpipe, hpre, ⟨ds, hr, hp⟩, hfin, hj⟩
  | sendDone _ hq hd =>
    simp only [yields, List.append_nil, reduceCtorEq, or_false]
    rw [hq] at hp hpipe hfin
    exact ⟨hctx, hipc, hpipe, hpre, ⟨ds, hr, .inr ⟨hd, .inl rfl⟩⟩, fun h hn => (hfin h hn).2.1.elim, hj⟩
  | parseClose _ hq =>
    simp only [yields, List.append_nil, reduceCtorEq, or_false]
    rw [hq] at hp hpipe hfin
    exact ⟨hctx, hipc, rfl, hpre, ⟨ds, hr, hp⟩, fun h hn => (hfin h hn).2.1.elim, hj⟩
  | @parsePush e _ hq =>
    simp only [yields, List.append_nil, reduceCtorEq, or_false]
    rw [hq] at hp hpipe hfin
    refine ⟨hctx, hipc, hpipe, hpre, ⟨ds, hr.append _, ?_⟩, fun h hn => ?_, ?_⟩
    · refine hp.imp (fun h => ⟨h.1, h.2.1.recorded _, fun he => h.2.2 ?_⟩) fun h => h.1
      rcases h.2.1 with ⟨h, _⟩ | ⟨x, _, h⟩
      · exact h
      · rw [he] at h; cases h
    · obtain ⟨h1, h2, h3⟩ := hfin h hn
      exact ⟨h1, Says.recorded h2 _, fun he => (h3 he).append _⟩
    · intro f hf
      rcases List.mem_append.1 hf with hf | hf
      · exact hj f hf
      · rcases hp with ⟨_, h, _⟩ | ⟨_, h | ⟨h, hst⟩⟩
        · exact h.just (.inr rfl) f hf
        · rw [h] at hf; cases hf
        · rw [h, Option.toList, List.mem_singleton] at hf
          exact .inl ⟨hf, hst⟩
  | @yield m c _ hq hc =>
    simp only [yields, reduceCtorEq, or_false]
    rw [hq] at hp hpipe hfin
    have hd : s.ctxDone = false := by
      cases h : s.ctxDone with
      | false => rfl
      | true => rw [hctx.1 h] at hc; cases hc
    obtain ⟨g, h1, h2⟩ := hp
    refine ⟨by simp [hd], hipc, hpipe, ⟨g, by simpa using h2⟩, ⟨ds, hr, g, h1, by simpa using h2⟩, (by rintro (h | h) <;> cases h), hj⟩
  | again _ hc =>
    simp only [yields, List.append_nil, reduceCtorEq, or_false]
    have hd : s.ctxDone = false := by
      cases h : s.ctxDone with
      | false => rfl
      | true => rw [hctx.1 h] at hc; cases hc
    exact ⟨by simp [hd], hipc, hpipe, hpre, ⟨ds, hr, hp⟩, (by rintro (h | h) <;> cases h), hj⟩
  | enough _ hc =>
    simp only [yields, List.append_nil, or_true]
    have hd : s.ctxDone = false := by
      cases h : s.ctxDone with
      | false => rfl
      | true => rw [hctx.1 h] at hc; cases hc
    exact ⟨by simp [hd], hipc, hpipe, hpre, ⟨ds, hr, hp.stop fun _ => trivial⟩, fun _ h => (h trivial).elim, fun f hf => (hj f hf).stop fun _ => trivial⟩
  | end_ _ hc hx =>
    simp only [yields, List.append_nil, reduceCtorEq, or_false]
    have hd : s.ctxDone = false := by
      cases h : s.ctxDone with
      | false => rfl
      | true => rw [hctx.1 h] at hc; cases hc
    refine ⟨by simp [hd], hipc, hpipe, hpre, ⟨ds, hr, hp⟩, fun _ _ => ?_, hj⟩
    have hrend : s.ipcClosed = true → REnd e1 s.catcher s.reader := by
      intro h
      rw [h] at hipc
      cases hs : s.reader with
      | pushing f =>
        rw [hs, hd] at hr
        exact hr.elim (fun h => h.2) fun h => absurd h.1 (by simp)
      | ended =>
        rw [hs, hd] at hr
        exact hr.elim (fun h => h.2) fun h => absurd h (by simp)
      | _ => rw [hs] at hipc; cases hipc
    rw [hx] at hpipe
    cases hq : s.parser with
    | pushing f =>
      rw [hq, hd] at hp
      rcases hp with ⟨h1, h2, h3⟩ | ⟨h, _⟩
      · refine ⟨h1, by simpa [PEnd, hq] using h2, fun he => hrend (h3 ?_)⟩
        rcases h2 with ⟨h, _⟩ | ⟨x, _, h⟩
        · exact h
        · rw [he] at h; cases h
      · cases h
    | ended =>
      rw [hq, hd] at hp
      rcases hp with ⟨h1, h2, h3⟩ | h
      · exact ⟨h1, by simpa [PEnd, hq] using h2, fun he => hrend (h3 he)⟩
      · cases h
    | _ => rw [hq] at hpipe; cases hpipe
  | done _ hc hx => rw [hctx.1 hx] at hc; cases hc
  | cancel _ hc =>
    simp only [yields, List.append_nil, reduceCtorEq, or_false]
    exact ⟨by simp, hipc, hpipe, hpre, ⟨ds, hr.ctx, hp.ctx⟩, fun _ hn => hfin (.inl hc) hn, hj⟩
  | collect _ hc hx =>
    simp only [yields, List.append_nil, reduceCtorEq, or_false]
    exact ⟨hctx, hipc, hpipe, hpre, ⟨ds, hr, hp⟩, hfin, hj⟩
  | close _ =>
    simp only [yields, List.append_nil, reduceCtorEq, or_false]
    exact ⟨hctx, hipc, hpipe, hpre, ⟨ds, hr, hp⟩, hfin, hj⟩

theorem yields_cons (l : Label γ) (ls : List (Label γ)) : yields (l :: ls) = yields [l] ++ yields ls := by
  cases l <;> simp [yields]

theorem yields_append (ls ms : List (Label γ)) : yields (ls ++ ms) = yields ls ++ yields ms := by
  induction ls with
  | nil => rfl
  | cons l ls ih => rw [List.cons_append, yields_cons, ih, yields_cons l ls, List.append_assoc]

theorem Inv.congr {e1 e2 : Res Unit} {C cs cs' : List γ} {st st' : Prop} {s : State ρ δ γ μ} (h : Inv y e1 C e2 cs st s) (hc : cs = cs') (hs : st ↔ st') :
    Inv y e1 C e2 cs' st' s := by
  have := propext hs
  subst hc this
  exact h

theorem inv_steps {e1 e2 : Res Unit} {C cs : List γ} {st : Prop} {s t : State ρ δ γ μ} {ls : List (Label γ)} (hi : Inv y e1 C e2 cs st s) (h : Steps y s ls t) :
    Inv y e1 C e2 (cs ++ yields ls) (st ∨ ¬ Whole ls) t := by
  induction h generalizing cs st with
  | refl => exact hi.congr (by simp [yields]) (by simp [Whole])
  | @step s t u l ls h _ ih =>
    refine (ih (inv_step hi h)).congr (by rw [yields_cons l ls, List.append_assoc]) ?_
    simp only [Whole, List.mem_cons, forall_eq_or_imp]
    by_cases hl : l = .stop <;> simp [hl]

/-! ### the end -/

/-- a bound of what the reader still does -/
def rWork (size : ρ → Nat) : Reader ρ δ → Nat
  | .reading r => 5 * size r + 3
  | .sending _ r => 5 * size r + 7
  | .closing _ => 2
  | .pushing _ => 1
  | .ended => 0

def pWork : Parser δ γ μ → Nat
  | .selecting _ => 3
  | .parsing _ _ => 6
  | .sending _ _ => 5
  | .closing _ => 2
  | .pushing _ => 1
  | .ended => 0

def cWork : Consumer → Nat
  | .selecting => 2
  | .yielding => 3
  | .returning => 1
  | .returned => 0

/-- a bound of what is still done -/
def left (size : ρ → Nat) (s : State ρ δ γ μ) : Nat :=
  rWork size s.reader + pWork s.parser + cWork s.consumer + (if s.outer = none then 1 else 0) + (if s.crashed = false then 1 else 0)

theorem left_step {size : ρ → Nat} (hsize : ∀ r d r', y.read r = .ok (d, r') → size r' < size r) {s t : State ρ δ γ μ} {l : Label γ} (h : Step y s l t) :
    left size t + work [l] ≤ left size s := by
  cases h with
  | read hx hs hr => have := hsize _ _ _ hr; simp only [left, work, hs, hx, rWork]; omega
  | close hx => simp [work]
  | readErr hx hs _ => simp only [left, work, hs, hx, rWork]; omega
  | readPanic hx hs _ => simp only [left, work, hs, hx, rWork]; simp
  | readDone hx hs _ => simp only [left, work, hs, hx, rWork]; omega
  | readClose hx hs => simp only [left, work, hs, hx, rWork]; omega
  | readPush hx hs => simp only [left, work, hs, hx, rWork]; omega
  | handOver hx hs hq => simp only [left, work, hs, hq, hx, rWork, pWork]; omega
  | parseEnd hx hq _ => simp only [left, work, hq, hx, pWork]; omega
  | parseDone hx hq _ => simp only [left, work, hq, hx, pWork]; omega
  | parseNone hx hq _ => simp only [left, work, hq, hx, pWork]; omega
  | parseSome hx hq _ => simp only [left, work, hq, hx, pWork]; omega
  | parseErr hx hq _ => simp only [left, work, hq, hx, pWork]; omega
  | parsePanic hx hq _ => simp only [left, work, hq, hx, pWork]; simp
  | sendDone hx hq _ => simp only [left, work, hq, hx, pWork]; omega
  | parseClose hx hq => simp only [left, work, hq, hx, pWork]; omega
  | parsePush hx hq => simp only [left, work, hq, hx, pWork]; omega
  | yield hx hq hc => simp only [left, work, hq, hc, hx, pWork, cWork]; omega
  | again hx hc => simp only [left, work, hc, hx, cWork]; omega
  | enough hx hc => simp only [left, work, hc, hx, cWork]; omega
  | end_ hx hc _ => simp only [left, work, hc, hx, cWork]; omega
  | done hx hc _ => simp only [left, work, hc, hx, cWork]; omega
  | cancel hx hc => simp only [left, work, hc, hx, cWork]; omega
  | collect hx hc ho => simp only [left, work, hc, hx, ho, cWork]; simp

theorem work_cons (l : Label γ) (ls : List (Label γ)) : work (l :: ls) = work [l] + work ls := by
  cases l <;> simp [work] <;> omega

theorem left_steps {size : ρ → Nat} (hsize : ∀ r d r', y.read r = .ok (d, r') → size r' < size r) {s t : State ρ δ γ μ} {ls : List (Label γ)} (h : Steps y s ls t) :
    left size t + work ls ≤ left size s := by
  induction h with
  | refl => simp [work]
  | @step s t u l ls h _ ih =>
    have := left_step hsize h
    rw [work_cons]
    omega

/-- As long as something is not over, something can be done. -/
theorem progress {e1 e2 : Res Unit} {C cs : List γ} {st : Prop} {s : State ρ δ γ μ} (hi : Inv y e1 C e2 cs st s) (h1 : e1 ≠ .oof) (h2 : e2 ≠ .oof)
    (hc : s.crashed = false) (ho : ¬ Over s) : ∃ l t, Step y s l t ∧ work [l] = 1 ∧ l ≠ .collect := by
  obtain ⟨hctx, hipc, hpipe, hpre, ⟨ds, hr, hp⟩, hfin, hj⟩ := hi
  -- the reader on its own
  have hreader : (∀ d r, s.reader ≠ .sending d r) → s.reader ≠ .ended → ∃ l t, Step y s l t ∧ work [l] = 1 ∧ l ≠ .collect := by
    intro hn he
    cases hs : s.reader with
    | reading r =>
      cases hx : y.read r with
      | ok v => exact ⟨.reader, _, .read hc hs hx, rfl, by simp⟩
      | err e => exact ⟨.reader, _, .readErr hc hs hx, rfl, by simp⟩
      | panic => exact ⟨.reader, _, .readPanic hc hs hx, rfl, by simp⟩
      | oof =>
        rw [hs] at hr
        cases hr with
        | cons h => rw [hx] at h; cases h
        | eof h => rw [hx] at h; cases h
        | err h => rw [hx] at h; cases h
        | panic h => rw [hx] at h; cases h
        | oof => exact absurd rfl h1
    | sending d r => exact absurd hs (hn d r)
    | closing f => exact ⟨.reader, _, .readClose hc hs, rfl, by simp⟩
    | pushing f => exact ⟨.reader, _, .readPush hc hs, rfl, by simp⟩
    | ended => exact absurd hs he
  cases hk : s.consumer with
  | yielding => exact ⟨.consumer, _, .again hc hk, rfl, by simp⟩
  | returning => exact ⟨.consumer, _, .cancel hc hk, rfl, by simp⟩
  | selecting =>
    cases hq : s.parser with
    | selecting m =>
      cases hs : s.reader with
      | sending d r => exact ⟨.parser, _, .handOver hc hs hq, rfl, by simp⟩
      | ended => exact ⟨.parser, _, .parseEnd hc hq (by rw [hipc, hs]; rfl), rfl, by simp⟩
      | reading r => exact hreader (by simp [hs]) (by simp [hs])
      | closing r => exact hreader (by simp [hs]) (by simp [hs])
      | pushing r => exact hreader (by simp [hs]) (by simp [hs])
    | parsing m d =>
      cases hx : y.parse m d with
      | ok v =>
        obtain ⟨m', _ | c⟩ := v
        · exact ⟨.parser, _, .parseNone hc hq hx, rfl, by simp⟩
        · exact ⟨.parser, _, .parseSome hc hq hx, rfl, by simp⟩
      | err e => exact ⟨.parser, _, .parseErr hc hq hx, rfl, by simp⟩
      | panic => exact ⟨.parser, _, .parsePanic hc hq hx, rfl, by simp⟩
      | oof =>
        rw [hq] at hp
        obtain ⟨g, h, _⟩ := hp
        rw [chunks, hx] at h
        cases h
        exact absurd rfl h2
    | sending m c => exact ⟨.yield c, _, .yield hc hq hk, rfl, by simp⟩
    | closing f => exact ⟨.parser, _, .parseClose hc hq, rfl, by simp⟩
    | pushing f => exact ⟨.parser, _, .parsePush hc hq, rfl, by simp⟩
    | ended => exact ⟨.consumer, _, .end_ hc hk (by rw [hpipe, hq]; rfl), rfl, by simp⟩
  | returned =>
    have hd := hctx.2 hk
    cases hq : s.parser with
    | selecting m => exact ⟨.parser, _, .parseDone hc hq hd, rfl, by simp⟩
    | parsing m d =>
      cases hx : y.parse m d with
      | ok v =>
        obtain ⟨m', _ | c⟩ := v
        · exact ⟨.parser, _, .parseNone hc hq hx, rfl, by simp⟩
        · exact ⟨.parser, _, .parseSome hc hq hx, rfl, by simp⟩
      | err e => exact ⟨.parser, _, .parseErr hc hq hx, rfl, by simp⟩
      | panic => exact ⟨.parser, _, .parsePanic hc hq hx, rfl, by simp⟩
      | oof =>
        rw [hq] at hp
        obtain ⟨g, h, _⟩ := hp
        rw [chunks, hx] at h
        cases h
        exact absurd rfl h2
    | sending m c => exact ⟨.parser, _, .sendDone hc hq hd, rfl, by simp⟩
    | closing f => exact ⟨.parser, _, .parseClose hc hq, rfl, by simp⟩
    | pushing f => exact ⟨.parser, _, .parsePush hc hq, rfl, by simp⟩
    | ended =>
      cases hs : s.reader with
      | sending d r => exact ⟨.reader, _, .readDone hc hs hd, rfl, by simp⟩
      | ended => exact absurd ⟨hk, hq, hs⟩ ho
      | reading r => exact hreader (by simp [hs]) (by simp [hs])
      | closing r => exact hreader (by simp [hs]) (by simp [hs])
      | pushing r => exact hreader (by simp [hs]) (by simp [hs])

/-- Nothing crashes if neither goroutine panics. -/
theorem no_crash_step {e1 e2 : Res Unit} {C cs : List γ} {st : Prop} {s t : State ρ δ γ μ} {l : Label γ} (hi : Inv y e1 C e2 cs st s) (h1 : e1 ≠ .panic) (h2 : e2 ≠ .panic)
    (h : Step y s l t) : t.crashed = false := by
  obtain ⟨hctx, hipc, hpipe, hpre, ⟨ds, hr, hp⟩, hfin, hj⟩ := hi
  cases h with
  | readPanic hx hs hy =>
    rw [hs] at hr
    cases hr with
    | cons h => rw [hy] at h; cases h
    | eof h => rw [hy] at h; cases h
    | err h => rw [hy] at h; cases h
    | oof h => rw [hy] at h; cases h
    | panic => exact absurd rfl h1
  | parsePanic hx hq hy =>
    rw [hq] at hp
    obtain ⟨g, h, _⟩ := hp
    rw [chunks, hy] at h
    cases h
    exact absurd rfl h2
  | read hx => exact hx
  | close hx => exact hx
  | readErr hx => exact hx
  | readDone hx => exact hx
  | readClose hx => exact hx
  | readPush hx => exact hx
  | handOver hx => exact hx
  | parseEnd hx => exact hx
  | parseDone hx => exact hx
  | parseNone hx => exact hx
  | parseSome hx => exact hx
  | parseErr hx => exact hx
  | sendDone hx => exact hx
  | parseClose hx => exact hx
  | parsePush hx => exact hx
  | yield hx => exact hx
  | again hx => exact hx
  | enough hx => exact hx
  | end_ hx => exact hx
  | done hx => exact hx
  | cancel hx => exact hx
  | collect hx => exact hx

theorem no_crash {e1 e2 : Res Unit} {C cs : List γ} {st : Prop} {s t : State ρ δ γ μ} {ls : List (Label γ)} (hi : Inv y e1 C e2 cs st s) (h1 : e1 ≠ .panic) (h2 : e2 ≠ .panic)
    (h : Steps y s ls t) (hc : s.crashed = false) : t.crashed = false := by
  induction h generalizing cs st with
  | refl => exact hc
  | step h _ ih => exact ih (inv_step hi h) (no_crash_step hi h1 h2 h)

theorem Steps.trans {s t u : State ρ δ γ μ} {ls ms : List (Label γ)} (h : Steps y s ls t) (h' : Steps y t ms u) : Steps y s (ls ++ ms) u := by
  induction h with
  | refl => exact h'
  | step h _ ih => exact .step h (ih h')

theorem outer_step {s t : State ρ δ γ μ} {l : Label γ} {o : List Fault} (h : Step y s l t) (ho : s.outer = some o) : t.outer = some o := by
  cases h with
  | collect _ _ hx => rw [ho] at hx; cases hx
  | _ => exact ho

theorem outer_steps {s t : State ρ δ γ μ} {ls : List (Label γ)} {o : List Fault} (h : Steps y s ls t) (ho : s.outer = some o) : t.outer = some o := by
  induction h with
  | refl => exact ho
  | step h _ ih => exact ih (outer_step h ho)

/-- Everything can be brought to its end. -/
theorem finish {size : ρ → Nat} (hsize : ∀ r d r', y.read r = .ok (d, r') → size r' < size r) {e1 e2 : Res Unit} (h1 : e1 ≠ .oof) (h2 : e2 ≠ .oof)
    (h1' : e1 ≠ .panic) (h2' : e2 ≠ .panic) {C : List γ} :
    ∀ (n : Nat) {cs : List γ} {st : Prop} {s : State ρ δ γ μ}, left size s ≤ n → Inv y e1 C e2 cs st s → s.crashed = false → ∃ ls t, Steps y s ls t ∧ Over t := by
  intro n
  induction n with
  | zero =>
    intro cs st s hn _ hc
    simp [left, hc] at hn
  | succ n ih =>
    intro cs st s hn hi hc
    by_cases ho : Over s
    · exact ⟨[], s, .refl, ho⟩
    · obtain ⟨l, t, hst, hw, _⟩ := progress hi h1 h2 hc ho
      have := left_step hsize hst
      obtain ⟨ls, u, h, hu⟩ := ih (by omega) (inv_step hi hst) (no_crash_step hi h1' h2' hst)
      exact ⟨l :: ls, u, .step hst h, hu⟩

theorem returned_step {s t : State ρ δ γ μ} {l : Label γ} (h : Step y s l t) (hc : s.consumer = .returned) : t.consumer = .returned ∧ l ≠ .stop ∧ yields [l] = [] := by
  cases h with
  | yield _ _ h => rw [hc] at h; cases h
  | again _ h => rw [hc] at h; cases h
  | enough _ h => rw [hc] at h; cases h
  | end_ _ h => rw [hc] at h; cases h
  | done _ h => rw [hc] at h; cases h
  | cancel _ h => rw [hc] at h; cases h
  | _ => exact ⟨hc, by simp, rfl⟩

theorem returned_steps {s t : State ρ δ γ μ} {ls : List (Label γ)} (h : Steps y s ls t) (hc : s.consumer = .returned) : Whole ls ∧ yields ls = [] := by
  induction h with
  | refl => exact ⟨by simp [Whole], rfl⟩
  | @step s t u l ls h _ ih =>
    obtain ⟨h1, h2, h3⟩ := returned_step h hc
    obtain ⟨h4, h5⟩ := ih h1
    refine ⟨?_, by rw [yields_cons, h3, h5]; rfl⟩
    intro x hx
    rcases List.mem_cons.1 hx with rfl | hx
    · exact h2
    · exact h4 x hx

theorem Whole.append {ls ms : List (Label γ)} (h : Whole ls) (h' : Whole ms) : Whole (ls ++ ms) := by
  intro x hx
  rcases List.mem_append.1 hx with hx | hx
  · exact h x hx
  · exact h' x hx

theorem Steps.snoc {s t : State ρ δ γ μ} {ls : List (Label γ)} {l : Label γ} (h : Steps y s (ls ++ [l]) t) : ∃ u, Step y u l t := by
  induction ls generalizing s with
  | nil =>
    cases h with
    | step h h' => cases h'; exact ⟨_, h⟩
  | cons x ls ih =>
    cases h with
    | step h h' => exact ih h'

/-! ### a schedule in which the errors come late -/

theorem late {m : μ} {r : ρ} {ds : List δ} {e1 : Res Unit} (hd : Docs y r ds e1) (h1 : e1 ≠ .oof) (h1' : e1 ≠ .panic)
    (h2 : (chunks y m ds).2 ≠ .oof) (h2' : (chunks y m ds).2 ≠ .panic) :
    ∃ ls t, Steps y (new r m) ls t ∧ yields ls = (chunks y m ds).1 ∧ Whole ls ∧ t.consumer = .returned ∧ t.catcher = [] ∧ t.outer = none ∧ t.crashed = false := by
  induction hd generalizing m with
  | panic => exact absurd rfl h1'
  | oof => exact absurd rfl h1
  | eof h =>
    exact ⟨[.reader, .reader, .parser, .parser, .consumer, .consumer], _,
      .step (.readErr rfl rfl h) (.step (.readClose rfl rfl) (.step (.parseEnd rfl rfl rfl) (.step (.parseClose rfl rfl) (.step (.end_ rfl rfl rfl) (.step (.cancel rfl rfl) .refl))))),
      rfl, by simp [Whole], rfl, rfl, rfl, rfl⟩
  | err h =>
    exact ⟨[.reader, .reader, .parser, .parser, .consumer, .consumer], _,
      .step (.readErr rfl rfl h) (.step (.readClose rfl rfl) (.step (.parseEnd rfl rfl rfl) (.step (.parseClose rfl rfl) (.step (.end_ rfl rfl rfl) (.step (.cancel rfl rfl) .refl))))),
      rfl, by simp [Whole], rfl, rfl, rfl, rfl⟩
  | @cons r d r' ds e h _ ih =>
    rw [chunks] at h2 h2' ⊢
    cases hx : y.parse m d with
    | panic => rw [hx] at h2'; exact absurd rfl h2'
    | oof => rw [hx] at h2; exact absurd rfl h2
    | err x =>
      exact ⟨[.reader, .parser, .parser, .parser, .consumer, .consumer], _,
        .step (.read rfl rfl h) (.step (.handOver rfl rfl rfl) (.step (.parseErr rfl rfl hx) (.step (.parseClose rfl rfl) (.step (.end_ rfl rfl rfl) (.step (.cancel rfl rfl) .refl))))),
        rfl, by simp [Whole], rfl, rfl, rfl, rfl⟩
    | ok v =>
      obtain ⟨m', c⟩ := v
      rw [hx] at h2 h2'
      obtain ⟨ls, t, hst, hy, hw, hrest⟩ := ih (m := m') h1 h1' h2 h2'
      cases c with
      | none =>
        exact ⟨.reader :: .parser :: .parser :: ls, t, .step (.read rfl rfl h) (.step (.handOver rfl rfl rfl) (.step (.parseNone rfl rfl hx) hst)),
          by simpa [yields] using hy, by simpa [Whole] using hw, hrest⟩
      | some c =>
        exact ⟨.reader :: .parser :: .parser :: .yield c :: .consumer :: ls, t,
          .step (.read rfl rfl h) (.step (.handOver rfl rfl rfl) (.step (.parseSome rfl rfl hx) (.step (.yield rfl rfl rfl) (.step (.again rfl rfl) hst)))),
          by simpa [yields] using hy, by simpa [Whole] using hw, hrest⟩

/-! ### Model/Ftdc -/

theorem docs_ftdc (unzip : Bytes → Option Bytes) (fuel n : Nat) (s : Stream.Source) :
    Docs (Sys.ftdc unzip fuel) (n, s) (Ftdc.readDiagnostic n s).1 (Ftdc.readDiagnostic n s).2 := by
  induction n generalizing s with
  | zero => exact .oof rfl
  | succ n ih =>
    have key : (Sys.ftdc unzip fuel).read (n + 1, s) = match (Stream.readFrom (n + 1) s).result with
        | .ok d => .ok (d, (n, (Stream.readFrom (n + 1) s).rest))
        | .err e => .err e
        | .panic => .panic
        | .oof => .oof := rfl
    rw [Ftdc.readDiagnostic]
    cases hx : (Stream.readFrom (n + 1) s).result with
    | ok d => rw [hx] at key; exact .cons key (ih _)
    | panic => rw [hx] at key; exact .panic key
    | oof => rw [hx] at key; exact .oof key
    | err e =>
      rw [hx] at key
      by_cases he : e = .eof
      · subst he; exact .eof key
      · simp only
        exact .err key he

theorem chunks_ftdc (unzip : Bytes → Option Bytes) (fuel : Nat) (m : Option Doc) (ds : List Doc) :
    chunks (Sys.ftdc unzip fuel) m ds = Ftdc.readChunks unzip fuel m ds := by
  induction ds generalizing m with
  | nil => rfl
  | cons d ds ih =>
    rw [chunks, Ftdc.readChunks]
    have hp : (Sys.ftdc unzip fuel).parse m d = Ftdc.readChunkDoc unzip fuel m d := rfl
    rw [hp]
    cases Ftdc.readChunkDoc unzip fuel m d with
    | ok v => simp only [ih]
    | _ => rfl

theorem size_ftdc (unzip : Bytes → Option Bytes) (fuel : Nat) (r : Nat × Stream.Source) (d : Doc) (r' : Nat × Stream.Source)
    (h : (Sys.ftdc unzip fuel).read r = .ok (d, r')) : r'.1 < r.1 := by
  obtain ⟨_ | n, s⟩ := r
  · cases h
  · simp only [Sys.ftdc] at h
    cases hx : (Stream.readFrom (n + 1) s).result with
    | ok d => rw [hx] at h; cases h; exact Nat.lt_succ_self n
    | err e => rw [hx] at h; cases h
    | panic => rw [hx] at h; cases h
    | oof => rw [hx] at h; cases h

end Birch.Proofs.ReadPipe
