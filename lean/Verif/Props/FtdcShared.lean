import Verif.Proofs.FtdcMoved
import Verif.Proofs.Decode

/- C104: what an FTDC collector writes if the documents it was given are changed.

The collector keeps the first document, the metadata and the double and int64 values of the last document by pointer.  `zip` is the compressor and `fsub` the subtraction of
doubles, on their bits. -/

namespace Birch.Props
open Birch Model Model.Graph Model.Shared Spec Spec.Graph Spec.Shared Proofs.Shared

/-- the milliseconds since 1970 of a time -/
def atMs (now : Time) : Int := i64 (now.sec * 1000 + now.nsec / 1000000)

/-- {"x": 5} and {"x": 7}, each with its bytes -/
def exCounters : World :=
  ⟨fun i => encDoc (.cons [120] (.int64 (if i = 0 then 5 else 7)) .nil), 2, fun p => ⟨4, 7, ⟨p, 0, 16⟩, none⟩, 2, fun e => e, 2, fun d => [d], 2⟩

theorem exCounters_good : Spec.Graph.Good exCounters := by
  intro a b h e
  cases e with
  | data p => exact h
  | d h' => exact nomatch h'
  | elem h' => obtain rfl := List.mem_singleton.mp h'; exact h
  | value e => exact h

theorem exCounters_view (q : Nat) : ∃ v, viewVal exCounters 1 q = .ok v ∧ Rep v [120] (.int64 (if q = 0 then 5 else 7)) := by
  refine ⟨_, rfl, ?_⟩
  by_cases h : q = 0
  · subst h
    exact ⟨by simp [NulFree], by simp [BVal.WF], by decide, [16, 0, 0, 0], [0], by decide, rfl, rfl⟩
  · refine ⟨by simp [NulFree], by rw [if_neg h]; simp [BVal.WF], ?_⟩
    have : exCounters.bytes (exCounters.vals q).data = encDoc (.cons [120] (.int64 7) .nil) := by
      show ((encDoc (.cons [120] (.int64 (if q = 0 then 5 else 7)) .nil)).drop 0).take 16 = _
      rw [if_neg h]; decide
    rw [this, if_neg h]
    exact ⟨by decide, [16, 0, 0, 0], [0], by decide, rfl, rfl⟩

theorem exCounters_says (d : Nat) (h : d < 2) : Says exCounters d (.cons [120] (.int64 (if d = 0 then 5 else 7)) .nil) := by
  obtain ⟨v, h1, h2⟩ := exCounters_view d
  refine ⟨h, 1, [v], ?_, h2, trivial⟩
  show mapRes (fun e => viewVal exCounters 1 e) [d] = _
  simp only [mapRes, h1, Res.bind_ok]

/-- In a program that, between and after the calls of `Add`, does what it likes to its documents, elements and values, but does not write to anything that the collector
    refers to, every document is taken, and `Resolve` writes the chunk of the documents as they were when they were added.
    Partial: without the condition this is wrong, as the theorems below show. -/
theorem C104_undisturbed_partial {fsub : Nat → Nat → Nat} (hsub : ∀ a b, a < 18446744073709551616 → b < 18446744073709551616 → fsub a b < 18446744073709551616)
    {zip : Bytes → Bytes} {w : World} (g : Spec.Graph.Good w) {n : Nat} (hn : 2147483648 ≤ n) {md : Option Nat} {mfs : Option Fields} (hm : SaysMeta w md mfs)
    (hml : ∀ f, mfs = some f → (encDoc f).length ≤ 2147483000) {max : Nat} {steps : List Step} {f0 : Fields} {rest : List Fields}
    (ha : Adds fsub n (fun w c o => OfLast w c o ∨ OfDocs w c o) w (Collector.new max md) steps (f0 :: rest))
    (hl : ∀ f ∈ f0 :: rest, (encDoc f).length < 2147483648) (hs : ∀ f ∈ f0 :: rest, ∀ h ∈ f0 :: rest, f.metrics.SameShape h.metrics)
    (hmax : rest.length ≤ max) (h32 : rest.length < 4294967296) (hp : (zip (chunkPayload fsub f0 rest)).length ≤ 2147482000) {now : Time} (hnow : 0 ≤ now.nsec) :
    ∃ w' c, Shared.run fsub n (Collector.new max md) steps w = (w', .ok (c, (f0 :: rest).map fun _ => none)) ∧
      Returns (fun n => c.resolve zip now w' n) (.ok (chunkLayout fsub zip (atMs now) mfs f0 rest)) := by
  have hmfs : (encDoc (mfs.getD .nil)).length < 2147483648 := by
    cases mfs with
    | none => decide
    | some f => have := hml f rfl; simp only [Option.getD_some]; omega
  obtain ⟨w', c, b, d0, h1, _, sim, st, e1, e2, wf, hi⟩ := run_ok (mfs := mfs.getD .nil) hmfs hn (fun _ _ _ h => .inl h) steps w _ (Ftdc.Better.new max) none [] _ g ha
    ⟨rfl, rfl, nofun, rfl, rfl, rfl⟩ (Proofs.Ftdc.state_new fsub max) (by simpa using hl) (by simpa using hs) (by simpa using hmax)
  simp only [List.nil_append] at st hi
  obtain ⟨i1, i2⟩ := hi (fun _ _ _ h => .inr h) ⟨nofun, saysMeta_opt hm⟩
  cases hr : c.reference with
  | none =>
    have := sim.ref
    rw [hr] at this
    cases d0 with
    | none => exact st.2.2.elim
    | some d0 => rw [st.2.2.2.ref] at this; cases this
  | some r =>
    obtain ⟨_, _, e, hsay⟩ := i1 r hr
    cases e
    refine ⟨w', c, h1, ?_⟩
    exact resolve_shared hsub sim st wf hr hsay (saysMeta_of (by rw [e1]; exact hm) i2) hml (hl f0 (by simp)) (hl f0 (by simp)) h32 hp hnow

/-- {"x": 5} is added, its element is copied and the copy is given another value, and {"x": 7} is added -/
example : Adds (fun a _ => a) 2147483648 (fun w c o => OfLast w c o ∨ OfDocs w c o) exCounters (Collector.new 1 none)
    [.add 0, .call (.copyElement 0), .call (.setValue 2 1), .add 1] [.cons [120] (.int64 5) .nil, .cons [120] (.int64 7) .nil] := by
  refine ⟨_, _, rfl, exCounters_says 0 (by decide), fun w' c' e h => ?_⟩
  rw [add_one _ (e := 0) rfl (exCounters_says 0 (by decide)) (by decide)] at h
  cases h
  refine ⟨show 0 < 2 by decide, fun _ _ h => h.elim, ⟨show 2 < 3 by decide, show 1 < 3 by decide⟩, ?_, ?_⟩
  · rintro o (⟨t, p, hp, ho⟩ | ⟨d, hd, hr⟩) h
    · rcases ho with rfl | rfl <;> cases h
    · have hd : d = 0 := by rcases hd with hd | hd <;> cases hd; rfl
      subst hd
      cases h
      cases hr with
      | step e hr => cases e with
        | elem he =>
          have he : _ ∈ [0] := he
          obtain rfl := List.mem_singleton.mp he
          cases hr with
          | step e hr => cases e with
            | value => cases hr with
              | step e hr => cases e with
                | data => cases hr with
                  | step e _ => cases e
                | d h => cases h
  · refine ⟨_, [], rfl, ?_, fun _ _ _ _ => rfl⟩
    obtain ⟨v, h1, h2⟩ := exCounters_view 1
    exact says_one (show 1 < 2 by decide) (e := 1) rfl h1 h2 rfl rfl rfl

/-- What becomes of a reference that is changed.  If only the values kept of the last document are left alone, `Resolve` writes the first document and the metadata as they are when
    it is called, whatever they have become, and the number of metrics and the differences as they were when the documents were added. -/
theorem C104_changed {fsub : Nat → Nat → Nat} (hsub : ∀ a b, a < 18446744073709551616 → b < 18446744073709551616 → fsub a b < 18446744073709551616)
    {zip : Bytes → Bytes} {w : World} (g : Spec.Graph.Good w) {n : Nat} (hn : 2147483648 ≤ n) {md : Option Nat} {max : Nat} {steps : List Step} {f0 : Fields} {rest : List Fields}
    (ha : Adds fsub n OfLast w (Collector.new max md) steps (f0 :: rest))
    (hl : ∀ f ∈ f0 :: rest, (encDoc f).length < 2147483648) (hs : ∀ f ∈ f0 :: rest, ∀ h ∈ f0 :: rest, f.metrics.SameShape h.metrics)
    (hmax : rest.length ≤ max) (h32 : rest.length < 4294967296) :
    ∃ w' c, Shared.run fsub n (Collector.new max md) steps w = (w', .ok (c, (f0 :: rest).map fun _ => none)) ∧
      ∀ r g mfs, firstAdded steps = some r → Says w' r g → (encDoc g).length < 2147483648 → SaysMeta w' md mfs → (∀ f, mfs = some f → (encDoc f).length ≤ 2147483000) →
        (zip (payloadOn fsub g f0 rest)).length ≤ 2147482000 → ∀ now : Time, 0 ≤ now.nsec →
        Returns (fun n => c.resolve zip now w' n) (.ok (layoutOn fsub zip (atMs now) mfs g f0 rest)) := by
  obtain ⟨w', c, b, d0, h1, _, sim, st, e1, e2, wf, _⟩ := run_ok (mfs := .nil) (by decide) hn (fun _ _ _ h => h) steps w _ (Ftdc.Better.new max) none [] _ g ha
    ⟨rfl, rfl, nofun, rfl, rfl, rfl⟩ (Proofs.Ftdc.state_new fsub max) (by simpa using hl) (by simpa using hs) (by simpa using hmax)
  simp only [List.nil_append] at st
  refine ⟨w', c, h1, fun r g mfs hr hg hgl hm hml hp now hnow => ?_⟩
  exact resolve_shared hsub sim st wf (by rw [e2, hr]; rfl) hg (by rw [e1]; exact hm) hml (hl f0 (by simp)) hgl h32 hp hnow

/-- a document is added, its element is given another value, and it is added again -/
example : Adds (fun a _ => a) 2147483648 OfLast exCounters (Collector.new 1 none) [.add 0, .call (.setValue 0 1), .add 0]
    [.cons [120] (.int64 5) .nil, .cons [120] (.int64 7) .nil] := by
  refine ⟨_, _, rfl, exCounters_says 0 (by decide), fun w' c' e h => ?_⟩
  rw [add_one _ (e := 0) rfl (exCounters_says 0 (by decide)) (by decide)] at h
  cases h
  refine ⟨⟨show 0 < 2 by decide, show 1 < 2 by decide⟩, ?_, _, [], rfl, ?_, fun _ _ _ _ => rfl⟩
  · rintro o ⟨t, p, hp, ho⟩ h
    rcases ho with rfl | rfl <;> cases h
  · obtain ⟨v, h1, h2⟩ := exCounters_view 1
    exact says_one (show 0 < 2 by decide) (e := 0) rfl h1 h2 rfl rfl rfl

/-- So what is written is what was added only if the first document is what it was. -/
theorem C104_only_then {fsub : Nat → Nat → Nat} {zip : Bytes → Bytes} (hz : ∀ a b, zip a = zip b → a = b) {ms : Int} (hms : -9223372036854775808 ≤ ms ∧ ms < 9223372036854775808)
    {mfs : Option Fields} {g f0 : Fields} {rest : List Fields} (wg : g.WF) (wf : f0.WF) (hg : (encDoc g).length < 2147483648) (hf : (encDoc f0).length < 2147483648)
    (hp : (zip (payloadOn fsub g f0 rest)).length ≤ 2147482000) (hq : (zip (chunkPayload fsub f0 rest)).length ≤ 2147482000) :
    layoutOn fsub zip ms mfs g f0 rest = chunkLayout fsub zip ms mfs f0 rest ↔ g = f0 := by
  constructor
  · intro h
    have hc : ∀ p : Bytes, (zip p).length ≤ 2147482000 → (chunkDocument ms (le32 (p.length % 4294967296) ++ zip p)).WF ∧
        (encDoc (chunkDocument ms (le32 (p.length % 4294967296) ++ zip p))).length < 2147483648 := by
      intro p hp
      constructor
      · simp [chunkDocument, Fields.WF, BVal.WF, NulFree]; omega
      · simp [chunkDocument, encDoc, Fields.enc, BVal.enc]; omega
    have h1 := List.append_cancel_left (show documentsOf zip ms mfs (payloadOn fsub g f0 rest) = documentsOf zip ms mfs (chunkPayload fsub f0 rest) from h)
    have h2 := Proofs.encDoc_inj (hc _ hp).1 (hc _ hq).1 (hc _ hp).2 h1
    simp only [chunkDocument, Fields.cons.injEq, BVal.binary.injEq, true_and, and_true] at h2
    have h3 := hz _ _ (List.append_inj_right h2 (by simp))
    unfold payloadOn chunkPayload at h3
    simp only [List.append_assoc] at h3
    exact Proofs.encDoc_inj wg wf hg (List.append_cancel_right h3)
  · rintro rfl; rfl

example : layoutOn (fun a _ => a) id 0 none (.cons [120] (.int64 7) .nil) (.cons [120] (.int64 5) .nil) [] ≠
    chunkLayout (fun a _ => a) id 0 none (.cons [120] (.int64 5) .nil) [] := by
  rw [Ne, C104_only_then (zip := id) (fun _ _ h => h) (by decide) (by simp [Fields.WF, BVal.WF, NulFree]) (by simp [Fields.WF, BVal.WF, NulFree]) (by decide) (by decide) (by decide +kernel) (by decide +kernel)]
  simp

/-- If the metrics are int64s, and the first document still has the same when `Resolve` is called, what is written is the chunk of documents that were never added: all of them moved by as
    much as the first has changed. -/
theorem C104_counters (fsub : Nat → Nat → Nat) (zip : Bytes → Bytes) (ms : Int) (mfs : Option Fields) {g f0 : Fields} {rest : List Fields} (wf : g.WF) (hc : g.metrics.Counters)
    (hg : ∀ f ∈ f0 :: rest, g.metrics.SameShape f.metrics) :
    layoutOn fsub zip ms mfs g f0 rest = chunkLayout fsub zip ms mfs g (rest.map fun f => g.metrics.moved f0.metrics f.metrics) ∧
      ∀ f, (g.metrics.moved f0.metrics f).WF ∧ g.metrics.SameShape (g.metrics.moved f0.metrics f) := by
  refine ⟨?_, fun f => ⟨moved_wfF _ _ _ (Proofs.Ftdc.wf_metrics g wf), moved_shapeF _ _ _⟩⟩
  unfold layoutOn chunkLayout
  rw [payload_moved fsub wf hc hg]
  rfl

example : let g : Fields := .cons [97] (.doc (.cons [120] (.int64 7) .nil)) (.cons [115] (.string [104]) .nil)
    let f0 : Fields := .cons [97] (.doc (.cons [120] (.int64 5) .nil)) .nil
    g.WF ∧ g.metrics.Counters ∧ g.metrics.SameShape f0.metrics := by
  simp [Fields.WF, BVal.WF, NulFree, Fields.metrics, BVal.metric, Fields.Counters, BVal.Counters, Fields.SameShape, BVal.SameShape, BVal.tag]

/-- One document for all samples: {key: x} is added, its element is given the value y by `SetValue`, and it is added again.  `Resolve` writes the samples y and y + (y - x) instead of
    x and y. -/
theorem C104_reuse {fsub : Nat → Nat → Nat} (hsub : ∀ a b, a < 18446744073709551616 → b < 18446744073709551616 → fsub a b < 18446744073709551616)
    {zip : Bytes → Bytes} {w : World} (g : Spec.Graph.Good w) {n : Nat} (hn : 2147483648 ≤ n) {max d e q k : Nat} {key : Bytes} {x y : Int} {v : Value} (hmax : 1 ≤ max)
    (hd : w.docs d = [e]) (hs : Says w d (.cons key (.int64 x) .nil)) (hq : Made w (.val q)) (hv : viewVal w k q = .ok v) (hr : Rep v key (.int64 y)) (hk : key.length < 2147483000)
    (hp : (zip (chunkPayload fsub (.cons key (.int64 y) .nil) [.cons key (.int64 (i64 (y + y - x))) .nil])).length ≤ 2147482000) {now : Time} (hnow : 0 ≤ now.nsec) :
    ∃ w' c, Shared.run fsub n (Collector.new max none) [.add d, .call (.setValue e q), .add d] w = (w', .ok (c, [none, none])) ∧
      Returns (fun n => c.resolve zip now w' n)
        (.ok (chunkLayout fsub zip (atMs now) none (.cons key (.int64 y) .nil) [.cons key (.int64 (i64 (y + y - x))) .nil])) := by
  have he : Made w (.elem e) := g _ _ hs.1 (.elem (by rw [hd]; simp))
  have hlen : ∀ z, (encDoc (.cons key (.int64 z) .nil)).length < 2147483648 := by intro z; simp [encDoc, Fields.enc, BVal.enc]; omega
  have hsh : ∀ a b : Int, (Fields.cons key (.int64 a) .nil).metrics.SameShape (Fields.cons key (.int64 b) .nil).metrics := by
    intro a b; simp [Fields.metrics, BVal.metric, Fields.SameShape, BVal.SameShape, BVal.tag]
  have s2 : Says (Call.run w (.setValue e q)) d (.cons key (.int64 y) .nil) :=
    says_one hs.1 hd hv hr rfl (by show w.vals (upd w.elems e q e) = _; rw [Proofs.Graph.upd_self]) rfl
  have e1 : ∀ md, (Collector.new max md).add fsub n d w = (w, .ok (oneAdded max md d (w.elems e), none)) := fun md => add_one fsub hd hs (by omega)
  have ha : Adds fsub n OfLast w (Collector.new max none) [.add d, .call (.setValue e q), .add d] [.cons key (.int64 x) .nil, .cons key (.int64 y) .nil] := by
    refine ⟨_, _, rfl, hs, fun w' c' er h => ?_⟩
    rw [e1] at h
    cases h
    refine ⟨⟨he, hq⟩, ?_, _, [], rfl, s2, fun _ _ _ _ => rfl⟩
    rintro o ⟨t, p, hp, ho⟩ h
    rcases ho with rfl | rfl <;> cases h
  have wy : (Fields.cons key (.int64 y) .nil).WF := by obtain ⟨_, _, _, _, h⟩ := s2; exact Proofs.repFields_wf h
  obtain ⟨w', c, h1, h2⟩ := C104_changed hsub (zip := zip) g hn ha (by simp only [List.mem_cons, List.not_mem_nil, or_false]; rintro f (rfl | rfl) <;> exact hlen _)
    (by simp only [List.mem_cons, List.not_mem_nil, or_false]; rintro f (rfl | rfl) h (rfl | rfl) <;> exact hsh _ _) hmax (by simp)
  refine ⟨w', c, h1, ?_⟩
  have hw : w' = Call.run w (.setValue e q) := by
    unfold Shared.run at h1
    rw [Proofs.Graph.bind_run, e1] at h1
    simp only at h1
    cases hx : Shared.run fsub n (oneAdded max none d (w.elems e)) [.add d] (Call.run w (.setValue e q)) with
    | mk w1 r =>
      have h1 : ((do let (c, es) ← Shared.run fsub n (oneAdded max none d (w.elems e)) [.add d]; pure (c, none :: es) : M (Collector × List (Option Err)))
        (Call.run w (.setValue e q))) = (w', .ok (c, [none, none])) := h1
      rw [Proofs.Graph.bind_run, hx] at h1
      cases r with
      | ok z =>
        obtain ⟨c1, es⟩ := z
        have hw1 := run_world hx
        rw [add_world fsub _ (extract_one (w := Call.run w (.setValue e q)) (e := e) (n := n) hd s2 (by omega))] at hw1
        rw [← hw1]
        exact (Prod.mk.inj h1).1.symm
      | err e => cases (Prod.mk.inj h1).2
      | panic => cases (Prod.mk.inj h1).2
      | oof => cases (Prod.mk.inj h1).2
  subst hw
  obtain ⟨m1, _⟩ := C104_counters fsub zip (atMs now) none wy (f0 := .cons key (.int64 x) .nil) (rest := [.cons key (.int64 y) .nil])
    (by simp [Fields.metrics, BVal.metric, Fields.Counters, BVal.Counters])
    (by simp only [List.mem_cons, List.not_mem_nil, or_false]; rintro f (rfl | rfl) <;> exact hsh _ _)
  have hmv : [Fields.cons key (.int64 y) .nil].map (fun f => (Fields.cons key (.int64 y) .nil).metrics.moved (Fields.cons key (.int64 x) .nil).metrics f.metrics) =
      [.cons key (.int64 (i64 (y + y - x))) .nil] := by
    simp [Fields.metrics, BVal.metric, Fields.moved, BVal.moved]
  rw [hmv] at m1
  have hpo := payload_moved fsub wy (f0 := .cons key (.int64 x) .nil) (fss := [.cons key (.int64 y) .nil])
    (by simp [Fields.metrics, BVal.metric, Fields.Counters, BVal.Counters])
    (by simp only [List.mem_cons, List.not_mem_nil, or_false]; rintro f (rfl | rfl) <;> exact hsh _ _)
  rw [hmv] at hpo
  rw [← m1]
  exact h2 d _ none rfl s2 (hlen y) trivial nofun (by rw [hpo]; exact hp) now hnow

example : ∃ v, exCounters.docs 0 = [0] ∧ Says exCounters 0 (.cons [120] (.int64 5) .nil) ∧ Made exCounters (.val 1) ∧ viewVal exCounters 1 1 = .ok v ∧ Rep v [120] (.int64 7) := by
  obtain ⟨v, h1, h2⟩ := exCounters_view 1
  exact ⟨v, rfl, exCounters_says 0 (by decide), show 1 < 2 by decide, h1, h2⟩

/-- If instead the value itself is set to y by `Value.Set`, the difference is lost as well: `Resolve` writes the samples y and y, as if y had been added twice. -/
theorem C104_in_place {fsub : Nat → Nat → Nat} (hsub : ∀ a b, a < 18446744073709551616 → b < 18446744073709551616 → fsub a b < 18446744073709551616)
    {zip : Bytes → Bytes} {w : World} (g : Spec.Graph.Good w) {n : Nat} (hn : 2147483648 ≤ n) {max d e q k : Nat} {key : Bytes} {x y : Int} {v : Value} (hmax : 1 ≤ max)
    (hd : w.docs d = [e]) (hs : Says w d (.cons key (.int64 x) .nil)) (hq : Made w (.val q)) (hv : viewVal w k q = .ok v) (hr : Rep v key (.int64 y)) (hk : key.length < 2147483000)
    (hp : (zip (chunkPayload fsub (.cons key (.int64 y) .nil) [.cons key (.int64 y) .nil])).length ≤ 2147482000) {now : Time} (hnow : 0 ≤ now.nsec) :
    ∃ w' c, Shared.run fsub n (Collector.new max none) [.add d, .call (.set (w.elems e) q), .add d] w = (w', .ok (c, [none, none])) ∧
      Returns (fun n => c.resolve zip now w' n) (.ok (chunkLayout fsub zip (atMs now) none (.cons key (.int64 y) .nil) [.cons key (.int64 y) .nil])) := by
  have he : Made w (.elem e) := g _ _ hs.1 (.elem (by rw [hd]; simp))
  have hlen : ∀ z, (encDoc (.cons key (.int64 z) .nil)).length < 2147483648 := by intro z; simp [encDoc, Fields.enc, BVal.enc]; omega
  have s2 : Says (Call.run w (.set (w.elems e) q)) d (.cons key (.int64 y) .nil) :=
    says_one hs.1 hd hv hr rfl (by show upd w.vals (w.elems e) (w.vals q) (w.elems e) = _; rw [Proofs.Graph.upd_self]) rfl
  obtain ⟨g2, _, _⟩ := Proofs.Graph.run_frame g (c := .set (w.elems e) q) ⟨g _ _ he (.value e), hq⟩
  have e1 : (Collector.new max none).add fsub n d w = (w, .ok (oneAdded max none d (w.elems e), none)) := add_one fsub hd hs (by omega)
  have e2 : (Collector.new max none).add fsub n d (Call.run w (.set (w.elems e) q)) = (Call.run w (.set (w.elems e) q), .ok (oneAdded max none d (w.elems e), none)) :=
    add_one fsub (w := Call.run w (.set (w.elems e) q)) hd s2 (by omega)
  have ha : Adds fsub n (fun w c o => OfLast w c o ∨ OfDocs w c o) (Call.run w (.set (w.elems e) q)) (Collector.new max none) [.add d, .add d]
      [.cons key (.int64 y) .nil, .cons key (.int64 y) .nil] := by
    refine ⟨_, _, rfl, s2, fun w' c' er h => ?_⟩
    rw [e2] at h
    cases h
    exact ⟨_, [], rfl, s2, fun _ _ _ _ => rfl⟩
  obtain ⟨w', c, h1, h2⟩ := C104_undisturbed_partial hsub (zip := zip) g2 hn (md := none) (mfs := none) trivial nofun ha
    (by simp only [List.mem_cons, List.not_mem_nil, or_false]; rintro f (rfl | rfl) <;> exact hlen _)
    (by simp only [List.mem_cons, List.not_mem_nil, or_false]; rintro f (rfl | rfl) h (rfl | rfl) <;> exact Proofs.Ftdc.shapeF_refl _) hmax (by simp) hp hnow
  refine ⟨w', c, ?_, h2⟩
  refine Eq.trans ?_ h1
  show ((Collector.new max none).add fsub n d >>= _) w = ((Collector.new max none).add fsub n d >>= _) _
  rw [Proofs.Graph.bind_ok_run e1, Proofs.Graph.bind_ok_run e2]
  rfl

/-- {"x": 5} whose value is set to 7 -/
example : ∃ w' c, Shared.run (fun a _ => a) 2147483648 (Collector.new 1 none) [.add 0, .call (.set 0 1), .add 0] exCounters = (w', .ok (c, [none, none])) := by
  obtain ⟨v, h1, h2⟩ := exCounters_view 1
  obtain ⟨w', c, h, _⟩ := C104_in_place (fsub := fun a _ => a) (fun _ _ h _ => h) (zip := fun _ => []) exCounters_good (n := 2147483648) (by decide) (max := 1) (by decide) (d := 0) (e := 0)
    rfl (exCounters_says 0 (by decide)) (show 1 < 2 by decide) h1 h2 (by decide) (by decide) (now := ⟨0, 0⟩) (by decide)
  exact ⟨w', c, h⟩

/-- If an int64 value of the last document is given another type by `Value.Set`, the next `Add` panics, whatever int64 it is called with. -/
theorem C104_type_panics (fsub : Nat → Nat → Nat) {w : World} (g : Spec.Graph.Good w) {n : Nat} (hn : 2147483648 ≤ n) {max d e d' e' q k : Nat} {key key' key2 : Bytes} {x y : Int} {v : Value}
    {t : BVal} (hmax : 1 ≤ max) (hd : w.docs d = [e]) (hs : Says w d (.cons key (.int64 x) .nil)) (hq : Made w (.val q)) (hv : viewVal w k q = .ok v) (hr : Rep v key' t) (ht : t.tag ≠ 0x12)
    (hd' : w.docs d' = [e']) (hs' : Says w d' (.cons key2 (.int64 y) .nil)) (hk : key2.length < 2147483000) (hne : w.elems e' ≠ w.elems e) :
    (Shared.run fsub n (Collector.new max none) [.add d, .call (.set (w.elems e) q), .add d'] w).2 = .panic := by
  have he : Made w (.elem e) := g _ _ hs.1 (.elem (by rw [hd]; simp))
  obtain ⟨g2, _, _⟩ := Proofs.Graph.run_frame g (c := .set (w.elems e) q) ⟨g _ _ he (.value e), hq⟩
  obtain ⟨k2, v2, o1, o2⟩ := one_value hd' hs'
  have hother : (Call.run w (.set (w.elems e) q)).vals (w.elems e') = w.vals (w.elems e') := by
    show upd w.vals (w.elems e) (w.vals q) (w.elems e') = _
    rw [Proofs.Graph.upd_ne _ _ hne]
  have s2 : Says (Call.run w (.set (w.elems e) q)) d' (.cons key2 (.int64 y) .nil) := says_one hs'.1 hd' o1 o2 rfl hother rfl
  have e1 : (Collector.new max none).add fsub n d w = (w, .ok (oneAdded max none d (w.elems e), none)) := add_one fsub hd hs (by omega)
  have x1 := extract_one (n := n) (w := Call.run w (.set (w.elems e) q)) hd' s2 (by omega)
  obtain ⟨w', l, y1, _, _, y2⟩ := extract_ok g2 s2 (by simp [encDoc, Fields.enc, BVal.enc]; omega) hn
  rw [x1] at y1
  cases y1
  have hcur : Held.read (Call.run w (.set (w.elems e) q)) (.at (w.elems e')) = .ok (.int y) := by
    have hy : Proofs.Ftdc.numsF (.cons key2 (.int64 y) .nil) = [(0x12, Ftdc.Num.int y)] := rfl
    rw [hy] at y2
    unfold readAll at y2
    obtain ⟨a, r, h1, h2, _⟩ := Proofs.Graph.mapRes_cons y2
    cases h1
    obtain ⟨z, h3, h4⟩ := Res.bind_eq_ok.mp h2
    cases h4
    exact h3
  have htype := view_type hv hr
  have hvals : (Call.run w (.set (w.elems e) q)).vals (w.elems e) = w.vals q := by
    show upd w.vals (w.elems e) (w.vals q) (w.elems e) = _
    rw [Proofs.Graph.upd_self]
  have hbytes : ∀ b, (Call.run w (.set (w.elems e) q)).bytes b = w.bytes b := fun _ => rfl
  have hold : (do Ftdc.extractDelta fsub (.int y) (← orPanics (Held.read (Call.run w (.set (w.elems e) q)) (.at (w.elems e))))) = .panic := by
    unfold Held.read
    simp only [hvals, hbytes, htype, Res.bind_ok]
    by_cases h1 : t.tag = 0x01
    · rw [if_pos h1]
      obtain ⟨b, rfl⟩ : ∃ b, t = .double b := by cases t <;> simp [BVal.tag] at h1; exact ⟨_, rfl⟩
      rw [← (view_double hv hr), Proofs.double_rep hr]
      rfl
    · rw [if_neg h1, if_neg ht]
      rfl
  have hadd : ((oneAdded max none d (w.elems e)).add fsub n d' (Call.run w (.set (w.elems e) q))).2 = .panic := by
    unfold Collector.add oneAdded
    simp only
    rw [if_neg (by omega), Proofs.Graph.bind_ok_run x1, if_neg (by simp), Proofs.Graph.bind_run, Proofs.Graph.look_run]
    have : Shared.addLoop fsub (Call.run w (.set (w.elems e) q)) max 0 0 [(0x12, .at (w.elems e'))] [(0x12, .at (w.elems e))] (List.replicate (max * 1) 0) = .panic := by
      unfold Shared.addLoop
      rw [if_neg (by simp), hcur, Res.bind_ok]
      revert hold
      cases orPanics (Held.read (Call.run w (.set (w.elems e) q)) (.at (w.elems e))) with
      | ok b => intro hold; rw [Res.bind_ok] at hold ⊢; rw [hold]; rfl
      | err e => intro hold; cases hold
      | panic => intro; rfl
      | oof => intro hold; cases hold
    have this' : Shared.addLoop fsub (Call.run w (.set (w.elems e) q)) max 0 0 [(0x12, .at ((Call.run w (.set (w.elems e) q)).elems e'))] [(0x12, .at (w.elems e))]
        (List.replicate (max * 1) 0) = .panic := this
    rw [this']
  show (((Collector.new max none).add fsub n d >>= _) w).2 = _
  rw [Proofs.Graph.bind_ok_run e1]
  change ((Shared.run fsub n (oneAdded max none d (w.elems e)) [.call (.set (w.elems e) q), .add d'] >>= fun r => pure (r.1, none :: r.2)) w).2 = _
  rw [Proofs.Graph.bind_run]
  have hrun : (Shared.run fsub n (oneAdded max none d (w.elems e)) [.call (.set (w.elems e) q), .add d'] w).2 = .panic := by
    show (((oneAdded max none d (w.elems e)).add fsub n d' >>= _) (Call.run w (.set (w.elems e) q))).2 = _
    rw [Proofs.Graph.bind_run]
    revert hadd
    generalize (oneAdded max none d (w.elems e)).add fsub n d' (Call.run w (.set (w.elems e) q)) = r
    obtain ⟨w', r⟩ := r
    rintro rfl
    rfl
  revert hrun
  generalize Shared.run fsub n (oneAdded max none d (w.elems e)) [.call (.set (w.elems e) q), .add d'] w = r
  obtain ⟨w', r⟩ := r
  rintro rfl
  rfl

/-- {"x": 5}, {"x": 7} and the value of {"x": true} -/
def exTyped : World :=
  ⟨fun i => encDoc (.cons [120] (if i = 0 then .int64 5 else if i = 1 then .int64 7 else .bool true) .nil), 3, fun p => ⟨4, 7, ⟨p, 0, if p = 2 then 9 else 16⟩, none⟩, 3, fun e => e, 2,
    fun d => [d], 2⟩

example : Spec.Graph.Good exTyped ∧ (∃ v, viewVal exTyped 1 0 = .ok v ∧ Rep v [120] (.int64 5)) ∧ (∃ v, viewVal exTyped 1 1 = .ok v ∧ Rep v [120] (.int64 7)) ∧
    (∃ v, viewVal exTyped 1 2 = .ok v ∧ Rep v [120] (.bool true)) ∧ (BVal.bool true).tag ≠ 0x12 ∧ exTyped.elems 1 ≠ exTyped.elems 0 := by
  refine ⟨?_, ⟨_, rfl, by simp [NulFree], by simp [BVal.WF], by decide, [16, 0, 0, 0], [0], by decide, rfl, rfl⟩,
    ⟨_, rfl, by simp [NulFree], by simp [BVal.WF], by decide, [16, 0, 0, 0], [0], by decide, rfl, rfl⟩,
    ⟨_, rfl, by simp [NulFree], by simp [BVal.WF], by decide, [9, 0, 0, 0], [0], by decide, rfl, rfl⟩, by decide, by decide⟩
  intro a b h e
  cases e with
  | data p => exact h
  | d h' => exact nomatch h'
  | elem h' => obtain rfl := List.mem_singleton.mp h'; exact h
  | value e => exact Nat.lt_trans h (by decide)

/-- A document that is copied before it is added can be changed afterwards: what the collector refers to does not include the list of elements of the original.  (It does include the elements
    and values, which the copy shares, C87.) -/
theorem C104_copy {fsub : Nat → Nat → Nat} {w w1 w2 : World} {c : Collector} {d d' n max : Nat} {e : Option Err} {fs : Fields} (g : Spec.Graph.Good w)
    (hs : Says w d fs) (hl : (encDoc fs).length < 2147483648) (hn : 2147483648 ≤ n) (hc : copyDocument d w = (w1, .ok d'))
    (ha : (Collector.new max none).add fsub n d' w1 = (w2, .ok (c, e))) (es : List Nat) :
    ∀ o, OfLast w2 c o ∨ OfDocs w2 c o → ¬ Writes w2 (.change d es) o := by
  obtain ⟨h1, h2, h3⟩ := copy_apart g hs hl hn hc ha
  rintro o (⟨t, p, _, ho⟩ | ⟨r, hr, ho⟩) hw
  · rcases ho with rfl | rfl <;> cases hw
  · cases hw
    rcases hr with hr | hr
    · rw [h2] at hr; cases hr; exact h1 ho
    · rw [h3] at hr; cases hr

example : Says exCounters 0 (.cons [120] (.int64 5) .nil) ∧ copyDocument 0 exCounters = ((copyDocument 0 exCounters).1, .ok 2) := ⟨exCounters_says 0 (by decide), rfl⟩

end Birch.Props
