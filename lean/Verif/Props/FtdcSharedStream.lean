import Verif.Proofs.FtdcSharedStream
import Verif.Props.FtdcShared

/- C108: what a streaming FTDC collector writes if the documents it was given are changed.

A chunk is written by the `Add` that finds the collector full, before the new document is taken, or by a flush.  `zip` is the compressor and `fsub` the subtraction of doubles, on
their bits; `now` are the times at which the chunks are written. -/

namespace Birch.Props
open Birch Model Model.Graph Model.Shared Spec Spec.Graph Spec.Shared Proofs.Shared

/-- What is in the file after a program that leaves the values kept of the last document alone, but may change everything else, and a flush at the end: one chunk for every `max + 1`
    documents, with the first of them and the metadata as they were when the chunk was written, and the differences as they were when the documents were added.  The collector is then
    as new.  So a change of a document affects the chunk it is the first of, and no other. -/
theorem C108_stream {fsub : Nat → Nat → Nat} (hsub : ∀ a b, a < 18446744073709551616 → b < 18446744073709551616 → fsub a b < 18446744073709551616)
    {zip : Bytes → Bytes} {w : World} (g : Spec.Graph.Good w) {n : Nat} (hn : 2147483648 ≤ n) {md : Option Nat} {max : Nat} {ps : List Part} (hne : ps ≠ [])
    (hp : Parts fsub n max md w ps) (hf : Filled max ps) (hs : ∀ p ∈ ps, p.Small fsub zip) {now : Nat → Time} (hnow : ∀ j, 0 ≤ (now j).nsec) :
    ∃ w' N, ∀ m, N ≤ m → ∃ c c', runStream fsub zip now n m (Streaming.new max md ⟨[], []⟩) (ps.flatMap Part.steps) w =
        (w', .ok (c, (ps.flatMap fun p => p.first :: p.rest).map fun _ => none)) ∧
      c.flush zip now m w' = (w', .ok (c', none)) ∧ c'.output.out = fileOn fsub zip (fun j => atMs (now j)) 0 ps ∧ c'.count = 0 ∧ c'.inner = Collector.new max md := by
  cases ps with
  | nil => exact absurd rfl hne
  | cons p ps =>
    obtain ⟨w', N, h⟩ := parts_ok (zip := zip) hsub hn hnow p ps w 0 g hp hf hs
    refine ⟨w', N, fun m hm => ?_⟩
    obtain ⟨c, h1, h2⟩ := h m hm []
    exact ⟨c, _, h1, h2, rfl, rfl, rfl⟩

/-- the chunks of the documents as they were added -/
def fileOf (fsub : Nat → Nat → Nat) (zip : Bytes → Bytes) (ms : Nat → Int) : Nat → List Part → Bytes
  | _, [] => []
  | j, p :: ps => chunkLayout fsub zip (ms j) p.md p.first p.rest ++ fileOf fsub zip ms (j + 1) ps

/-- If the first document of each chunk is what it was when the chunk is written, the file is that of the documents as they were added.
    Partial: otherwise it is not, see below and `C104_only_then`. -/
theorem C108_undisturbed_partial {fsub : Nat → Nat → Nat} (hsub : ∀ a b, a < 18446744073709551616 → b < 18446744073709551616 → fsub a b < 18446744073709551616)
    {zip : Bytes → Bytes} {w : World} (g : Spec.Graph.Good w) {n : Nat} (hn : 2147483648 ≤ n) {md : Option Nat} {max : Nat} {ps : List Part} (hne : ps ≠ [])
    (hp : Parts fsub n max md w ps) (hf : Filled max ps) (hs : ∀ p ∈ ps, p.Small fsub zip) (hl : ∀ p ∈ ps, p.late = p.first) {now : Nat → Time} (hnow : ∀ j, 0 ≤ (now j).nsec) :
    ∃ w' N, ∀ m, N ≤ m → ∃ c c', runStream fsub zip now n m (Streaming.new max md ⟨[], []⟩) (ps.flatMap Part.steps) w =
        (w', .ok (c, (ps.flatMap fun p => p.first :: p.rest).map fun _ => none)) ∧
      c.flush zip now m w' = (w', .ok (c', none)) ∧ c'.output.out = fileOf fsub zip (fun j => atMs (now j)) 0 ps := by
  have key : ∀ (ps : List Part) (j : Nat), (∀ p ∈ ps, p.late = p.first) → fileOn fsub zip (fun j => atMs (now j)) j ps = fileOf fsub zip (fun j => atMs (now j)) j ps := by
    intro ps
    induction ps with
    | nil => intro j _; rfl
    | cons p ps ih =>
      intro j h
      simp only [fileOn, fileOf, ih (j + 1) fun q hq => h q (by simp [hq]), h p (by simp)]
      rfl
  obtain ⟨w', N, h⟩ := C108_stream (zip := zip) hsub g hn hne hp hf hs hnow
  refine ⟨w', N, fun m hm => ?_⟩
  obtain ⟨c, c', h1, h2, h3, _⟩ := h m hm
  exact ⟨c, c', h1, h2, by rw [h3, key ps 0 hl]⟩

/-- the chunks whose first sample is what the first document became, and whose other samples are moved by as much -/
def fileMoved (fsub : Nat → Nat → Nat) (zip : Bytes → Bytes) (ms : Nat → Int) : Nat → List Part → Bytes
  | _, [] => []
  | j, p :: ps => chunkLayout fsub zip (ms j) p.md p.late (p.rest.map fun f => p.late.metrics.moved p.first.metrics f.metrics) ++ fileMoved fsub zip ms (j + 1) ps

/-- For counters, the samples of a chunk are those that were added, all moved by the change of the first one. -/
theorem C108_counters (fsub : Nat → Nat → Nat) (zip : Bytes → Bytes) (ms : Nat → Int) : ∀ (ps : List Part) (j : Nat),
    (∀ p ∈ ps, p.late.WF ∧ p.late.metrics.Counters ∧ ∀ f ∈ p.first :: p.rest, p.late.metrics.SameShape f.metrics) →
    fileOn fsub zip ms j ps = fileMoved fsub zip ms j ps
  | [], _, _ => rfl
  | p :: ps, j, h => by
    obtain ⟨h1, h2, h3⟩ := h p (by simp)
    simp only [fileOn, fileMoved, (C104_counters fsub zip (ms j) p.md h1 h2 h3).1, C108_counters fsub zip ms ps (j + 1) fun q hq => h q (by simp [hq])]

/-- the program that adds a document and then, for each value in turn, sets the element of the document to it and adds the document again -/
def reusing (d e : Nat) (qs : List Nat) : List Step := .add d :: qs.flatMap fun q => [.call (.setValue e q), .add d]

/-- a chunk with one sample for each number -/
def oneEach (fsub : Nat → Nat → Nat) (zip : Bytes → Bytes) (ms : Nat → Int) (key : Bytes) : Nat → List Int → Bytes
  | _, [] => []
  | j, x :: xs => chunkLayout fsub zip (ms j) none (.cons key (.int64 x) .nil) [] ++ oneEach fsub zip ms key (j + 1) xs

/-- the parts of `reusing`: each chunk is written by the next `Add`, for which the document has been changed already -/
def reuseParts (key : Bytes) (d e : Nat) : Int → List (Nat × Int) → List Part
  | x, [] => [⟨[.add d], .cons key (.int64 x) .nil, [], .cons key (.int64 x) .nil, none⟩]
  | x, (q, y) :: rest => ⟨[.add d, .call (.setValue e q)], .cons key (.int64 x) .nil, [], .cons key (.int64 y) .nil, none⟩ :: reuseParts key d e y rest

theorem reuseParts_steps (key : Bytes) (d e : Nat) : ∀ (l : List (Nat × Int)) (x : Int), (reuseParts key d e x l).flatMap Part.steps = reusing d e (l.map Prod.fst)
  | [], _ => rfl
  | (q, y) :: l, x => by
    have := reuseParts_steps key d e l y
    simp only [reusing] at this
    simp [reuseParts, reusing, this]

theorem reuseParts_filled (key : Bytes) (d e : Nat) : ∀ (l : List (Nat × Int)) (x : Int), Filled 0 (reuseParts key d e x l)
  | [], _ => Nat.le_refl _
  | _ :: [], _ => ⟨rfl, ⟨_, _, rfl⟩, Nat.le_refl _⟩
  | (_, y) :: (q', y') :: l, _ => ⟨rfl, ⟨_, _, rfl⟩, reuseParts_filled key d e ((q', y') :: l) y⟩

theorem reuseParts_docs (key : Bytes) (d e : Nat) : ∀ (l : List (Nat × Int)) (x : Int),
    ((reuseParts key d e x l).flatMap fun p => p.first :: p.rest) = (x :: l.map Prod.snd).map fun x => .cons key (.int64 x) .nil
  | [], _ => rfl
  | (q, y) :: l, x => by simp [reuseParts, reuseParts_docs key d e l y]

theorem reuseParts_ok (fsub : Nat → Nat → Nat) {n : Nat} (hn : 0 < n) {d e : Nat} {key : Bytes} {w : World} (he : Made w (.elem e)) : ∀ (l : List (Nat × Int)) (x : Int) (u : World),
    u.docs d = [e] → u.vals = w.vals → u.bufs = w.bufs → (∀ o, Made w o → Made u o) → Spec.Graph.Good u → Says u d (.cons key (.int64 x) .nil) →
    (∀ p ∈ l, Made w (.val p.1) ∧ ∃ k v, viewVal w k p.1 = .ok v ∧ Rep v key (.int64 p.2)) → Parts fsub n 0 none u (reuseParts key d e x l)
  | [], x, u, hd, _, _, _, _, hs, _ => by
    have e1 : (Collector.new 0 none).add fsub n d u = (u, .ok (oneAdded 0 none d (u.elems e), none)) := add_one fsub hd hs hn
    refine ⟨⟨_, _, rfl, hs, fun w' c' er h => rfl⟩, fun w' r h => ?_⟩
    unfold Shared.run at h
    rw [Proofs.Graph.bind_ok_run e1] at h
    obtain rfl : u = w' := (Prod.mk.inj h).1
    exact ⟨⟨d, rfl, hs⟩, trivial, trivial⟩
  | (q, y) :: l, x, u, hd, hv, hb, hm, g, hs, hl => by
    have e1 : (Collector.new 0 none).add fsub n d u = (u, .ok (oneAdded 0 none d (u.elems e), none)) := add_one fsub hd hs hn
    obtain ⟨hq, k, v, h1, h2⟩ := hl (q, y) (by simp)
    obtain ⟨g2, m2, _⟩ := Proofs.Graph.run_frame g (c := .setValue e q) ⟨hm _ he, hm _ hq⟩
    have s2 : Says (Call.run u (.setValue e q)) d (.cons key (.int64 y) .nil) :=
      says_one (m2 _ hs.1) hd h1 h2 rfl (by show u.vals (upd u.elems e q e) = _; rw [Proofs.Graph.upd_self, hv]) hb
    refine ⟨⟨_, _, rfl, hs, fun w' c' er h => ?_⟩, fun w' r h => ?_⟩
    · rw [e1] at h
      cases h
      refine ⟨⟨hm _ he, hm _ hq⟩, ?_, rfl⟩
      rintro o ⟨t, p, hp, ho⟩ h
      rcases ho with rfl | rfl <;> cases h
    · unfold Shared.run at h
      rw [Proofs.Graph.bind_ok_run e1] at h
      obtain rfl : Call.run u (.setValue e q) = w' := (Prod.mk.inj h).1
      exact ⟨⟨d, rfl, s2⟩, trivial, reuseParts_ok fsub hn he l y _ hd hv hb (fun o h => m2 o (hm o h)) g2 s2 fun p hp => hl p (by simp [hp])⟩

theorem reuseParts_small (fsub : Nat → Nat → Nat) {zip : Bytes → Bytes} {d e : Nat} {key : Bytes} (hk : key.length < 2147483000) (hw : ∀ x, (Fields.cons key (.int64 x) .nil).WF →
      (zip (chunkPayload fsub (.cons key (.int64 x) .nil) [])).length ≤ 2147482000) : ∀ (l : List (Nat × Int)) (x : Int),
    (∀ y ∈ x :: l.map Prod.snd, (Fields.cons key (.int64 y) .nil).WF) → ∀ p ∈ reuseParts key d e x l, p.Small fsub zip := by
  have hlen : ∀ z, (encDoc (.cons key (.int64 z) .nil)).length < 2147483648 := by intro z; simp [encDoc, Fields.enc, BVal.enc]; omega
  have hsh : ∀ a b : Int, (Fields.cons key (.int64 a) .nil).metrics.SameShape (Fields.cons key (.int64 b) .nil).metrics := by
    intro a b; simp [Fields.metrics, BVal.metric, Fields.SameShape, BVal.SameShape, BVal.tag]
  have one : ∀ (s : List Step) (x y : Int), (Fields.cons key (.int64 y) .nil).WF → Part.Small fsub zip ⟨s, .cons key (.int64 x) .nil, [], .cons key (.int64 y) .nil, none⟩ := by
    intro s x y wy
    refine ⟨by simpa using hlen x, by simpa using hsh x x, hlen y, nofun, by simp, ?_⟩
    rw [payload_moved fsub wy (by simp [Fields.metrics, BVal.metric, Fields.Counters, BVal.Counters]) (by simpa using hsh y x)]
    exact hw y wy
  intro l
  induction l with
  | nil => intro x h p hp; simp only [reuseParts, List.mem_singleton] at hp; subst hp; exact one _ _ _ (h x (by simp))
  | cons a l ih =>
    intro x h p hp
    simp only [reuseParts, List.mem_cons] at hp
    rcases hp with rfl | hp
    · exact one _ _ _ (h a.2 (by simp))
    · exact ih a.2 (fun y hy => h y (List.mem_cons_of_mem _ hy)) p hp

theorem reuseParts_file (fsub : Nat → Nat → Nat) (zip : Bytes → Bytes) (ms : Nat → Int) {d e : Nat} {key : Bytes} : ∀ (l : List (Nat × Int)) (x : Int) (j : Nat),
    (∀ y ∈ x :: l.map Prod.snd, (Fields.cons key (.int64 y) .nil).WF) →
    fileOn fsub zip ms j (reuseParts key d e x l) = oneEach fsub zip ms key j (l.map Prod.snd ++ [(l.map Prod.snd).getLastD x])
  | [], x, j, _ => rfl
  | (q, y) :: l, x, j, h => by
    have := (C104_counters fsub zip (ms j) none (h y (by simp)) (f0 := .cons key (.int64 x) .nil) (rest := []) (by simp [Fields.metrics, BVal.metric, Fields.Counters, BVal.Counters])
      (by simp [Fields.metrics, BVal.metric, Fields.SameShape, BVal.SameShape, BVal.tag])).1
    simp only [reuseParts, fileOn, this, reuseParts_file fsub zip ms l y (j + 1) fun z hz => h z (List.mem_cons_of_mem _ hz), List.map_cons, List.cons_append, oneEach, List.map_nil,
      List.getLastD_cons]

/-- One document is used again for every sample, and the collector writes a chunk for each.  The first sample is lost and the last one is written twice, although no `Add` returns
    an error. -/
theorem C108_reuse {fsub : Nat → Nat → Nat} (hsub : ∀ a b, a < 18446744073709551616 → b < 18446744073709551616 → fsub a b < 18446744073709551616)
    {zip : Bytes → Bytes} {w : World} (g : Spec.Graph.Good w) {n : Nat} (hn : 2147483648 ≤ n) {d e : Nat} {key : Bytes} {x : Int} {l : List (Nat × Int)} (hd : w.docs d = [e])
    (hs : Says w d (.cons key (.int64 x) .nil)) (hl : ∀ p ∈ l, Made w (.val p.1) ∧ ∃ k v, viewVal w k p.1 = .ok v ∧ Rep v key (.int64 p.2)) (hk : key.length < 2147483000)
    (hz : ∀ x, (zip (chunkPayload fsub (.cons key (.int64 x) .nil) [])).length ≤ 2147482000) {now : Nat → Time} (hnow : ∀ j, 0 ≤ (now j).nsec) :
    ∃ w' N, ∀ m, N ≤ m → ∃ c c', runStream fsub zip now n m (Streaming.new 0 none ⟨[], []⟩) (reusing d e (l.map Prod.fst)) w =
        (w', .ok (c, (x :: l.map Prod.snd).map fun _ => none)) ∧
      c.flush zip now m w' = (w', .ok (c', none)) ∧
      c'.output.out = oneEach fsub zip (fun j => atMs (now j)) key 0 (l.map Prod.snd ++ [(l.map Prod.snd).getLastD x]) := by
  have he : Made w (.elem e) := g _ _ hs.1 (.elem (by rw [hd]; simp))
  have wf : ∀ y ∈ x :: l.map Prod.snd, (Fields.cons key (.int64 y) .nil).WF := by
    intro y hy
    rcases List.mem_cons.mp hy with rfl | hy
    · obtain ⟨_, _, _, _, h⟩ := hs; exact Proofs.repFields_wf h
    · obtain ⟨p, hp, rfl⟩ := List.mem_map.mp hy
      obtain ⟨_, _, v, _, h⟩ := hl p hp
      exact Proofs.repFields_wf (show RepFields [v] (.cons key (.int64 p.2) .nil) from ⟨h, trivial⟩)
  have hp := reuseParts_ok fsub (show 0 < n by omega) he l x w hd rfl rfl (fun _ h => h) g hs hl
  obtain ⟨w', N, h⟩ := C108_stream (zip := zip) hsub g hn (by cases l <;> simp [reuseParts]) hp (reuseParts_filled key d e l x) (reuseParts_small fsub hk (fun x _ => hz x) l x wf) hnow
  refine ⟨w', N, fun m hm => ?_⟩
  obtain ⟨c, c', h1, h2, h3, _⟩ := h m hm
  refine ⟨c, c', ?_, h2, by rw [h3, reuseParts_file fsub zip _ l x 0 wf]⟩
  rw [← reuseParts_steps key d e l x, h1, reuseParts_docs]
  simp

/-- {"x": 5}, then 7, then 5 again: the file has 7, 5 and 5 -/
theorem exCounters_sets : ∀ p ∈ [(1, (7 : Int)), (0, 5)], Made exCounters (.val p.1) ∧ ∃ k v, viewVal exCounters k p.1 = .ok v ∧ Rep v [120] (.int64 p.2) := by
  intro p hp
  simp only [List.mem_cons, List.not_mem_nil, or_false] at hp
  rcases hp with rfl | rfl
  · obtain ⟨v, h1, h2⟩ := exCounters_view 1
    exact ⟨show 1 < 2 by decide, 1, v, h1, h2⟩
  · obtain ⟨v, h1, h2⟩ := exCounters_view 0
    exact ⟨show 0 < 2 by decide, 1, v, h1, h2⟩

example : ∃ w' N, ∀ m, N ≤ m → ∃ c c', runStream (fun a _ => a) (fun _ => []) (fun _ => ⟨0, 0⟩) 2147483648 m (Streaming.new 0 none ⟨[], []⟩)
      [.add 0, .call (.setValue 0 1), .add 0, .call (.setValue 0 0), .add 0] exCounters = (w', .ok (c, [none, none, none])) ∧
    c.flush (fun _ => []) (fun _ => ⟨0, 0⟩) m w' = (w', .ok (c', none)) ∧
    c'.output.out = oneEach (fun a _ => a) (fun _ => []) (fun _ => atMs ⟨0, 0⟩) [120] 0 [7, 5, 5] :=
  C108_reuse (l := [(1, 7), (0, 5)]) (fun _ _ h _ => h) exCounters_good (by decide) (e := 0) rfl (exCounters_says 0 (by decide)) exCounters_sets (by decide) (fun _ => by simp) (fun _ => by simp)

/-- two chunks of which the first document of the first is changed in between -/
example : let ps := reuseParts [120] 0 0 5 [(1, 7), (0, 5)]
    ps ≠ [] ∧ Parts (fun a _ => a) 2147483648 0 none exCounters ps ∧ Filled 0 ps ∧ (∀ p ∈ ps, p.Small (fun a _ => a) fun _ => []) ∧ ∃ p ∈ ps, p.late ≠ p.first := by
  refine ⟨by simp [reuseParts], ?_, reuseParts_filled _ _ _ _ _, ?_, ?_⟩
  · exact reuseParts_ok _ (by decide) (show Made exCounters (.elem 0) from (show 0 < 2 by decide)) _ _ _ rfl rfl rfl (fun _ h => h) exCounters_good (exCounters_says 0 (by decide)) exCounters_sets
  · refine reuseParts_small _ (by decide) (fun _ _ => by simp) _ _ ?_
    simp [Fields.WF, BVal.WF, NulFree]
  · exact ⟨_, List.mem_cons_self .., by simp⟩

/-- a chunk of a document that is not changed, but another one is -/
example : Parts (fun a _ => a) 2147483648 0 none exCounters
    [⟨[.add 0, .call (.setValue 1 0)], .cons [120] (.int64 5) .nil, [], .cons [120] (.int64 5) .nil, none⟩] := by
  have hs := exCounters_says 0 (by decide)
  have e1 := add_one (fun a _ => a) (n := 2147483648) (max := 0) (md := none) (e := 0) rfl hs (by decide)
  obtain ⟨v, h1, h2⟩ := exCounters_view 0
  refine ⟨⟨_, _, rfl, hs, fun w' c' er h => ?_⟩, fun w' r h => ?_⟩
  · rw [e1] at h
    cases h
    refine ⟨⟨show 1 < 2 by decide, show 0 < 2 by decide⟩, ?_, rfl⟩
    rintro o ⟨t, p, hp, ho⟩ h
    rcases ho with rfl | rfl <;> cases h
  · unfold Shared.run at h
    rw [Proofs.Graph.bind_ok_run e1] at h
    obtain rfl : Call.run exCounters (.setValue 1 0) = w' := (Prod.mk.inj h).1
    exact ⟨⟨0, rfl, says_one (show 0 < 2 by decide) (e := 0) rfl h1 h2 rfl rfl rfl⟩, trivial, trivial⟩

/-- counters -/
example : ∀ p ∈ reuseParts [120] 0 0 5 [(1, 7)], p.late.WF ∧ p.late.metrics.Counters ∧ ∀ f ∈ p.first :: p.rest, p.late.metrics.SameShape f.metrics := by
  simp [reuseParts, Fields.WF, BVal.WF, NulFree, Fields.metrics, BVal.metric, Fields.Counters, BVal.Counters, Fields.SameShape, BVal.SameShape, BVal.tag]

end Birch.Props
