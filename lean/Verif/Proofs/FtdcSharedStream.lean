import Verif.Proofs.FtdcMoved
import Verif.Model.FtdcSharedStream
import Verif.Spec.FtdcSharedStream

/- Streaming collectors on shared documents. -/

namespace Birch.Proofs.Shared
open Birch Model Model.Graph Model.Shared Spec Spec.Graph Spec.Shared Proofs.Graph

/-- the number of documents a program adds -/
def addCount : List Step → Nat
  | [] => 0
  | .call _ :: rest => addCount rest
  | .add _ :: rest => addCount rest + 1

variable {fsub : Nat → Nat → Nat} {zip : Bytes → Bytes} {now : Nat → Time} {n m : Nat}

theorem push_run {c : Streaming} {d : Nat} {w w' : World} {s : Collector} (h : c.inner.add fsub n d w = (w', .ok (s, none))) :
    c.push fsub n d w = (w', .ok ({ c with inner := s, count := c.count + 1 }, none)) := by
  unfold Streaming.push
  rw [bind_ok_run h]
  rfl

theorem add_room {c : Streaming} {d : Nat} (h : c.count ≤ c.maxSamples) : c.add fsub zip now n m d = c.push fsub n d := by
  unfold Streaming.add
  rw [if_neg (by omega)]

theorem run_add {s : Collector} {d : Nat} {rest : List Step} {w w' : World} {s' : Collector} {es : List (Option Err)}
    (h : Shared.run fsub n s (.add d :: rest) w = (w', .ok (s', es))) :
    ∃ w1 s1 e es', s.add fsub n d w = (w1, .ok (s1, e)) ∧ Shared.run fsub n s1 rest w1 = (w', .ok (s', es')) ∧ es = e :: es' := by
  unfold Shared.run at h
  rw [bind_run] at h
  cases hx : s.add fsub n d w with
  | mk w1 r =>
    rw [hx] at h
    cases r with
    | err e => cases (Prod.mk.inj h).2
    | panic => cases (Prod.mk.inj h).2
    | oof => cases (Prod.mk.inj h).2
    | ok z =>
      obtain ⟨s1, e⟩ := z
      simp only at h
      rw [bind_run] at h
      cases hy : Shared.run fsub n s1 rest w1 with
      | mk w2 r2 =>
        rw [hy] at h
        cases r2 with
        | err e => cases (Prod.mk.inj h).2
        | panic => cases (Prod.mk.inj h).2
        | oof => cases (Prod.mk.inj h).2
        | ok z2 =>
          obtain ⟨s2, es2⟩ := z2
          have h : (w2, (Res.ok (s2, e :: es2) : Res _)) = (w', .ok (s', es)) := h
          cases h
          exact ⟨w1, s1, e, es2, rfl, hy, rfl⟩

/-- a streaming collector with room does what the collector inside does -/
theorem stream_room : ∀ (steps : List Step) (c : Streaming) (w w' : World) (s' : Collector) (es : List (Option Err)),
    c.count + addCount steps ≤ c.maxSamples + 1 → (∀ e ∈ es, e = none) → Shared.run fsub n c.inner steps w = (w', .ok (s', es)) →
    runStream fsub zip now n m c steps w = (w', .ok ({ c with inner := s', count := c.count + addCount steps }, es))
  | [], c, w, w', s', es, _, _, h => by
    have h : (w, (Res.ok (c.inner, []) : Res _)) = (w', .ok (s', es)) := h
    cases h
    rfl
  | .call k :: rest, c, w, w', s', es, hc, he, h => stream_room rest c (k.run w) w' s' es hc he h
  | .add d :: rest, c, w, w', s', es, hc, he, h => by
    obtain ⟨w1, s1, e, es', h1, h2, rfl⟩ := run_add h
    obtain rfl := he e (by simp)
    simp only [addCount] at hc
    have := stream_room rest { c with inner := s1, count := c.count + 1 } w1 w' s' es' (by simp only; omega) (fun e h => he e (by simp [h])) h2
    unfold runStream
    rw [bind_ok_run (by rw [add_room (by omega)]; exact push_run h1)]
    simp only
    rw [bind_ok_run this]
    simp only [addCount, Nat.add_assoc, Nat.add_comm 1]
    rfl

theorem stream_append : ∀ (a b : List Step) (c c1 : Streaming) (w w1 : World) (es : List (Option Err)),
    runStream fsub zip now n m c a w = (w1, .ok (c1, es)) → ∀ (w2 : World) (c2 : Streaming) (es2 : List (Option Err)),
    runStream fsub zip now n m c1 b w1 = (w2, .ok (c2, es2)) → runStream fsub zip now n m c (a ++ b) w = (w2, .ok (c2, es ++ es2))
  | [], b, c, c1, w, w1, es, h, w2, c2, es2, h2 => by
    have h : (w, (Res.ok (c, []) : Res _)) = (w1, .ok (c1, es)) := h
    cases h
    exact h2
  | .call k :: a, b, c, c1, w, w1, es, h, w2, c2, es2, h2 => stream_append a b c c1 (k.run w) w1 es h w2 c2 es2 h2
  | .add d :: a, b, c, c1, w, w1, es, h, w2, c2, es2, h2 => by
    unfold runStream at h
    rw [bind_run] at h
    cases hx : c.add fsub zip now n m d w with
    | mk w3 r =>
      rw [hx] at h
      cases r with
      | err e => cases (Prod.mk.inj h).2
      | panic => cases (Prod.mk.inj h).2
      | oof => cases (Prod.mk.inj h).2
      | ok z =>
        obtain ⟨c3, e⟩ := z
        simp only at h
        rw [bind_run] at h
        cases hy : runStream fsub zip now n m c3 a w3 with
        | mk w4 r2 =>
          rw [hy] at h
          cases r2 with
          | err e => cases (Prod.mk.inj h).2
          | panic => cases (Prod.mk.inj h).2
          | oof => cases (Prod.mk.inj h).2
          | ok z2 =>
            obtain ⟨c4, es4⟩ := z2
            have h : (w4, (Res.ok (c4, e :: es4) : Res _)) = (w1, .ok (c1, es)) := h
            cases h
            have := stream_append a b c3 _ w3 _ es4 hy w2 c2 es2 h2
            rw [List.cons_append]
            unfold runStream
            rw [bind_ok_run hx]
            simp only
            rw [bind_ok_run this]
            rfl

/-- a streaming collector without samples -/
def fresh (out : Bytes) (max : Nat) (md : Option Nat) (j : Nat) : Streaming := ⟨⟨out, []⟩, max, 0, Collector.new max md, j⟩

/-- the next `Add` of a full collector first flushes it -/
theorem add_full {c c' : Streaming} {d : Nat} {w : World} (h : c.count = c.maxSamples + 1) (hf : c.flush zip now m w = (w, .ok (c', none))) (h' : c'.count ≤ c'.maxSamples) :
    c.add fsub zip now n m d w = c'.add fsub zip now n m d w := by
  rw [add_room h']
  unfold Streaming.add
  rw [if_pos (by omega), bind_ok_run hf]

theorem stream_full {c c' : Streaming} {d : Nat} {rest : List Step} {w : World} (h : c.count = c.maxSamples + 1) (hf : c.flush zip now m w = (w, .ok (c', none)))
    (h' : c'.count ≤ c'.maxSamples) : runStream fsub zip now n m c (.add d :: rest) w = runStream fsub zip now n m c' (.add d :: rest) w := by
  unfold runStream
  rw [bind_run, bind_run, add_full h hf h']

theorem addCount_adds {fsub : Nat → Nat → Nat} {n : Nat} : ∀ (steps : List Step) (w w' : World) (s s' : Collector) (es : List (Option Err)),
    Shared.run fsub n s steps w = (w', .ok (s', es)) → es.length = addCount steps
  | [], w, w', s, s', es, h => by
    have h : (w, (Res.ok (s, []) : Res _)) = (w', .ok (s', es)) := h
    cases h; rfl
  | .call k :: rest, w, w', s, s', es, h => addCount_adds rest (k.run w) w' s s' es h
  | .add d :: rest, w, w', s, s', es, h => by
    obtain ⟨w1, s1, e, es', _, h2, rfl⟩ := run_add h
    simp [addCount, addCount_adds rest w1 w' s1 s' es' h2]

/-- one part: the collector takes everything, and a flush then writes the chunk and leaves the collector without samples -/
theorem part_ok (hsub : ∀ a b, a < 18446744073709551616 → b < 18446744073709551616 → fsub a b < 18446744073709551616) {w : World} (g : Spec.Graph.Good w) (hn : 2147483648 ≤ n)
    {md : Option Nat} {max : Nat} {p : Part} {ps : List Part} (hp : Parts fsub n max md w (p :: ps)) (hmax : p.rest.length ≤ max) (hs : p.Small fsub zip) (j : Nat)
    (hnow : 0 ≤ (now j).nsec) :
    ∃ w' s N, Spec.Graph.Good w' ∧ Parts fsub n max md w' ps ∧ ∀ m, N ≤ m → ∀ out,
      runStream fsub zip now n m (fresh out max md j) p.steps w = (w', .ok (⟨⟨out, []⟩, max, p.rest.length + 1, s, j⟩, (p.first :: p.rest).map fun _ => none)) ∧
      Streaming.flush zip now m ⟨⟨out, []⟩, max, p.rest.length + 1, s, j⟩ w' =
        (w', .ok (fresh (out ++ layoutOn fsub zip (i64 ((now j).sec * 1000 + (now j).nsec / 1000000)) p.md p.late p.first p.rest) max md (j + 1), none)) := by
  obtain ⟨ha, hx⟩ := hp
  obtain ⟨w', s, b, d0, h1, g', sim, st, e1, e2, wf, _⟩ := run_ok (mfs := .nil) (by decide) hn (fun _ _ _ h => h) p.steps w _ (Ftdc.Better.new max) none [] _ g ha
    ⟨rfl, rfl, nofun, rfl, rfl, rfl⟩ (Proofs.Ftdc.state_new fsub max) (by simpa using hs.docs) (by simpa using hs.shape) (by simpa using hmax)
  simp only [List.nil_append] at st
  obtain ⟨⟨r, hr, hg⟩, hm, hps⟩ := hx w' _ h1
  have href : s.reference = some r := by rw [e2, hr]; rfl
  obtain ⟨N, hN⟩ := resolve_shared hsub sim st wf href hg (by rw [e1]; exact hm) hs.md (hs.docs p.first (by simp)) hs.late hs.count hs.payload (now := now j) hnow
  refine ⟨w', s, N, g', hps, fun m hm out => ⟨?_, ?_⟩⟩
  · have hlen := addCount_adds p.steps w w' _ s _ h1
    simp only [List.length_map, List.length_cons] at hlen
    have := stream_room (zip := zip) (now := now) (m := m) p.steps (fresh out max md j) w w' s ((p.first :: p.rest).map fun _ => none) (by simp only [fresh]; omega) (by simp) h1
    rw [this]
    simp only [fresh, ← hlen, Nat.zero_add]
  · unfold Streaming.flush
    rw [if_neg (by simp only [Collector.samples, href, Option.isSome_some, if_true]; omega)]
    have hN : s.resolve zip (now j) w' m = _ := hN m hm
    simp only [hN, Ftdc.Sink.write, ne_eq, not_true, if_false]
    simp only [Streaming.reset, Collector.reset, fresh, Collector.new, e1, sim.max, st.1]

/-- all parts, and a flush at the end -/
theorem parts_ok (hsub : ∀ a b, a < 18446744073709551616 → b < 18446744073709551616 → fsub a b < 18446744073709551616) (hn : 2147483648 ≤ n)
    {md : Option Nat} {max : Nat} (hnow : ∀ j, 0 ≤ (now j).nsec) : ∀ (p : Part) (ps : List Part) (w : World) (j : Nat), Spec.Graph.Good w → Parts fsub n max md w (p :: ps) →
    Filled max (p :: ps) → (∀ q ∈ p :: ps, q.Small fsub zip) → ∃ w' N, ∀ m, N ≤ m → ∀ out, ∃ c,
      runStream fsub zip now n m (fresh out max md j) ((p :: ps).flatMap Part.steps) w = (w', .ok (c, ((p :: ps).flatMap fun q => q.first :: q.rest).map fun _ => none)) ∧
      Streaming.flush zip now m c w' =
        (w', .ok (fresh (out ++ fileOn fsub zip (fun i => i64 ((now i).sec * 1000 + (now i).nsec / 1000000)) j (p :: ps)) max md (j + (p :: ps).length), none))
  | p, [], w, j, g, hp, hf, hs => by
    obtain ⟨w', s, N, _, _, h⟩ := part_ok hsub g hn hp hf (hs p (by simp)) j (hnow j)
    refine ⟨w', N, fun m hm out => ⟨⟨⟨out, []⟩, max, p.rest.length + 1, s, j⟩, ?_, ?_⟩⟩
    · simpa using (h m hm out).1
    · simpa [fileOn] using (h m hm out).2
  | p, q :: ps, w, j, g, hp, hf, hs => by
    obtain ⟨w1, s, N, g1, hp1, h⟩ := part_ok hsub g hn hp (by rw [hf.1]; exact Nat.le_refl _) (hs p (by simp)) j (hnow j)
    obtain ⟨w', N', h'⟩ := parts_ok hsub hn hnow q ps w1 (j + 1) g1 hp1 hf.2.2 (fun r hr => hs r (by simp [hr]))
    refine ⟨w', Nat.max N N', fun m hm out => ?_⟩
    obtain ⟨a1, a2⟩ := h m (Nat.le_trans (Nat.le_max_left _ _) hm) out
    obtain ⟨c, b1, b2⟩ := h' m (Nat.le_trans (Nat.le_max_right _ _) hm) (out ++ layoutOn fsub zip (i64 ((now j).sec * 1000 + (now j).nsec / 1000000)) p.md p.late p.first p.rest)
    refine ⟨c, ?_, ?_⟩
    · obtain ⟨d, more, hq⟩ := hf.2.1
      have hd : (q :: ps).flatMap Part.steps = .add d :: (more ++ ps.flatMap Part.steps) := by rw [List.flatMap_cons, hq, List.cons_append]
      rw [hd] at b1
      rw [← stream_full (c := ⟨⟨out, []⟩, max, p.rest.length + 1, s, j⟩) (by simp only [hf.1]) a2 (Nat.zero_le _)] at b1
      rw [List.flatMap_cons, hd, List.flatMap_cons, List.map_append]
      exact stream_append _ _ _ _ _ _ _ a1 _ _ _ b1
    · rw [b2]
      simp only [fileOn, List.append_assoc, List.length_cons]
      congr 4
      omega

end Birch.Proofs.Shared
