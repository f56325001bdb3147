import Verif.Proofs.FtdcDynamic

/- The dynamic collector that keeps its chunks in memory. -/

namespace Birch.Proofs.Ftdc
open Birch Model Model.Ftdc Spec

theorem flatten_singles {α : Type} : ∀ l : List α, (l.map fun g => [g]).flatten = l
  | [] => rfl
  | g :: l => by simp [flatten_singles l]

theorem batch_one {fsub : Nat → Nat → Nat} {n size : Nat} (hn : 2147483648 ≤ n) (hsz : 1 ≤ size) {d : Doc} {f : Fields} (hr : Run [d] [f]) :
    ∃ b, (Batch.new size).add fsub n d = .ok (⟨size, [b]⟩, none) ∧ Filled fsub n size none [d] b := by
  obtain ⟨b, h1, h2⟩ := run_add (fsub := fsub) (md := none) (max := size) (docs := []) (fss := []) hr (filled_nil fsub n size none) (Nat.zero_le _) hn
  refine ⟨b, ?_, h2⟩
  have hb : (Better.new size).add fsub n d = .ok (b, none) := h1
  have hi : (Better.new size).info.1 = 0 := rfl
  unfold Batch.add Batch.new
  simp only [List.getLast?_singleton, hi]
  rw [if_neg (by omega), hb]
  rfl

theorem md_none {l l' : List (Option Doc)} {x : Option Doc} {k : Nat} (h : ∀ y ∈ l ++ [x], y = none) (e : l' = l ++ x :: List.replicate k none) : ∀ y ∈ l', y = none := by
  subst e
  intro y hy
  simp only [List.mem_append, List.mem_cons, List.mem_replicate] at hy
  rcases hy with hy | rfl | hy
  · exact h y (by simp [hy])
  · exact h y (by simp)
  · exact hy.2

section
variable {fsub : Nat → Nat → Nat} {n size : Nat} (hn : 2147483648 ≤ n) (hsz : 1 ≤ size)

include hn hsz in
theorem dynamic_singles {hash : Bytes} (hh : hash ≠ []) : ∀ (docs : List Doc) (fss : List Fields) {c : Ftdc.Dynamic} {parts : List Part},
    c.maxSamples = size → c.hash = hash → c.chunks ≠ [] → (c.chunks.map Batch.chunks).flatten = parts.map Part.chunk →
    (∀ q ∈ parts, q.Ok fsub n size ∧ q.md = none) → RepDocs docs fss → (∀ f ∈ fss, (encDoc f).length < 2147483648) →
    (∀ f ∈ fss, hashText (f.paths []).flatten ≠ hash) →
    ∃ (c' : Ftdc.Dynamic) (parts' : List Part), addEach (fun c d => c.add fsub n d) c docs = .ok (c', docs.map fun _ => none) ∧
      (c'.chunks.map Batch.chunks).flatten = parts'.map Part.chunk ∧ (∀ q ∈ parts', q.Ok fsub n size ∧ q.md = none) ∧
      parts'.map Part.fss = parts.map Part.fss ++ fss.map (fun f => [f])
  | [], [], c, parts, _, _, _, h4, h5, _, _, _ => ⟨c, parts, rfl, h4, h5, by simp⟩
  | d :: docs, f :: fss, c, parts, h1, h2, h3, h4, h5, h6, h7, h8 => by
    have hkey := metricKeyHash_rep n h6.1 (h7 f (by simp)) (by have := h7 f (by simp); omega)
    have hr : Run [d] [f] := ⟨⟨h6.1, trivial⟩, by simpa using h7 f (by simp), by simpa using shapeF_refl _⟩
    obtain ⟨b, b1, b2⟩ := batch_one (fsub := fsub) hn hsz hr
    obtain ⟨x, hx⟩ : ∃ x, c.chunks.getLast? = some x := by
      cases hx : c.chunks.getLast? with
      | none => exact absurd (List.getLast?_eq_none_iff.mp hx) h3
      | some x => exact ⟨x, rfl⟩
    have hadd : c.add fsub n d = .ok ({ c with chunks := c.chunks ++ [⟨size, [b]⟩] }, none) := by
      unfold Ftdc.Dynamic.add
      rw [hkey]
      have hc : ¬ (c.hash = []) := by rw [h2]; exact hh
      simp only [Res.bind_ok, hc, if_false, hx]
      rw [if_neg (by rw [h2]; exact fun h => h8 f (by simp) h.symm), h1, b1]
      rfl
    obtain ⟨c', parts', r1, r2, r3, r4⟩ := dynamic_singles hh docs fss (c := { c with chunks := c.chunks ++ [⟨size, [b]⟩] })
      (parts := parts ++ [⟨none, [d], [f], b⟩]) h1 h2 (by simp) (by simp [h4])
      (by
        intro q hq
        rcases List.mem_append.mp hq with hq | hq
        · exact h5 q hq
        · simp only [List.mem_singleton] at hq; subst hq
          exact ⟨⟨hr, by simp, b2, by simp, by simp⟩, rfl⟩)
      h6.2 (fun g hg => h7 g (by simp [hg])) (fun g hg => h8 g (by simp [hg]))
    refine ⟨c', parts', ?_, r2, r3, by rw [r4]; simp⟩
    simp only [addEach, hadd, Res.bind_ok, r1, List.map_cons]
  | [], _ :: _, _, _, _, _, _, _, _, h, _, _ => h.elim
  | _ :: _, [], _, _, _, _, _, _, _, h, _, _ => h.elim

include hn hsz in
theorem dynamic_same {hash : Bytes} (hh : hash ≠ []) {all : List Doc} {fall : List Fields} (hall : Run all fall) :
    ∀ (docs : List Doc) (fss : List Fields) {c : Ftdc.Dynamic} {b : Batch} {parts : List Part} {p : Part},
    c.hash = hash → c.maxSamples = size → c.chunks = [b] → BInv fsub n size b parts p → p.fss ≠ [] ∧ (∀ x ∈ parts.map Part.md ++ [p.md], x = none) → (∀ f ∈ p.fss ++ fss, f ∈ fall) → RepDocs docs fss →
    (∀ f ∈ fss, hashText (f.paths []).flatten = hash) →
    ∃ (c' : Ftdc.Dynamic) (b' : Batch) (parts' : List Part) (p' : Part), addEach (fun c d => c.add fsub n d) c docs = .ok (c', docs.map fun _ => none) ∧ c'.hash = hash ∧ c'.maxSamples = size ∧
      c'.chunks = [b'] ∧ BInv fsub n size b' parts' p' ∧ (p'.fss ≠ [] ∧ ∀ x ∈ parts'.map Part.md ++ [p'.md], x = none) ∧
      (parts'.map Part.fss).flatten ++ p'.fss = (parts.map Part.fss).flatten ++ p.fss ++ fss
  | [], [], c, b, parts, p, h1, h2, h3, h4, h5, _, _, _ => ⟨c, b, parts, p, rfl, h1, h2, h3, h4, h5, by simp⟩
  | d :: docs, f :: fss, c, b, parts, p, h1, h2, h3, h4, h5, h6, h7, h8 => by
    have hsz' := hall.size f (h6 f (by simp))
    have hkey := metricKeyHash_rep n h7.1 hsz' (by omega)
    have hr : Run (p.docs ++ [d]) (p.fss ++ [f]) :=
      run_mono hall (repDocs_append _ _ _ _ h4.run.rep ⟨h7.1, trivial⟩) (fun g hg => h6 g (by simp at hg ⊢; grind))
    obtain ⟨b', parts', p', k1, k2, k3, k4, ⟨_, j, k5⟩, k6⟩ := batch_add h4 hn hsz hr
    have k7 : ∀ x ∈ parts'.map Part.md ++ [p'.md], x = none := md_none h5.2 k5
    have hadd : c.add fsub n d = .ok ({ c with chunks := [b'] }, none) := by
      unfold Ftdc.Dynamic.add
      rw [hkey]
      have hc : ¬ (c.hash = []) := by rw [h1]; exact hh
      simp only [Res.bind_ok, hc, if_false, h3, List.getLast?_singleton]
      rw [if_pos (by rw [h1, h8 f (by simp)]), k1]
      rfl
    obtain ⟨c', b'', parts'', p'', r1, r2, r3, r4, r5, r6, r7⟩ := dynamic_same hh hall docs fss (c := { c with chunks := [b'] }) h1 h2 rfl k2 ⟨k3, k7⟩
      (fun g hg => by
        rcases List.mem_append.mp hg with hg | hg
        · have := k4 g hg; exact h6 g (by simp at this ⊢; grind)
        · exact h6 g (by simp [hg])) h7.2 (fun g hg => h8 g (by simp [hg]))
    refine ⟨c', b'', parts'', p'', ?_, r2, r3, r4, r5, r6, by rw [r7, k6]; simp⟩
    simp only [addEach, hadd, Res.bind_ok, r1, List.map_cons]
  | [], _ :: _, _, _, _, _, _, _, _, _, _, _, h, _ => h.elim
  | _ :: _, [], _, _, _, _, _, _, _, _, _, _, h, _ => h.elim

include hn hsz in
/-- first the documents with one set of keys, then documents with other keys -/
theorem dynamic_two {d : Doc} {f : Fields} {pre rest : List Doc} {fpre frest : List Fields} (hpre : RepDocs (d :: pre) (f :: fpre)) (hrest : RepDocs rest frest)
    (hl : ∀ g ∈ f :: fpre ++ frest, (encDoc g).length < 2147483648) (hs : ∀ g ∈ f :: fpre, ∀ k ∈ f :: fpre, g.metrics.SameShape k.metrics)
    (hsame : ∀ g ∈ fpre, hashText (g.paths []).flatten = hashText (f.paths []).flatten)
    (hdiff : ∀ g ∈ frest, hashText (g.paths []).flatten ≠ hashText (f.paths []).flatten) :
    ∃ (c : Ftdc.Dynamic) (parts : List Part) (segs : List (List Fields)), addEach (fun c d => c.add fsub n d) (Ftdc.Dynamic.new size) ((d :: pre) ++ rest) = .ok (c, ((d :: pre) ++ rest).map fun _ => none) ∧
      (c.chunks.map Batch.chunks).flatten = parts.map Part.chunk ∧ (∀ q ∈ parts, q.Ok fsub n size ∧ q.md = none) ∧
      parts.map Part.fss = segs ++ frest.map (fun f => [f]) ∧ segs.flatten = f :: fpre ∧ Blocks size segs := by
  have hrun : Run (d :: pre) (f :: fpre) := ⟨hpre, fun g hg => hl g (by simp at hg ⊢; grind), hs⟩
  have hr1 : Run [d] [f] := run_mono hrun ⟨hpre.1, trivial⟩ (by simp)
  have h0 : BInv fsub n size (Batch.new size) [] ⟨none, [], [], Better.new size⟩ :=
    ⟨rfl, rfl, by simp, run_nil, filled_nil fsub n size none, Nat.zero_le _, nofun⟩
  obtain ⟨b, parts1, p1, a1, a2, a3, a4, ⟨_, j, a5⟩, a6⟩ := batch_add h0 hn hsz (d := d) (f := f) hr1
  have hszf := hl f (by simp)
  have hkey := metricKeyHash_rep n hpre.1 hszf (by omega)
  have hadd : (Ftdc.Dynamic.new size).add fsub n d = .ok (⟨size, [b], hashText (f.paths []).flatten⟩, none) := by
    unfold Ftdc.Dynamic.add Ftdc.Dynamic.new
    rw [hkey]
    simp only [Res.bind_ok, if_true, a1]
  obtain ⟨c1, b', parts2, p2, b1, b2, b3, b4, b5, ⟨b6, b8⟩, b7⟩ := dynamic_same hn hsz (hashText_ne _) hrun pre fpre
    (c := ⟨size, [b], hashText (f.paths []).flatten⟩) rfl rfl rfl a2 ⟨a3, md_none (by simp) a5⟩
    (by intro g hg; rcases List.mem_append.mp hg with hg | hg
        · have := a4 g hg; simp at this; simp [this]
        · simp [hg]) hpre.2 hsame
  have hok : ∀ q ∈ parts2 ++ [p2], q.Ok fsub n size ∧ q.md = none := by
    intro q hq
    refine ⟨?_, b8 q.md (by simp only [List.mem_append, List.mem_singleton, List.mem_map] at hq ⊢; rcases hq with hq | rfl
                            · exact .inl ⟨q, hq, rfl⟩
                            · exact .inr rfl)⟩
    rcases List.mem_append.mp hq with hq | hq
    · exact (b5.done q hq).1
    · simp only [List.mem_singleton] at hq; subst hq
      exact ⟨b5.run, b6, b5.filled, by have := b5.room; omega, b5.md⟩
  obtain ⟨c2, parts3, e1, e2, e3, e4⟩ := dynamic_singles hn hsz (hashText_ne _) rest frest (c := c1) (parts := parts2 ++ [p2]) b3 b2 (by rw [b4]; simp)
    (by rw [b4]; simp [b5.chunks]) hok hrest (fun g hg => hl g (by simp [hg])) hdiff
  refine ⟨c2, parts3, (parts2 ++ [p2]).map Part.fss, ?_, e2, e3, e4, ?_, ?_⟩
  · rw [addEach_append]
    simp only [addEach, hadd, Res.bind_ok, b1, e1, List.map_append, List.map_cons]
  · rw [a6] at b7; simpa using b7
  · rw [List.map_append]
    apply blocks_snoc
    · intro t ht; obtain ⟨q, hq, rfl⟩ := List.mem_map.mp ht; exact (b5.done q hq).2
    · have := List.length_pos_iff.mpr b6; omega
    · exact b5.room
end

/-- keys that change and change back: the third document goes to the chunk of the second -/
theorem dynamic_back {fsub : Nat → Nat → Nat} {n size : Nat} (hn : 2147483648 ≤ n) (hs : 2 ≤ size) {d1 d2 d3 : Doc} {f1 f2 f3 : Fields}
    (h1 : RepFields d1 f1) (h2 : RepFields d2 f2) (h3 : RepFields d3 f3) (l1 : (encDoc f1).length < 2147483648)
    (l2 : (encDoc f2).length < 2147483648) (l3 : (encDoc f3).length < 2147483648)
    (hne : hashText (f2.paths []).flatten ≠ hashText (f1.paths []).flatten) (heq : hashText (f3.paths []).flatten = hashText (f1.paths []).flatten) :
    ∃ b1 b2, Filled fsub n size none [d1] b1 ∧ Filled fsub n size none [d2] b2 ∧ ∀ b3 e, b2.add fsub n d3 = .ok (b3, e) →
      addEach (fun c d => c.add fsub n d) (Ftdc.Dynamic.new size) [d1, d2, d3] =
        .ok (⟨size, [⟨size, [b1]⟩, ⟨size, [b3]⟩], hashText (f1.paths []).flatten⟩, [none, none, e]) := by
  have hr1 : Run [d1] [f1] := ⟨⟨h1, trivial⟩, by simpa using l1, by simpa using shapeF_refl _⟩
  have hr2 : Run [d2] [f2] := ⟨⟨h2, trivial⟩, by simpa using l2, by simpa using shapeF_refl _⟩
  obtain ⟨b1, a1, a2⟩ := batch_one (fsub := fsub) (size := size) hn (by omega) hr1
  obtain ⟨b2, a3, a4⟩ := batch_one (fsub := fsub) (size := size) hn (by omega) hr2
  refine ⟨b1, b2, a2, a4, fun b3 e he => ?_⟩
  have k1 := metricKeyHash_rep n h1 l1 (by omega)
  have k2 := metricKeyHash_rep n h2 l2 (by omega)
  have k3 := metricKeyHash_rep n h3 l3 (by omega)
  have e1 : (Ftdc.Dynamic.new size).add fsub n d1 = .ok (⟨size, [⟨size, [b1]⟩], hashText (f1.paths []).flatten⟩, none) := by
    unfold Ftdc.Dynamic.add Ftdc.Dynamic.new
    rw [k1]
    simp only [Res.bind_ok, if_true, a1]
  have e2 : Ftdc.Dynamic.add fsub n ⟨size, [⟨size, [b1]⟩], hashText (f1.paths []).flatten⟩ d2 =
      .ok (⟨size, [⟨size, [b1]⟩, ⟨size, [b2]⟩], hashText (f1.paths []).flatten⟩, none) := by
    unfold Ftdc.Dynamic.add
    rw [k2]
    have hc : ¬ (hashText (f1.paths []).flatten = []) := hashText_ne _
    simp only [Res.bind_ok, hc, if_false, List.getLast?_singleton]
    rw [if_neg (fun h => hne h.symm), a3]
    rfl
  have hi : b2.info.1 = 1 := filled_info hr2 a4 (by simp) hn
  have hb : Batch.add fsub n ⟨size, [b2]⟩ d3 = .ok (⟨size, [b3]⟩, e) := by
    unfold Batch.add
    simp only [List.getLast?_singleton, hi]
    rw [if_neg (by omega), he]
    rfl
  have e3 : Ftdc.Dynamic.add fsub n ⟨size, [⟨size, [b1]⟩, ⟨size, [b2]⟩], hashText (f1.paths []).flatten⟩ d3 =
      .ok (⟨size, [⟨size, [b1]⟩, ⟨size, [b3]⟩], hashText (f1.paths []).flatten⟩, e) := by
    unfold Ftdc.Dynamic.add
    rw [k3]
    have hc : ¬ (hashText (f1.paths []).flatten = []) := hashText_ne _
    have hlast : ([⟨size, [b1]⟩, ⟨size, [b2]⟩] : List Batch).getLast? = some ⟨size, [b2]⟩ := rfl
    simp only [Res.bind_ok, hc, if_false, hlast]
    rw [if_pos heq.symm, hb]
    rfl
  simp only [addEach, e1, e2, e3, Res.bind_ok]

end Birch.Proofs.Ftdc
