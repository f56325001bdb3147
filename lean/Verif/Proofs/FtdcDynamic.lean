import Verif.Proofs.FtdcHash

/- Invariants of the dynamic collectors. -/

namespace Birch.Proofs.Ftdc
open Birch Model Model.Ftdc Spec

theorem run_one {fss : List Fields} (hl : ∀ fs ∈ fss, (encDoc fs).length < 2147483648) {d : Doc} {f : Fields} (h : RepFields d f)
    (hf : f ∈ fss) : Run [d] [f] :=
  ⟨⟨h, trivial⟩, by simpa using hl f hf, by simpa using shapeF_refl _⟩

theorem renew_ok : ∀ c : Streaming, (renew c).maxSamples = c.maxSamples ∧ (renew c).count = 0 ∧
    (renew c).flushes = c.flushes ∧ (renew c).output = c.output := fun _ => ⟨rfl, rfl, rfl, rfl⟩

section
variable {fsub : Nat → Nat → Nat}
    (hsub : ∀ a b, a < 18446744073709551616 → b < 18446744073709551616 → fsub a b < 18446744073709551616)
    {zip : Bytes → Bytes} {unzip : Bytes → Option Bytes} (hz : ∀ b, unzip (zip b) = some b) {now : Nat → Time} {n max : Nat} (hn : 10000000000 ≤ n)
    (hmax : max < 4294967295)

include hsub hz hn hmax in
theorem sd_flush {c : StreamingDynamic} {parts : List Part} {p : Part} (h : SInv fsub zip now n max c.base parts p) (hne : p.fss ≠ [])
    (hp : ∀ b, Returns p.chunk.payload (.ok b) → (zip b).length ≤ 2147482000) (ha : c.base.output.plan = []) :
    ∃ b, c.flush zip now n = .ok (⟨[], 0, b⟩, none) ∧ SInv fsub zip now n max b (parts ++ [p]) (Part.empty max none) ∧ b.output.plan = [] := by
  obtain ⟨b, e, h1, h2, _, _, h5⟩ := stream_flush hsub hz hn hmax h hne hp (by rw [ha]; simp [AllOrNothing]) renew none (.inr rfl) renew_ok
    (by intro c hc _ _; simp only [renew, Streaming.new, newWith, hc])
  obtain ⟨rfl, h6⟩ := h5 ha
  refine ⟨b, ?_, h2 rfl, h6⟩
  unfold StreamingDynamic.flush
  rw [h1]
  simp only [Res.bind_ok]
  rw [if_pos]
  refine ⟨trivial, ?_⟩
  rw [h.inner, filled_info h.run h.filled h.room (by omega)]
  simpa using hne

include hsub hz hn hmax in
/-- adding to an empty streaming collector -/
theorem sd_first {c : StreamingDynamic} {parts : List Part} {md : Option Doc} (h : SInv fsub zip now n max c.base parts (Part.empty max md))
    (hsm : ∀ b, Returns (Part.empty max md).chunk.payload (.ok b) → (zip b).length ≤ 2147482000) (ha : c.base.output.plan = []) {d : Doc} {f : Fields} (hr : Run [d] [f]) :
    ∃ b p, c.addBase fsub zip now n d = .ok ({ c with base := b }, none) ∧ SInv fsub zip now n max b parts p ∧ p.md = md ∧ p.docs = [d] ∧ p.fss = [f] ∧
      b.output.plan = [] := by
  obtain ⟨b, e, h1, _, h3, _, h5⟩ := stream_add hsub hz hn hmax h hsm (by rw [ha]; simp [AllOrNothing]) (d := d) (f := f) hr
  obtain ⟨rfl, h6⟩ := h3 ha
  obtain ⟨p, h7, h8⟩ := h5 rfl
  refine ⟨b, p, ?_, ?_⟩
  · unfold StreamingDynamic.addBase; rw [h1]; rfl
  · rcases h8 with ⟨h8, _⟩ | ⟨h8, h9, h10⟩
    · simp [Part.empty] at h8
    · exact ⟨h8, h7, h9, h10, h6⟩

theorem empty_small {md : Option Doc} : ∀ b, Returns (Part.empty max md).chunk.payload (.ok b) → (zip b).length ≤ 2147482000 := by
  intro b ⟨N, hb⟩
  have := hb N (Nat.le_refl _)
  cases md <;> simp [Part.empty, newWith, Better.new, Better.setMetadata, Better.payload] at this

include hsub hz hn hmax in
/-- after a change of the keys every document gets its own chunk -/
theorem sd_singles {all : List Doc} {fall : List Fields} (hl : ∀ fs ∈ fall, (encDoc fs).length < 2147483648) (hsm : ∀ md, SmallChunks fsub zip max md all) :
    ∀ (docs : List Doc) (fss : List Fields) {c : StreamingDynamic} {parts : List Part} {p : Part}, SInv fsub zip now n max c.base parts p → p.fss ≠ [] →
    c.hash = [] → c.base.output.plan = [] → (p.docs ++ docs).Sublist all → (∀ f ∈ fss, f ∈ fall) → RepDocs docs fss →
    ∃ c' parts' p', addEach (fun c d => c.add fsub zip now n d) c docs = .ok (c', docs.map fun _ => none) ∧ SInv fsub zip now n max c'.base parts' p' ∧
      p'.fss ≠ [] ∧ c'.base.output.plan = [] ∧ p'.docs.Sublist all ∧
      (parts' ++ [p']).map Part.fss = (parts ++ [p]).map Part.fss ++ fss.map (fun f => [f])
  | [], [], c, parts, p, h, h1, _, h3, h4, _, _ => ⟨c, parts, p, rfl, h, h1, h3, by simpa using h4, by simp⟩
  | d :: docs, f :: fss, c, parts, p, h, h1, h2, h3, h4, h5, h6 => by
    have hps : p.docs.Sublist all := (List.sublist_append_left _ _).trans h4
    have hcount : c.base.count > 0 := by rw [h.count]; exact List.length_pos_iff.mpr h1
    have hsz := hl f (h5 f (by simp))
    have hkey := metricKeyHash_rep n h6.1 hsz (by omega)
    have hflush := sd_flush hsub hz hn hmax (c := { c with hash := hashText (f.paths []).flatten, metricCount := f.kinds.length }) h h1
      (hsm _ p.docs n p.chunk _ hps (by omega) h.filled) h3
    obtain ⟨b, g1, g2, g3⟩ := hflush
    obtain ⟨b', p', k1, k2, k3, k4, k5, k6⟩ := sd_first hsub hz hn hmax (c := ⟨[], 0, b⟩) g2 empty_small g3 (run_one hl h6.1 (h5 f (by simp)))
    obtain ⟨c', parts', q, r1, r2, r3, r4, r5, r6⟩ := sd_singles hl hsm docs fss (c := ⟨[], 0, b'⟩) k2 (by rw [k5]; simp) rfl k6
      (by rw [k4]; exact (List.sublist_append_right _ _).trans h4) (fun g hg => h5 g (by simp [hg])) h6.2
    refine ⟨c', parts', q, ?_, r2, r3, r4, r5, ?_⟩
    · have hadd : c.add fsub zip now n d = .ok (⟨[], 0, b'⟩, none) := by
        unfold StreamingDynamic.add
        rw [hkey]
        simp only [Res.bind_ok, h2, if_true]
        rw [if_pos hcount, g1]
        exact k1
      simp only [addEach, hadd, Res.bind_ok, r1, List.map_cons]
    · rw [r6]; simp [k5]
  | [], _ :: _, _, _, _, _, _, _, _, _, _, h => h.elim
  | _ :: _, [], _, _, _, _, _, _, _, _, _, h => h.elim

include hsub hz hn hmax in
theorem sd_same {all : List Doc} {fall : List Fields} (hl : ∀ fs ∈ fall, (encDoc fs).length < 2147483648) (hsm : ∀ md, SmallChunks fsub zip max md all)
    {hash : Bytes} {num : Nat} (hh : hash ≠ [])
    (hcol : ∀ f ∈ fall, ∀ g ∈ fall, hashText (f.paths []).flatten = hashText (g.paths []).flatten → f.kinds.length = g.kinds.length → f.metrics.SameShape g.metrics) :
    ∀ (docs : List Doc) (fss : List Fields) {c : StreamingDynamic} {parts : List Part} {p : Part}, SInv fsub zip now n max c.base parts p → p.fss ≠ [] →
    c.hash = hash → c.metricCount = num → c.base.output.plan = [] → (p.docs ++ docs).Sublist all → (∀ f ∈ fss, f ∈ fall) → RepDocs docs fss →
    (∀ q ∈ parts, q.fss.length = max + 1) → (∀ f ∈ p.fss, f ∈ fall ∧ hashText (f.paths []).flatten = hash ∧ f.kinds.length = num) →
    ∃ c' parts' p' segs pre rest, addEach (fun c d => c.add fsub zip now n d) c docs = .ok (c', docs.map fun _ => none) ∧
      SInv fsub zip now n max c'.base parts' p' ∧ p'.fss ≠ [] ∧ c'.base.output.plan = [] ∧ p'.docs.Sublist all ∧
      (parts' ++ [p']).map Part.fss = segs ++ rest.map (fun f => [f]) ∧ segs.flatten = (parts.map Part.fss).flatten ++ p.fss ++ pre ∧
      Blocks (max + 1) segs ∧ fss = pre ++ rest ∧ (∀ f ∈ pre, hashText (f.paths []).flatten = hash ∧ f.kinds.length = num) ∧
      (∀ f, rest.head? = some f → ¬ (hashText (f.paths []).flatten = hash ∧ f.kinds.length = num))
  | [], [], c, parts, p, h, h1, _, _, h3, h4, _, _, h7, _ =>
    ⟨c, parts, p, (parts ++ [p]).map Part.fss, [], [], rfl, h, h1, h3, by simpa using h4, by simp, by simp, by
      rw [List.map_append]
      apply blocks_snoc
      · intro t ht; obtain ⟨q, hq, rfl⟩ := List.mem_map.mp ht; exact h7 q hq
      · have := List.length_pos_iff.mpr h1; omega
      · exact h.room, rfl, by simp, by simp⟩
  | d :: docs, f :: fss, c, parts, p, h, h1, h2, h2', h3, h4, h5, h6, h7, h8 => by
    have hps : p.docs.Sublist all := (List.sublist_append_left _ _).trans h4
    have hsz := hl f (h5 f (by simp))
    have hkey := metricKeyHash_rep n h6.1 hsz (by omega)
    have hsp := hsm _ p.docs n p.chunk _ hps (by omega) h.filled
    by_cases hsame : hashText (f.paths []).flatten = hash ∧ f.kinds.length = num
    · have hrun : Run (p.docs ++ [d]) (p.fss ++ [f]) := by
        refine ⟨repDocs_append _ _ _ _ h.run.rep ⟨h6.1, trivial⟩, ?_, ?_⟩
        · intro g hg; rcases List.mem_append.mp hg with hg | hg
          · exact h.run.size g hg
          · simp only [List.mem_singleton] at hg; subst hg; exact hsz
        · have hall : ∀ g ∈ p.fss ++ [f], g ∈ fall ∧ hashText (g.paths []).flatten = hash ∧ g.kinds.length = num := by
            intro g hg; rcases List.mem_append.mp hg with hg | hg
            · exact h8 g hg
            · simp only [List.mem_singleton] at hg; subst hg; exact ⟨h5 _ (by simp), hsame⟩
          intro g hg k hk
          exact hcol g (hall g hg).1 k (hall k hk).1 ((hall g hg).2.1.trans (hall k hk).2.1.symm) ((hall g hg).2.2.trans (hall k hk).2.2.symm)
      obtain ⟨b, e, a1, _, a3, _, a5⟩ := stream_add hsub hz hn hmax h hsp (by rw [h3]; simp [AllOrNothing]) hrun
      obtain ⟨rfl, a6⟩ := a3 h3
      obtain ⟨p1, b1, b2⟩ := a5 rfl
      have hadd : c.add fsub zip now n d = .ok ({ c with base := b }, none) := by
        unfold StreamingDynamic.add
        rw [hkey]
        have hc : ¬ (c.hash = []) := by rw [h2]; exact hh
        simp only [Res.bind_ok, hc, if_false]
        rw [if_neg (by rw [h2, h2', hsame.1, hsame.2]; simp)]
        unfold StreamingDynamic.addBase
        rw [a1]; rfl
      rcases b2 with ⟨b2, b3, b4, b5⟩ | ⟨b3, b4, b5⟩
      · obtain ⟨c', parts', p', segs, pre, rest, r1, r2, r3, r4, r5, r6, r7, r8, r9, r10, r11⟩ := sd_same hl hsm hh hcol docs fss (c := { c with base := b }) b3
          (by rw [b5]; simp) h2 h2' a6 (by rw [b4]; exact (List.sublist_append_right _ _).trans h4) (fun g hg => h5 g (by simp [hg])) h6.2
          (by
            intro q hq
            rcases List.mem_append.mp hq with hq | hq
            · exact h7 q hq
            · simp only [List.mem_singleton] at hq; subst hq; exact b2)
          (by rw [b5]; intro g hg; simp only [List.mem_singleton] at hg; subst hg; exact ⟨h5 _ (by simp), hsame⟩)
        refine ⟨c', parts', p', segs, f :: pre, rest, ?_, r2, r3, r4, r5, r6, by rw [r7, b5]; simp, r8, by rw [r9]; simp, ?_, r11⟩
        · simp only [addEach, hadd, Res.bind_ok, r1, List.map_cons]
        · intro g hg; rcases List.mem_cons.mp hg with rfl | hg
          · exact hsame
          · exact r10 g hg
      · obtain ⟨c', parts', p', segs, pre, rest, r1, r2, r3, r4, r5, r6, r7, r8, r9, r10, r11⟩ := sd_same hl hsm hh hcol docs fss (c := { c with base := b }) b3
          (by rw [b5]; simp) h2 h2' a6 (by rw [b4]; simpa using h4) (fun g hg => h5 g (by simp [hg])) h6.2 h7
          (by
            rw [b5]; intro g hg; rcases List.mem_append.mp hg with hg | hg
            · exact h8 g hg
            · simp only [List.mem_singleton] at hg; subst hg; exact ⟨h5 _ (by simp), hsame⟩)
        refine ⟨c', parts', p', segs, f :: pre, rest, ?_, r2, r3, r4, r5, r6, by rw [r7, b5]; simp, r8, by rw [r9]; simp, ?_, r11⟩
        · simp only [addEach, hadd, Res.bind_ok, r1, List.map_cons]
        · intro g hg; rcases List.mem_cons.mp hg with rfl | hg
          · exact hsame
          · exact r10 g hg
    · obtain ⟨b, g1, g2, g3⟩ := sd_flush hsub hz hn hmax (c := c) h h1 hsp h3
      obtain ⟨b', p', k1, k2, k3, k4, k5, k6⟩ := sd_first hsub hz hn hmax (c := ⟨[], 0, b⟩) g2 empty_small g3 (run_one hl h6.1 (h5 f (by simp)))
      obtain ⟨c', parts', q, r1, r2, r3, r4, r5, r6⟩ := sd_singles hsub hz hn hmax hl hsm docs fss (c := ⟨[], 0, b'⟩) k2 (by rw [k5]; simp) rfl k6
        (by rw [k4]; exact (List.sublist_append_right _ _).trans h4) (fun g hg => h5 g (by simp [hg])) h6.2
      have hadd : c.add fsub zip now n d = .ok (⟨[], 0, b'⟩, none) := by
        unfold StreamingDynamic.add
        rw [hkey]
        have hc : ¬ (c.hash = []) := by rw [h2]; exact hh
        simp only [Res.bind_ok, hc, if_false]
        rw [if_pos (by rw [h2, h2']; by_cases hx : hash = hashText (f.paths []).flatten <;> grind), g1]
        exact k1
      refine ⟨c', parts', q, (parts ++ [p]).map Part.fss, [], f :: fss, ?_, r2, r3, r4, r5, ?_, by simp, ?_, rfl, by simp, ?_⟩
      · simp only [addEach, hadd, Res.bind_ok, r1, List.map_cons]
      · rw [r6]; simp [k5]
      · rw [List.map_append]
        apply blocks_snoc
        · intro t ht; obtain ⟨q, hq, rfl⟩ := List.mem_map.mp ht; exact h7 q hq
        · have := List.length_pos_iff.mpr h1; omega
        · exact h.room
      · intro g hg; simp only [List.head?_cons, Option.some.injEq] at hg; subst hg; exact hsame
  | [], _ :: _, _, _, _, _, _, _, _, _, _, _, h, _, _ => h.elim
  | _ :: _, [], _, _, _, _, _, _, _, _, _, _, h, _, _ => h.elim
end

end Birch.Proofs.Ftdc
