import Verif.Proofs.FtdcHistory
import Verif.Model.FtdcCollectors

/- Runs of samples that fill one base collector each, as the composed collectors make them. -/

namespace Birch.Proofs.Ftdc
open Birch Model Model.Ftdc Spec

/-- documents of one shape -/
structure Run (docs : List Doc) (fss : List Fields) : Prop where
  rep : RepDocs docs fss
  size : ∀ fs ∈ fss, (encDoc fs).length < 2147483648
  shape : ∀ f ∈ fss, ∀ g ∈ fss, f.metrics.SameShape g.metrics

/-- the collector got exactly these documents -/
def Filled (fsub : Nat → Nat → Nat) (n max : Nat) (md : Option Doc) (docs : List Doc) (c : Better) : Prop :=
  (newWith max md).addAll fsub n docs = .ok (c, docs.map fun _ => none)

theorem filled_nil (fsub : Nat → Nat → Nat) (n max : Nat) (md : Option Doc) : Filled fsub n max md [] (newWith max md) := rfl

theorem addAll_append (fsub : Nat → Nat → Nat) (n : Nat) (b : List Doc) : ∀ (a : List Doc) (c : Better),
    c.addAll fsub n (a ++ b) = (do let (c, es) ← c.addAll fsub n a; let (c, fs) ← c.addAll fsub n b; .ok (c, es ++ fs))
  | [], c => by
    simp only [List.nil_append, Better.addAll, Res.bind_ok]
    cases h : c.addAll fsub n b <;> simp
  | d :: a, c => by
    simp only [List.cons_append, Better.addAll]
    cases h : c.add fsub n d with
    | ok r =>
      simp only [Res.bind_ok]
      rw [addAll_append fsub n b a]
      cases h : r.1.addAll fsub n a with
      | ok q =>
        simp only [Res.bind_ok]
        cases h : q.1.addAll fsub n b <;> simp
      | _ => simp
    | _ => simp

theorem run_filled {fsub : Nat → Nat → Nat} {n max : Nat} {md : Option Doc} {docs : List Doc} {fss : List Fields} (h : Run docs fss)
    (hm : fss.length ≤ max + 1) (hn : 2147483648 ≤ n) : ∃ c, Filled fsub n max md docs c := by
  obtain ⟨c, es, d0, h1, h2, h3, _, h4⟩ := collect_ok (fuel := n) docs fss
    (by cases md <;> exact ⟨rfl, rfl, rfl, rfl, rfl⟩ : State fsub max md (newWith max md) none []) h.rep
    (fun fs hfs => ⟨h.size fs hfs, by have := h.size fs hfs; omega⟩)
  rw [collect_all fss [] (by simpa using fun f hf g hg => kinds_shape (h.shape f hf g hg)) (by simpa using hm)] at h2 h3
  refine ⟨c, ?_⟩
  unfold Filled
  rw [h1, isNone_all h2, List.map_const', List.map_const', repDocs_len docs fss h.rep]

theorem filled_state {fsub : Nat → Nat → Nat} {n max : Nat} {md : Option Doc} {docs : List Doc} {fss : List Fields} {c : Better} (h : Run docs fss)
    (hf : Filled fsub n max md docs c) (hm : fss.length ≤ max + 1) (hn : 2147483648 ≤ n) : State fsub max md c docs.head? fss := by
  obtain ⟨c', es, d0, h1, h2, h3, _, h4⟩ := collect_ok (fuel := n) docs fss
    (by cases md <;> exact ⟨rfl, rfl, rfl, rfl, rfl⟩ : State fsub max md (newWith max md) none []) h.rep
    (fun fs hfs => ⟨h.size fs hfs, by have := h.size fs hfs; omega⟩)
  rw [collect_all fss [] (by simpa using fun f hf g hg => kinds_shape (h.shape f hf g hg)) (by simpa using hm)] at h2 h3
  unfold Filled at hf
  rw [hf] at h1
  cases h1
  rw [h4 rfl] at h3
  exact h3

theorem filled_info {fsub : Nat → Nat → Nat} {n max : Nat} {md : Option Doc} {docs : List Doc} {fss : List Fields} {c : Better} (h : Run docs fss)
    (hf : Filled fsub n max md docs c) (hm : fss.length ≤ max + 1) (hn : 2147483648 ≤ n) : c.info.1 = fss.length := by
  rw [info_state (filled_state h hf hm hn)]

theorem filled_info_metrics {fsub : Nat → Nat → Nat} {n max : Nat} {md : Option Doc} {docs : List Doc} {fss : List Fields} {c : Better} (h : Run docs fss)
    (hf : Filled fsub n max md docs c) (hm : fss.length ≤ max + 1) (hn : 2147483648 ≤ n) {ks : List UInt8} (hne : fss ≠ []) (hk : ∀ g ∈ fss, g.kinds = ks) :
    c.info = (fss.length, ks.length) := by
  rw [info_state (filled_state h hf hm hn)]
  cases fss with
  | nil => exact absurd rfl hne
  | cons f r => rw [← hk f (List.mem_cons_self ..)]

theorem repDocs_append : ∀ (a : List Doc) (fa : List Fields) (b : List Doc) (fb : List Fields), RepDocs a fa → RepDocs b fb → RepDocs (a ++ b) (fa ++ fb)
  | [], [], _, _, _, h => h
  | _ :: a, _ :: fa, b, fb, h, h' => ⟨h.1, repDocs_append a fa b fb h.2 h'⟩
  | [], _ :: _, _, _, h, _ => h.elim
  | _ :: _, [], _, _, h, _ => h.elim

/-- one more document -/
theorem run_add {fsub : Nat → Nat → Nat} {n max : Nat} {md : Option Doc} {docs : List Doc} {fss : List Fields} {c : Better} {d : Doc} {f : Fields}
    (h : Run (docs ++ [d]) (fss ++ [f])) (hf : Filled fsub n max md docs c) (hm : fss.length ≤ max) (hn : 2147483648 ≤ n) :
    ∃ c', c.add fsub n d = .ok (c', none) ∧ Filled fsub n max md (docs ++ [d]) c' := by
  obtain ⟨c', h'⟩ := run_filled (fsub := fsub) (md := md) (max := max) h (by simp; omega) hn
  refine ⟨c', ?_, h'⟩
  unfold Filled at hf h'
  rw [addAll_append, hf] at h'
  simp only [Res.bind_ok, Better.addAll] at h'
  cases ha : c.add fsub n d with
  | ok r =>
    obtain ⟨c1, e⟩ := r
    simp only [ha, Res.bind_ok, Res.ok.injEq, Prod.mk.injEq, List.map_append, List.map_cons, List.map_nil, List.append_cancel_left_eq, List.cons.injEq, and_true] at h'
    rw [h'.1, h'.2]
  | err e => simp [ha] at h'
  | panic => simp [ha] at h'
  | oof => simp [ha] at h'

/-- what `Resolve` of a filled collector writes -/
theorem run_yields {fsub : Nat → Nat → Nat}
    (hsub : ∀ a b, a < 18446744073709551616 → b < 18446744073709551616 → fsub a b < 18446744073709551616)
    {zip : Bytes → Bytes} {unzip : Bytes → Option Bytes} (hz : ∀ b, unzip (zip b) = some b) {n max : Nat} {md : Option Doc} {docs : List Doc}
    {fss : List Fields} {c : Better} (h : Run docs fss) (hne : fss ≠ []) (hf : Filled fsub n max md docs c) (hm : fss.length ≤ max + 1)
    (hn : 2147483648 ≤ n) (h32 : fss.length < 4294967296)
    (hmd : ∀ m, md = some m → ∃ mfs, RepFields m mfs ∧ (encDoc mfs).length ≤ 2147483000)
    (hp : ∀ p, Returns c.payload (.ok p) → (zip p).length ≤ 2147482000) (now : Time) :
    ∃ gss : List (Fields × List Fields), (∀ g ∈ gss, g.1.WF ∧ (encDoc g.1).length < 2147483648) ∧
      (gss.map Prod.snd).flatten = backAll fsub (fss.map Fields.metrics) ∧
      ∀ fuel, 10000000000 ≤ fuel → c.resolve zip now fuel = .ok (gss.map (fun g => encDoc g.1)).flatten ∧ ∀ g ∈ gss, Yields unzip fuel g.1 g.2 := by
  have h3 := filled_state h hf hm hn
  match fss, docs, hne, h with
  | f0 :: fss, d0 :: docs, _, h =>
    obtain ⟨e1, e2, e3, e4⟩ := h3
    have wf := repDocs_wf _ _ h.rep
    have hss : Samples f0 fss (fss.map numsF) := ⟨wf f0 (by simp), fun fs hfs => wf fs (by simp [hfs]), rfl, fun fs hfs => h.shape f0 (by simp) fs (by simp [hfs])⟩
    have hpl := hp _ ⟨2147483648, fun m hm => payload_ok e4 e3 (h.size f0 (by simp)) (by simp at h32 ⊢; omega) m (Nat.lt_of_lt_of_le (h.size f0 (by simp)) hm)⟩
    exact resolve_yields hsub hz e4 hss e3 (h.size f0 (by simp)) (by simp at h32 ⊢; omega) (by rw [e2]; exact hmd) hpl now
  | _ :: _, [], _, h => exact h.rep.elim

/-- a run with its collector -/
structure Part where
  md : Option Doc
  docs : List Doc
  fss : List Fields
  chunk : Better

structure Part.Ok (fsub : Nat → Nat → Nat) (n max : Nat) (p : Part) : Prop where
  run : Run p.docs p.fss
  ne : p.fss ≠ []
  filled : Filled fsub n max p.md p.docs p.chunk
  room : p.fss.length ≤ max + 1
  md : ∀ m, p.md = some m → ∃ mfs, RepFields m mfs ∧ (encDoc mfs).length ≤ 2147483000

theorem sumInfo_parts {fsub : Nat → Nat → Nat} {n max : Nat} (hn : 2147483648 ≤ n) {ks : List UInt8} : ∀ {parts : List Part},
    (∀ p ∈ parts, p.Ok fsub n max) → (∀ p ∈ parts, ∀ g ∈ p.fss, g.kinds = ks) →
    sumInfo ((parts.map Part.chunk).map Better.info) = ((parts.map Part.fss).flatten.length, parts.length * ks.length)
  | [], _, _ => by simp [sumInfo]
  | p :: ps, hok, hk => by
    have ih := sumInfo_parts hn (fun q hq => hok q (List.mem_cons_of_mem _ hq)) (fun q hq => hk q (List.mem_cons_of_mem _ hq))
    have o := hok p (List.mem_cons_self ..)
    have hi := filled_info_metrics o.run o.filled o.room hn o.ne (hk p (List.mem_cons_self ..))
    simp only [List.map_cons, sumInfo, hi, ih, List.flatten_cons, List.length_append, List.length_cons, Nat.add_mul, Nat.one_mul]
    rw [Nat.add_comm]

theorem parts_yield {fsub : Nat → Nat → Nat}
    (hsub : ∀ a b, a < 18446744073709551616 → b < 18446744073709551616 → fsub a b < 18446744073709551616)
    {zip : Bytes → Bytes} {unzip : Bytes → Option Bytes} (hz : ∀ b, unzip (zip b) = some b) {n max : Nat} (hn : 2147483648 ≤ n) (hmax : max < 4294967295)
    (now : Nat → Time) : ∀ (parts : List Part) (i : Nat), (∀ p ∈ parts, p.Ok fsub n max) →
    (∀ p ∈ parts, ∀ b, Returns p.chunk.payload (.ok b) → (zip b).length ≤ 2147482000) →
    ∃ gss : List (Fields × List Fields), (∀ g ∈ gss, g.1.WF ∧ (encDoc g.1).length < 2147483648) ∧
      (gss.map Prod.snd).flatten = backChunks fsub (parts.map Part.fss) ∧
      ∀ fuel, 10000000000 ≤ fuel → resolveChunks zip now fuel i (parts.map Part.chunk) = .ok (gss.map (fun g => encDoc g.1)).flatten ∧
        ∀ g ∈ gss, Yields unzip fuel g.1 g.2
  | [], i, _, _ => ⟨[], by simp, by simp [backChunks], by simp [resolveChunks]⟩
  | p :: parts, i, h, hp => by
    have hk := h p (by simp)
    obtain ⟨g1, a1, a2, a3⟩ := run_yields hsub hz hk.run hk.ne hk.filled hk.room hn (by have := hk.room; omega) hk.md (hp p (by simp)) (now i)
    obtain ⟨g2, b1, b2, b3⟩ := parts_yield hsub hz hn hmax now parts (i + 1) (fun q hq => h q (by simp [hq])) (fun q hq => hp q (by simp [hq]))
    refine ⟨g1 ++ g2, ?_, ?_, ?_⟩
    · intro g hg; rcases List.mem_append.mp hg with hg | hg
      · exact a1 g hg
      · exact b1 g hg
    · simp only [List.map_append, List.flatten_append, a2, b2, backChunks, List.map_cons, List.flatten_cons]
    · intro fuel hf
      obtain ⟨a3, a4⟩ := a3 fuel hf
      obtain ⟨b3, b4⟩ := b3 fuel hf
      refine ⟨?_, ?_⟩
      · simp only [List.map_cons, resolveChunks, a3, b3, Res.bind_ok, List.map_append, List.flatten_append]
      · intro g hg; rcases List.mem_append.mp hg with hg | hg
        · exact a4 g hg
        · exact b4 g hg

/-- the parts resolve to bytes from which their samples are read -/
theorem parts_read {fsub : Nat → Nat → Nat}
    (hsub : ∀ a b, a < 18446744073709551616 → b < 18446744073709551616 → fsub a b < 18446744073709551616)
    {zip : Bytes → Bytes} {unzip : Bytes → Option Bytes} (hz : ∀ b, unzip (zip b) = some b) {n max : Nat} (hn : 2147483648 ≤ n) (hmax : max < 4294967295)
    (now : Nat → Time) (parts : List Part) (i : Nat) (h : ∀ p ∈ parts, p.Ok fsub n max)
    (hp : ∀ p ∈ parts, ∀ b, Returns p.chunk.payload (.ok b) → (zip b).length ≤ 2147482000) :
    ∃ bytes, (∀ fuel, 10000000000 ≤ fuel → resolveChunks zip now fuel i (parts.map Part.chunk) = .ok bytes) ∧
      ∀ s : Stream.Source, s.left = bytes → ∃ M, ∀ m, M ≤ m → ∃ ds, readStructuredMetrics unzip m s = .ok ds ∧
        RepDocs ds (backChunks fsub (parts.map Part.fss)) := by
  obtain ⟨gss, g1, g2, g3⟩ := parts_yield hsub hz hn hmax now parts i h hp
  refine ⟨_, fun fuel hf => (g3 fuel hf).1, fun s hs => ?_⟩
  rw [← g2]
  exact readStructured_ok gss g1 10000000000 (fun fuel hf => (g3 fuel hf).2) s hs

theorem backChunks_kept (fsub : Nat → Nat → Nat) : ∀ (segs : List (List Fields)), (∀ s ∈ segs, ∀ f ∈ s, f.metrics.Kept ∧ ∀ g ∈ s, f.metrics.SameShape g.metrics) →
    backChunks fsub segs = segs.flatten.map Fields.metrics
  | [], _ => rfl
  | s :: segs, h => by
    have h1 : backAll fsub (s.map Fields.metrics) = s.map Fields.metrics := by
      cases s with
      | nil => rfl
      | cons f fss =>
        simp only [List.map_cons, backAll]
        rw [backF_kept _ _ _ _ (shapeF_refl _) ((h _ List.mem_cons_self) f (by simp)).1, back_all]
        intro c hc
        obtain ⟨g, hg, rfl⟩ := List.mem_map.mp hc
        exact ⟨((h _ List.mem_cons_self) f (by simp)).2 g (by simp [hg]), ((h _ List.mem_cons_self) g (by simp [hg])).1⟩
    have h2 := backChunks_kept fsub segs (fun s hs => h s (by simp [hs]))
    simp only [backChunks, List.map_cons, List.flatten_cons, List.map_append] at h2 ⊢
    rw [h1, h2]

end Birch.Proofs.Ftdc
