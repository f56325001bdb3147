import Verif.Spec.Collect
import Verif.Proofs.FtdcRuns
import Verif.Proofs.Custom

namespace Birch.Proofs.Collect
open Birch Model Model.Ftdc Model.Collect Spec Spec.Collect Proofs Proofs.Ftdc

/-! ### options -/

theorem before_weak : WeakOrder before (fun _ => True) where
  asymm := by
    intro a b _ _ h
    simp only [before, ← strLt_eq] at h ⊢
    exact strLt_asymm _ _ h
  cotrans := by
    intro a b c _ _ _ h
    simp only [before, ← strLt_eq] at h ⊢
    exact strLt_cotrans _ _ _ h

theorem validate_eq (o : Options) : ∃ cs errs, o.validate = .ok ({ o with collectors := cs }, errs) ∧ StableSort before o.collectors cs ∧ (errs = [] ↔ Valid o) := by
  unfold Options.validate
  rw [DocHeap.sortStable_spec (lt := before) (fun a b => by simp [collectorLess, before, strLt_eq])]
  refine ⟨_, _, rfl, sort_stable before_weak o.collectors (fun _ _ => trivial), ?_⟩
  simp only [validateCondition, Valid, decide_eq_true_eq]
  cases hg : o.skipGolang <;> cases hs : o.skipSystem <;> cases hp : o.skipProcess <;> cases hq : o.parallel <;> cases hc : o.collectors <;>
    simp <;> (repeat' split) <;> simp <;> omega

/-! ### files -/

variable {fsub : Nat → Nat → Nat} {zip : Bytes → Bytes} {unzip : Bytes → Option Bytes} {now : Nat → Nat → Time} {disk : Disk} {n max : Nat}

theorem eachReads_append {b : Bytes} {fss : List Fields} (h : Reads fsub unzip max b fss) : ∀ {bs : List Bytes} {gs : List (List Fields)},
    EachReads fsub unzip max bs gs → EachReads fsub unzip max (bs ++ [b]) (gs ++ [fss])
  | [], [], _ => ⟨h, trivial⟩
  | _ :: _, _ :: _, ⟨h1, h2⟩ => ⟨h1, eachReads_append h h2⟩

/-- the samples in the file of the collector -/
theorem sinv_reads (hsub : ∀ a b, a < 18446744073709551616 → b < 18446744073709551616 → fsub a b < 18446744073709551616) (hz : ∀ b, unzip (zip b) = some b)
    (hn : 10000000000 ≤ n) (h32 : max < 4294967295) {now : Nat → Time} {c : Streaming} {parts : List Part} {p : Part} (h : SInv fsub zip now n max c parts p)
    (hb : Blocks (max + 1) (parts.map Part.fss)) : Reads fsub unzip max c.output.out (parts.map Part.fss).flatten := by
  refine ⟨_, rfl, hb, ?_⟩
  obtain ⟨bytes, b1, b2⟩ := parts_read hsub hz (by omega) h32 now parts 0 h.done h.small
  have ho := h.out
  rw [b1 n hn] at ho
  cases ho
  exact b2

theorem blocks_full : ∀ {segs : List (List Fields)}, (∀ t ∈ segs, t.length = max + 1) → Blocks (max + 1) segs
  | [], _ => trivial
  | [s], h => by have := h s (by simp); exact ⟨by omega, by omega⟩
  | s :: t :: r, h => ⟨h s (by simp), blocks_full (segs := t :: r) (fun x hx => h x (by simp [hx]))⟩

/-- documents that are some of those with these fields -/
theorem repDocs_super : ∀ {fsel fall : List Fields}, fsel.Sublist fall → ∀ {sel docs : List Doc}, RepDocs sel fsel → RepDocs docs fall → ∃ docs', RepDocs docs' fall ∧ sel.Sublist docs'
  | _, _, .slnil, sel, docs, h, _ => by cases sel with
    | nil => exact ⟨[], trivial, .slnil⟩
    | cons _ _ => exact h.elim
  | _, _, .cons f hs, sel, docs, h, hd => by
    cases docs with
    | nil => exact hd.elim
    | cons d docs =>
      obtain ⟨docs', h1, h2⟩ := repDocs_super hs h hd.2
      exact ⟨d :: docs', ⟨hd.1, h1⟩, .cons d h2⟩
  | _, _, .cons_cons f hs, sel, docs, h, hd => by
    cases docs with
    | nil => exact hd.elim
    | cons d docs =>
      cases sel with
      | nil => exact h.elim
      | cons x sel =>
        obtain ⟨docs', h1, h2⟩ := repDocs_super hs h.2 hd.2
        exact ⟨x :: docs', ⟨h.1, h1⟩, .cons_cons x h2⟩

theorem gives_docs : ∀ {ts : List Turn} {evs : List Event} {i : Nat}, Turns i evs ts → ∃ docs, RepDocs docs (sampled ts)
  | [], _, _, _ => ⟨[], trivial⟩
  | .sample f :: ts, .collect g :: evs, i, h => by
    obtain ⟨⟨d, _, h1⟩, h2⟩ := h
    obtain ⟨docs, h3⟩ := gives_docs h2
    exact ⟨d :: docs, h1, h3⟩
  | .rotate :: ts, .flush :: evs, i, h => gives_docs (ts := ts) (evs := evs) (i := i) h
  | .fail :: ts, _, _, _ => ⟨[], trivial⟩
  | .stop :: ts, _, _, _ => ⟨[], trivial⟩
  | .sample _ :: _, [], _, h => h.elim
  | .sample _ :: _, .flush :: _, _, h => h.elim
  | .sample _ :: _, .done :: _, _, h => h.elim
  | .rotate :: _, [], _, h => h.elim
  | .rotate :: _, .collect _ :: _, _, h => h.elim
  | .rotate :: _, .done :: _, _, h => h.elim

/-! ### the loop -/

/-- samples that can be collected -/
structure All (fsub : Nat → Nat → Nat) (zip : Bytes → Bytes) (max : Nat) (fall : List Fields) : Prop where
  size : ∀ f ∈ fall, (encDoc f).length < 2147483648
  shape : ∀ f ∈ fall, ∀ g ∈ fall, f.metrics.SameShape g.metrics
  small : ∀ sel fsel n c es, RepDocs sel fsel → fsel.Sublist fall → 2147483648 ≤ n → (newWith max none).addAll fsub n sel = .ok (c, es) →
    ∀ p, Returns c.payload (.ok p) → (zip p).length ≤ 2147482000

/-- what is in the closed files, and in the current file with the collector -/
structure Good (fsub : Nat → Nat → Nat) (zip : Bytes → Bytes) (unzip : Bytes → Option Bytes) (now : Nat → Nat → Time) (n max : Nat) (s : State) (groups : List (List Fields))
    (cur : List Fields) : Prop where
  closed : EachReads fsub unzip max s.closed groups
  ex : ∃ parts p, SInv fsub zip (now s.outputCount) n max s.collector parts p ∧ p.md = none ∧ (∀ q ∈ parts, q.fss.length = max + 1) ∧ (p.fss = [] → parts = []) ∧
    (parts.map Part.fss).flatten ++ p.fss = cur
  plan : AllOrNothing s.collector.output.plan
  count : s.collectCount = (groups.flatten ++ cur).length
  isOpen : s.isOpen = true

/-- what is in the files when it is over -/
def Final (fsub : Nat → Nat → Nat) (unzip : Bytes → Option Bytes) (max : Nat) (s : State) (written lost : List Fields) : Prop :=
  (∃ groups, EachReads fsub unzip max s.files groups ∧ groups.flatten = written) ∧ lost.length ≤ max + 1 ∧ s.collectCount = written.length + lost.length

theorem good_final (hsub : ∀ a b, a < 18446744073709551616 → b < 18446744073709551616 → fsub a b < 18446744073709551616) (hz : ∀ b, unzip (zip b) = some b)
    (hn : 10000000000 ≤ n) (h32 : max < 4294967295) {s : State} {groups : List (List Fields)} {cur : List Fields} (h : Good fsub zip unzip now n max s groups cur) :
    ∃ written lost, written ++ lost = groups.flatten ++ cur ∧ Final fsub unzip max s written lost := by
  obtain ⟨parts, p, h1, h2, h3, h4, rfl⟩ := h.ex
  refine ⟨groups.flatten ++ (parts.map Part.fss).flatten, p.fss, by simp, ⟨groups ++ [(parts.map Part.fss).flatten], ?_, by simp⟩, h1.room, by rw [h.count]; simp; omega⟩
  apply eachReads_append _ h.closed
  apply sinv_reads hsub hz hn h32 h1
  apply blocks_full
  intro t ht
  obtain ⟨q, hq, rfl⟩ := List.mem_map.mp ht
  exact h3 q hq

theorem flusher_ok (hsub : ∀ a b, a < 18446744073709551616 → b < 18446744073709551616 → fsub a b < 18446744073709551616) (hz : ∀ b, unzip (zip b) = some b)
    (hn : 10000000000 ≤ n) (h32 : max < 4294967295) (hdisk : ∀ i plan e, disk i = .ok (plan, e) → AllOrNothing plan) {fall : List Fields} (ha : All fsub zip max fall)
    {s : State} {groups : List (List Fields)} {cur : List Fields} (h : Good fsub zip unzip now n max s groups cur) (hc : cur.Sublist fall) :
    ∃ s' e, flusher zip now disk n max s = .ok (s', e) ∧
      (e = none → if cur = [] then s' = s else Good fsub zip unzip now n max s' (groups ++ [cur]) []) ∧
      (e ≠ none → ∃ written lost, written ++ lost = groups.flatten ++ cur ∧ Final fsub unzip max s' written lost) ∧
      ((∀ i, disk i = .ok ([], none)) → s.collector.output.plan = [] → s.closeErr = none → e = none ∧ s'.collector.output.plan = [] ∧ s'.closeErr = none) := by
  have hg := h
  obtain ⟨parts, p, h1, h2, h3, h4, rfl⟩ := h.ex
  have hinf := filled_info h1.run h1.filled h1.room (by omega)
  unfold flusher
  rw [h1.inner, hinf]
  by_cases hp : p.fss = []
  · have := h4 hp
    subst this
    rw [hp]
    exact ⟨s, none, by simp, by simp, by simp, fun _ h1 h2 => ⟨rfl, h1, h2⟩⟩
  · rw [if_neg (by simpa using hp)]
    have hsel : p.fss.Sublist fall := (List.sublist_append_right _ _).trans hc
    obtain ⟨c, e, f1, f2, f3, f4, f5⟩ := stream_flush hsub hz hn h32 h1 hp (ha.small p.docs p.fss n p.chunk _ h1.run.rep hsel (by omega) (h2 ▸ h1.filled)) h.plan Streaming.reset p.md
      (.inl rfl) streaming_reset_ok streaming_reset_inner
    have f1' : s.collector.flush zip (now s.outputCount) n = .ok (c, e) := f1
    rw [f1', Res.bind_ok]
    have hne : (parts.map Part.fss).flatten ++ p.fss ≠ [] := by simp [hp]
    cases e with
    | some e =>
      refine ⟨_, some e, rfl, by simp, fun _ => ?_, fun _ h0 => absurd (f5 h0).1 (by simp)⟩
      exact good_final hsub hz hn h32 ⟨h.closed, ⟨parts, p, f3 (by simp), h2, h3, h4, rfl⟩, f4, h.count, h.isOpen⟩
    | none =>
      dsimp only
      have hr : Reads fsub unzip max c.output.out ((parts.map Part.fss).flatten ++ p.fss) := by
        have := sinv_reads hsub hz hn h32 (f2 rfl) (by
          rw [List.map_append]
          apply blocks_snoc
          · intro t ht; obtain ⟨q, hq, rfl⟩ := List.mem_map.mp ht; exact h3 q hq
          · have := List.length_pos_iff.mpr hp; omega
          · exact h1.room)
        simpa using this
      have hfin : ∀ s' : State, s'.collectCount = s.collectCount → s'.files = s.closed ++ [c.output.out] → Final fsub unzip max s' (groups.flatten ++ ((parts.map Part.fss).flatten ++ p.fss)) [] := by
        intro s' e1 e2
        refine ⟨⟨groups ++ [(parts.map Part.fss).flatten ++ p.fss], ?_, by simp⟩, by simp, ?_⟩
        · rw [e2]; exact eachReads_append hr h.closed
        · rw [e1, h.count]; simp
      cases hce : s.closeErr with
      | some e => exact ⟨_, some e, rfl, by simp, fun _ => ⟨_, [], by simp, hfin _ rfl rfl⟩, by simp⟩
      | none =>
        dsimp only
        cases hd : disk (s.outputCount + 1) with
        | error e =>
          refine ⟨_, some e, rfl, by simp, fun _ => ⟨_, [], by simp, hfin _ rfl rfl⟩, fun h0 => ?_⟩
          rw [h0] at hd; cases hd
        | ok r =>
          obtain ⟨plan, ce⟩ := r
          refine ⟨_, none, rfl, fun _ => ?_, by simp, fun h0 _ _ => ?_⟩
          · rw [if_neg hne]
            refine ⟨eachReads_append hr h.closed, ⟨[], Part.empty max none, ?_, rfl, by simp, fun _ => rfl, rfl⟩, hdisk _ _ _ hd, ?_, rfl⟩
            · exact ⟨rfl, rfl, rfl, rfl, rfl, by simp, by simp, run_nil, filled_nil fsub n max _, Nat.zero_le _, by simp [Part.empty]⟩
            · show s.collectCount = _
              rw [h.count]; simp
          · rw [h0] at hd; cases hd; exact ⟨rfl, rfl, rfl⟩

theorem add_ok (hsub : ∀ a b, a < 18446744073709551616 → b < 18446744073709551616 → fsub a b < 18446744073709551616) (hz : ∀ b, unzip (zip b) = some b)
    (hn : 10000000000 ≤ n) (h32 : max < 4294967295) {fall : List Fields} (ha : All fsub zip max fall)
    {s : State} {groups : List (List Fields)} {cur : List Fields} (h : Good fsub zip unzip now n max s groups cur) {d : Doc} {f : Fields} (hd : RepFields d f)
    (hc : (cur ++ [f]).Sublist fall) :
    ∃ c e, s.collector.add fsub zip (now s.outputCount) n d = .ok (c, e) ∧
      (e = none → Good fsub zip unzip now n max { s with collector := c, collectCount := s.collectCount + 1 } groups (cur ++ [f])) ∧
      (e ≠ none → Good fsub zip unzip now n max { s with collector := c } groups cur) ∧
      (s.collector.output.plan = [] → e = none ∧ c.output.plan = []) := by
  obtain ⟨parts, p, h1, h2, h3, h4, rfl⟩ := h.ex
  have hsel : (p.fss ++ [f]).Sublist fall := by
    refine List.Sublist.trans ?_ hc
    rw [List.append_assoc]; exact List.sublist_append_right _ _
  have hsel' : p.fss.Sublist fall := (List.sublist_append_left _ _).trans hsel
  have hrun : Run (p.docs ++ [d]) (p.fss ++ [f]) := ⟨repDocs_append _ _ _ _ h1.run.rep ⟨hd, trivial⟩, fun g hg => ha.size g (hsel.subset hg),
    fun g hg g' hg' => ha.shape g (hsel.subset hg) g' (hsel.subset hg')⟩
  obtain ⟨c, e, a1, a2, a3, a4, a5⟩ := stream_add hsub hz hn h32 h1 (ha.small p.docs p.fss n p.chunk _ h1.run.rep hsel' (by omega) (h2 ▸ h1.filled)) h.plan hrun
  refine ⟨c, e, a1, fun he => ?_, fun he => ?_, a3⟩
  · obtain ⟨p', b1, b2⟩ := a5 he
    refine ⟨h.closed, ?_, a2, ?_, h.isOpen⟩
    · rcases b2 with ⟨b2, b3, b4, b5⟩ | ⟨b3, b4, b5⟩
      · refine ⟨parts ++ [p], p', b3, b1.trans h2, ?_, by simp [b5], by simp [b5]⟩
        intro q hq
        rcases List.mem_append.mp hq with hq | hq
        · exact h3 q hq
        · simp only [List.mem_singleton] at hq; subst hq; exact b2
      · exact ⟨parts, p', b3, b1.trans h2, h3, by simp [b5], by simp [b5]⟩
    · show s.collectCount + 1 = _
      rw [h.count]; simp; omega
  · exact ⟨h.closed, ⟨parts, p, a4 he, h2, h3, h4, rfl⟩, a2, h.count, h.isOpen⟩

/-- whatever fails -/
theorem run_any (hsub : ∀ a b, a < 18446744073709551616 → b < 18446744073709551616 → fsub a b < 18446744073709551616) (hz : ∀ b, unzip (zip b) = some b)
    (hn : 10000000000 ≤ n) (h32 : max < 4294967295) (hdisk : ∀ i plan e, disk i = .ok (plan, e) → AllOrNothing plan) {fall : List Fields} (ha : All fsub zip max fall) :
    ∀ (evs : List Event) (ts : List Turn) {s : State} {groups : List (List Fields)} {cur : List Fields}, Turns s.collectCount evs ts →
    Good fsub zip unzip now n max s groups cur → (cur ++ sampled ts).Sublist fall →
    ∃ s' r written lost rest, run fsub zip now disk n max s evs = .ok (s', r) ∧ groups.flatten ++ cur ++ sampled ts = written ++ lost ++ rest ∧
      Final fsub unzip max s' written lost ∧ (r = some none → lost = [] ∧ rest = [] ∧ s'.isOpen = true) ∧ (r = none → rest = [])
  | [], [], s, groups, cur, _, hg, _ => by
    obtain ⟨w, l, h1, h2⟩ := good_final hsub hz hn h32 hg
    exact ⟨s, none, w, l, [], rfl, by simp [sampled, h1], h2, by simp, by simp⟩
  | .done :: evs, .stop :: ts, s, groups, cur, h, hg, hc => by
    obtain ⟨s', e, f1, f2, f3, _⟩ := flusher_ok (disk := disk) hsub hz hn h32 hdisk ha hg (by simpa [sampled] using hc)
    simp only [run, step, f1, Res.bind_ok]
    cases e with
    | some e =>
      obtain ⟨w, l, g1, g2⟩ := f3 (by simp)
      exact ⟨s', _, w, l, [], rfl, by simp [sampled, g1], g2, by simp, by simp⟩
    | none =>
      replace f2 := f2 rfl
      split at f2
      · rename_i h0
        subst h0; subst f2
        obtain ⟨parts, p, h1, h2, h3, h4, h5⟩ := hg.ex
        simp only [List.append_eq_nil_iff] at h5
        have := h4 h5.2
        subst this
        refine ⟨s', _, groups.flatten, [], [], rfl, by simp [sampled], ⟨⟨groups ++ [[]], ?_, by simp⟩, by simp, by rw [hg.count]; simp⟩, fun _ => ⟨rfl, rfl, hg.isOpen⟩, by simp⟩
        exact eachReads_append (by simpa using sinv_reads hsub hz hn h32 h1 trivial) hg.closed
      · obtain ⟨parts, p, h1, h2, h3, h4, h5⟩ := f2.ex
        simp only [List.append_eq_nil_iff] at h5
        have := h4 h5.2
        subst this
        refine ⟨s', _, groups.flatten ++ cur, [], [], rfl, by simp [sampled], ⟨⟨groups ++ [cur] ++ [[]], ?_, by simp⟩, by simp, by rw [f2.count]; simp⟩, fun _ => ⟨rfl, rfl, f2.isOpen⟩, by simp⟩
        exact eachReads_append (by simpa using sinv_reads hsub hz hn h32 h1 trivial) f2.closed
  | .collect g :: evs, .sample f :: ts, s, groups, cur, h, hg, hc => by
    obtain ⟨⟨d, hd1, hd2⟩, hr⟩ := h
    simp only [sampled] at hc
    have hc' : (cur ++ [f] ++ sampled ts).Sublist fall := by simpa using hc
    obtain ⟨c, e, a1, a2, a3, _⟩ := add_ok hsub hz hn h32 ha hg hd2 ((List.sublist_append_left _ _).trans hc')
    simp only [run, step, hd1, a1, Res.bind_ok]
    cases e with
    | some e =>
      obtain ⟨w, l, g1, g2⟩ := good_final hsub hz hn h32 (a3 (by simp))
      exact ⟨_, _, w, l, f :: sampled ts, rfl, by simp [sampled, g1], g2, by simp, by simp⟩
    | none =>
      obtain ⟨s', r, w, l, rest, b1, b2, b3, b4⟩ := run_any hsub hz hn h32 hdisk ha evs ts (s := { s with collector := c, collectCount := s.collectCount + 1 }) hr (a2 rfl) hc'
      exact ⟨s', r, w, l, rest, b1, by rw [← b2]; simp [sampled], b3, b4⟩
  | .collect g :: evs, .fail :: ts, s, groups, cur, h, hg, hc => by
    obtain ⟨⟨e, he⟩, _⟩ := h
    obtain ⟨w, l, h1, h2⟩ := good_final hsub hz hn h32 hg
    simp only [run, step, he, Res.bind_ok]
    exact ⟨s, _, w, l, [], rfl, by simp [sampled, h1], h2, by simp, by simp⟩
  | .flush :: evs, .rotate :: ts, s, groups, cur, h, hg, hc => by
    simp only [sampled] at hc
    obtain ⟨s', e, f1, f2, f3, _⟩ := flusher_ok (disk := disk) hsub hz hn h32 hdisk ha hg ((List.sublist_append_left _ _).trans hc)
    simp only [run, step, f1, Res.bind_ok]
    cases e with
    | some e =>
      obtain ⟨w, l, g1, g2⟩ := f3 (by simp)
      exact ⟨s', _, w, l, sampled ts, rfl, by simp [sampled, g1], g2, by simp, by simp⟩
    | none =>
      replace f2 := f2 rfl
      split at f2
      · subst f2
        obtain ⟨s'', r, w, l, rest, b1, b2, b3, b4⟩ := run_any hsub hz hn h32 hdisk ha evs ts h hg hc
        exact ⟨s'', r, w, l, rest, b1, b2, b3, b4⟩
      · have hcount : s'.collectCount = s.collectCount := by rw [f2.count, hg.count]; simp
        obtain ⟨s'', r, w, l, rest, b1, b2, b3, b4⟩ := run_any hsub hz hn h32 hdisk ha evs ts (s := s') (groups := groups ++ [cur]) (cur := []) (by rw [hcount]; exact h) f2
          ((List.sublist_append_right cur _).trans hc)
        exact ⟨s'', r, w, l, rest, b1, by rw [← b2]; simp [sampled], b3, b4⟩
  | [], _ :: _, _, _, _, h, _, _ => by simp [Turns] at h
  | .done :: _, [], _, _, _, h, _, _ => h.elim
  | .done :: _, .sample _ :: _, _, _, _, h, _, _ => h.elim
  | .done :: _, .rotate :: _, _, _, _, h, _, _ => h.elim
  | .done :: _, .fail :: _, _, _, _, h, _, _ => h.elim
  | .flush :: _, [], _, _, _, h, _, _ => h.elim
  | .flush :: _, .sample _ :: _, _, _, _, h, _, _ => h.elim
  | .flush :: _, .stop :: _, _, _, _, h, _, _ => h.elim
  | .flush :: _, .fail :: _, _, _, _, h, _, _ => h.elim
  | .collect _ :: _, [], _, _, _, h, _, _ => h.elim
  | .collect _ :: _, .rotate :: _, _, _, _, h, _, _ => h.elim
  | .collect _ :: _, .stop :: _, _, _, _, h, _, _ => h.elim

/-- nothing fails -/
theorem run_files (hsub : ∀ a b, a < 18446744073709551616 → b < 18446744073709551616 → fsub a b < 18446744073709551616) (hz : ∀ b, unzip (zip b) = some b)
    (hn : 10000000000 ≤ n) (h32 : max < 4294967295) (hdisk : ∀ i, disk i = .ok ([], none)) {fall : List Fields} (ha : All fsub zip max fall) :
    ∀ (ts : List Turn) (evs : List Event) {s : State} {groups : List (List Fields)} {cur : List Fields}, Turns s.collectCount evs ts → (∀ t ∈ ts, t ≠ .fail ∧ t ≠ .stop) →
    Good fsub zip unzip now n max s groups cur → s.collector.output.plan = [] → s.closeErr = none → (cur ++ sampled ts).Sublist fall →
    ∃ s', run fsub zip now disk n max s (evs ++ [.done]) = .ok (s', some none) ∧ EachReads fsub unzip max s'.files (groups ++ filesFrom cur (ts ++ [.rotate]))
  | [], [], s, groups, cur, _, _, hg, hp, hce, hc => by
    obtain ⟨s', e, f1, f2, f3, f4⟩ := flusher_ok (disk := disk) hsub hz hn h32 (by intro i plan e h; rw [hdisk] at h; cases h; simp [AllOrNothing]) ha hg (by simpa [sampled] using hc)
    obtain ⟨rfl, _, _⟩ := f4 hdisk hp hce
    simp only [List.nil_append, run, step, f1, Res.bind_ok]
    refine ⟨s', rfl, ?_⟩
    replace f2 := f2 rfl
    simp only [filesFrom]
    split at f2
    · rename_i h0
      subst h0; subst f2
      rw [if_pos rfl]
      obtain ⟨parts, p, h1, h2, h3, h4, h5⟩ := hg.ex
      simp only [List.append_eq_nil_iff] at h5
      have := h4 h5.2
      subst this
      exact eachReads_append (by simpa using sinv_reads hsub hz hn h32 h1 trivial) hg.closed
    · rename_i h0
      rw [if_neg h0]
      obtain ⟨parts, p, h1, h2, h3, h4, h5⟩ := f2.ex
      simp only [List.append_eq_nil_iff] at h5
      have := h4 h5.2
      subst this
      rw [show groups ++ [cur, []] = groups ++ [cur] ++ [[]] by simp]
      exact eachReads_append (by simpa using sinv_reads hsub hz hn h32 h1 trivial) f2.closed
  | .sample f :: ts, .collect g :: evs, s, groups, cur, h, hno, hg, hp, hce, hc => by
    obtain ⟨⟨d, hd1, hd2⟩, hr⟩ := h
    simp only [sampled] at hc
    have hc' : (cur ++ [f] ++ sampled ts).Sublist fall := by simpa using hc
    obtain ⟨c, e, a1, a2, a3, a4⟩ := add_ok hsub hz hn h32 ha hg hd2 ((List.sublist_append_left _ _).trans hc')
    obtain ⟨rfl, a5⟩ := a4 hp
    obtain ⟨s', b1, b2⟩ := run_files hsub hz hn h32 hdisk ha ts evs (s := { s with collector := c, collectCount := s.collectCount + 1 }) hr (fun t ht => hno t (by simp [ht])) (a2 rfl)
      a5 hce hc'
    refine ⟨s', ?_, b2⟩
    simp only [List.cons_append, run, step, hd1, a1, Res.bind_ok]
    exact b1
  | .rotate :: ts, .flush :: evs, s, groups, cur, h, hno, hg, hp, hce, hc => by
    simp only [sampled] at hc
    obtain ⟨s', e, f1, f2, f3, f4⟩ := flusher_ok (disk := disk) hsub hz hn h32 (by intro i plan e h; rw [hdisk] at h; cases h; simp [AllOrNothing]) ha hg ((List.sublist_append_left _ _).trans hc)
    obtain ⟨rfl, hp', hce'⟩ := f4 hdisk hp hce
    simp only [List.cons_append, run, step, f1, Res.bind_ok, filesFrom]
    replace f2 := f2 rfl
    split at f2
    · rename_i h0
      subst f2; subst h0
      rw [if_pos rfl]
      exact run_files hsub hz hn h32 hdisk ha ts evs h (fun t ht => hno t (by simp [ht])) hg hp hce hc
    · rename_i h0
      rw [if_neg h0]
      have hcount : s'.collectCount = s.collectCount := by rw [f2.count, hg.count]; simp
      obtain ⟨s'', b1, b2⟩ := run_files hsub hz hn h32 hdisk ha ts evs (s := s') (groups := groups ++ [cur]) (cur := []) (by rw [hcount]; exact h) (fun t ht => hno t (by simp [ht])) f2 hp' hce'
        ((List.sublist_append_right cur _).trans hc)
      exact ⟨s'', b1, by simpa using b2⟩
  | .fail :: _, _, _, _, _, _, h, _, _, _, _ => absurd rfl (h .fail (by simp)).1
  | .stop :: _, _, _, _, _, _, h, _, _, _, _ => absurd rfl (h .stop (by simp)).2
  | [], _ :: _, _, _, _, h, _, _, _, _, _ => by simp [Turns] at h
  | .sample _ :: _, [], _, _, _, h, _, _, _, _, _ => h.elim
  | .sample _ :: _, .flush :: _, _, _, _, h, _, _, _, _, _ => h.elim
  | .sample _ :: _, .done :: _, _, _, _, h, _, _, _, _, _ => h.elim
  | .rotate :: _, [], _, _, _, h, _, _, _, _, _ => h.elim
  | .rotate :: _, .collect _ :: _, _, _, _, h, _, _, _, _, _ => h.elim
  | .rotate :: _, .done :: _, _, _, _, h, _, _, _, _, _ => h.elim

theorem good_start {plan : List (Option (Nat × Option Err))} {ce : Option Err} (hp : AllOrNothing plan) :
    Good fsub zip unzip now n max ⟨0, [], Streaming.new max ⟨[], plan⟩, ce, true⟩ [] [] :=
  ⟨trivial, ⟨[], Part.empty max none, ⟨rfl, rfl, rfl, rfl, rfl, by simp, by simp, run_nil, filled_nil fsub n max _, Nat.zero_le _, by simp [Part.empty]⟩, rfl, by simp, fun _ => rfl, rfl⟩,
    hp, rfl, rfl⟩

theorem all_of {ts : List Turn} {evs : List Event} {i : Nat} (ht : Turns i evs ts) (hl : ∀ f ∈ sampled ts, (encDoc f).length < 2147483648)
    (hs : ∀ f ∈ sampled ts, ∀ g ∈ sampled ts, f.metrics.SameShape g.metrics) (hsm : ∀ docs, RepDocs docs (sampled ts) → SmallChunks fsub zip max none docs) :
    All fsub zip max (sampled ts) := by
  refine ⟨hl, hs, fun sel fsel n c es hr hsub hn hadd p hp => ?_⟩
  obtain ⟨docs, hd⟩ := gives_docs ht
  obtain ⟨docs', h1, h2⟩ := repDocs_super hsub hr hd
  exact hsm docs' h1 sel n c es h2 hn hadd p hp

/-- a collector whose first chunk is not full has written nothing; then a document with other numbers is an error -/
theorem good_refuses (hn : 10000000000 ≤ n) {s : State} {groups : List (List Fields)} {cur : List Fields}
    (h : Good fsub zip unzip now n max s groups cur) {f0 : Fields} (hf0 : f0 ∈ cur) (hshape : ∀ g ∈ cur, ∀ g' ∈ cur, g.metrics.SameShape g'.metrics) (hcur : cur.length ≤ max) {d : Doc}
    {f : Fields} (hd : RepFields d f) (hl : (encDoc f).length < 2147483648) (hk : f.kinds ≠ f0.kinds) :
    ∃ c e, s.collector.add fsub zip (now s.outputCount) n d = .ok (c, some e) ∧ c.output.out = s.collector.output.out := by
  obtain ⟨parts, p, h1, h2, h3, h4, rfl⟩ := h.ex
  have hparts : parts = [] := by
    cases parts with
    | nil => rfl
    | cons q parts =>
      have := h3 q (by simp)
      simp [this] at hcur
      omega
  subst hparts
  simp only [List.map_nil, List.flatten_nil, List.nil_append] at hcur hf0 hshape
  have hst := filled_state h1.run h1.filled h1.room (by omega)
  obtain ⟨c', e, e1, e2, _, _⟩ := state_add (fuel := n) hst hd hl (by omega)
  have he : e ≠ none := by
    intro h0
    cases hp : p.fss with
    | nil => rw [hp] at hf0; simp at hf0
    | cons g r =>
      have hkg := (e2.mp h0 g r hp).2
      have := kinds_shape (hshape f0 hf0 g (by rw [hp]; simp))
      exact hk (hkg.trans this)
  obtain ⟨x, rfl⟩ := Option.ne_none_iff_exists'.mp he
  refine ⟨{ s.collector with inner := c' }, x, ?_, rfl⟩
  unfold Streaming.add
  rw [h1.lim, h1.count, if_neg (by omega)]
  unfold Streaming.push
  rw [h1.inner, e1]
  rfl

theorem turns_samples : ∀ (fss : List Fields) {evs : List Event} {i : Nat} {ts : List Turn}, Turns i evs (fss.map .sample ++ ts) →
    ∃ pre evs', evs = pre ++ evs' ∧ Turns i pre (fss.map .sample) ∧ Turns (i + fss.length) evs' ts
  | [], evs, i, ts, h => ⟨[], evs, rfl, by simp [Turns], by simpa using h⟩
  | f :: fss, .collect g :: evs, i, ts, h => by
    obtain ⟨h1, h2⟩ := h
    obtain ⟨pre, evs', rfl, h3, h4⟩ := turns_samples fss h2
    exact ⟨.collect g :: pre, evs', rfl, ⟨h1, h3⟩, by rw [List.length_cons, show i + (fss.length + 1) = i + 1 + fss.length by omega]; exact h4⟩
  | _ :: _, [], _, _, h => h.elim
  | _ :: _, .flush :: _, _, _, h => h.elim
  | _ :: _, .done :: _, _, _, h => h.elim

theorem sampled_samples : ∀ fss : List Fields, sampled (fss.map .sample) = fss
  | [] => rfl
  | f :: fss => by simp [sampled, sampled_samples fss]

/-- samples that fit the first chunk -/
theorem run_samples (hsub : ∀ a b, a < 18446744073709551616 → b < 18446744073709551616 → fsub a b < 18446744073709551616) (hz : ∀ b, unzip (zip b) = some b)
    (hn : 10000000000 ≤ n) (h32 : max < 4294967295) (fss : List Fields) (evs : List Event) (ts : List Turn) (ht : Turns 0 evs (fss.map .sample ++ ts)) (hlen : fss.length ≤ max)
    (hl : ∀ f ∈ fss, (encDoc f).length < 2147483648) (hs : ∀ f ∈ fss, ∀ g ∈ fss, f.metrics.SameShape g.metrics)
    (hsm : ∀ docs, RepDocs docs fss → SmallChunks fsub zip max none docs) :
    ∃ s, Good fsub zip unzip now n max s [] fss ∧ s.collectCount = fss.length ∧ s.files = [[]] ∧ ∃ evs', Turns s.collectCount evs' ts ∧
      run fsub zip now disk n max ⟨0, [], Streaming.new max ⟨[], []⟩, none, true⟩ evs = run fsub zip now disk n max s evs' := by
  obtain ⟨pre, evs', rfl, h1, h2⟩ := turns_samples fss ht
  have ha : All fsub zip max fss := by
    have := all_of (fsub := fsub) (zip := zip) (max := max) h1
    rw [sampled_samples] at this
    exact this hl hs hsm
  have key : ∀ (fss' : List Fields) (pre : List Event) {s : State} {cur : List Fields}, Good fsub zip unzip now n max s [] cur → s.collector.output.plan = [] → s.files = [[]] →
      Turns s.collectCount pre (fss'.map .sample) → cur ++ fss' = fss →
      ∃ s', Good fsub zip unzip now n max s' [] fss ∧ s'.files = [[]] ∧ run fsub zip now disk n max s (pre ++ evs') = run fsub zip now disk n max s' evs' := by
    intro fss'
    induction fss' with
    | nil =>
      intro pre s cur hg _ hf ht hc
      have : pre = [] := by cases pre with
        | nil => rfl
        | cons e pre => cases e <;> exact ht.elim
      subst this
      rw [List.append_nil] at hc
      subst hc
      exact ⟨s, hg, hf, rfl⟩
    | cons f fss' ih =>
      intro pre s cur hg hp hf ht hc
      cases pre with
      | nil => exact ht.elim
      | cons ev pre =>
        cases ev with
        | flush => exact ht.elim
        | done => exact ht.elim
        | collect g =>
          obtain ⟨⟨d, hd1, hd2⟩, hr⟩ := ht
          obtain ⟨c, e, a1, a2, _, a4⟩ := add_ok hsub hz hn h32 ha hg hd2 (by rw [← hc, show cur ++ f :: fss' = cur ++ [f] ++ fss' by simp]; exact List.sublist_append_left _ _)
          obtain ⟨rfl, a5⟩ := a4 hp
          have hg' := a2 rfl
          obtain ⟨s', b1, b2, b3⟩ := ih pre (s := { s with collector := c, collectCount := s.collectCount + 1 }) hg' a5 (by
            obtain ⟨parts, p, h1, h2, h3, h4, h5⟩ := hg'.ex
            have hlen' : (cur ++ [f]).length ≤ max := by
              have := congrArg List.length hc
              simp at this ⊢; omega
            have hparts : parts = [] := by
              cases parts with
              | nil => rfl
              | cons q parts =>
                have h6 := h3 q (by simp)
                have := congrArg List.length h5
                simp at this hlen'
                omega
            subst hparts
            have hout := h1.out
            simp only [List.map_nil, resolveChunks, Res.ok.injEq] at hout
            unfold State.files at hf ⊢
            have hcl : s.closed = [] := by
              cases hcl : s.closed with
              | nil => rfl
              | cons x xs => rw [hcl] at hf; simp at hf
            simp only [hcl]
            rw [← hout]; rfl) hr (by simp [hc])
          refine ⟨s', b1, b2, ?_⟩
          rw [← b3]
          simp only [List.cons_append, run, step, hd1, a1, Res.bind_ok]
  obtain ⟨s, h3, h4, h5⟩ := key fss pre (good_start (plan := []) (ce := none) (by simp [AllOrNothing])) rfl rfl h1 rfl
  have hc : s.collectCount = fss.length := by simpa using h3.count
  exact ⟨s, h3, hc, h4, evs', by rw [hc]; simpa using h2, h5⟩

/-- the current file is the one created with the number of files before it, and those before it were closed -/
def Created (disk : Disk) (s : State) : Prop :=
  (∃ plan, disk s.closed.length = .ok (plan, s.closeErr)) ∧ ∀ i, i < s.closed.length → ∃ plan, disk i = .ok (plan, none)

theorem flusher_created {zip : Bytes → Bytes} {now : Nat → Nat → Time} {disk : Disk} {n max : Nat} {s s' : State} {e : Option Err} (h : Created disk s)
    (hf : flusher zip now disk n max s = .ok (s', e)) : Created disk s' := by
  unfold flusher at hf
  split at hf
  · simp only [Res.ok.injEq, Prod.mk.injEq] at hf; obtain ⟨rfl, _⟩ := hf; exact h
  · obtain ⟨⟨c, e1⟩, _, hf⟩ := Res.bind_eq_ok.mp hf
    cases e1 with
    | some e1 => simp only [Res.ok.injEq, Prod.mk.injEq] at hf; obtain ⟨rfl, _⟩ := hf; exact h
    | none =>
      dsimp only at hf
      split at hf
      · simp only [Res.ok.injEq, Prod.mk.injEq] at hf; obtain ⟨rfl, _⟩ := hf; exact h
      · rename_i hce
        split at hf
        · simp only [Res.ok.injEq, Prod.mk.injEq] at hf; obtain ⟨rfl, _⟩ := hf; exact h
        · rename_i plan ce hd
          simp only [Res.ok.injEq, Prod.mk.injEq] at hf; obtain ⟨rfl, _⟩ := hf
          refine ⟨⟨plan, by simpa [State.outputCount] using hd⟩, fun i hi => ?_⟩
          simp only [List.length_append, List.length_singleton] at hi
          by_cases hi' : i < s.closed.length
          · exact h.2 i hi'
          · obtain ⟨p, hp⟩ := h.1
            rw [hce] at hp
            exact ⟨p, by rw [show i = s.closed.length by omega]; exact hp⟩

theorem run_created {fsub : Nat → Nat → Nat} {zip : Bytes → Bytes} {now : Nat → Nat → Time} {disk : Disk} {n max : Nat} :
    ∀ (evs : List Event) {s s' : State} {r : Option (Option Err)}, Created disk s → run fsub zip now disk n max s evs = .ok (s', r) → Created disk s' := by
  intro evs
  induction evs with
  | nil => intro s s' r h hr; simp only [run, Res.ok.injEq, Prod.mk.injEq] at hr; obtain ⟨rfl, _⟩ := hr; exact h
  | cons ev evs ih =>
    intro s s' r h hr
    unfold run at hr
    obtain ⟨⟨s1, r1⟩, h1, hr⟩ := Res.bind_eq_ok.mp hr
    have hc : Created disk s1 := by
      cases ev with
      | done =>
        unfold step at h1
        obtain ⟨⟨s2, e⟩, h2, h3⟩ := Res.bind_eq_ok.mp h1
        simp only [Res.ok.injEq, Prod.mk.injEq] at h3; obtain ⟨rfl, _⟩ := h3
        exact flusher_created h h2
      | flush =>
        unfold step at h1
        obtain ⟨⟨s2, e⟩, h2, h3⟩ := Res.bind_eq_ok.mp h1
        cases e <;> (simp only [Res.ok.injEq, Prod.mk.injEq] at h3; obtain ⟨rfl, _⟩ := h3; exact flusher_created h h2)
      | collect g =>
        unfold step at h1
        dsimp only at h1
        split at h1
        · simp only [Res.ok.injEq, Prod.mk.injEq] at h1; obtain ⟨rfl, _⟩ := h1; exact h
        · obtain ⟨⟨c, e⟩, _, h3⟩ := Res.bind_eq_ok.mp h1
          cases e <;> (simp only [Res.ok.injEq, Prod.mk.injEq] at h3; obtain ⟨rfl, _⟩ := h3; exact h)
        · cases h1
        · cases h1
    cases r1 with
    | some r1 => simp only [Res.ok.injEq, Prod.mk.injEq] at hr; obtain ⟨rfl, _⟩ := hr; exact hc
    | none => exact ih hc hr

end Birch.Proofs.Collect
