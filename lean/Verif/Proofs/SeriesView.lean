import Verif.Spec.SeriesView
import Verif.Proofs.FtdcViews

namespace Birch.Proofs.Ftdc
open Birch Model Model.Ftdc Spec

theorem millis_epoc (x : Int) : millis (timeEpocMs x) = x := by
  unfold millis timeEpocMs
  have h := (timeUnix_spec (x.tdiv 1000) (x.tmod 1000 * 1000000)).1
  change nanos (timeUnix (x.tdiv 1000) (x.tmod 1000 * 1000000)) / 1000000 = x
  rw [h]
  have := Int.mul_tdiv_add_tmod x 1000
  omega

/-- the series of a metric holds its values -/
theorem getSeries_column {m : Metric} (h : Number m.originalType) : Series.column m.getSeries = m.values.map (leafOf m.originalType) := by
  unfold Metric.getSeries
  rcases h with h | h | h | h | h | h <;> rw [h] <;> simp [Series.column, leafOf, millis_epoc, Function.comp_def] <;> rfl

/-- the last metric with the key -/
def lastKeyed (k : Bytes) : List Metric → Option Metric
  | [] => none
  | m :: ms =>
    match lastKeyed k ms with
    | some n => some n
    | none => if m.key = k then some m else none

theorem lastKeyed_append (k : Bytes) (m : Metric) : ∀ ms, lastKeyed k (ms ++ [m]) = if m.key = k then some m else lastKeyed k ms
  | [] => by simp [lastKeyed]
  | n :: ms => by
    simp only [List.cons_append, lastKeyed, lastKeyed_append k m ms]
    by_cases h : m.key = k
    · simp [h]
    · simp [h]

theorem assign_nodup {out : List (Bytes × Series)} (k : Bytes) (s : Series) (h : (out.map Prod.fst).Nodup) : ((assign out k s).map Prod.fst).Nodup := by
  unfold assign
  rw [List.map_append, List.nodup_append]
  refine ⟨?_, by simp, ?_⟩
  · exact List.Sublist.nodup (List.Sublist.map _ List.filter_sublist) h
  · simp only [List.map_cons, List.map_nil, List.mem_map, List.mem_filter, List.mem_singleton]
    rintro a ⟨e, ⟨_, h2⟩, rfl⟩ b rfl
    simpa using h2

theorem mem_assign {out : List (Bytes × Series)} {k l : Bytes} {s t : Series} : (l, t) ∈ assign out k s ↔ (l = k ∧ t = s) ∨ (l ≠ k ∧ (l, t) ∈ out) := by
  unfold assign
  simp only [List.mem_append, List.mem_filter, List.mem_singleton, Prod.mk.injEq, decide_eq_true_eq]
  constructor
  · rintro (⟨h1, h2⟩ | h)
    · exact .inr ⟨h2, h1⟩
    · exact .inl h
  · rintro (h | ⟨h1, h2⟩)
    · exact .inr h
    · exact .inl ⟨h2, h1⟩

/-- one series for each key, that of the last metric with the key -/
theorem matrix_spec (ms : List Metric) : ((ms.foldl (fun out m => assign out m.key m.getSeries) []).map Prod.fst).Nodup ∧
    ∀ k s, (k, s) ∈ ms.foldl (fun out m => assign out m.key m.getSeries) [] ↔ ∃ m, lastKeyed k ms = some m ∧ m.getSeries = s := by
  have key : ∀ rest done : List Metric, ∀ out : List (Bytes × Series), (out.map Prod.fst).Nodup →
      (∀ k s, (k, s) ∈ out ↔ ∃ m, lastKeyed k done = some m ∧ m.getSeries = s) →
      ((rest.foldl (fun out m => assign out m.key m.getSeries) out).map Prod.fst).Nodup ∧
      ∀ k s, (k, s) ∈ rest.foldl (fun out m => assign out m.key m.getSeries) out ↔ ∃ m, lastKeyed k (done ++ rest) = some m ∧ m.getSeries = s := by
    intro rest
    induction rest with
    | nil => intro done out h1 h2; exact ⟨h1, by simpa using h2⟩
    | cons m rest ih =>
      intro done out h1 h2
      have := ih (done ++ [m]) (assign out m.key m.getSeries) (assign_nodup _ _ h1) (by
        intro k s
        rw [mem_assign, lastKeyed_append, h2]
        by_cases hk : m.key = k
        · subst hk; simp [eq_comm]
        · simp [hk, Ne.symm hk])
      simpa using this
  simpa using key ms [] [] (by simp) (by simp [lastKeyed])

theorem lastKeyed_some {k : Bytes} {m : Metric} : ∀ {ms : List Metric}, lastKeyed k ms = some m → m ∈ ms ∧ m.key = k
  | [], h => by simp [lastKeyed] at h
  | n :: ms, h => by
    rw [lastKeyed] at h
    cases hn : lastKeyed k ms with
    | some o =>
      rw [hn] at h
      obtain rfl := Option.some.inj h
      obtain ⟨h1, h2⟩ := lastKeyed_some hn
      exact ⟨by simp [h1], h2⟩
    | none =>
      rw [hn] at h
      simp only at h
      split at h
      · next hk => obtain rfl := Option.some.inj h; exact ⟨by simp, hk⟩
      · cases h

theorem lastKeyed_none {k : Bytes} : ∀ {ms : List Metric}, lastKeyed k ms = none ↔ k ∉ ms.map Metric.key
  | [] => by simp [lastKeyed]
  | n :: ms => by
    rw [lastKeyed]
    cases hn : lastKeyed k ms with
    | some o =>
      have := lastKeyed_some hn
      simp only [reduceCtorEq, List.map_cons, List.mem_cons, List.mem_map, false_iff, Classical.not_not]
      exact .inr ⟨o, this⟩
    | none =>
      have := lastKeyed_none.mp hn
      simp only [List.map_cons, List.mem_cons, this, or_false]
      by_cases h : n.key = k
      · simp [h]
      · simp [h, Ne.symm h]

/-- the last field of the flat document -/
theorem lastNamed_flat (g : Metric → BVal) (k : Bytes) : ∀ ms : List Metric, lastNamed k (ms.map fun m => (m.key, g m)) = (lastKeyed k ms).map g
  | [] => rfl
  | m :: ms => by
    simp only [List.map_cons, lastNamed, lastKeyed, lastNamed_flat g k ms]
    cases lastKeyed k ms with
    | some n => rfl
    | none => by_cases h : m.key = k <;> simp [h]

theorem good_numbers {c : Chunk} {fs : Fields} (h : Good c fs) : ∀ m ∈ c.metrics, Number m.originalType := by
  intro m hm
  have h1 : tag m ∈ c.metrics.map tag := List.mem_map_of_mem hm
  rw [h.tags] at h1
  simp only [tags, List.mem_flatMap] at h1
  obtain ⟨n, hn, h2⟩ := h1
  have h3 := numbersF_types fs n hn
  have h4 : m.originalType = n.2 := by
    have : (tag m).2 = n.2 := by
      split at h2
      · simp only [List.mem_cons, List.not_mem_nil, or_false] at h2
        rcases h2 with h2 | h2 <;> rw [h2]
      · simp only [List.mem_cons, List.not_mem_nil, or_false] at h2
        rw [h2]
    exact this
  rw [h4]; exact h3

theorem exportMatrix_nodup {c : Chunk} (h : (c.metrics.map Metric.key).Nodup) : c.exportMatrix = c.metrics.map fun m => (m.key, m.getSeries) := by
  unfold Chunk.exportMatrix
  have key : ∀ rest done : List Metric, ((done ++ rest).map Metric.key).Nodup →
      rest.foldl (fun out m => assign out m.key m.getSeries) (done.map fun m => (m.key, m.getSeries)) = (done ++ rest).map fun m => (m.key, m.getSeries) := by
    intro rest
    induction rest with
    | nil => intro done _; simp
    | cons m rest ih =>
      intro done hn
      rw [List.foldl_cons]
      have : assign (done.map fun m => (m.key, m.getSeries)) m.key m.getSeries = (done ++ [m]).map fun m => (m.key, m.getSeries) := by
        unfold assign
        rw [List.map_append]
        congr 1
        rw [List.filter_eq_self]
        intro e he
        simp only [List.mem_map] at he
        obtain ⟨n, h1, rfl⟩ := he
        simp only [List.map_append, List.map_cons, List.nodup_append, List.mem_map, List.mem_cons] at hn
        simpa using hn.2.2 n.key ⟨n, h1, rfl⟩ m.key (.inl rfl)
      rw [this, ih (done ++ [m]) (by simpa using hn)]
      simp
  simpa using key c.metrics [] (by simpa using h)

/-- the loop with a marshaler that fails or gives documents -/
theorem seriesLoop_some {f : List (Bytes × Series) → Option Bytes} {g : List (Bytes × Series) → Option Fields} (hfg : ∀ m, f m = (g m).map encDoc)
    {fuel : Nat} : ∀ cs : List Chunk, (∀ c ∈ cs, ∀ fs, g c.exportMatrix = some fs → fs.WF ∧ (encDoc fs).length < 2147483648 ∧ (encDoc fs).length < fuel) →
    ∃ ds, seriesLoop (some f) fuel cs = .ok (ds, (cs.filter fun c => (g c.exportMatrix).isNone).map fun _ => .other) ∧
      RepDocs ds (cs.filterMap fun c => g c.exportMatrix)
  | [], _ => ⟨[], rfl, by simp [RepDocs]⟩
  | c :: cs, h => by
    obtain ⟨ds, h1, h2⟩ := seriesLoop_some hfg cs (fun c hc => h c (by simp [hc]))
    simp only [seriesLoop, hfg]
    cases hg : g c.exportMatrix with
    | none => exact ⟨ds, by simp [h1, hg], by simpa [hg] using h2⟩
    | some fs =>
      obtain ⟨w1, w2, w3⟩ := h c (by simp) fs hg
      obtain ⟨d, h3, h4⟩ := readDocument_enc fuel fs w1 [] w3 (by simpa using w2)
      rw [List.append_nil] at h3
      exact ⟨d :: ds, by simp [h3, h1, hg], by simpa [hg] using ⟨h4, h2⟩⟩

/-- the document a registered marshaler's payload is read as, if it is one -/
theorem seriesLoop_any {f : List (Bytes × Series) → Option Bytes} {fuel : Nat} : ∀ cs : List Chunk,
    (∀ c ∈ cs, ∀ p, f c.exportMatrix = some p → (∃ d, readDocument fuel p = .ok d) ∨ ∃ e, readDocument fuel p = .err e) →
    ∃ ds es, seriesLoop (some f) fuel cs = .ok (ds, es) ∧ ds.length + es.length = cs.length ∧
      (∀ c ∈ cs, ∀ p d, f c.exportMatrix = some p → readDocument fuel p = .ok d → d ∈ ds) ∧
      (∀ c ∈ cs, ∀ p e, f c.exportMatrix = some p → readDocument fuel p = .err e → e ∈ es) ∧
      ∀ d ∈ ds, ∃ c ∈ cs, ∃ p, f c.exportMatrix = some p ∧ readDocument fuel p = .ok d
  | [], _ => ⟨[], [], rfl, rfl, by simp, by simp, by simp⟩
  | c :: cs, h => by
    obtain ⟨ds, es, h1, h2, h3, h4, h5⟩ := seriesLoop_any cs (fun c hc => h c (by simp [hc]))
    have h5' : ∀ d ∈ ds, ∃ c' ∈ c :: cs, ∃ p, f c'.exportMatrix = some p ∧ readDocument fuel p = .ok d := fun d hd => by
      obtain ⟨c', a, b⟩ := h5 d hd
      exact ⟨c', by simp [a], b⟩
    simp only [seriesLoop]
    cases hf : f c.exportMatrix with
    | none =>
      refine ⟨ds, .other :: es, by simp [h1], by simp; omega, ?_, ?_, h5'⟩
      · intro c' hc p d hp hd
        rcases List.mem_cons.mp hc with rfl | hc
        · rw [hf] at hp; cases hp
        · exact h3 c' hc p d hp hd
      · intro c' hc p e hp hd
        rcases List.mem_cons.mp hc with rfl | hc
        · rw [hf] at hp; cases hp
        · simp [h4 c' hc p e hp hd]
    | some p =>
      rcases h c (by simp) p hf with ⟨d, hd⟩ | ⟨e, hd⟩
      · refine ⟨d :: ds, es, by simp [h1, hd], by simp; omega, ?_, ?_, ?_⟩
        · intro c' hc p' d' hp hd'
          rcases List.mem_cons.mp hc with rfl | hc
          · rw [hf] at hp; cases hp; rw [hd] at hd'; cases hd'; simp
          · simp [h3 c' hc p' d' hp hd']
        · intro c' hc p' e' hp hd'
          rcases List.mem_cons.mp hc with rfl | hc
          · rw [hf] at hp; cases hp; rw [hd] at hd'; cases hd'
          · exact h4 c' hc p' e' hp hd'
        · intro d' hd'
          rcases List.mem_cons.mp hd' with rfl | hd'
          · exact ⟨c, by simp, p, hf, hd⟩
          · exact h5' d' hd'
      · refine ⟨ds, e :: es, by simp [h1, hd], by simp; omega, ?_, ?_, h5'⟩
        · intro c' hc p' d' hp hd'
          rcases List.mem_cons.mp hc with rfl | hc
          · rw [hf] at hp; cases hp; rw [hd] at hd'; cases hd'
          · exact h3 c' hc p' d' hp hd'
        · intro c' hc p' e' hp hd'
          rcases List.mem_cons.mp hc with rfl | hc
          · rw [hf] at hp; cases hp; rw [hd] at hd'; cases hd'; simp
          · simp [h4 c' hc p' e' hp hd']

end Birch.Proofs.Ftdc
