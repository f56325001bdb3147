import Verif.Proofs.FtdcTree
import Verif.Proofs.DecimalParse
import Verif.Spec.FtdcViews

/- The keys of metrics. -/

namespace Birch.Proofs.Ftdc
open Birch Model Model.Ftdc Spec

/-- what `mets` makes of a number -/
def entry (p : List Bytes) (n : List Bytes × UInt8) : List (List Bytes × Bytes × UInt8) :=
  if n.2 = 0x11 then [(p ++ n.1.dropLast.take 1, n.1.getLastD [], n.2), (p ++ n.1.dropLast.take 1, n.1.getLastD [] ++ [46, 105, 110, 99], n.2)]
  else [(p ++ n.1.dropLast.take 1, n.1.getLastD [], n.2)]

mutual
theorem numbers_ne : ∀ (t : BVal) (k : Bytes), ∀ n ∈ t.numbers k, n.1 ≠ []
  | .doc fs, k, n, h => by
    simp only [BVal.numbers, List.mem_map] at h
    obtain ⟨m, _, rfl⟩ := h; simp
  | .array vs, k, n, h => numbersV_ne vs k 0 n h
  | .double _, _, n, h | .bool _, _, n, h | .datetime _, _, n, h | .int32 _, _, n, h | .int64 _, _, n, h | .timestamp _ _, _, n, h => by
    simp only [BVal.numbers, List.mem_singleton] at h; subst h; simp
  | .string _, _, _, h | .binary _ _, _, _, h | .undefined, _, _, h | .oid _, _, _, h | .null, _, _, h | .regex _ _, _, _, h | .dbpointer _ _, _, _, h
  | .js _, _, _, h | .symbol _, _, _, h | .codeScope _ _, _, _, h | .decimal _ _, _, _, h | .minKey, _, _, h | .maxKey, _, _, h => by simp [BVal.numbers] at h
theorem numbersF_ne : ∀ (fs : Fields), ∀ n ∈ fs.numbers, n.1 ≠ []
  | .nil, _, h => by simp [Fields.numbers] at h
  | .cons k v rest, n, h => by
    rcases List.mem_append.mp h with h | h
    · exact numbers_ne v k n h
    · exact numbersF_ne rest n h
theorem numbersV_ne : ∀ (vs : Vals) (k : Bytes) (i : Nat), ∀ n ∈ vs.numbers k i, n.1 ≠ []
  | .nil, _, _, _, h => by simp [Vals.numbers] at h
  | .cons v rest, k, i, n, h => by
    rcases List.mem_append.mp h with h | h
    · exact numbers_ne v _ n h
    · exact numbersV_ne rest k (i + 1) n h
end

def face (m : Metric) : List Bytes × Bytes × UInt8 := (m.parentPath, m.keyName, m.originalType)

theorem entry_sub (p : List Bytes) (k : Bytes) (n : List Bytes × UInt8) (h : n.1 ≠ []) :
    (entry (p ++ [k]) n).map (fun e => (p ++ [k], e.2.1, e.2.2)) = entry p (k :: n.1, n.2) := by
  obtain ⟨tr, ty⟩ := n
  simp only at h
  have h1 : (k :: tr).dropLast.take 1 = [k] := by
    cases tr with
    | nil => exact absurd rfl h
    | cons a l => simp
  have h2 : (k :: tr).getLastD [] = tr.getLastD [] := by
    cases tr with
    | nil => exact absurd rfl h
    | cons a l => simp
  unfold entry
  simp only [h1, h2]
  split <;> simp

mutual
theorem mets_face : ∀ (t : BVal) (k : Bytes) (p : List Bytes), (mets k p t).map face = (t.numbers k).flatMap (entry p)
  | .doc fs, k, p => by
    simp only [mets, BVal.numbers, List.map_map]
    have hh : (metsF (p ++ [k]) fs).map (face ∘ fun ne => ({ parentPath := p ++ [k], keyName := ne.keyName, values := [], startingValue := ne.startingValue, originalType := ne.originalType } : Metric)) =
        ((metsF (p ++ [k]) fs).map face).map (fun e => (p ++ [k], e.2.1, e.2.2)) := by
      rw [List.map_map]; rfl
    rw [hh, metsF_face fs (p ++ [k]), List.map_flatMap, List.flatMap_map]
    rw [List.flatMap_def, List.flatMap_def]
    congr 1
    apply List.map_congr_left
    intro n hn
    exact entry_sub p k n (numbersF_ne fs n hn)
  | .array vs, k, p => metsV_face vs k p 0
  | .double _, _, _ | .bool _, _, _ | .datetime _, _, _ | .int32 _, _, _ | .int64 _, _, _ | .timestamp _ _, _, _ => by
    simp [mets, BVal.numbers, entry, face]
  | .string _, _, _ | .binary _ _, _, _ | .undefined, _, _ | .oid _, _, _ | .null, _, _ | .regex _ _, _, _ | .dbpointer _ _, _, _
  | .js _, _, _ | .symbol _, _, _ | .codeScope _ _, _, _ | .decimal _ _, _, _ | .minKey, _, _ | .maxKey, _, _ => rfl
theorem metsF_face : ∀ (fs : Fields) (p : List Bytes), (metsF p fs).map face = fs.numbers.flatMap (entry p)
  | .nil, _ => rfl
  | .cons k v rest, p => by simp [metsF, Fields.numbers, mets_face v k p, metsF_face rest p]
theorem metsV_face : ∀ (vs : Vals) (k : Bytes) (p : List Bytes) (i : Nat), (metsV k p i vs).map face = (vs.numbers k i).flatMap (entry p)
  | .nil, _, _, _ => rfl
  | .cons v rest, k, p, i => by simp [metsV, Vals.numbers, itoa_eq, mets_face v _ p, metsV_face rest k p (i + 1)]
end

theorem joinDots_eq : ∀ l, joinDots l = dotted l
  | [] => rfl
  | [_] => rfl
  | k :: l :: rest => by simp only [joinDots, dotted, joinDots_eq (l :: rest)]

/-- a metric without its values and starting value -/
def tag (m : Metric) : Bytes × UInt8 := (m.key, m.originalType)

theorem entry_key (n : List Bytes × UInt8) (h : n.1 ≠ []) :
    (entry [] n).map (fun e => (dotted (e.1 ++ [e.2.1]), e.2.2)) =
      if n.2 = 0x11 then [(dotted (firstLast n.1), n.2), (dotted (firstLast n.1) ++ [46, 105, 110, 99], n.2)] else [(dotted (firstLast n.1), n.2)] := by
  obtain ⟨tr, ty⟩ := n
  simp only at h
  unfold entry
  match tr, h with
  | [k], _ => simp only [firstLast]; split <;> simp [dotted]
  | k :: l :: rest, _ =>
    have h1 : (k :: l :: rest).dropLast.take 1 = [k] := by simp
    have h2 : (k :: l :: rest).getLastD [] = (l :: rest).getLastD [] := by simp
    simp only [firstLast, h1, h2]
    split <;> simp [dotted]

/-- the keys and types of the metrics of a document -/
def tags (l : List (List Bytes × UInt8)) : List (Bytes × UInt8) :=
  l.flatMap fun n => if n.2 = 0x11 then [(dotted (firstLast n.1), n.2), (dotted (firstLast n.1) ++ [46, 105, 110, 99], n.2)] else [(dotted (firstLast n.1), n.2)]

theorem metsF_tags (fs : Fields) : (metsF [] fs).map tag = tags fs.numbers := by
  have h1 : (metsF [] fs).map tag = ((metsF [] fs).map face).map (fun e => (dotted (e.1 ++ [e.2.1]), e.2.2)) := by
    rw [List.map_map]
    apply List.map_congr_left
    intro m _
    simp [tag, face, Metric.key, joinDots_eq]
  rw [h1, metsF_face, List.map_flatMap, tags, List.flatMap_def, List.flatMap_def]
  congr 1
  apply List.map_congr_left
  intro n hn
  exact entry_key n (numbersF_ne fs n hn)

theorem tags_names (l : List (List Bytes × UInt8)) : (tags l).map Prod.fst = metricNames (fun t => dotted (firstLast t)) l := by
  unfold tags metricNames
  rw [List.map_flatMap]
  congr 1
  funext n
  split <;> rfl

/-! ### full paths are distinct -/

/-- `s` is the name `k`, or `k` and a dot and more -/
def Under (k s : Bytes) : Prop := ∃ rest, s = k ++ rest ∧ (rest = [] ∨ rest.head? = some 46)

theorem under_append {k s x : Bytes} (h : Under k s) : Under k (s ++ 46 :: x) := by
  obtain ⟨rest, rfl, h⟩ := h
  refine ⟨rest ++ 46 :: x, by simp, .inr ?_⟩
  rcases h with rfl | h
  · rfl
  · cases rest with
    | nil => cases h
    | cons a r => exact h

theorem under_trans {k x s : Bytes} (h : Under (k ++ 46 :: x) s) : Under k s := by
  obtain ⟨rest, rfl, _⟩ := h
  exact ⟨46 :: (x ++ rest), by simp, .inr rfl⟩

theorem under_dotted (k : Bytes) (tr : List Bytes) : Under k (dotted (k :: tr)) := by
  cases tr with
  | nil => exact ⟨[], by simp [dotted], .inl rfl⟩
  | cons a l => exact ⟨46 :: dotted (a :: l), rfl, .inr rfl⟩

theorem until_dot : ∀ {k l r s : Bytes}, 46 ∉ k → 46 ∉ l → (r = [] ∨ r.head? = some 46) → (s = [] ∨ s.head? = some 46) → k ++ r = l ++ s → k = l
  | [], [], _, _, _, _, _, _, _ => rfl
  | [], b :: l, r, s, _, hl, hr, _, e => by
    rcases hr with rfl | hr
    · simp at e
    · rw [List.nil_append] at e; subst e; simp at hr; subst hr; simp at hl
  | a :: k, [], r, s, hk, _, _, hs, e => by
    rcases hs with rfl | hs
    · simp at e
    · rw [List.nil_append] at e; subst e; simp at hs; subst hs; simp at hk
  | a :: k, b :: l, r, s, hk, hl, hr, hs, e => by
    simp only [List.cons_append, List.cons.injEq] at e
    simp only [List.mem_cons, not_or] at hk hl
    rw [e.1, until_dot hk.2 hl.2 hr hs e.2]

theorem under_ne {k l s : Bytes} (hk : 46 ∉ k) (hl : 46 ∉ l) (h : Under k s) (h' : Under l s) : k = l := by
  obtain ⟨r, rfl, hr⟩ := h
  obtain ⟨r', e, hr'⟩ := h'
  exact until_dot hk hl hr hr' e

theorem decimal_nodot (i : Nat) : 46 ∉ decimalKey i := fun h => by
  have := Proofs.Decimal.key_digit i 46 h
  unfold Spec.Decimal.Digit at this
  revert this; decide

theorem under_index {k s : Bytes} {i j : Nat} (h : Under (k ++ 46 :: decimalKey i) s) (h' : Under (k ++ 46 :: decimalKey j) s) : i = j := by
  obtain ⟨r, rfl, hr⟩ := h
  obtain ⟨r', e, hr'⟩ := h'
  simp only [List.append_assoc, List.cons_append, List.append_cancel_left_eq, List.cons.injEq, true_and] at e
  have := until_dot (decimal_nodot i) (decimal_nodot j) hr hr' e
  rw [← Proofs.Decimal.key_value i, this, Proofs.Decimal.key_value]

theorem metricNames_append (f : List Bytes → Bytes) (a b : List (List Bytes × UInt8)) : metricNames f (a ++ b) = metricNames f a ++ metricNames f b := by
  simp [metricNames]

theorem metricNames_under {k : Bytes} {l : List (List Bytes × UInt8)} (h : ∀ n ∈ l, Under k (dotted n.1)) : ∀ s ∈ metricNames dotted l, Under k s := by
  intro s hs
  simp only [metricNames, List.mem_flatMap] at hs
  obtain ⟨n, hn, hs⟩ := hs
  split at hs
  · simp only [List.mem_cons, List.not_mem_nil, or_false] at hs
    rcases hs with rfl | rfl
    · exact h n hn
    · exact under_append (h n hn)
  · simp only [List.mem_singleton] at hs; subst hs; exact h n hn

mutual
theorem numbers_under : ∀ (t : BVal) (k : Bytes), ∀ n ∈ t.numbers k, Under k (dotted n.1)
  | .doc fs, k, n, h => by
    simp only [BVal.numbers, List.mem_map] at h
    obtain ⟨m, _, rfl⟩ := h
    exact under_dotted k m.1
  | .array vs, k, n, h => by
    obtain ⟨i, _, h⟩ := numbersV_under vs k 0 n h
    exact under_trans h
  | .double _, k, n, h | .bool _, k, n, h | .datetime _, k, n, h | .int32 _, k, n, h | .int64 _, k, n, h | .timestamp _ _, k, n, h => by
    simp only [BVal.numbers, List.mem_singleton] at h; subst h; exact under_dotted k []
  | .string _, _, _, h | .binary _ _, _, _, h | .undefined, _, _, h | .oid _, _, _, h | .null, _, _, h | .regex _ _, _, _, h | .dbpointer _ _, _, _, h
  | .js _, _, _, h | .symbol _, _, _, h | .codeScope _ _, _, _, h | .decimal _ _, _, _, h | .minKey, _, _, h | .maxKey, _, _, h => by simp [BVal.numbers] at h
theorem numbersV_under : ∀ (vs : Vals) (k : Bytes) (i : Nat), ∀ n ∈ vs.numbers k i, ∃ j, i ≤ j ∧ Under (k ++ 46 :: decimalKey j) (dotted n.1)
  | .nil, _, _, _, h => by simp [Vals.numbers] at h
  | .cons v rest, k, i, n, h => by
    rcases List.mem_append.mp h with h | h
    · exact ⟨i, Nat.le_refl i, numbers_under v _ n h⟩
    · obtain ⟨j, hj, h⟩ := numbersV_under rest k (i + 1) n h
      exact ⟨j, by omega, h⟩
end

theorem numbersF_under : ∀ (fs : Fields), ∀ n ∈ fs.numbers, ∃ k ∈ fs.toList.map Prod.fst, Under k (dotted n.1)
  | .nil, _, h => by simp [Fields.numbers] at h
  | .cons k v rest, n, h => by
    rcases List.mem_append.mp h with h | h
    · exact ⟨k, by simp [Fields.toList], numbers_under v k n h⟩
    · obtain ⟨l, hl, h⟩ := numbersF_under rest n h
      exact ⟨l, by simp only [Fields.toList, List.map_cons, List.mem_cons]; exact .inr hl, h⟩

theorem metricNames_mem {l : List (List Bytes × UInt8)} {s : Bytes} (h : s ∈ metricNames dotted l) : ∃ n ∈ l, s = dotted n.1 ∨ s = dotted n.1 ++ [46, 105, 110, 99] := by
  simp only [metricNames, List.mem_flatMap] at h
  obtain ⟨n, hn, h⟩ := h
  refine ⟨n, hn, ?_⟩
  split at h <;> simp only [List.mem_cons, List.not_mem_nil, or_false] at h
  · exact h
  · exact .inl h

theorem plainF_keys : ∀ (fs : Fields), fs.Plain → ∀ k ∈ fs.toList.map Prod.fst, 46 ∉ k
  | .nil, _, k, h => by simp [Fields.toList] at h
  | .cons k v rest, hp, l, h => by
    simp only [Fields.Plain] at hp
    simp only [Fields.toList, List.map_cons, List.mem_cons] at h
    rcases h with rfl | h
    · exact hp.1
    · exact plainF_keys rest hp.2.2.2 l h

theorem metricNames_sub (k : Bytes) : ∀ (l : List (List Bytes × UInt8)), (∀ n ∈ l, n.1 ≠ []) →
    metricNames dotted (l.map fun n => (k :: n.1, n.2)) = (metricNames dotted l).map fun s => k ++ 46 :: s
  | [], _ => rfl
  | n :: l, h => by
    have ih := metricNames_sub k l (fun m hm => h m (by simp [hm]))
    have hd : dotted (k :: n.1) = k ++ 46 :: dotted n.1 := by
      have := h n (by simp)
      cases hn : n.1 with
      | nil => exact absurd hn this
      | cons a b => rfl
    have c1 : ∀ (a : List Bytes × UInt8) (b : List (List Bytes × UInt8)), metricNames dotted (a :: b) = metricNames dotted [a] ++ metricNames dotted b := by
      intro a b; simp [metricNames]
    rw [List.map_cons, c1, c1 n l, List.map_append, ih]
    congr 1
    simp only [metricNames, List.flatMap_cons, List.flatMap_nil, List.append_nil, hd]
    split <;> simp

mutual
theorem numbers_nodup : ∀ (t : BVal) (k : Bytes), t.Plain → (metricNames dotted (t.numbers k)).Nodup
  | .doc fs, k, h => by
    simp only [BVal.numbers]
    rw [metricNames_sub k _ (numbersF_ne fs)]
    exact List.Pairwise.map _ (fun a b (hab : a ≠ b) e => hab (by simpa using e)) (numbersF_nodup fs h)
  | .array vs, k, h => numbersV_nodup vs k 0 h
  | .timestamp _ _, k, _ => by simp [BVal.numbers, metricNames]
  | .double _, k, _ | .bool _, k, _ | .datetime _, k, _ | .int32 _, k, _ | .int64 _, k, _ => by simp [BVal.numbers, metricNames]
  | .string _, _, _ | .binary _ _, _, _ | .undefined, _, _ | .oid _, _, _ | .null, _, _ | .regex _ _, _, _ | .dbpointer _ _, _, _
  | .js _, _, _ | .symbol _, _, _ | .codeScope _ _, _, _ | .decimal _ _, _, _ | .minKey, _, _ | .maxKey, _, _ => by simp [BVal.numbers, metricNames]
theorem numbersF_nodup : ∀ (fs : Fields), fs.Plain → (metricNames dotted fs.numbers).Nodup
  | .nil, _ => by simp [Fields.numbers, metricNames]
  | .cons k v rest, h => by
    simp only [Fields.Plain] at h
    simp only [Fields.numbers, metricNames_append]
    refine List.nodup_append.mpr ⟨numbers_nodup v k h.2.1, numbersF_nodup rest h.2.2.2, ?_⟩
    rintro a ha b hb rfl
    have h1 := metricNames_under (numbers_under v k) a ha
    obtain ⟨n, hn, he⟩ := metricNames_mem hb
    obtain ⟨l, hl, hu⟩ := numbersF_under rest n hn
    have h2 : Under l a := by
      rcases he with rfl | rfl
      · exact hu
      · exact under_append hu
    exact h.2.2.1 (under_ne h.1 (plainF_keys rest h.2.2.2 l hl) h1 h2 ▸ hl)
theorem numbersV_nodup : ∀ (vs : Vals) (k : Bytes) (i : Nat), vs.Plain → (metricNames dotted (vs.numbers k i)).Nodup
  | .nil, _, _, _ => by simp [Vals.numbers, metricNames]
  | .cons v rest, k, i, h => by
    simp only [Vals.Plain] at h
    simp only [Vals.numbers, metricNames_append]
    refine List.nodup_append.mpr ⟨numbers_nodup v _ h.1, numbersV_nodup rest k (i + 1) h.2, ?_⟩
    rintro a ha b hb rfl
    have h1 := metricNames_under (numbers_under v _) a ha
    obtain ⟨n, hn, he⟩ := metricNames_mem hb
    obtain ⟨j, hj, hu⟩ := numbersV_under rest k (i + 1) n hn
    have h2 : Under (k ++ 46 :: decimalKey j) a := by
      rcases he with rfl | rfl
      · exact hu
      · exact under_append hu
    have := under_index h1 h2
    omega
end

end Birch.Proofs.Ftdc
