import Verif.Spec.GoStats
import Verif.Proofs.Events

namespace Birch.Proofs.GoStats
open Birch Model Model.GoStats Spec Spec.GoStats
open Birch.Model.Events (timeSub zeroTime)
open Birch.Spec.Events (IsInt64)

/-- where the counter is in the cache -/
def data : Counter → Stats → Data
  | .mallocs, s => s.mallocs
  | .frees, s => s.frees
  | .collections, s => s.gcRate
  | .cgoCalls, s => s.cgoCalls

theorem i64_small {i : Int} (h : IsInt64 i) : i64 i = i := by
  unfold IsInt64 at h; unfold i64; omega

theorem timeSub_eq (t u : Time) : timeSub t u = duration (nanoseconds t - nanoseconds u) := by
  unfold timeSub duration nanoseconds
  dsimp only
  split
  · omega
  · split <;> omega

/-- the cache after a history -/
structure After (s : Stats) (h : List Collection) : Prop where
  current : ∀ c, (data c s).current = totalBefore c h
  last : nanoseconds s.lastCollection = timeBefore h

theorem after_new : After Stats.new [] := ⟨by intro c; cases c <;> rfl, by decide⟩

theorem plausible_total {x : Seen} (h : Plausible x) (c : Counter) : IsInt64 (total c x) := by
  have := h.2 c; unfold IsInt64; omega

theorem update_data {s : Stats} {x : Seen} (hx : Plausible x) (c : Counter) : data c (s.update x) = ⟨(data c s).current, total c x⟩ := by
  have h := plausible_total hx c
  cases c
  · show Data.mk _ (i64 (total .mallocs x)) = _; rw [i64_small h]; rfl
  · show Data.mk _ (i64 (total .frees x)) = _; rw [i64_small h]; rfl
  · rfl
  · rfl

theorem update_elapsed {s : Stats} {h : List Collection} (hs : After s h) (x : Seen) : (s.update x).elapsed = elapsed h x := by
  show timeSub x.now s.lastCollection = _
  rw [timeSub_eq, hs.last]; rfl

theorem update_after {s : Stats} {x : Seen} (hx : Plausible x) (k : Option Kind) (h : List Collection) : After (s.update x) ((k, x) :: h) :=
  ⟨fun c => by rw [update_data hx c]; rfl, rfl⟩

theorem before_range {h : List Collection} (hh : ∀ y ∈ h, Plausible y.2) (c : Counter) : 0 ≤ totalBefore c h ∧ totalBefore c h < 9223372036854775808 := by
  cases h with
  | nil => exact ⟨by simp [totalBefore], by simp [totalBefore]⟩
  | cons y ys => exact (hh y (by simp)).2 c

theorem tdiv_range {a b : Int} (ha : -9223372036854775808 < a) (ha' : a < 9223372036854775808) : IsInt64 (a.tdiv b) := by
  have h1 := Int.natAbs_tdiv_le_natAbs a b
  unfold IsInt64; omega

theorem counter_value {s : Stats} {h : List Collection} (hs : After s h) (hh : ∀ y ∈ h, Plausible y.2) {x : Seen} (hx : Plausible x) (k : Kind) (c : Counter) :
    (s.update x).counter k (data c (s.update x)) = value k c h x := by
  have hb := before_range hh c
  have ht := hx.2 c
  have hd : (data c (s.update x)).diff = total c x - totalBefore c h := by
    rw [update_data hx c, hs.current]
    exact i64_small (by unfold IsInt64; dsimp only; omega)
  cases k
  · show (data c (s.update x)).current = _; rw [update_data hx c]; rfl
  · simp only [Stats.counter, Stats.getRate, hd, update_elapsed hs, value]
    split <;> rfl
  · simp only [Stats.counter, Stats.getRate, hd, update_elapsed hs, value]
    split
    · rfl
    · rename_i hne
      simp only [Rate.int, hne, if_false]
      exact i64_small (tdiv_range (by omega) (by omega))

theorem float_rate (fdiv : Int → Int → Nat) {s : Stats} {h : List Collection} (hs : After s h) (hh : ∀ y ∈ h, Plausible y.2) {x : Seen} (hx : Plausible x) (c : Counter) :
    ((s.update x).getRate (data c (s.update x)).diff).float fdiv = basicRate fdiv c h x := by
  have hb := before_range hh c
  have ht := hx.2 c
  have hd : (data c (s.update x)).diff = total c x - totalBefore c h := by
    rw [update_data hx c, hs.current]
    exact i64_small (by unfold IsInt64; dsimp only; omega)
  simp only [Stats.getRate, hd, update_elapsed hs, basicRate]
  split
  · rfl
  · rename_i hne; simp only [Rate.float, hne, if_false]

theorem collectAll_snoc : ∀ (cs : List Collection) (s : Stats) (x : Seen), (collectAll s cs).1.update x = (collectAll s (cs ++ [(none, x)])).1
  | [], _, _ => rfl
  | (some _, _) :: cs, _, x => collectAll_snoc cs _ x
  | (none, _) :: cs, _, x => collectAll_snoc cs _ x

theorem build_given {s : Stats} {h : List Collection} (hs : After s h) (hh : ∀ y ∈ h, Plausible y.2) {x : Seen} (hx : Plausible x) (k : Kind) (c : Counter) :
    given c (s.build k x).2 = value k c h x := by
  rw [← counter_value hs hh hx]
  cases c <;> rfl

theorem collectAll_values (c : Counter) : ∀ (cs : List Collection) (s : Stats) (h : List Collection), After s h → (∀ y ∈ h, Plausible y.2) → (∀ y ∈ cs, Plausible y.2) →
    (collectAll s cs).2.map (Option.map (given c)) = values c h cs
  | [], _, _, _, _, _ => rfl
  | (some k, x) :: cs, s, h, hs, hh, hc => by
    have hx : Plausible x := hc (some k, x) (by simp)
    have ih := collectAll_values c cs (s.update x) ((some k, x) :: h) (update_after hx _ _)
      (by intro y hy; simp at hy; rcases hy with rfl | hy; exact hx; exact hh y hy) (fun y hy => hc y (by simp [hy]))
    show some (given c (s.build k x).2) :: (collectAll (s.update x) cs).2.map _ = some _ :: _
    rw [build_given hs hh hx, ih]
  | (none, x) :: cs, s, h, hs, hh, hc => by
    have hx : Plausible x := hc (none, x) (by simp)
    have ih := collectAll_values c cs (s.update x) ((none, x) :: h) (update_after hx _ _)
      (by intro y hy; simp at hy; rcases hy with rfl | hy; exact hx; exact hh y hy) (fun y hy => hc y (by simp [hy]))
    show none :: (collectAll (s.update x) cs).2.map _ = none :: _
    rw [ih]

theorem collectAll_after : ∀ (cs : List Collection) (s : Stats) (h : List Collection), After s h → (∀ y ∈ cs, Plausible y.2) → After (collectAll s cs).1 (cs.reverse ++ h)
  | [], _, _, hs, _ => hs
  | (some k, x) :: cs, s, h, _, hc => by
    have ih := collectAll_after cs (s.update x) ((some k, x) :: h) (update_after (hc (some k, x) (by simp)) _ _) (fun y hy => hc y (by simp [hy]))
    simpa [collectAll, Stats.build] using ih
  | (none, x) :: cs, s, h, _, hc => by
    have ih := collectAll_after cs (s.update x) ((none, x) :: h) (update_after (hc (none, x) (by simp)) _ _) (fun y hy => hc y (by simp [hy]))
    simpa [collectAll] using ih

/-! ### sums of deltas -/

theorem sum_deltas (c : Counter) : ∀ (xs : List Seen) (h : List Collection), Moves (timeBefore h) xs →
    ((values c h (xs.map fun x => (some .deltas, x))).map (·.getD 0)).sum = totalBefore c ((xs.map fun x => (some Kind.deltas, x)).reverse ++ h) - totalBefore c h
  | [], h, _ => by simp [values]
  | x :: xs, h, hm => by
    have ih := sum_deltas c xs ((some .deltas, x) :: h) hm.2
    have he : elapsed h x ≠ 0 := by
      have := hm.1
      unfold elapsed duration; omega
    simp only [List.map_cons, values, Option.map_some, Option.getD_some, List.sum_cons, ih, List.reverse_cons, List.append_assoc, List.singleton_append]
    simp only [value, he, if_false, totalBefore]
    omega

/-! ### pauses -/

theorem pause_ring {pauses : List Nat} {m : MemStats} (hr : Ring pauses m.pauseNs) (hn : m.numGC = pauses.length % 4294967296) :
    m.pauseNs (u32 (m.numGC + 255) % 256) = pauses.getLast?.getD 0 := by
  have hi : u32 (m.numGC + 255) % 256 = (pauses.length + 255) % 256 := by unfold u32; omega
  rw [hi]
  cases hl : pauses.length with
  | zero =>
    have : pauses = [] := List.length_eq_zero_iff.mp hl
    rw [hr.2 _ (by omega) (by omega), this]; rfl
  | succ n =>
    have := hr.1 n (by omega) (by omega)
    rw [show (n + 1 + 255) % 256 = n % 256 by omega, this, List.getLast?_eq_getElem?, hl]; rfl

/-! ### documents -/

theorem info_rep {i : Info} (h : InfoFits i) : ∃ d, i.marshalDocument = .ok d ∧ RepFields d (infoFields i) := by
  obtain ⟨h1, h2, h3, h4, h5, h6, h7, h8, h9⟩ := h
  have nat : ∀ {k : Bytes} {n : Nat}, NulFree k → k.length < 100 → n < 9223372036854775808 → ∃ v, EC.int64 k (toInt64 n) = .ok v ∧ Rep v k (.int64 n) := by
    intro k n hk hl hn
    have hr : IsInt64 (n : Int) := by unfold IsInt64; omega
    have he : toInt64 n = n := i64_small hr
    rw [he]
    exact Events.int64_ok hk hl hr
  obtain ⟨v1, e1, r1⟩ := nat (k := kHeapObjects) (by simp [NulFree, kHeapObjects]) (by decide) h1
  obtain ⟨v2, e2, r2⟩ := nat (k := kAlloc) (by simp [NulFree, kAlloc]) (by decide) h2
  obtain ⟨v3, e3, r3⟩ := nat (k := kSystem) (by simp [NulFree, kSystem]) (by decide) h3
  obtain ⟨v4, e4, r4⟩ := nat (k := kIdle) (by simp [NulFree, kIdle]) (by decide) h4
  obtain ⟨v5, e5, r5⟩ := nat (k := kUsed) (by simp [NulFree, kUsed]) (by decide) h5
  obtain ⟨v6, e6, r6⟩ := Events.int64_ok (k := kMallocs) (by simp [NulFree, kMallocs]) (by decide) (h6 .mallocs)
  obtain ⟨v7, e7, r7⟩ := Events.int64_ok (k := kFrees) (by simp [NulFree, kFrees]) (by decide) (h6 .frees)
  obtain ⟨v8, e8, r8⟩ := Events.int64_ok (k := kGC) (by simp [NulFree, kGC]) (by decide) (h6 .collections)
  obtain ⟨v9, e9, r9⟩ := Events.int64_ok (k := kPause) (by simp [NulFree, kPause]) (by decide) h7
  obtain ⟨v10, e10, r10⟩ := Events.int64_ok (k := kLatency) (by simp [NulFree, kLatency]) (by decide) h8
  obtain ⟨v11, e11, r11⟩ := Events.int64_ok (k := kGoroutines) (by simp [NulFree, kGoroutines]) (by decide) h9
  obtain ⟨v12, e12, r12⟩ := Events.int64_ok (k := kCgo) (by simp [NulFree, kCgo]) (by decide) (h6 .cgoCalls)
  refine ⟨[v1, v2, v3, v4, v5, v6, v7, v8, v9, v10, v11, v12], ?_, r1, r2, r3, r4, r5, r6, r7, r8, r9, r10, r11, r12, trivial⟩
  simp only [given] at e6 e7 e8 e12
  unfold Info.marshalDocument
  simp only [e1, e2, e3, e4, e5, e6, e7, e8, e9, e10, e11, e12, Res.bind_ok]

end Birch.Proofs.GoStats
