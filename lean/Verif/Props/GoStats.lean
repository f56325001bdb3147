import Verif.Proofs.GoStats

/- C82: statistics of the Go runtime. -/

namespace Birch.Props
open Birch Model Model.GoStats Spec Spec.GoStats

/-! ### C82 -/

/-- a collection at a time in seconds, with numbers of mallocs and frees -/
def exSeen (sec : Int) (mallocs frees : Nat) : Seen :=
  ⟨⟨sec, 0⟩, ⟨70, 4096, 65536, 1000, 2000, mallocs, frees, 3, 1000000000, fun i => if i < 3 then 10 * i + 7 else 0⟩, 2, 5, ⟨sec, 500000000⟩⟩

theorem exSeen_plausible {s : Int} {m f : Nat} (hm : m < 1000000000000000) (hf : f < 1000000000000000) : Plausible (exSeen s m f) := by
  refine ⟨by simp [exSeen], fun c => ?_⟩
  cases c <;> simp [total, exSeen] <;> omega

/-- Each collection returns, for each counter, what `value` says: the total, or what was added since the last collection of any kind by anyone, or that by the nanoseconds
    since then.  The latter two are zero if the clock has not moved. -/
theorem C82_counters (c : Counter) (cs : List Collection) (h : ∀ y ∈ cs, Plausible y.2) :
    (collectAll Stats.new cs).2.map (Option.map (given c)) = values c [] cs :=
  Proofs.GoStats.collectAll_values c cs Stats.new [] Proofs.GoStats.after_new nofun h

/-- the first delta is all there was; then 50 in a second, which is no rate at all, and 6000 million, which is 2 for each nanosecond of three seconds; the collection for
    `CollectBasicGoStats` takes 5 -/
example : values .mallocs [] [(some .deltas, exSeen 10 100 0), (some .rates, exSeen 11 150 0), (some .rates, exSeen 14 6000000150 0), (none, exSeen 15 6000000155 0),
    (some .deltas, exSeen 16 6000000157 0), (some .current, exSeen 17 6000000160 0)] = [some 100, some 0, some 2, none, some 2, some 6000000160] := by
  decide

example : ∀ y ∈ [(some Kind.deltas, exSeen 10 100 0), (some .rates, exSeen 11 150 0), (none, exSeen 11 150 0)], Plausible y.2 := by
  intro y hy
  simp at hy
  rcases hy with rfl | rfl | rfl <;> exact exSeen_plausible (by decide) (by decide)

/-- The sizes, the number of goroutines and the age of the last garbage collection (what fits a `time.Duration`) are as seen, and the pause is that of the last
    garbage collection, even after more than 2^32 of them. -/
theorem C82_rest (cs : List Collection) (k : Kind) (x : Seen) (pauses : List Nat) (hp : ∀ p ∈ pauses, p < 9223372036854775808)
    (hr : Ring pauses x.mem.pauseNs) (hn : x.mem.numGC = pauses.length % 4294967296) (hg : x.mem.lastGC < 9223372036854775808) :
    ∃ i, (collectAll Stats.new (cs ++ [(some k, x)])).2 = (collectAll Stats.new cs).2 ++ [some i] ∧
      i.heapObjects = x.mem.heapObjects ∧ i.alloc = x.mem.alloc ∧ i.heapSystem = x.mem.heapSys ∧ i.heapIdle = x.mem.heapIdle ∧ i.heapInUse = x.mem.heapInuse ∧
      i.goroutines = x.goroutines ∧ i.gcLatency = duration (nanoseconds x.later - x.mem.lastGC) ∧ i.gcPause = Int.ofNat (pauses.getLast?.getD 0) := by
  have happ : ∀ (cs : List Collection) (s : Stats), (collectAll s (cs ++ [(some k, x)])).2 = (collectAll s cs).2 ++ [some ((collectAll s cs).1.build k x).2] := by
    intro cs
    induction cs with
    | nil => intro s; rfl
    | cons y ys ih =>
      intro s
      obtain ⟨_ | k', x'⟩ := y
      · simp only [List.cons_append, collectAll, ih]
      · simp only [List.cons_append, collectAll, ih]
  refine ⟨_, happ cs _, rfl, rfl, rfl, rfl, rfl, rfl, ?_, ?_⟩
  · have he : toInt64 x.mem.lastGC = x.mem.lastGC := Proofs.GoStats.i64_small (by unfold Spec.Events.IsInt64; omega)
    have hn : nanoseconds (unixNano (toInt64 x.mem.lastGC)) = x.mem.lastGC := by
      rw [he]; unfold unixNano nanoseconds; dsimp only; omega
    rw [← hn]
    exact Proofs.GoStats.timeSub_eq _ _
  · have hlast : pauses.getLast?.getD 0 < 9223372036854775808 := by
      cases hl : pauses.getLast? with
      | none => simp
      | some p => exact hp p (List.mem_of_getLast? hl)
    rw [← Proofs.GoStats.pause_ring hr hn] at hlast ⊢
    exact Proofs.GoStats.i64_small (i := ((x.mem.pauseNs (u32 (x.mem.numGC + 255) % 256) : Nat) : Int)) (by unfold Spec.Events.IsInt64; constructor <;> omega)

example : Ring [7, 17, 27] (exSeen 1 0 0).mem.pauseNs ∧ (exSeen 1 0 0).mem.numGC = [7, 17, 27].length % 4294967296 := by
  refine ⟨⟨fun n hn _ => ?_, fun i h1 h2 => ?_⟩, by decide⟩
  · simp at hn
    have : n = 0 ∨ n = 1 ∨ n = 2 := by omega
    rcases this with rfl | rfl | rfl <;> rfl
  · simp at h1
    show (if i < 3 then _ else _) = _
    rw [if_neg (by omega)]

/-- As long as all collections are of this kind and the clock moves, the deltas add up to what was counted meanwhile.  Missing: collections at the same time
    (`C82_lost`) and collections of other kinds (`C82_taken`). -/
theorem C82_sum_partial (c : Counter) (cs : List Collection) (xs : List Seen) (x : Seen) (hc : ∀ y ∈ cs, Plausible y.2) (hx : ∀ y ∈ xs ++ [x], Plausible y)
    (hm : Moves (timeBefore cs.reverse) (xs ++ [x])) :
    (((collectAll (collectAll Stats.new cs).1 ((xs ++ [x]).map fun x => (some .deltas, x))).2.map (Option.map (given c))).map (·.getD 0)).sum =
      total c x - totalBefore c cs.reverse := by
  have ha := Proofs.GoStats.collectAll_after cs _ [] Proofs.GoStats.after_new hc
  rw [List.append_nil] at ha
  rw [Proofs.GoStats.collectAll_values c _ _ _ ha (by intro y hy; exact hc y (by simpa using hy))
    (by intro y hy; simp only [List.mem_map] at hy; obtain ⟨z, hz, rfl⟩ := hy; exact hx z hz)]
  rw [Proofs.GoStats.sum_deltas c _ _ hm]
  simp [totalBefore]

example : Moves (timeBefore [(some .current, exSeen 9 100 0)]) [exSeen 10 150 0, exSeen 11 170 0, exSeen 13 200 0] := by
  simp [Moves, timeBefore, nanoseconds, exSeen]

/-- Two collections at the same time: the second returns zero, and what was counted between them is in no delta, as the next starts from the second. -/
theorem C82_lost (c : Counter) (cs : List Collection) (x y z : Seen) (h : ∀ a ∈ cs ++ [(some .deltas, x), (some .deltas, y), (some .deltas, z)], Plausible a.2)
    (hx : nanoseconds x.now ≠ timeBefore cs.reverse) (hy : nanoseconds y.now = nanoseconds x.now) (hz : nanoseconds z.now ≠ nanoseconds y.now) :
    (collectAll (collectAll Stats.new cs).1 [(some .deltas, x), (some .deltas, y), (some .deltas, z)]).2.map (Option.map (given c)) =
      [some (total c x - totalBefore c cs.reverse), some 0, some (total c z - total c y)] := by
  have ha := Proofs.GoStats.collectAll_after cs _ [] Proofs.GoStats.after_new (fun y hy => h y (by simp [hy]))
  rw [List.append_nil] at ha
  rw [Proofs.GoStats.collectAll_values c _ _ _ ha (by intro y hy; exact h y (by simp at hy; simp [hy])) (fun y hy => h y (List.mem_append_right _ hy))]
  have e1 : elapsed cs.reverse x ≠ 0 := by unfold elapsed duration; omega
  have e2 : elapsed ((some .deltas, x) :: cs.reverse) y = 0 := by unfold elapsed duration timeBefore; dsimp only; omega
  have e3 : elapsed ((some .deltas, y) :: (some .deltas, x) :: cs.reverse) z ≠ 0 := by unfold elapsed duration timeBefore; dsimp only; omega
  simp only [values, Option.map_some, value, e1, e2, e3, if_false, if_true, totalBefore]

example : (exSeen 3 120 0).now = (exSeen 3 100 0).now ∧ total .mallocs (exSeen 3 120 0) = total .mallocs (exSeen 3 100 0) + 20 := by decide

/-- A collection of any kind between two of deltas takes what was counted up to it. -/
theorem C82_taken (c : Counter) (cs : List Collection) (k : Option Kind) (y z : Seen) (h : ∀ a ∈ cs ++ [(k, y), (some .deltas, z)], Plausible a.2)
    (hz : nanoseconds z.now ≠ nanoseconds y.now) :
    ((collectAll (collectAll Stats.new cs).1 [(k, y), (some .deltas, z)]).2.map (Option.map (given c))).getLast? = some (some (total c z - total c y)) := by
  have ha := Proofs.GoStats.collectAll_after cs _ [] Proofs.GoStats.after_new (fun y hy => h y (by simp [hy]))
  rw [List.append_nil] at ha
  rw [Proofs.GoStats.collectAll_values c _ _ _ ha (by intro y hy; exact h y (by simp at hy; simp [hy])) (fun y hy => h y (List.mem_append_right _ hy))]
  have e : elapsed ((k, y) :: cs.reverse) z ≠ 0 := by unfold elapsed duration timeBefore; dsimp only; omega
  simp [values, value, e, totalBefore]

/-- A rate is zero as long as less was counted than nanoseconds have passed: less than a thousand million a second. -/
theorem C82_rate_zero (c : Counter) (cs : List Collection) (x : Seen) (h : ∀ a ∈ cs ++ [(some .rates, x)], Plausible a.2)
    (hx : total c x - totalBefore c cs.reverse < elapsed cs.reverse x) (h0 : totalBefore c cs.reverse ≤ total c x) :
    (collectAll (collectAll Stats.new cs).1 [(some .rates, x)]).2.map (Option.map (given c)) = [some 0] := by
  have ha := Proofs.GoStats.collectAll_after cs _ [] Proofs.GoStats.after_new (fun y hy => h y (by simp [hy]))
  rw [List.append_nil] at ha
  rw [Proofs.GoStats.collectAll_values c _ _ _ ha (by intro y hy; exact h y (by simp at hy; simp [hy])) (fun y hy => h y (List.mem_append_right _ hy))]
  simp only [values, Option.map_some, value]
  split
  · rfl
  · rw [Int.tdiv_eq_zero_of_lt (by omega) hx]

/-- 999999999 mallocs in a second -/
example : total .mallocs (exSeen 2 1000000000 0) - totalBefore .mallocs [(some .rates, exSeen 1 1 0)] < elapsed [(some .rates, exSeen 1 1 0)] (exSeen 2 1000000000 0) := by decide

/-- `CollectBasicGoStats` after any collections: its four rates. -/
theorem C82_basic (fdiv : Int → Int → Nat) (cs : List Collection) (x : Seen) (h : ∀ a ∈ cs, Plausible a.2) (hx : Plausible x) :
    ((collectAll Stats.new cs).1.basic fdiv x).2 = (basicRate fdiv .mallocs cs.reverse x, basicRate fdiv .frees cs.reverse x, basicRate fdiv .collections cs.reverse x,
      basicRate fdiv .cgoCalls cs.reverse x) ∧
    ((collectAll Stats.new cs).1.basic fdiv x).1 = (collectAll Stats.new (cs ++ [(none, x)])).1 := by
  have ha := Proofs.GoStats.collectAll_after cs _ [] Proofs.GoStats.after_new h
  rw [List.append_nil] at ha
  have key : ∀ c, (((collectAll Stats.new cs).1.update x).getRate (Proofs.GoStats.data c ((collectAll Stats.new cs).1.update x)).diff).float fdiv = basicRate fdiv c cs.reverse x :=
    fun c => Proofs.GoStats.float_rate fdiv ha (by simpa using h) hx c
  refine ⟨?_, ?_⟩
  · rw [← key, ← key, ← key, ← key]; rfl
  · exact Proofs.GoStats.collectAll_snoc cs _ x

example := C82_basic (fun a b => (a.tdiv b).toNat) [(some .rates, exSeen 1 1 0)] (exSeen 2 1000000000 0) (by simp [Plausible]; exact ⟨by decide, fun c => by cases c <;> decide⟩) (by refine ⟨by decide, fun c => ?_⟩; cases c <;> decide)

/-- The document has the twelve numbers under their names. -/
theorem C82_document (i : Info) (h : InfoFits i) : ∃ d, i.marshalDocument = .ok d ∧ RepFields d (infoFields i) := Proofs.GoStats.info_rep h

example : InfoFits (Stats.new.build .current (exSeen 1 5 4)).2 := by
  refine ⟨by decide, by decide, by decide, by decide, by decide, fun c => ?_, ?_, ?_, ?_⟩ <;> unfold Spec.Events.IsInt64
  · cases c <;> decide
  · decide
  · decide
  · decide

end Birch.Props
