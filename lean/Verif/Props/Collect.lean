import Verif.Proofs.Collect
import Verif.Props.FtdcCollect

/- C84: the collection of runtime metrics into files. -/

namespace Birch.Props
open Birch Model Model.Ftdc Model.Collect Spec Spec.Collect Proofs Proofs.Ftdc

/-! ### C84 -/

/-- `Validate` finds nothing wrong exactly with options that make sense, and sorts the collectors by name, those of one name staying in order. -/
theorem C84_validate (o : Options) :
    ∃ cs errs, o.validate = .ok ({ o with collectors := cs }, errs) ∧ StableSort before o.collectors cs ∧ (errs = [] ↔ Valid o) := Proofs.Collect.validate_eq o

/-- The options of `NewCollectOptions` make sense. -/
theorem C84_default (pre : Bytes) : Valid (Options.new pre) ∧ (Options.new pre).validate = .ok (Options.new pre, []) := by
  have hv : Valid (Options.new pre) := by simp [Valid, Options.new]
  refine ⟨hv, ?_⟩
  obtain ⟨cs, errs, h1, h2, h3⟩ := Proofs.Collect.validate_eq (Options.new pre)
  have hcs : cs = [] := List.Perm.eq_nil (by simpa [Options.new] using h2.perm)
  rw [h1, h3.mpr hv, hcs]; rfl

/-- They collect once a second (the comment says every minute), 300 samples to a chunk, start a new file after a day, and leave nothing out. -/
theorem C84_default_values (pre : Bytes) : (Options.new pre).collectionInterval = 10 ^ 9 ∧ (Options.new pre).flushInterval = 24 * 60 * 60 * 10 ^ 9 ∧ (Options.new pre).sampleCount = 300 ∧
    (Options.new pre).outputFilePrefix = pre ∧ (Options.new pre).collectors = [] ∧ (Options.new pre).skipGolang = false ∧ (Options.new pre).skipSystem = false ∧
    (Options.new pre).skipProcess = false ∧ (Options.new pre).parallel = false := ⟨rfl, rfl, rfl, rfl, rfl, rfl, rfl, rfl, rfl⟩

example := C84_default_values [97]

/-- collections every ten seconds, and a new file every five -/
example : ¬ Valid { Options.new [] with collectionInterval := 10000000000, flushInterval := 5000000000 } := by simp [Valid, Options.new]

/-- With options that do not make sense there is an error, before any file is created. -/
theorem C84_invalid (fsub : Nat → Nat → Nat) (zip : Bytes → Bytes) (now : Nat → Nat → Time) (disk : Disk) (n : Nat) (o : Options) (h : ¬ Valid o) (evs : List Event) :
    ∃ e, collectRuntime fsub zip now disk n o evs = .ok (none, some (some e)) := by
  obtain ⟨cs, errs, h1, _, h3⟩ := Proofs.Collect.validate_eq o
  unfold collectRuntime
  rw [h1, Res.bind_ok]
  cases errs with
  | nil => exact absurd (h3.mp rfl) h
  | cons e errs => exact ⟨e, rfl⟩

/-- Nothing fails, and the context is cancelled in the end: nil is returned, and each file has the samples taken while it was the current one, once and in order, in
    chunks of `SampleCount + 1`.  The last file has none.  The samples are numbered from 0 on (`Turns`).

    Missing from C84: failures (`C84_any`, `C84_lost`) and samples of other shapes (`C84_lost_shape`). -/
theorem C84_files_partial {fsub : Nat → Nat → Nat}
    (hsub : ∀ a b, a < 18446744073709551616 → b < 18446744073709551616 → fsub a b < 18446744073709551616)
    {zip : Bytes → Bytes} {unzip : Bytes → Option Bytes} (hz : ∀ b, unzip (zip b) = some b) (o : Options) (ho : Valid o) (h32 : o.sampleCount < 4294967295)
    {evs : List Event} {ts : List Turn} (ht : Turns 0 evs ts) (hno : ∀ t ∈ ts, t ≠ .fail ∧ t ≠ .stop) (hl : ∀ f ∈ sampled ts, (encDoc f).length < 2147483648)
    (hs : ∀ f ∈ sampled ts, ∀ g ∈ sampled ts, f.metrics.SameShape g.metrics)
    (hsm : ∀ docs, RepDocs docs (sampled ts) → SmallChunks fsub zip o.sampleCount.toNat none docs) (now : Nat → Nat → Time) {disk : Disk} (hdisk : ∀ i, disk i = .ok ([], none)) :
    ∃ N, ∀ n, N ≤ n → ∃ s, collectRuntime fsub zip now disk n o (evs ++ [.done]) = .ok (some s, some none) ∧
      EachReads fsub unzip o.sampleCount.toNat s.files (filesFrom [] (ts ++ [.rotate])) := by
  refine ⟨10000000000, fun n hn => ?_⟩
  obtain ⟨cs, errs, h1, _, h3⟩ := Proofs.Collect.validate_eq o
  obtain rfl := h3.mpr ho
  obtain ⟨s, h4, h5⟩ := Proofs.Collect.run_files (now := now) (max := o.sampleCount.toNat) hsub hz hn (by omega) hdisk (Proofs.Collect.all_of ht hl hs hsm) ts evs (groups := []) (cur := []) ht hno
    (Proofs.Collect.good_start (plan := []) (ce := none) (by simp [AllOrNothing])) rfl rfl (by simp)
  refine ⟨s, ?_, by simpa using h5⟩
  unfold collectRuntime
  rw [h1]
  simp only [Res.bind_ok, hdisk, h4]

/-- two samples, the time for a new file twice, one more sample: three files -/
example (f g h : Fields) : filesFrom [] ([.sample f, .sample g, .rotate, .rotate, .sample h] ++ [.rotate]) = [[f, g], [h], []] := by simp [filesFrom]

example : ∃ evs, Turns 0 evs [.sample (exSample 1 [120]), .sample (exSample 1 []), .rotate, .rotate, .sample (exSample 700 [121, 122])] := by
  obtain ⟨docs, h⟩ := exSamples
  match docs, h with
  | [a, b, c], ⟨h1, h2, h3, _⟩ =>
    exact ⟨[.collect fun _ => .ok a, .collect fun _ => .ok b, .flush, .flush, .collect fun _ => .ok c], ⟨a, rfl, h1⟩, ⟨b, rfl, h2⟩, ⟨c, rfl, h3⟩, trivial⟩

example : ∀ docs, RepDocs docs [exSample 1 [120], exSample 1 [], exSample 700 [121, 122]] → SmallChunks (fun a _ => a) id 300 none docs := fun docs h =>
  smallChunks_of h (L := 100) (by decide +kernel) (by decide) (by decide) (fun b hb => by simp only [id]; omega) _ _

/-- Whatever fails (taking samples, creating, writing and closing files): what can be read from the files are the first of the samples taken, in order, and what is
    missing are at most the last `SampleCount + 1`.  If nil is returned nothing is missing; and then a file is left open. -/
theorem C84_any {fsub : Nat → Nat → Nat}
    (hsub : ∀ a b, a < 18446744073709551616 → b < 18446744073709551616 → fsub a b < 18446744073709551616)
    {zip : Bytes → Bytes} {unzip : Bytes → Option Bytes} (hz : ∀ b, unzip (zip b) = some b) (o : Options) (ho : Valid o) (h32 : o.sampleCount < 4294967295)
    {evs : List Event} {ts : List Turn} (ht : Turns 0 evs ts) (hl : ∀ f ∈ sampled ts, (encDoc f).length < 2147483648)
    (hs : ∀ f ∈ sampled ts, ∀ g ∈ sampled ts, f.metrics.SameShape g.metrics)
    (hsm : ∀ docs, RepDocs docs (sampled ts) → SmallChunks fsub zip o.sampleCount.toNat none docs) (now : Nat → Nat → Time) {disk : Disk}
    (hdisk : ∀ i plan e, disk i = .ok (plan, e) → AllOrNothing plan) (h0 : ∃ plan e, disk 0 = .ok (plan, e)) :
    ∃ N, ∀ n, N ≤ n → ∃ s r groups lost rest, collectRuntime fsub zip now disk n o evs = .ok (some s, r) ∧ EachReads fsub unzip o.sampleCount.toNat s.files groups ∧
      sampled ts = groups.flatten ++ lost ++ rest ∧ s.collectCount = groups.flatten.length + lost.length ∧ (lost.length : Int) ≤ o.sampleCount + 1 ∧
      (r = none → rest = []) ∧ (r = some none → lost = [] ∧ rest = [] ∧ s.isOpen = true) := by
  refine ⟨10000000000, fun n hn => ?_⟩
  obtain ⟨cs, errs, h1, _, h3⟩ := Proofs.Collect.validate_eq o
  obtain rfl := h3.mpr ho
  obtain ⟨plan, ce, h0⟩ := h0
  obtain ⟨s, r, w, lost, rest, h4, h5, ⟨⟨groups, h6, h6'⟩, h7, h8⟩, h9, h10⟩ := Proofs.Collect.run_any (now := now) (max := o.sampleCount.toNat) hsub hz hn (by omega) hdisk
    (Proofs.Collect.all_of ht hl hs hsm) evs ts (groups := []) (cur := []) ht (Proofs.Collect.good_start (ce := ce) (hdisk _ _ _ h0)) (by simp)
  subst h6'
  refine ⟨s, r, groups, lost, rest, ?_, h6, by simpa using h5, h8, ?_, h10, h9⟩
  · unfold collectRuntime
    rw [h1]
    simp only [Res.bind_ok, h0, h4]
  · have := ho.2.2.1
    omega

/-- a disk that cannot write the second chunk of a file, and has room for one file only -/
example : ∃ disk : Disk, (∀ i plan e, disk i = .ok (plan, e) → AllOrNothing plan) ∧ disk 0 = .ok ([none, some (0, some .other)], none) ∧ disk 1 = .error .other := by
  refine ⟨fun i => if i = 0 then .ok ([none, some (0, some .other)], none) else .error .other, fun i plan e h => ?_, rfl, rfl⟩
  dsimp only at h
  split at h
  · cases h; simp [AllOrNothing]
  · cases h

/-- Samples, at most `SampleCount` of them, and then one that cannot be taken: its error is returned, and the file is empty although nothing is wrong with the disk. -/
theorem C84_lost {fsub : Nat → Nat → Nat}
    (hsub : ∀ a b, a < 18446744073709551616 → b < 18446744073709551616 → fsub a b < 18446744073709551616)
    {zip : Bytes → Bytes} (hz : ∃ unzip : Bytes → Option Bytes, ∀ b, unzip (zip b) = some b) (o : Options) (ho : Valid o) (h32 : o.sampleCount < 4294967295)
    {evs : List Event} {fss : List Fields} (ht : Turns 0 evs (fss.map .sample ++ [.fail])) (hlen : (fss.length : Int) ≤ o.sampleCount) (hl : ∀ f ∈ fss, (encDoc f).length < 2147483648)
    (hs : ∀ f ∈ fss, ∀ g ∈ fss, f.metrics.SameShape g.metrics)
    (hsm : ∀ docs, RepDocs docs fss → SmallChunks fsub zip o.sampleCount.toNat none docs) (now : Nat → Nat → Time) {disk : Disk} (hdisk : ∀ i, disk i = .ok ([], none)) :
    ∃ N, ∀ n, N ≤ n → ∃ s e, collectRuntime fsub zip now disk n o evs = .ok (some s, some (some e)) ∧ s.collectCount = fss.length ∧ s.files = [[]] := by
  obtain ⟨unzip, hz⟩ := hz
  refine ⟨10000000000, fun n hn => ?_⟩
  obtain ⟨cs, errs, h1, _, h3⟩ := Proofs.Collect.validate_eq o
  obtain rfl := h3.mpr ho
  obtain ⟨s, h4, h5, h6, evs', h7, h8⟩ := Proofs.Collect.run_samples (now := now) (disk := disk) (max := o.sampleCount.toNat) hsub hz hn (by omega) fss evs [.fail] ht (by omega) hl hs
    (fun docs h => hsm docs h)
  match evs', h7 with
  | [.collect g], ⟨⟨e, he⟩, _⟩ =>
    refine ⟨s, e, ?_, h5, h6⟩
    unfold collectRuntime
    rw [h1]
    simp only [Res.bind_ok, hdisk, h8, run, step, he]

/-- ten samples, and then an error -/
example : ∃ evs, Turns 0 evs ((List.replicate 10 (exSample 1 [120])).map .sample ++ [.fail]) := by
  obtain ⟨docs, h⟩ := exSamples
  match docs, h with
  | [a, b, c], ⟨h1, h2, h3, _⟩ =>
    refine ⟨List.replicate 10 (.collect fun _ => .ok a) ++ [.collect fun _ => .err .other], ?_⟩
    simp only [List.replicate, List.map_cons, List.map_nil, List.cons_append, List.nil_append, Turns]
    refine ⟨⟨a, rfl, h1⟩, ⟨a, rfl, h1⟩, ⟨a, rfl, h1⟩, ⟨a, rfl, h1⟩, ⟨a, rfl, h1⟩, ⟨a, rfl, h1⟩, ⟨a, rfl, h1⟩, ⟨a, rfl, h1⟩, ⟨a, rfl, h1⟩, ⟨a, rfl, h1⟩, ⟨.other, rfl⟩, trivial⟩

/-- Samples, at least one and at most `SampleCount`, and then one with other numbers, as when a disk or a network interface appears: an error is returned, and the file
    is empty. -/
theorem C84_lost_shape {fsub : Nat → Nat → Nat}
    (hsub : ∀ a b, a < 18446744073709551616 → b < 18446744073709551616 → fsub a b < 18446744073709551616)
    {zip : Bytes → Bytes} (hz : ∃ unzip : Bytes → Option Bytes, ∀ b, unzip (zip b) = some b) (o : Options) (ho : Valid o) (h32 : o.sampleCount < 4294967295)
    {evs : List Event} {fss : List Fields} {f0 f : Fields} (hf0 : f0 ∈ fss) (ht : Turns 0 evs (fss.map .sample ++ [.sample f])) (hlen : (fss.length : Int) ≤ o.sampleCount)
    (hl : ∀ f ∈ fss, (encDoc f).length < 2147483648) (hs : ∀ f ∈ fss, ∀ g ∈ fss, f.metrics.SameShape g.metrics) (hlf : (encDoc f).length < 2147483648) (hk : f.kinds ≠ f0.kinds)
    (hsm : ∀ docs, RepDocs docs fss → SmallChunks fsub zip o.sampleCount.toNat none docs) (now : Nat → Nat → Time) {disk : Disk} (hdisk : ∀ i, disk i = .ok ([], none)) :
    ∃ N, ∀ n, N ≤ n → ∃ s e, collectRuntime fsub zip now disk n o evs = .ok (some s, some (some e)) ∧ s.collectCount = fss.length ∧ s.files = [[]] := by
  obtain ⟨unzip, hz⟩ := hz
  refine ⟨10000000000, fun n hn => ?_⟩
  obtain ⟨cs, errs, h1, _, h3⟩ := Proofs.Collect.validate_eq o
  obtain rfl := h3.mpr ho
  obtain ⟨s, h4, h5, h6, evs', h7, h8⟩ := Proofs.Collect.run_samples (now := now) (disk := disk) (max := o.sampleCount.toNat) hsub hz hn (by omega) fss evs [.sample f] ht (by omega) hl hs
    (fun docs h => hsm docs h)
  match evs', h7 with
  | [.collect g], ⟨⟨d, hd, hr⟩, _⟩ =>
    obtain ⟨c, e, a1, a2⟩ := Proofs.Collect.good_refuses hn h4 hf0 hs (by omega) hr hlf hk
    refine ⟨{ s with collector := c }, e, ?_, h5, ?_⟩
    · unfold collectRuntime
      rw [h1]
      simp only [Res.bind_ok, hdisk, h8, run, step, hd, a1]
    · unfold State.files at h6 ⊢
      rw [a2]
      exact h6

/-- one number more -/
example : (Fields.cons [97] (.int64 1) (.cons [98] (.int64 2) .nil)).kinds ≠ (Fields.cons [97] (.int64 1) .nil).kinds := by decide

/-- Whatever happens, the files are numbered from zero without gaps: the i-th is the one created with number i, and all but the last were closed without an error.  So if the
    file with number k cannot be created there are at most k files. -/
theorem C84_numbered (fsub : Nat → Nat → Nat) (zip : Bytes → Bytes) (now : Nat → Nat → Time) (disk : Disk) (n : Nat) (o : Options) (evs : List Event) {s : State}
    {r : Option (Option Err)} (h : collectRuntime fsub zip now disk n o evs = .ok (some s, r)) :
    (∀ i, i < s.files.length → ∃ plan e, disk i = .ok (plan, e) ∧ (i + 1 < s.files.length → e = none)) ∧
    ∀ k e, disk k = .error e → s.files.length ≤ k := by
  have hc : Proofs.Collect.Created disk s := by
    unfold collectRuntime at h
    obtain ⟨⟨o', errs⟩, _, h⟩ := Res.bind_eq_ok.mp h
    cases errs with
    | cons e errs => simp at h
    | nil =>
      dsimp only at h
      cases hd : disk 0 with
      | error e => simp [hd] at h
      | ok p =>
        obtain ⟨plan, ce⟩ := p
        simp only [hd] at h
        obtain ⟨⟨s1, r1⟩, h1, h2⟩ := Res.bind_eq_ok.mp h
        simp only [Res.ok.injEq, Prod.mk.injEq, Option.some.injEq] at h2
        obtain ⟨rfl, _⟩ := h2
        exact Proofs.Collect.run_created evs (s := ⟨0, [], Streaming.new _ ⟨[], plan⟩, ce, true⟩) ⟨⟨plan, hd⟩, by simp⟩ h1
  have key : ∀ i, i < s.files.length → ∃ plan e, disk i = .ok (plan, e) ∧ (i + 1 < s.files.length → e = none) := by
    intro i hi
    simp only [State.files, List.length_append, List.length_singleton] at hi ⊢
    by_cases hi' : i < s.closed.length
    · obtain ⟨plan, hp⟩ := hc.2 i hi'
      exact ⟨plan, none, hp, fun _ => rfl⟩
    · obtain ⟨plan, hp⟩ := hc.1
      exact ⟨plan, _, by rw [show i = s.closed.length by omega]; exact hp, fun hx => by omega⟩
  refine ⟨key, fun k e hk => Nat.le_of_not_lt fun hlt => ?_⟩
  obtain ⟨plan, e', hp, _⟩ := key k hlt
  rw [hk] at hp
  cases hp

/-- three samples with a flush between them, on a disk that has no room for a second file: the hypothesis is met, and there is one file -/
example : ∃ evs N, ∀ n, N ≤ n → ∃ s r, collectRuntime (fun a _ => a) id (fun _ _ => ⟨1, 0⟩) (fun i => if i = 0 then .ok ([], none) else .error .other) n (Options.new []) evs = .ok (some s, r) ∧
    s.files.length ≤ 1 := by
  obtain ⟨docs, h⟩ := exSamples
  match docs, h with
  | [a, b, c], ⟨h1, h2, h3, _⟩ =>
    have ht : Turns 0 [.collect fun _ => .ok a, .collect fun _ => .ok b, .flush, .flush, .collect fun _ => .ok c]
        [.sample (exSample 1 [120]), .sample (exSample 1 []), .rotate, .rotate, .sample (exSample 700 [121, 122])] := ⟨⟨a, rfl, h1⟩, ⟨b, rfl, h2⟩, ⟨c, rfl, h3⟩, trivial⟩
    obtain ⟨N, hN⟩ := C84_any (fsub := fun a _ => a) (fun _ _ h _ => h) (zip := id) (unzip := some) (fun _ => rfl) (Options.new []) (C84_default []).1 (by decide) ht
      (by simpa [sampled] using exSamples_size) (by simpa [sampled] using exSamples_shape)
      (fun docs h => show SmallChunks _ _ 300 none docs from smallChunks_of h (L := 100) (by decide +kernel) (by decide) (by decide) (fun b hb => by simp only [id]; omega) _ _) (fun _ _ => ⟨1, 0⟩)
      (disk := fun i => if i = 0 then .ok ([], none) else .error .other)
      (by intro i plan e hi; by_cases h0 : i = 0 <;> simp [h0] at hi; rw [hi.1]; simp [AllOrNothing]) ⟨[], none, rfl⟩
    refine ⟨[.collect fun _ => .ok a, .collect fun _ => .ok b, .flush, .flush, .collect fun _ => .ok c], N, fun n hn => ?_⟩
    obtain ⟨s, r, _, _, _, e, _⟩ := hN n hn
    exact ⟨s, r, e, (C84_numbered _ _ _ _ _ _ _ e).2 1 .other rfl⟩

end Birch.Props
