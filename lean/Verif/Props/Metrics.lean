import Verif.Proofs.Metrics

/- C86: samples of the system, the process and the Go runtime. -/

namespace Birch.Props
open Birch Model Model.Metrics Spec Spec.Metrics Proofs.Metrics
open Birch.Spec.Events (IsInt64)

/-! ### C86 -/

/-- a disk with a name, and how much was read from it -/
def exDisk (name : String) (reads : UInt64) : IOStat := ⟨ascii name, [], [], reads, 0, 7, 0, 4096, 18446744073709551615, 0, 0, 1, 0, 0⟩

/-- answers about a system with one file system and two disks; one more partition cannot be looked at -/
def exAnswers (disks : List IOStat) : SystemAnswers :=
  ⟨⟨[⟨1, 2, 3, 4, 5, 6, 7, 8, 9, 10⟩], none⟩, ⟨[4611686018427387904], none⟩, ⟨some { VMStat.zero with total := 1000000, free := 5, usedPercent := 77 }, none⟩,
    ⟨[{ NetStat.zero with name := ascii "all", bytesSent := 12 }], none⟩,
    ⟨[⟨ascii "/dev/sda1", ascii "/", ascii "ext4", ascii "rw"⟩, ⟨ascii "/dev/sdb1", ascii "/mnt", ascii "nfs", []⟩], none⟩,
    fun m => if m = ascii "/" then ⟨⟨m, ascii "ext4", 100, 60, 40, 5, 10, 9, 6⟩, none⟩ else ⟨⟨[], [], 0, 0, 0, 0, 0, 0, 0⟩, some (ascii "gone")⟩,
    ⟨disks, none⟩⟩

/-- The document of a process has everything under its name, in this order, but the errors.  A uint64 comes as the int64 with the same bits, which from 2^63 on is
    negative. -/
theorem C86_process (linux : Bool) (p : ProcessInfo) (h : ProcessFits p) : ∃ d, p.marshalDocument linux = .ok d ∧ RepFields d (processFields linux p) :=
  process_made linux h

example : ProcessFits ⟨12, 1, 5, ascii "/bin/x", .zero, ⟨1, 2, 3, 18446744073709551615⟩, [⟨ascii "all", 1, 2, 3, 4, 5, 6, 7, 8, 9, 10⟩], .zero, .zero, [ascii "an error"]⟩ := by
  refine ⟨by unfold IntFits; decide, by unfold Short; decide +kernel, ?_⟩
  intro n hn
  obtain rfl := List.mem_singleton.mp hn
  unfold Short; decide +kernel

example : signed 18446744073709551615 = -1 := by decide

/-- The document of the system has everything under its name, in this order, but the errors. -/
theorem C86_system {trunc : UInt64 → Int} (ht : ∀ x, IsInt64 (trunc x)) (s : SystemInfo) (h : SystemFits s) :
    ∃ d, s.marshalDocument trunc = .ok d ∧ RepFields d (systemFields trunc s) := system_made ht h

theorem exSystem_fits : SystemFits { SystemInfo.zero with numCPU := 8, ioStat := [exDisk "sda" 5, exDisk "sdb" 700] } := by
  refine ⟨by unfold IntFits; decide, by unfold Short; decide, nofun, ?_, nofun⟩
  intro d hd
  simp only [List.mem_cons, List.not_mem_nil, or_false] at hd
  obtain rfl | rfl := hd <;> (unfold Short; decide +kernel)

/-- A sample has a number, a time and the process id, and then those parts that were asked for, in this order.  If there are custom collectors all that is one
    document, "runtime", and their documents follow in their order. -/
theorem C86_sample (linux : Bool) {trunc : UInt64 → Int} (ht : ∀ x, IsInt64 (trunc x)) (r : Runtime) (h : RuntimeFits r) (cs : List Custom) (xs : List (Bytes × Fields))
    (hc : Give cs xs) : ∃ d, generate linux trunc r cs = .ok d ∧ RepFields d (sampleFields linux trunc r xs) := generate_made linux ht h hc

/-- a sample of a system -/
def exSample86 (disks : List IOStat) : Runtime := ⟨3, 4711, ⟨1700000000, 5⟩, none, some { SystemInfo.zero with numCPU := 8, ioStat := disks }, none⟩

theorem exSample86_fits : RuntimeFits (exSample86 [exDisk "sda" 5, exDisk "sdb" 700]) := by
  refine ⟨by unfold IntFits; decide, by unfold IntFits; decide, by unfold Spec.Normal; decide, by unfold IsInt64; decide, nofun, ?_, nofun⟩
  intro s hs
  cases hs
  exact exSystem_fits

example : Give [⟨ascii "queue", some []⟩] [(ascii "queue", .nil)] :=
  ⟨⟨rfl, by unfold NulFree; decide +kernel, by unfold Short; decide +kernel, [], rfl, trivial⟩, trivial⟩

/-- As long as there are the same file systems, disks, network interfaces and partitions in number, samples have one shape: they can be in one chunk (C33, C84). -/
theorem C86_shape (linux : Bool) (trunc : UInt64 → Int) (r q : Runtime) (hr : SmallInts r) (hq : SmallInts q) (hp : parts r = parts q) (hc : counts r = counts q)
    (hn : r.system.map (·.partitions.length) = q.system.map (·.partitions.length)) : (runtimeFields linux trunc r).metrics.SameShape (runtimeFields linux trunc q).metrics :=
  runtime_shape linux trunc hr hq hp hc hn

/-- A sample has other numbers than another exactly if the number of file systems, disks or network interfaces is another; and then the collection ends with an error
    and loses the samples it has (`C84_lost_shape`). -/
theorem C86_shape_exactly (linux : Bool) (trunc : UInt64 → Int) (r q : Runtime) (hr : SmallInts r) (hq : SmallInts q) (hp : parts r = parts q) :
    (runtimeFields linux trunc r).kinds = (runtimeFields linux trunc q).kinds ↔ counts r = counts q :=
  ⟨runtime_kinds linux trunc hr hq hp, runtime_kinds_eq linux trunc hr hq hp⟩

theorem exSample86_small (disks : List IOStat) : SmallInts (exSample86 disks) := by
  refine ⟨show (3 : Int) < 2147483647 by decide, show (4711 : Int) < 2147483647 by decide, ?_, nofun⟩
  intro s hs; cases hs; exact show (8 : Int) < 2147483647 by decide

/-- a disk is added -/
example : (runtimeFields true (fun _ => 0) (exSample86 [exDisk "sda" 5])).kinds ≠ (runtimeFields true (fun _ => 0) (exSample86 [exDisk "sda" 5, exDisk "sdb" 700])).kinds :=
  fun h => absurd ((C86_shape_exactly true (fun _ => 0) (exSample86 [exDisk "sda" 5]) (exSample86 [exDisk "sda" 5, exDisk "sdb" 700]) (exSample86_small _) (exSample86_small _) rfl).mp h)
    (by simp [counts, exSample86])

/-- What is known of a process is what was answered, and zero for what was not.  The errors are kept. -/
theorem C86_process_info (ticks : UInt64 → Int64) (a : ProcessAnswers) : IsProcess ticks a (makeProcessInfo ticks (.ok a)) := process_info ticks a

/-- A process that is not there has the document of one with number 0 and nothing but zeros; the error is kept beside it. -/
theorem C86_process_gone (ticks : UInt64 → Int64) (linux : Bool) (e : Bytes) :
    (∃ d, (makeProcessInfo ticks (.error e)).marshalDocument linux = .ok d ∧ RepFields d (processFields linux ProcessInfo.zero)) ∧
      (makeProcessInfo ticks (.error e)).errors = complaint "process" (some e) := by
  refine ⟨C86_process linux (makeProcessInfo ticks (.error e)) (show ProcessFits ProcessInfo.zero from ⟨by unfold IntFits; decide, by unfold Short; decide, nofun⟩), ?_⟩
  simp only [makeProcessInfo, saveError_eq, List.nil_append]

example : complaint "process" (some (ascii "gone")) = [ascii "process: gone"] := by decide +kernel

/-- In these documents there is indeed nothing but zeros, empty strings and empty arrays; and so for a system of which nothing is known. -/
theorem C86_blank (linux : Bool) (trunc : UInt64 → Int) (h : trunc 0 = 0) : Blank (processFields linux ProcessInfo.zero) ∧ Blank (systemFields trunc SystemInfo.zero) := by
  refine ⟨?_, ?_⟩
  · cases linux <;> simp [processFields, ProcessInfo.zero, CPUTimes.zero, ProcessIO.zero, Memory.zero, MemoryExtra.zero, cpuFields, ioFields, memFields, extraFields, Blank, BlankVal, append, Spec.Metrics.int,
      docs, signed]
  · simp [systemFields, SystemInfo.zero, CPUTimes.zero, VMStat.zero, NetStat.zero, cpuFields, vmFields, netFields, Blank, BlankVal, Spec.Metrics.int, docs, signed, h]

example := C86_blank true (fun x => x.toNat) rfl

/-- What is known of the system is what was answered, and zero for what was not; a file system whose space is not known is left out.  If there is no percent and no
    error the program panics. -/
theorem C86_system_info (ticks : UInt64 → Int64) (numCPU : Int) (a : SystemAnswers) :
    (a.percent.err = none ∧ a.percent.value = [] ∧ makeSystemInfo ticks numCPU a = .panic) ∨
    (¬ (a.percent.err = none ∧ a.percent.value = []) ∧ ∃ s, makeSystemInfo ticks numCPU a = .ok s ∧ IsSystem ticks numCPU a s) := system_info ticks numCPU a

/-- the partition that cannot be looked at is in the partitions, but its space is left out; the percent is left out as well -/
example (disks : List IOStat) : usages (exAnswers disks).usage (exAnswers disks).partitions.value = [⟨ascii "/", ascii "ext4", 100, 60, 40, 0, 10, 9, 0⟩] := by
  have h : ascii "/mnt" ≠ ascii "/" := by decide +kernel
  simp [usages, exAnswers, answered, h]

/-- the disk with the names of another -/
def renamed (d other : IOStat) : IOStat := { d with name := other.name, serialNumber := other.serialNumber, label := other.label }

/-- Disks come in the order of a `map`, which is any order, and what is read from a chunk has no names (C33): of two disks nobody can tell which is which.  When the
    counters of the two disks are exchanged, a sample of that may have the same numbers as a sample of the disks as they are. -/
theorem C86_disks_mixed (trunc : UInt64 → Int) (ticks : UInt64 → Int64) (numCPU : Int) (a : SystemAnswers) (d e : IOStat)
    (h : ¬ (a.percent.err = none ∧ a.percent.value = [])) :
    ∃ s s', makeSystemInfo ticks numCPU { a with diskIOCounters := ⟨[d, e], none⟩ } = .ok s ∧
      makeSystemInfo ticks numCPU { a with diskIOCounters := ⟨[renamed d e, renamed e d], none⟩ } = .ok s' ∧
      (systemFields trunc s).metrics = (systemFields trunc s').metrics := by
  obtain ⟨h1, h2, _⟩ | ⟨_, s, hs, is⟩ := system_info ticks numCPU { a with diskIOCounters := ⟨[d, e], none⟩ }
  · exact absurd ⟨h1, h2⟩ h
  obtain ⟨h1, h2, _⟩ | ⟨_, s', hs', is'⟩ := system_info ticks numCPU { a with diskIOCounters := ⟨[renamed d e, renamed e d], none⟩ }
  · exact absurd ⟨h1, h2⟩ h
  refine ⟨s, s', hs, hs', ?_⟩
  unfold systemFields
  rw [is.numCPU, is.cpu, is.cpuPercent, is.vmStat, is.netStat, is.partitions, is.usage, is.ioStat, is'.numCPU, is'.cpu, is'.cpuPercent, is'.vmStat, is'.netStat, is'.partitions,
    is'.usage, is'.ioStat]
  have hd : ∀ x y : IOStat, (iostatFields (renamed x y)).metrics = (iostatFields x).metrics := fun _ _ => by simp [iostatFields, renamed, Fields.metrics, BVal.metric]
  simp [Fields.metrics, BVal.metric, docs, Vals.metrics, hd]

/-- And of one and the same system there may be samples with other numbers in the places of a disk. -/
theorem C86_disks_order (trunc : UInt64 → Int) (ticks : UInt64 → Int64) (numCPU : Int) (a : SystemAnswers) (d e : IOStat)
    (h : ¬ (a.percent.err = none ∧ a.percent.value = [])) (hne : d.readCount ≠ e.readCount) :
    ∃ s s', makeSystemInfo ticks numCPU { a with diskIOCounters := ⟨[d, e], none⟩ } = .ok s ∧ makeSystemInfo ticks numCPU { a with diskIOCounters := ⟨[e, d], none⟩ } = .ok s' ∧
      (systemFields trunc s).kinds = (systemFields trunc s').kinds ∧ (systemFields trunc s).metrics ≠ (systemFields trunc s').metrics := by
  obtain ⟨h1, h2, _⟩ | ⟨_, s, hs, is⟩ := system_info ticks numCPU { a with diskIOCounters := ⟨[d, e], none⟩ }
  · exact absurd ⟨h1, h2⟩ h
  obtain ⟨h1, h2, _⟩ | ⟨_, s', hs', is'⟩ := system_info ticks numCPU { a with diskIOCounters := ⟨[e, d], none⟩ }
  · exact absurd ⟨h1, h2⟩ h
  refine ⟨s, s', hs, hs', ?_, ?_⟩
  · unfold systemFields
    rw [is.numCPU, is.cpu, is.cpuPercent, is.vmStat, is.netStat, is.partitions, is.usage, is.ioStat, is'.numCPU, is'.cpu, is'.cpuPercent, is'.vmStat, is'.netStat, is'.partitions,
      is'.usage, is'.ioStat]
    simp [Fields.kinds, BVal.kinds, docs, Vals.kinds, iostat_kinds]
  · intro hm
    have hio : (BVal.array (docs iostatFields s.ioStat).metrics) = .array (docs iostatFields s'.ioStat).metrics := by
      have hi : ∀ i, (Spec.Metrics.int i).metric = some (Spec.Metrics.int i) := fun i => by unfold Spec.Metrics.int; split <;> rfl
      simp only [systemFields, Fields.metrics, BVal.metric, hi, Fields.cons.injEq, true_and] at hm
      exact hm.2.2.2.2.2.2.1
    rw [is.ioStat, is'.ioStat] at hio
    simp only [docs, Vals.metrics, BVal.metric, iostatFields, Fields.metrics, BVal.array.injEq, Vals.cons.injEq, BVal.doc.injEq, Fields.cons.injEq, BVal.int64.injEq, true_and] at hio
    have hr := hio.1.1
    apply hne
    apply UInt64.toNat_inj.mp
    have h1 := d.readCount.toNat_lt
    have h2 := e.readCount.toNat_lt
    unfold signed at hr
    split at hr <;> split at hr <;> omega

example : ¬ ((exAnswers []).percent.err = none ∧ (exAnswers []).percent.value = []) ∧ (exDisk "sda" 5).readCount ≠ (exDisk "sdb" 700).readCount := by
  constructor
  · simp [exAnswers]
  · decide

/-- A custom collector that returns nil takes the program down: the sample is made, and adding it to an FTDC collector panics. -/
theorem C86_collector_nil (linux : Bool) {trunc : UInt64 → Int} (ht : ∀ x, IsInt64 (trunc x)) (r : Runtime) (h : RuntimeFits r) (cs : List Custom) (xs : List (Bytes × Fields))
    (hc : Give cs xs) (k : Bytes) (hk : Short k) (cs' : List Custom) (hc' : ∀ c ∈ cs', Short c.name)
    (hl : (Fields.cons (ascii "runtime") (.doc (runtimeFields linux trunc r)) (customFields xs)).enc.length < 2147483648) :
    ∃ d, generate linux trunc r (cs ++ ⟨k, none⟩ :: cs') = .ok d ∧ ∃ N, ∀ n, N ≤ n → ∀ fsub max, (Ftdc.Better.new max).add fsub n d = .panic := by
  obtain ⟨d, hd, N, hN⟩ := generate_nil linux ht h hc hk hc' hl
  refine ⟨d, hd, N, fun n hn fsub max => ?_⟩
  unfold Ftdc.Better.add Ftdc.Better.new
  dsimp only
  rw [hN n hn]; rfl

example : (Fields.cons (ascii "runtime") (.doc (runtimeFields true (fun _ => 0) (exSample86 [exDisk "sda" 5, exDisk "sdb" 700]))) (customFields [])).enc.length < 2147483648 := by
  decide +kernel

/-- Of a process with its children there are the process, then once each all those below it whose parents' children could be listed. -/
theorem C86_children (ticks : UInt64 → Int64) (p : Process) :
    ∃ l : List ProcessAnswers, withChildren ticks (some p) = l.map (fun a => makeProcessInfo ticks (.ok a)) ∧ l.head? = some (own p) ∧ l.length = count p ∧
      ∀ a, a ∈ l ↔ ∃ q, Below p q ∧ own q = a := by
  obtain ⟨a, cs, err⟩ := p
  refine ⟨a :: childrenOf (.mk a cs err), rfl, rfl, by rw [List.length_cons, children_length], fun b => ?_⟩
  rw [List.mem_cons, children_mem]
  constructor
  · rintro (rfl | ⟨c, hc, q, hq, rfl⟩)
    · exact ⟨_, .refl _, rfl⟩
    · exact ⟨q, .child hc hq, rfl⟩
  · rintro ⟨q, hq, rfl⟩
    cases hq with
    | refl => exact .inl rfl
    | child h1 h2 => exact .inr ⟨_, h1, q, h2, rfl⟩

/-- a child whose children cannot be listed -/
example (a b c : ProcessAnswers) : count (.mk a [.mk b [.mk c [] false] true, .mk c [] false] false) = 3 := by simp [count, countAll]

end Birch.Props
