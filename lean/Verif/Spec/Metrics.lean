import Verif.Model.Metrics
import Verif.Spec.GoStats
import Verif.Spec.FtdcDocs

/- What the samples of x/ftdc/metrics are to contain (C86). -/

namespace Birch.Spec.Metrics
open Birch Model Model.Metrics

/-- the int64 with the same bits: the number itself, unless it is 2^63 or more -/
def signed (x : UInt64) : Int := if x.toNat < 9223372036854775808 then x.toNat else x.toNat - 18446744073709551616

/-- a Go int -/
def int (i : Int) : BVal := if i < 2147483647 then .int32 i else .int64 i

/-- the documents, as an array -/
def docs {α : Type} (f : α → Fields) : List α → Vals
  | [] => .nil
  | a :: as => .cons (.doc (f a)) (docs f as)

/-- fields followed by others -/
def append : Fields → Fields → Fields
  | .nil, gs => gs
  | .cons k v fs, gs => .cons k v (append fs gs)

/-- the counters of a network interface -/
def netFields (s : NetStat) : Fields :=
  .cons (ascii "name") (.string s.name) <|
  .cons (ascii "bytesSent") (.int64 (signed s.bytesSent)) <|
  .cons (ascii "bytesRecv") (.int64 (signed s.bytesRecv)) <|
  .cons (ascii "packetsSent") (.int64 (signed s.packetsSent)) <|
  .cons (ascii "packetsRecv") (.int64 (signed s.packetsRecv)) <|
  .cons (ascii "errin") (.int64 (signed s.errin)) <|
  .cons (ascii "errout") (.int64 (signed s.errout)) <|
  .cons (ascii "dropin") (.int64 (signed s.dropin)) <|
  .cons (ascii "dropout") (.int64 (signed s.dropout)) <|
  .cons (ascii "fifoin") (.int64 (signed s.fifoin)) <|
  .cons (ascii "fifoout") (.int64 (signed s.fifoout)) .nil

/-- the times of the processors -/
def cpuFields (c : CPUTimes) : Fields :=
  .cons (ascii "user") (.int64 c.user.toInt) <|
  .cons (ascii "system") (.int64 c.system.toInt) <|
  .cons (ascii "idle") (.int64 c.idle.toInt) <|
  .cons (ascii "nice") (.int64 c.nice.toInt) <|
  .cons (ascii "iowait") (.int64 c.iowait.toInt) <|
  .cons (ascii "irq") (.int64 c.irq.toInt) <|
  .cons (ascii "softirq") (.int64 c.softirq.toInt) <|
  .cons (ascii "steal") (.int64 c.steal.toInt) <|
  .cons (ascii "guest") (.int64 c.guest.toInt) <|
  .cons (ascii "guestNice") (.int64 c.guestNice.toInt) .nil

/-- what a process has read and written -/
def ioFields (i : ProcessIO) : Fields :=
  .cons (ascii "readCount") (.int64 (signed i.readCount)) <|
  .cons (ascii "writeCount") (.int64 (signed i.writeCount)) <|
  .cons (ascii "readBytes") (.int64 (signed i.readBytes)) <|
  .cons (ascii "writeBytes") (.int64 (signed i.writeBytes)) .nil

/-- the memory of a process -/
def memFields (m : Memory) : Fields :=
  .cons (ascii "rss") (.int64 (signed m.rss)) <|
  .cons (ascii "vms") (.int64 (signed m.vms)) <|
  .cons (ascii "hwm") (.int64 (signed m.hwm)) <|
  .cons (ascii "data") (.int64 (signed m.data)) <|
  .cons (ascii "stack") (.int64 (signed m.stack)) <|
  .cons (ascii "locked") (.int64 (signed m.locked)) <|
  .cons (ascii "swap") (.int64 (signed m.swap)) .nil

/-- the memory of a process on Linux -/
def extraFields (m : MemoryExtra) : Fields :=
  .cons (ascii "rss") (.int64 (signed m.rss)) <|
  .cons (ascii "vms") (.int64 (signed m.vms)) <|
  .cons (ascii "shared") (.int64 (signed m.shared)) <|
  .cons (ascii "text") (.int64 (signed m.text)) <|
  .cons (ascii "lib") (.int64 (signed m.lib)) <|
  .cons (ascii "data") (.int64 (signed m.data)) <|
  .cons (ascii "dirty") (.int64 (signed m.dirty)) .nil

/-- the memory of the system -/
def vmFields (trunc : UInt64 → Int) (m : VMStat) : Fields :=
  .cons (ascii "total") (.int64 (signed m.total)) <|
  .cons (ascii "available") (.int64 (signed m.available)) <|
  .cons (ascii "used") (.int64 (signed m.used)) <|
  .cons (ascii "usedPercent") (.int64 (trunc m.usedPercent)) <|
  .cons (ascii "free") (.int64 (signed m.free)) <|
  .cons (ascii "active") (.int64 (signed m.active)) <|
  .cons (ascii "inactive") (.int64 (signed m.inactive)) <|
  .cons (ascii "wired") (.int64 (signed m.wired)) <|
  .cons (ascii "laundry") (.int64 (signed m.laundry)) <|
  .cons (ascii "buffers") (.int64 (signed m.buffers)) <|
  .cons (ascii "cached") (.int64 (signed m.cached)) <|
  .cons (ascii "writeback") (.int64 (signed m.writeback)) <|
  .cons (ascii "dirty") (.int64 (signed m.dirty)) <|
  .cons (ascii "writebacktmp") (.int64 (signed m.writebackTmp)) <|
  .cons (ascii "shared") (.int64 (signed m.shared)) <|
  .cons (ascii "slab") (.int64 (signed m.slab)) <|
  .cons (ascii "sreclaimable") (.int64 (signed m.sReclaimable)) <|
  .cons (ascii "sunreclaim") (.int64 (signed m.sUnreclaim)) <|
  .cons (ascii "pagetables") (.int64 (signed m.pageTables)) <|
  .cons (ascii "swapcached") (.int64 (signed m.swapCached)) <|
  .cons (ascii "commitlimit") (.int64 (signed m.commitLimit)) <|
  .cons (ascii "commitedas") (.int64 (signed m.committedAS)) <|
  .cons (ascii "hightotal") (.int64 (signed m.highTotal)) <|
  .cons (ascii "highfree") (.int64 (signed m.highFree)) <|
  .cons (ascii "lowtotal") (.int64 (signed m.lowTotal)) <|
  .cons (ascii "lowfree") (.int64 (signed m.lowFree)) <|
  .cons (ascii "swaptotal") (.int64 (signed m.swapTotal)) <|
  .cons (ascii "swapfree") (.int64 (signed m.swapFree)) <|
  .cons (ascii "mapped") (.int64 (signed m.mapped)) <|
  .cons (ascii "vmalloctotal") (.int64 (signed m.vMallocTotal)) <|
  .cons (ascii "vmallocused") (.int64 (signed m.vMallocUsed)) <|
  .cons (ascii "vmallocchunk") (.int64 (signed m.vMallocChunk)) <|
  .cons (ascii "hugepagestotal") (.int64 (signed m.hugePagesTotal)) <|
  .cons (ascii "hugepagesfree") (.int64 (signed m.hugePagesFree)) <|
  .cons (ascii "hugepagessize") (.int64 (signed m.hugePageSize)) .nil

/-- the space of a file system -/
def usageFields (u : Usage) : Fields :=
  .cons (ascii "path") (.string u.path) <|
  .cons (ascii "fstype") (.string u.fstype) <|
  .cons (ascii "total") (.int64 (signed u.total)) <|
  .cons (ascii "free") (.int64 (signed u.free)) <|
  .cons (ascii "used") (.int64 (signed u.used)) <|
  .cons (ascii "usedPercent") (.double u.usedPercent.toNat) <|
  .cons (ascii "inodesTotal") (.int64 (signed u.inodesTotal)) <|
  .cons (ascii "inodesFree") (.int64 (signed u.inodesFree)) <|
  .cons (ascii "inodesUsedPercent") (.double u.inodesUsedPercent.toNat) .nil

/-- what was read from and written to a disk -/
def iostatFields (d : IOStat) : Fields :=
  .cons (ascii "name") (.string d.name) <|
  .cons (ascii "serialNumber") (.string d.serialNumber) <|
  .cons (ascii "label") (.string d.label) <|
  .cons (ascii "readCount") (.int64 (signed d.readCount)) <|
  .cons (ascii "mergedReadCount") (.int64 (signed d.mergedReadCount)) <|
  .cons (ascii "writeCount") (.int64 (signed d.writeCount)) <|
  .cons (ascii "mergedWriteCount") (.int64 (signed d.mergedWriteCount)) <|
  .cons (ascii "readBytes") (.int64 (signed d.readBytes)) <|
  .cons (ascii "writeBytes") (.int64 (signed d.writeBytes)) <|
  .cons (ascii "readTime") (.int64 (signed d.readTime)) <|
  .cons (ascii "writeTime") (.int64 (signed d.writeTime)) <|
  .cons (ascii "iopsInProgress") (.int64 (signed d.iopsInProgress)) <|
  .cons (ascii "ioTime") (.int64 (signed d.ioTime)) <|
  .cons (ascii "weightedIO") (.int64 (signed d.weightedIO)) .nil

/-- a partition -/
def partitionFields (p : Partition) : Fields :=
  .cons (ascii "device") (.string p.device) <|
  .cons (ascii "mountpoint") (.string p.mountpoint) <|
  .cons (ascii "fstype") (.string p.fstype) <|
  .cons (ascii "opts") (.string p.opts) .nil

/-- a process -/
def processFields (linux : Bool) (p : ProcessInfo) : Fields :=
  .cons (ascii "pid") (.int32 p.pid.toInt) <|
  .cons (ascii "parentPid") (.int32 p.parent.toInt) <|
  .cons (ascii "threads") (int p.threads) <|
  .cons (ascii "command") (.string p.command) <|
  .cons (ascii "cpu") (.doc (cpuFields p.cpu)) <|
  .cons (ascii "io") (.doc (ioFields p.ioStat)) <|
  .cons (ascii "mem") (.doc (memFields p.memory)) <|
  append (if linux then .cons (ascii "memExtra") (.doc (extraFields p.memoryPlatform)) .nil else .nil) <|
  .cons (ascii "net") (.array (docs netFields p.netStat)) .nil

/-- the system -/
def systemFields (trunc : UInt64 → Int) (s : SystemInfo) : Fields :=
  .cons (ascii "num_cpu") (int s.numCPU) <|
  .cons (ascii "cpu_percent") (.double s.cpuPercent.toNat) <|
  .cons (ascii "cpu") (.doc (cpuFields s.cpu)) <|
  .cons (ascii "vmstat") (.doc (vmFields trunc s.vmStat)) <|
  .cons (ascii "netstat") (.doc (netFields s.netStat)) <|
  .cons (ascii "usage") (.array (docs usageFields s.usage)) <|
  .cons (ascii "iostat") (.array (docs iostatFields s.ioStat)) <|
  .cons (ascii "partitions") (.array (docs partitionFields s.partitions)) .nil

/-- a part, if there is one -/
def part {α : Type} (key : Bytes) (f : α → Fields) : Option α → Fields
  | none => .nil
  | some a => .cons key (.doc (f a)) .nil

/-- a sample, without custom collectors -/
def runtimeFields (linux : Bool) (trunc : UInt64 → Int) (r : Runtime) : Fields :=
  .cons (ascii "id") (int r.id) <|
  .cons (ascii "ts") (.datetime (nanoseconds r.timestamp / 1000000)) <|
  .cons (ascii "pid") (int r.pid) <|
  append (part (ascii "golang") GoStats.infoFields r.golang) <|
  append (part (ascii "system") (systemFields trunc) r.system) <|
  part (ascii "process") (processFields linux) r.process

/-- what custom collectors give, under their names -/
def customFields : List (Bytes × Fields) → Fields
  | [] => .nil
  | (name, fs) :: cs => .cons name (.doc fs) (customFields cs)

/-- a sample: with custom collectors there is one more level -/
def sampleFields (linux : Bool) (trunc : UInt64 → Int) (r : Runtime) (cs : List (Bytes × Fields)) : Fields :=
  if cs = [] then runtimeFields linux trunc r else .cons (ascii "runtime") (.doc (runtimeFields linux trunc r)) (customFields cs)

mutual
/-- a document with nothing but zeros, empty strings and empty arrays -/
def Blank : Fields → Prop
  | .nil => True
  | .cons _ v fs => BlankVal v ∧ Blank fs
def BlankVal : BVal → Prop
  | .int32 n => n = 0
  | .int64 n => n = 0
  | .double b => b = 0
  | .string s => s = []
  | .array vs => vs = .nil
  | .doc fs => Blank fs
  | _ => False
end

/-- strings are not too long for a document -/
def Short (s : Bytes) : Prop := s.length < 1073741824

/-- the collectors give documents, with these names and fields -/
def Give : List Custom → List (Bytes × Fields) → Prop
  | [], [] => True
  | c :: cs, x :: xs => (c.name = x.1 ∧ NulFree c.name ∧ Short c.name ∧ ∃ d, c.operation = some d ∧ RepFields d x.2) ∧ Give cs xs
  | _, _ => False

/-- the number is an int that is not below -2^31 (see C23) -/
def IntFits (i : Int) : Prop := -2147483648 ≤ i ∧ i < 9223372036854775808

/-- a process that fits a document -/
def ProcessFits (p : ProcessInfo) : Prop := IntFits p.threads ∧ Short p.command ∧ ∀ n ∈ p.netStat, Short n.name

/-- a system that fits a document -/
def SystemFits (s : SystemInfo) : Prop :=
  IntFits s.numCPU ∧ Short s.netStat.name ∧ (∀ u ∈ s.usage, Short u.path ∧ Short u.fstype) ∧ (∀ d ∈ s.ioStat, Short d.name ∧ Short d.serialNumber ∧ Short d.label) ∧
  ∀ p ∈ s.partitions, Short p.device ∧ Short p.mountpoint ∧ Short p.fstype ∧ Short p.opts

/-- a sample that fits a document -/
def RuntimeFits (r : Runtime) : Prop :=
  IntFits r.id ∧ IntFits r.pid ∧ Spec.Normal r.timestamp ∧ Events.IsInt64 (nanoseconds r.timestamp / 1000000) ∧ (∀ i ∈ r.golang, GoStats.InfoFits i) ∧
  (∀ s ∈ r.system, SystemFits s) ∧ ∀ p ∈ r.process, ProcessFits p

/-- the numbers of file systems, disks and network interfaces in a sample -/
def counts (r : Runtime) : Option (Nat × Nat) × Option Nat :=
  (r.system.map fun s => (s.usage.length, s.ioStat.length), r.process.map fun p => p.netStat.length)

/-- whether a sample has the three parts -/
def parts (r : Runtime) : Bool × Bool × Bool := (r.golang.isSome, r.system.isSome, r.process.isSome)

/-- the ints of a sample are less than 2^31 - 1, so that they are written as int32 -/
def SmallInts (r : Runtime) : Prop :=
  r.id < 2147483647 ∧ r.pid < 2147483647 ∧ (∀ s ∈ r.system, s.numCPU < 2147483647) ∧ ∀ p ∈ r.process, p.threads < 2147483647

/-! ### answers -/

/-- the value, unless there was an error -/
def answered {α : Type} (a : Answer α) : Option α := if a.err = none then some a.value else none

/-- what is kept of an error: where it was and its text, unless it is that something is not implemented -/
def complaint (stat : String) : Option Bytes → List Bytes
  | none => []
  | some e => if e = ascii "not implemented yet" then [] else [ascii stat ++ ascii ": " ++ e]

/-- the file systems whose space is known; the percents are left out -/
def usages (usage : Bytes → Answer Usage) (ps : List Partition) : List Usage :=
  ps.filterMap fun p => (answered (usage p.mountpoint)).map fun u => { u with usedPercent := 0, inodesUsedPercent := 0 }

/-- times in ticks, each under its own name -/
def inTicks (ticks : UInt64 → Int64) (t : Times) : CPUTimes where
  user := ticks t.user
  system := ticks t.system
  idle := ticks t.idle
  nice := ticks t.nice
  iowait := ticks t.iowait
  irq := ticks t.irq
  softirq := ticks t.softirq
  steal := ticks t.steal
  guest := ticks t.guest
  guestNice := ticks t.guestNice

/-- an answer for each question, or the zero value if there was an error -/
structure IsProcess (ticks : UInt64 → Int64) (a : ProcessAnswers) (p : ProcessInfo) : Prop where
  pid : p.pid = a.pid
  parent : p.parent = (answered a.ppid).getD 0
  threads : p.threads = a.numThreads.value.toInt
  command : p.command = a.cmdline.value
  cpu : p.cpu = ((answered a.times).join.map (inTicks ticks)).getD .zero
  ioStat : p.ioStat = (answered a.ioCounters).join.getD .zero
  netStat : p.netStat = a.netIOCounters.value
  memory : p.memory = (answered a.memoryInfo).join.getD .zero
  memoryPlatform : p.memoryPlatform = (answered a.memoryInfoEx).join.getD .zero
  errors : p.errors = complaint "parent_pid" a.ppid.err ++ complaint "meminfo" a.memoryInfo.err ++ complaint "meminfo_extended" a.memoryInfoEx.err ++
    complaint "num_threads" a.numThreads.err ++ complaint "netstat" a.netIOCounters.err ++ complaint "cmd args" a.cmdline.err ++ complaint "cpu_times" a.times.err ++
    complaint "iostat" a.ioCounters.err

/-- an answer for each question, or the zero value if there was an error; the percents of memory and file systems are left out -/
structure IsSystem (ticks : UInt64 → Int64) (numCPU : Int) (a : SystemAnswers) (s : SystemInfo) : Prop where
  numCPU : s.numCPU = numCPU
  cpu : s.cpu = (((answered a.times).bind List.head?).map (inTicks ticks)).getD .zero
  cpuPercent : s.cpuPercent = ((answered a.percent).bind List.head?).getD 0
  vmStat : s.vmStat = ((answered a.virtualMemory).join.map fun (v : VMStat) => { v with usedPercent := 0 }).getD .zero
  netStat : s.netStat = ((answered a.netIOCounters).bind List.head?).getD .zero
  partitions : s.partitions = (answered a.partitions).getD []
  usage : s.usage = usages a.usage ((answered a.partitions).getD [])
  ioStat : s.ioStat = a.diskIOCounters.value
  errors : s.errors = complaint "cpu_times" a.times.err ++ complaint "cpu_times" a.percent.err ++ complaint "vmstat" a.virtualMemory.err ++
    complaint "netstat" a.netIOCounters.err ++ complaint "disk_part" a.partitions.err ++
    ((answered a.partitions).getD []).flatMap (fun p => complaint "partition" (a.usage p.mountpoint).err) ++ complaint "iostat" a.diskIOCounters.err

/-! ### processes -/

/-- what the process itself answers -/
def own : Process → ProcessAnswers
  | .mk a _ _ => a

/-- the children, as far as they can be listed -/
def listed : Process → List Process
  | .mk _ cs err => if err then [] else cs

/-- the second is the first, or a child of a child and so on -/
inductive Below : Process → Process → Prop
  | refl (p : Process) : Below p p
  | child {p c q : Process} : c ∈ listed p → Below c q → Below p q

mutual
/-- how many processes can be listed, with the process itself -/
def count : Process → Nat
  | .mk _ cs err => 1 + if err then 0 else countAll cs
/-- how many there are below several -/
def countAll : List Process → Nat
  | [] => 0
  | p :: ps => count p + countAll ps
end

end Birch.Spec.Metrics
