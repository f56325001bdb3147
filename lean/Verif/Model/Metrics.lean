import Verif.Model.GoStats
import Verif.Spec.Ascii

/-
Model of the samples of x/ftdc/metrics: what is asked of the operating system, what becomes of the answers, and the documents made of them.

The library that asks (gopsutil) is not modelled: its answers are parameters, errors among them (`Answer`).  Its `map` of disks is a list, in the order in which
`range` gives it.  uint64 is `UInt64`, int64 is `Int64`, doubles are their bits; how a double becomes an int64 is a parameter.
-/

namespace Birch.Model.Metrics
open Birch Model GoStats

/-! ### what there is to know -/

/-- `net.IOCountersStat` of gopsutil, as far as it is used -/
structure NetStat where
  name : Bytes
  bytesSent : UInt64
  bytesRecv : UInt64
  packetsSent : UInt64
  packetsRecv : UInt64
  errin : UInt64
  errout : UInt64
  dropin : UInt64
  dropout : UInt64
  fifoin : UInt64
  fifoout : UInt64

/-- `StatCPUTimes` (x/ftdc/metrics/system_info.go:31-42) -/
structure CPUTimes where
  user : Int64
  system : Int64
  idle : Int64
  nice : Int64
  iowait : Int64
  irq : Int64
  softirq : Int64
  steal : Int64
  guest : Int64
  guestNice : Int64

/-- `process.IOCountersStat` of gopsutil -/
structure ProcessIO where
  readCount : UInt64
  writeCount : UInt64
  readBytes : UInt64
  writeBytes : UInt64

/-- `process.MemoryInfoStat` of gopsutil -/
structure Memory where
  rss : UInt64
  vms : UInt64
  hwm : UInt64
  data : UInt64
  stack : UInt64
  locked : UInt64
  swap : UInt64

/-- `process.MemoryInfoExStat` of gopsutil (on Linux) -/
structure MemoryExtra where
  rss : UInt64
  vms : UInt64
  shared : UInt64
  text : UInt64
  lib : UInt64
  data : UInt64
  dirty : UInt64

/-- `mem.VirtualMemoryStat` of gopsutil; `usedPercent` is a double -/
structure VMStat where
  total : UInt64
  available : UInt64
  used : UInt64
  usedPercent : UInt64
  free : UInt64
  active : UInt64
  inactive : UInt64
  wired : UInt64
  laundry : UInt64
  buffers : UInt64
  cached : UInt64
  writeback : UInt64
  dirty : UInt64
  writebackTmp : UInt64
  shared : UInt64
  slab : UInt64
  sReclaimable : UInt64
  sUnreclaim : UInt64
  pageTables : UInt64
  swapCached : UInt64
  commitLimit : UInt64
  committedAS : UInt64
  highTotal : UInt64
  highFree : UInt64
  lowTotal : UInt64
  lowFree : UInt64
  swapTotal : UInt64
  swapFree : UInt64
  mapped : UInt64
  vMallocTotal : UInt64
  vMallocUsed : UInt64
  vMallocChunk : UInt64
  hugePagesTotal : UInt64
  hugePagesFree : UInt64
  hugePageSize : UInt64

/-- `disk.UsageStat` of gopsutil, as far as it is used; the percents are doubles -/
structure Usage where
  path : Bytes
  fstype : Bytes
  total : UInt64
  free : UInt64
  used : UInt64
  usedPercent : UInt64
  inodesTotal : UInt64
  inodesFree : UInt64
  inodesUsedPercent : UInt64

/-- `disk.IOCountersStat` of gopsutil -/
structure IOStat where
  name : Bytes
  serialNumber : Bytes
  label : Bytes
  readCount : UInt64
  mergedReadCount : UInt64
  writeCount : UInt64
  mergedWriteCount : UInt64
  readBytes : UInt64
  writeBytes : UInt64
  readTime : UInt64
  writeTime : UInt64
  iopsInProgress : UInt64
  ioTime : UInt64
  weightedIO : UInt64

/-- `disk.PartitionStat` of gopsutil -/
structure Partition where
  device : Bytes
  mountpoint : Bytes
  fstype : Bytes
  opts : Bytes

/-- `ProcessInfo` (x/ftdc/metrics/process_info.go:16-27) -/
structure ProcessInfo where
  pid : Int32
  parent : Int32
  threads : Int
  command : Bytes
  cpu : CPUTimes
  ioStat : ProcessIO
  netStat : List NetStat
  memory : Memory
  memoryPlatform : MemoryExtra
  errors : List Bytes

/-- `SystemInfo` (x/ftdc/metrics/system_info.go:17-27) -/
structure SystemInfo where
  cpu : CPUTimes
  cpuPercent : UInt64
  numCPU : Int
  vmStat : VMStat
  netStat : NetStat
  partitions : List Partition
  usage : List Usage
  ioStat : List IOStat
  errors : List Bytes

/-- `Runtime` (x/ftdc/metrics/metrics.go:20-28) -/
structure Runtime where
  id : Int
  pid : Int
  timestamp : Time
  golang : Option Info
  system : Option SystemInfo
  process : Option ProcessInfo

/-! ### documents -/

/-- `birch.DC.Elements` of elements that are made one after the other -/
def elements : List (Res Value) → Res Doc
  | [] => .ok []
  | r :: rs => do .ok ((← r) :: (← elements rs))

/-- `birch.MakeArray`, with a loop that appends `birch.VC.Document` or `birch.VC.DocumentFromElements` for each item; a value is an element with an empty key
    (constructor.go:606-618) -/
def documents {α : Type} (f : α → Res Doc) : List α → Res Doc
  | [] => .ok []
  | a :: as => do .ok ((← EC.subDocument [] (← f a)) :: (← documents f as))

/-- `birch.EC.SubDocument` and `birch.EC.SubDocumentFromElements` (constructor.go:229-246, 271-273) of a document being made -/
def subDocument (key : Bytes) (d : Res Doc) : Res Value := do EC.subDocument key (← d)

/-- `marshalNetStat` (x/ftdc/metrics/birch_builders.go:8-21) -/
def marshalNetStat (netstat : NetStat) : Res Doc := elements [
  EC.string (ascii "name") netstat.name,
  EC.int64 (ascii "bytesSent") (toInt64 netstat.bytesSent.toNat),
  EC.int64 (ascii "bytesRecv") (toInt64 netstat.bytesRecv.toNat),
  EC.int64 (ascii "packetsSent") (toInt64 netstat.packetsSent.toNat),
  EC.int64 (ascii "packetsRecv") (toInt64 netstat.packetsRecv.toNat),
  EC.int64 (ascii "errin") (toInt64 netstat.errin.toNat),
  EC.int64 (ascii "errout") (toInt64 netstat.errout.toNat),
  EC.int64 (ascii "dropin") (toInt64 netstat.dropin.toNat),
  EC.int64 (ascii "dropout") (toInt64 netstat.dropout.toNat),
  EC.int64 (ascii "fifoin") (toInt64 netstat.fifoin.toNat),
  EC.int64 (ascii "fifoout") (toInt64 netstat.fifoout.toNat)]

/-- `marshalCPU` (x/ftdc/metrics/birch_builders.go:23-35) -/
def marshalCPU (cpu : CPUTimes) : Res Doc := elements [
  EC.int64 (ascii "user") cpu.user.toInt,
  EC.int64 (ascii "system") cpu.system.toInt,
  EC.int64 (ascii "idle") cpu.idle.toInt,
  EC.int64 (ascii "nice") cpu.nice.toInt,
  EC.int64 (ascii "iowait") cpu.iowait.toInt,
  EC.int64 (ascii "irq") cpu.irq.toInt,
  EC.int64 (ascii "softirq") cpu.softirq.toInt,
  EC.int64 (ascii "steal") cpu.steal.toInt,
  EC.int64 (ascii "guest") cpu.guest.toInt,
  EC.int64 (ascii "guestNice") cpu.guestNice.toInt]

/-- the document in `marshalMemExtra` (x/ftdc/metrics/platform_linux.go:15-22) -/
def extraDocument (mem : MemoryExtra) : Res Doc := elements [
  EC.int64 (ascii "rss") (toInt64 mem.rss.toNat),
  EC.int64 (ascii "vms") (toInt64 mem.vms.toNat),
  EC.int64 (ascii "shared") (toInt64 mem.shared.toNat),
  EC.int64 (ascii "text") (toInt64 mem.text.toNat),
  EC.int64 (ascii "lib") (toInt64 mem.lib.toNat),
  EC.int64 (ascii "data") (toInt64 mem.data.toNat),
  EC.int64 (ascii "dirty") (toInt64 mem.dirty.toNat)]

/-- `marshalMemExtra` (x/ftdc/metrics/platform_linux.go:11-23) of a non-nil pointer; there is none on other platforms (x/ftdc/metrics/platform_darwin.go:11 and others) -/
def marshalMemExtra (linux : Bool) (mem : MemoryExtra) : Res (Option Value) :=
  if linux then do .ok (some (← subDocument (ascii "memExtra") (extraDocument mem))) else .ok none

/-- `AppendOmitEmpty` (document.go:76-87) of one element.  Fuel is for parsing, which a document that was made does not need. -/
def appendOmitEmpty (fuel : Nat) (d : Doc) : Option Value → Res Doc
  | none => .ok d
  | some e => do if ← isEmpty fuel e then .ok d else .ok (d ++ [e])

/-- the document of "io" (x/ftdc/metrics/process_info.go:156-160) -/
def ioDocument (io : ProcessIO) : Res Doc := elements [
  EC.int64 (ascii "readCount") (toInt64 io.readCount.toNat),
  EC.int64 (ascii "writeCount") (toInt64 io.writeCount.toNat),
  EC.int64 (ascii "readBytes") (toInt64 io.readBytes.toNat),
  EC.int64 (ascii "writeBytes") (toInt64 io.writeBytes.toNat)]

/-- the document of "mem" (x/ftdc/metrics/process_info.go:161-168) -/
def memDocument (mem : Memory) : Res Doc := elements [
  EC.int64 (ascii "rss") (toInt64 mem.rss.toNat),
  EC.int64 (ascii "vms") (toInt64 mem.vms.toNat),
  EC.int64 (ascii "hwm") (toInt64 mem.hwm.toNat),
  EC.int64 (ascii "data") (toInt64 mem.data.toNat),
  EC.int64 (ascii "stack") (toInt64 mem.stack.toNat),
  EC.int64 (ascii "locked") (toInt64 mem.locked.toNat),
  EC.int64 (ascii "swap") (toInt64 mem.swap.toNat)]

/-- `ProcessInfo.MarshalDocument` (x/ftdc/metrics/process_info.go:149-180) -/
def ProcessInfo.marshalDocument (linux : Bool) (p : ProcessInfo) : Res Doc := do
  let proc ← elements [
    EC.int32 (ascii "pid") p.pid.toInt,
    EC.int32 (ascii "parentPid") p.parent.toInt,
    EC.int (ascii "threads") p.threads,
    EC.string (ascii "command") p.command,
    subDocument (ascii "cpu") (marshalCPU p.cpu),
    subDocument (ascii "io") (ioDocument p.ioStat),
    subDocument (ascii "mem") (memDocument p.memory)]
  let proc ← appendOmitEmpty 0 proc (← marshalMemExtra linux p.memoryPlatform)
  let na ← documents marshalNetStat p.netStat
  .ok (proc ++ [← EC.array (ascii "net") na])

/-- the document of "vmstat" (x/ftdc/metrics/system_info.go:139-174); `trunc` is `int64` of a double -/
def vmDocument (trunc : UInt64 → Int) (vm : VMStat) : Res Doc := elements [
  EC.int64 (ascii "total") (toInt64 vm.total.toNat),
  EC.int64 (ascii "available") (toInt64 vm.available.toNat),
  EC.int64 (ascii "used") (toInt64 vm.used.toNat),
  EC.int64 (ascii "usedPercent") (trunc vm.usedPercent),
  EC.int64 (ascii "free") (toInt64 vm.free.toNat),
  EC.int64 (ascii "active") (toInt64 vm.active.toNat),
  EC.int64 (ascii "inactive") (toInt64 vm.inactive.toNat),
  EC.int64 (ascii "wired") (toInt64 vm.wired.toNat),
  EC.int64 (ascii "laundry") (toInt64 vm.laundry.toNat),
  EC.int64 (ascii "buffers") (toInt64 vm.buffers.toNat),
  EC.int64 (ascii "cached") (toInt64 vm.cached.toNat),
  EC.int64 (ascii "writeback") (toInt64 vm.writeback.toNat),
  EC.int64 (ascii "dirty") (toInt64 vm.dirty.toNat),
  EC.int64 (ascii "writebacktmp") (toInt64 vm.writebackTmp.toNat),
  EC.int64 (ascii "shared") (toInt64 vm.shared.toNat),
  EC.int64 (ascii "slab") (toInt64 vm.slab.toNat),
  EC.int64 (ascii "sreclaimable") (toInt64 vm.sReclaimable.toNat),
  EC.int64 (ascii "sunreclaim") (toInt64 vm.sUnreclaim.toNat),
  EC.int64 (ascii "pagetables") (toInt64 vm.pageTables.toNat),
  EC.int64 (ascii "swapcached") (toInt64 vm.swapCached.toNat),
  EC.int64 (ascii "commitlimit") (toInt64 vm.commitLimit.toNat),
  EC.int64 (ascii "commitedas") (toInt64 vm.committedAS.toNat),
  EC.int64 (ascii "hightotal") (toInt64 vm.highTotal.toNat),
  EC.int64 (ascii "highfree") (toInt64 vm.highFree.toNat),
  EC.int64 (ascii "lowtotal") (toInt64 vm.lowTotal.toNat),
  EC.int64 (ascii "lowfree") (toInt64 vm.lowFree.toNat),
  EC.int64 (ascii "swaptotal") (toInt64 vm.swapTotal.toNat),
  EC.int64 (ascii "swapfree") (toInt64 vm.swapFree.toNat),
  EC.int64 (ascii "mapped") (toInt64 vm.mapped.toNat),
  EC.int64 (ascii "vmalloctotal") (toInt64 vm.vMallocTotal.toNat),
  EC.int64 (ascii "vmallocused") (toInt64 vm.vMallocUsed.toNat),
  EC.int64 (ascii "vmallocchunk") (toInt64 vm.vMallocChunk.toNat),
  EC.int64 (ascii "hugepagestotal") (toInt64 vm.hugePagesTotal.toNat),
  EC.int64 (ascii "hugepagesfree") (toInt64 vm.hugePagesFree.toNat),
  EC.int64 (ascii "hugepagessize") (toInt64 vm.hugePageSize.toNat)]

/-- a document of "usage" (x/ftdc/metrics/system_info.go:179-188) -/
def usageDocument (usage : Usage) : Res Doc := elements [
  EC.string (ascii "path") usage.path,
  EC.string (ascii "fstype") usage.fstype,
  EC.int64 (ascii "total") (toInt64 usage.total.toNat),
  EC.int64 (ascii "free") (toInt64 usage.free.toNat),
  EC.int64 (ascii "used") (toInt64 usage.used.toNat),
  EC.double (ascii "usedPercent") usage.usedPercent.toNat,
  EC.int64 (ascii "inodesTotal") (toInt64 usage.inodesTotal.toNat),
  EC.int64 (ascii "inodesFree") (toInt64 usage.inodesFree.toNat),
  EC.double (ascii "inodesUsedPercent") usage.inodesUsedPercent.toNat]

/-- a document of "iostat" (x/ftdc/metrics/system_info.go:195-210) -/
def iostatDocument (iostat : IOStat) : Res Doc := elements [
  EC.string (ascii "name") iostat.name,
  EC.string (ascii "serialNumber") iostat.serialNumber,
  EC.string (ascii "label") iostat.label,
  EC.int64 (ascii "readCount") (toInt64 iostat.readCount.toNat),
  EC.int64 (ascii "mergedReadCount") (toInt64 iostat.mergedReadCount.toNat),
  EC.int64 (ascii "writeCount") (toInt64 iostat.writeCount.toNat),
  EC.int64 (ascii "mergedWriteCount") (toInt64 iostat.mergedWriteCount.toNat),
  EC.int64 (ascii "readBytes") (toInt64 iostat.readBytes.toNat),
  EC.int64 (ascii "writeBytes") (toInt64 iostat.writeBytes.toNat),
  EC.int64 (ascii "readTime") (toInt64 iostat.readTime.toNat),
  EC.int64 (ascii "writeTime") (toInt64 iostat.writeTime.toNat),
  EC.int64 (ascii "iopsInProgress") (toInt64 iostat.iopsInProgress.toNat),
  EC.int64 (ascii "ioTime") (toInt64 iostat.ioTime.toNat),
  EC.int64 (ascii "weightedIO") (toInt64 iostat.weightedIO.toNat)]

/-- a document of "partitions" (x/ftdc/metrics/system_info.go:217-222) -/
def partitionDocument (part : Partition) : Res Doc := elements [
  EC.string (ascii "device") part.device,
  EC.string (ascii "mountpoint") part.mountpoint,
  EC.string (ascii "fstype") part.fstype,
  EC.string (ascii "opts") part.opts]

/-- `SystemInfo.MarshalDocument` (x/ftdc/metrics/system_info.go:134-228) -/
def SystemInfo.marshalDocument (trunc : UInt64 → Int) (s : SystemInfo) : Res Doc := do
  let sys ← elements [
    EC.int (ascii "num_cpu") s.numCPU,
    EC.double (ascii "cpu_percent") s.cpuPercent.toNat,
    subDocument (ascii "cpu") (marshalCPU s.cpu),
    subDocument (ascii "vmstat") (vmDocument trunc s.vmStat),
    subDocument (ascii "netstat") (marshalNetStat s.netStat)]
  let ua ← documents usageDocument s.usage
  let sys := sys ++ [← EC.array (ascii "usage") ua]
  let ioa ← documents iostatDocument s.ioStat
  let sys := sys ++ [← EC.array (ascii "iostat") ioa]
  let parts ← documents partitionDocument s.partitions
  .ok (sys ++ [← EC.array (ascii "partitions") parts])

/-- `birch.EC.DocumentMarshaler` (x_constructor.go:247-249): an error is a panic -/
def documentMarshaler (key : Bytes) (d : Res Doc) : Res Value :=
  match d with
  | .err _ => .panic
  | d => subDocument key d

/-- a part of the sample, if there is one (x/ftdc/metrics/runtime.go:13-23) -/
def appendPart {α : Type} (key : Bytes) (marshal : α → Res Doc) (doc : Doc) : Option α → Res Doc
  | none => .ok doc
  | some a => do .ok (doc ++ [← documentMarshaler key (marshal a)])

/-- `Runtime.MarshalDocument` (x/ftdc/metrics/runtime.go:7-26) -/
def Runtime.marshalDocument (linux : Bool) (trunc : UInt64 → Int) (r : Runtime) : Res Doc := do
  let doc ← elements [
    EC.int (ascii "id") r.id,
    EC.time (ascii "ts") r.timestamp,
    EC.int (ascii "pid") r.pid]
  let doc ← appendPart (ascii "golang") Info.marshalDocument doc r.golang
  let doc ← appendPart (ascii "system") (SystemInfo.marshalDocument trunc) doc r.system
  appendPart (ascii "process") (ProcessInfo.marshalDocument linux) doc r.process

/-! ### answers -/

/-- what a function of gopsutil returns: a value and the text of the error, if there is one -/
structure Answer (α : Type) where
  value : α
  err : Option Bytes

/-- `shouldSaveError` (x/ftdc/metrics/system_info.go:231-233) and the two `saveError` (128-132; x/ftdc/metrics/process_info.go:235-239): the errors with another, "stat: err" -/
def saveError (errors : List Bytes) (stat : String) : Option Bytes → List Bytes
  | none => errors
  | some e => if e ≠ ascii "not implemented yet" then errors ++ [ascii stat ++ ascii ": " ++ e] else errors

/-- `cpu.TimesStat` of gopsutil: doubles -/
structure Times where
  user : UInt64
  system : UInt64
  idle : UInt64
  nice : UInt64
  iowait : UInt64
  irq : UInt64
  softirq : UInt64
  steal : UInt64
  guest : UInt64
  guestNice : UInt64

/-- `convertCPUTimes` (x/ftdc/metrics/system_info.go:44-57); `ticks` is `int64(x * cpuTicks)` -/
def convertCPUTimes (ticks : UInt64 → Int64) (i : Times) : CPUTimes :=
  ⟨ticks i.user, ticks i.system, ticks i.idle, ticks i.nice, ticks i.iowait, ticks i.irq, ticks i.softirq, ticks i.steal, ticks i.guest, ticks i.guestNice⟩

/-- the zero value -/
def NetStat.zero : NetStat := ⟨[], 0, 0, 0, 0, 0, 0, 0, 0, 0, 0⟩

/-- the zero value -/
def CPUTimes.zero : CPUTimes := ⟨0, 0, 0, 0, 0, 0, 0, 0, 0, 0⟩

/-- the zero value -/
def ProcessIO.zero : ProcessIO := ⟨0, 0, 0, 0⟩

/-- the zero value -/
def Memory.zero : Memory := ⟨0, 0, 0, 0, 0, 0, 0⟩

/-- the zero value -/
def MemoryExtra.zero : MemoryExtra := ⟨0, 0, 0, 0, 0, 0, 0⟩

/-- the zero value -/
def VMStat.zero : VMStat := ⟨0, 0, 0, 0, 0, 0, 0, 0, 0, 0, 0, 0, 0, 0, 0, 0, 0, 0, 0, 0, 0, 0, 0, 0, 0, 0, 0, 0, 0, 0, 0, 0, 0, 0, 0⟩

/-- the zero value -/
def ProcessInfo.zero : ProcessInfo := ⟨0, 0, 0, [], .zero, .zero, [], .zero, .zero, []⟩

/-- the zero value -/
def SystemInfo.zero : SystemInfo := ⟨.zero, 0, 0, .zero, .zero, [], [], [], []⟩

/-- what a process answers; pointers may be nil -/
structure ProcessAnswers where
  pid : Int32
  ppid : Answer Int32
  memoryInfo : Answer (Option Memory)
  memoryInfoEx : Answer (Option MemoryExtra)
  numThreads : Answer Int32
  netIOCounters : Answer (List NetStat)
  cmdline : Answer Bytes
  times : Answer (Option Times)
  ioCounters : Answer (Option ProcessIO)

/-- what is taken of an answer with a pointer: `if err == nil && x != nil { p.X = *x }` -/
def pointed {α : Type} (old : α) (a : Answer (Option α)) : α :=
  match a.err, a.value with
  | none, some x => x
  | _, _ => old

/-- `populate` (x/ftdc/metrics/process_info.go:188-233) -/
def ProcessInfo.populate (ticks : UInt64 → Int64) (p : ProcessInfo) (a : ProcessAnswers) : ProcessInfo :=
  let p := if p.pid = 0 then { p with pid := a.pid } else p
  let p := { p with errors := saveError p.errors "parent_pid" a.ppid.err, parent := if a.ppid.err = none then a.ppid.value else p.parent }
  let p := { p with errors := saveError p.errors "meminfo" a.memoryInfo.err, memory := pointed p.memory a.memoryInfo }
  let p := { p with errors := saveError p.errors "meminfo_extended" a.memoryInfoEx.err, memoryPlatform := pointed p.memoryPlatform a.memoryInfoEx }
  let p := { p with threads := a.numThreads.value.toInt, errors := saveError p.errors "num_threads" a.numThreads.err }
  let p := { p with netStat := a.netIOCounters.value, errors := saveError p.errors "netstat" a.netIOCounters.err }
  let p := { p with command := a.cmdline.value, errors := saveError p.errors "cmd args" a.cmdline.err }
  let p := { p with errors := saveError p.errors "cpu_times" a.times.err, cpu := pointed p.cpu ⟨a.times.value.map (convertCPUTimes ticks), a.times.err⟩ }
  { p with errors := saveError p.errors "iostat" a.ioCounters.err, ioStat := pointed p.ioStat a.ioCounters }

/-- `MakeProcessInfo` (x/ftdc/metrics/process_info.go:136-147): `process.NewProcess` gives a process, or an error -/
def makeProcessInfo (ticks : UInt64 → Int64) : Except Bytes ProcessAnswers → ProcessInfo
  | .error e => { ProcessInfo.zero with errors := saveError [] "process" (some e) }
  | .ok a => ProcessInfo.zero.populate ticks a

/-- what the system answers -/
structure SystemAnswers where
  times : Answer (List Times)
  percent : Answer (List UInt64)
  virtualMemory : Answer (Option VMStat)
  netIOCounters : Answer (List NetStat)
  partitions : Answer (List Partition)
  /-- `disk.Usage` of a mount point; the pointer is not nil unless there is an error -/
  usage : Bytes → Answer Usage
  diskIOCounters : Answer (List IOStat)

/-- the first of a list, if there is one and no error (x/ftdc/metrics/system_info.go:74-78, 95-97) -/
def first {α : Type} (old : α) (a : Answer (List α)) : α :=
  match a.err, a.value with
  | none, x :: _ => x
  | _, _ => old

/-- the loop over the partitions (x/ftdc/metrics/system_info.go:104-114) -/
def usageLoop (usage : Bytes → Answer Usage) (s : SystemInfo) : List Partition → SystemInfo
  | [] => s
  | p :: ps =>
    let u := usage p.mountpoint
    let s := { s with errors := saveError s.errors "partition" u.err }
    if u.err ≠ none then usageLoop usage s ps
    else usageLoop usage { s with usage := s.usage ++ [{ u.value with usedPercent := 0, inodesUsedPercent := 0 }] } ps

/-- `MakeSystemInfo` (x/ftdc/metrics/system_info.go:67-126); the message is not used -/
def makeSystemInfo (ticks : UInt64 → Int64) (numCPU : Int) (a : SystemAnswers) : Res SystemInfo := do
  let s : SystemInfo := { SystemInfo.zero with numCPU := numCPU }
  let s : SystemInfo := { s with errors := saveError s.errors "cpu_times" a.times.err, cpu := first s.cpu ⟨a.times.value.map (convertCPUTimes ticks), a.times.err⟩ }
  let s ← match a.percent.err, a.percent.value with
    | some e, _ => Res.ok { s with errors := saveError s.errors "cpu_times" (some e) }
    | none, p :: _ => Res.ok { s with cpuPercent := p }
    | none, [] => Res.panic
  let s := { s with
    errors := saveError s.errors "vmstat" a.virtualMemory.err,
    vmStat := pointed s.vmStat ⟨a.virtualMemory.value.map fun (v : VMStat) => { v with usedPercent := 0 }, a.virtualMemory.err⟩ }
  let s := { s with errors := saveError s.errors "netstat" a.netIOCounters.err, netStat := first s.netStat a.netIOCounters }
  let s := { s with errors := saveError s.errors "disk_part" a.partitions.err }
  let s : SystemInfo := if a.partitions.err = none then
      let s := usageLoop a.usage s a.partitions.value
      { s with partitions := a.partitions.value }
    else s
  let s := { s with errors := saveError s.errors "iostat" a.diskIOCounters.err }
  .ok { s with ioStat := s.ioStat ++ a.diskIOCounters.value }

/-! ### samples -/

/-- a custom collector (x/ftdc/metrics/metrics.go:50-53), with what its function returns: a document, or nil -/
structure Custom where
  name : Bytes
  operation : Option Doc

/-- `birch.EC.SubDocument` (constructor.go:229-246) of a pointer: with nil there is only the header -/
def subDocumentOf (key : Bytes) : Option Doc → Res Value
  | some d => EC.subDocument key d
  | none => do .ok (.raw 0 (u32 (1 + key.length + 1)) (← EC.header 0x03 key))

/-- `generate` (x/ftdc/metrics/metrics.go:55-92) unless collectors are to run in parallel (see Model/Pool): the sample, given what was collected -/
def generate (linux : Bool) (trunc : UInt64 → Int) (out : Runtime) (collectors : List Custom) : Res Doc := do
  let docb ← out.marshalDocument linux trunc
  if collectors.length = 0 then .ok docb
  else elements (EC.subDocument (ascii "runtime") docb :: collectors.map fun ec => subDocumentOf ec.name ec.operation)

/-! ### processes -/

/-- a process with its children, or an error in place of them -/
inductive Process where
  | mk (a : ProcessAnswers) (children : List Process) (err : Bool)

mutual
/-- `getChildrenRecursively` (x/ftdc/metrics/process_info.go:118-132) -/
def childrenOf : Process → List ProcessAnswers
  | .mk _ children err => if children.length = 0 ∨ err then [] else childrenLoop children
/-- its loop (x/ftdc/metrics/process_info.go:126-129) -/
def childrenLoop : List Process → List ProcessAnswers
  | [] => []
  | .mk a cs err :: ps => a :: (childrenOf (.mk a cs err) ++ childrenLoop ps)
end

/-- `CollectProcessInfoWithChildren` (x/ftdc/metrics/process_info.go:57-75); `none` is an error of `process.NewProcess` -/
def withChildren (ticks : UInt64 → Int64) : Option Process → List ProcessInfo
  | none => []
  | some (.mk a cs err) => (a :: childrenOf (.mk a cs err)).map (ProcessInfo.zero.populate ticks)

end Birch.Model.Metrics
