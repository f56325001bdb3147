import Verif.Spec.Metrics
import Verif.Proofs.GoStats
import Verif.Proofs.FtdcTree

namespace Birch.Proofs.Metrics
open Birch Model Model.Metrics Model.GoStats Spec Spec.Metrics
open Birch.Spec.Events (IsInt64)

/-! ### elements -/

/-- a name that can be a key -/
def good (s : String) : Bool := (ascii s).all (· != 0) && decide ((ascii s).length < 100)

theorem good_spec {s : String} (h : good s = true) : NulFree (ascii s) ∧ (ascii s).length < 100 := by
  unfold good at h
  rw [Bool.and_eq_true, decide_eq_true_eq] at h
  refine ⟨?_, h.2⟩
  unfold NulFree
  have := fun x hx => List.all_eq_true.mp h.1 x hx
  simpa using this

/-- the element is made and has key and value -/
def Made (r : Res Value) (k : Bytes) (t : BVal) : Prop := ∃ v, r = .ok v ∧ Rep v k t

/-- the document is made and has the fields -/
def MadeDoc (r : Res Doc) (fs : Fields) : Prop := ∃ d, r = .ok d ∧ RepFields d fs

theorem elements_nil : MadeDoc (elements []) .nil := ⟨[], rfl, trivial⟩

theorem elements_cons {r : Res Value} {rs : List (Res Value)} {k : Bytes} {t : BVal} {fs : Fields} (h1 : Made r k t) (h2 : MadeDoc (elements rs) fs) :
    MadeDoc (elements (r :: rs)) (.cons k t fs) := by
  obtain ⟨v, rfl, hv⟩ := h1
  obtain ⟨d, e, hd⟩ := h2
  exact ⟨v :: d, by simp only [elements, e, Res.bind_ok], hv, hd⟩

theorem built {k : Bytes} {t : BVal} (hk : NulFree k) (hl : k.length < 100) (wf : t.WF) (hs : t.enc.length < 2147483000) : Made (buildVal k t) k t :=
  buildVal_rep k t hk wf (by omega)

theorem nat_made {s : String} (h : good s = true) (x : UInt64) : Made (EC.int64 (ascii s) (toInt64 x.toNat)) (ascii s) (.int64 (signed x)) := by
  obtain ⟨hk, hl⟩ := good_spec h
  have hx := x.toNat_lt
  have e : toInt64 x.toNat = signed x := by unfold toInt64 i64 signed; split <;> omega
  rw [e]
  exact Events.int64_ok hk hl (by unfold IsInt64 signed; split <;> omega)

theorem int64_made {s : String} (h : good s = true) {i : Int} (hi : IsInt64 i) : Made (EC.int64 (ascii s) i) (ascii s) (.int64 i) := by
  obtain ⟨hk, hl⟩ := good_spec h
  exact Events.int64_ok hk hl hi

theorem int64_range (x : Int64) : IsInt64 x.toInt := by
  have := x.toInt_lt; have := x.le_toInt; unfold IsInt64; omega

theorem int32_made {s : String} (h : good s = true) (x : Int32) : Made (EC.int32 (ascii s) x.toInt) (ascii s) (.int32 x.toInt) := by
  obtain ⟨hk, hl⟩ := good_spec h
  have := x.toInt_lt; have := x.le_toInt
  exact built hk hl (t := .int32 x.toInt) (by simp only [BVal.WF]; omega) (by simp [BVal.enc])

theorem int_made {s : String} (h : good s = true) {i : Int} (hi : IntFits i) : Made (EC.int (ascii s) i) (ascii s) (Spec.Metrics.int i) := by
  obtain ⟨hk, hl⟩ := good_spec h
  unfold IntFits at hi
  unfold EC.int Spec.Metrics.int
  split
  · rw [show i32 i = i by unfold i32; omega]
    exact built hk hl (t := .int32 i) (by simp only [BVal.WF]; omega) (by simp [BVal.enc])
  · exact Events.int64_ok hk hl (by unfold IsInt64; omega)

theorem string_made {s : String} (h : good s = true) {b : Bytes} (hb : Short b) : Made (EC.string (ascii s) b) (ascii s) (.string b) := by
  obtain ⟨hk, hl⟩ := good_spec h
  unfold Short at hb
  exact built hk hl (t := .string b) (by simp only [BVal.WF]) (by simp [BVal.enc, encString]; omega)

theorem double_made {s : String} (h : good s = true) (x : UInt64) : Made (EC.double (ascii s) x.toNat) (ascii s) (.double x.toNat) := by
  obtain ⟨hk, hl⟩ := good_spec h
  have hx := x.toNat_lt
  exact built hk hl (t := .double x.toNat) (by simp only [BVal.WF]; omega) (by simp [BVal.enc])

theorem time_made {s : String} (h : good s = true) {t : Time} (ht : Spec.Normal t) (hi : IsInt64 (nanoseconds t / 1000000)) :
    Made (EC.time (ascii s) t) (ascii s) (.datetime (nanoseconds t / 1000000)) := by
  obtain ⟨hk, hl⟩ := good_spec h
  exact Events.time_ok hk hl ht hi

theorem sub_made {s : String} (h : good s = true) {r : Res Doc} {fs : Fields} (hr : MadeDoc r fs) : Made (subDocument (ascii s) r) (ascii s) (.doc fs) := by
  obtain ⟨hk, hl⟩ := good_spec h
  obtain ⟨d, rfl, hd⟩ := hr
  exact Ftdc.subDocument_rep hk (by omega) hd

theorem marshaler_made {s : String} (h : good s = true) {r : Res Doc} {fs : Fields} (hr : MadeDoc r fs) : Made (documentMarshaler (ascii s) r) (ascii s) (.doc fs) := by
  obtain ⟨d, rfl, hd⟩ := hr
  exact sub_made h ⟨d, rfl, hd⟩

theorem documents_made {α : Type} {f : α → Res Doc} {g : α → Fields} : ∀ {l : List α}, (∀ a ∈ l, MadeDoc (f a) (g a)) →
    ∃ d, documents f l = .ok d ∧ RepVals d (docs g l)
  | [], _ => ⟨[], rfl, trivial⟩
  | a :: l, h => by
    obtain ⟨d, e, hd⟩ := h a (by simp)
    obtain ⟨v, ev, hv⟩ := Ftdc.subDocument_rep (k := []) (by simp [NulFree]) (by simp) hd
    obtain ⟨ds, es, hds⟩ := documents_made (f := f) (g := g) (l := l) fun b hb => h b (by simp [hb])
    exact ⟨v :: ds, by simp only [documents, e, ev, es, Res.bind_ok], ⟨[], hv⟩, hds⟩

theorem array_made {s : String} (h : good s = true) {d : Doc} {vs : Vals} (hd : RepVals d vs) : Made (EC.array (ascii s) d) (ascii s) (.array vs) := by
  obtain ⟨hk, hl⟩ := good_spec h
  exact Ftdc.array_rep hk (by omega) hd

theorem append_rep : ∀ {d e : Doc} {fs gs : Fields}, RepFields d fs → RepFields e gs → RepFields (d ++ e) (append fs gs)
  | [], _, .nil, _, _, h => h
  | [], _, .cons _ _ _, _, h, _ => by simp [RepFields] at h
  | _ :: _, _, .nil, _, h, _ => by simp [RepFields] at h
  | _ :: _, _, .cons _ _ _, _, h, h' => ⟨h.1, append_rep h.2 h'⟩

/-! ### documents -/

attribute [local irreducible] EC.int64 EC.string EC.double EC.int32 EC.int toInt64 ascii signed Spec.Metrics.int

macro "fields" : tactic => `(tactic| repeat (first
  | exact elements_nil
  | refine elements_cons (nat_made (by decide +kernel) _) ?_
  | refine elements_cons (int64_made (by decide +kernel) (int64_range _)) ?_
  | refine elements_cons (double_made (by decide +kernel) _) ?_
  | refine elements_cons (int32_made (by decide +kernel) _) ?_
  | refine elements_cons (string_made (by decide +kernel) (by assumption)) ?_
  | refine elements_cons (int_made (by decide +kernel) (by assumption)) ?_
  | refine elements_cons (int64_made (by decide +kernel) (by assumption)) ?_))

theorem net_made {n : NetStat} (h : Short n.name) : MadeDoc (marshalNetStat n) (netFields n) := by unfold marshalNetStat netFields; fields
theorem cpu_made (c : CPUTimes) : MadeDoc (marshalCPU c) (cpuFields c) := by unfold marshalCPU cpuFields; fields
theorem io_made (c : ProcessIO) : MadeDoc (ioDocument c) (ioFields c) := by unfold ioDocument ioFields; fields
theorem mem_made (c : Memory) : MadeDoc (memDocument c) (memFields c) := by unfold memDocument memFields; fields
theorem extra_made (c : MemoryExtra) : MadeDoc (extraDocument c) (extraFields c) := by unfold extraDocument extraFields; fields
theorem vm_made {trunc : UInt64 → Int} (ht : ∀ x, IsInt64 (trunc x)) (c : VMStat) : MadeDoc (vmDocument trunc c) (vmFields trunc c) := by
  have := ht c.usedPercent
  unfold vmDocument vmFields; fields
theorem usage_made {u : Usage} (h1 : Short u.path) (h2 : Short u.fstype) : MadeDoc (usageDocument u) (usageFields u) := by unfold usageDocument usageFields; fields
theorem iostat_made {d : IOStat} (h1 : Short d.name) (h2 : Short d.serialNumber) (h3 : Short d.label) : MadeDoc (iostatDocument d) (iostatFields d) := by
  unfold iostatDocument iostatFields; fields
theorem partition_made {p : Partition} (h1 : Short p.device) (h2 : Short p.mountpoint) (h3 : Short p.fstype) (h4 : Short p.opts) : MadeDoc (partitionDocument p) (partitionFields p) := by
  unfold partitionDocument partitionFields; fields

theorem isEmpty_cons {w : Value} {l : Bytes} {t : BVal} {fs : Fields} {r : Res Doc} (hr : MadeDoc r (.cons l t fs)) {s : String} (h : good s = true)
    (e : subDocument (ascii s) r = .ok w) (n : Nat) : isEmpty n w = .ok false := by
  obtain ⟨hk, hl⟩ := good_spec h
  obtain ⟨d, rfl, hd⟩ := hr
  obtain ⟨w', e', hw⟩ := Ftdc.subDocument_rep hk (by omega) hd
  have : w' = w := by
    have := e'.symm.trans e
    simpa using this
  subst this
  unfold EC.subDocument at e'
  obtain ⟨b, _, e''⟩ := Res.bind_eq_ok.mp e'
  cases e''
  unfold isEmpty mutableDocument
  rw [type_rep hw, Res.bind_ok, expect_ok hw (by rfl), Res.bind_ok]
  simp only [BVal.tag, getDoc, Res.bind_ok]
  cases d with
  | nil => simp [RepFields] at hd
  | cons v d => simp

theorem process_made (linux : Bool) {p : ProcessInfo} (h : ProcessFits p) : MadeDoc (p.marshalDocument linux) (processFields linux p) := by
  obtain ⟨h1, h2, h3⟩ := h
  have hb : MadeDoc (elements [
    EC.int32 (ascii "pid") p.pid.toInt,
    EC.int32 (ascii "parentPid") p.parent.toInt,
    EC.int (ascii "threads") p.threads,
    EC.string (ascii "command") p.command,
    subDocument (ascii "cpu") (marshalCPU p.cpu),
    subDocument (ascii "io") (ioDocument p.ioStat),
    subDocument (ascii "mem") (memDocument p.memory)]) (.cons (ascii "pid") (.int32 p.pid.toInt) <|
  .cons (ascii "parentPid") (.int32 p.parent.toInt) <|
  .cons (ascii "threads") (Spec.Metrics.int p.threads) <|
  .cons (ascii "command") (.string p.command) <|
  .cons (ascii "cpu") (.doc (cpuFields p.cpu)) <|
  .cons (ascii "io") (.doc (ioFields p.ioStat)) <|
  .cons (ascii "mem") (.doc (memFields p.memory)) .nil) := by
    fields
    refine elements_cons (sub_made (by decide +kernel) (cpu_made _)) ?_
    refine elements_cons (sub_made (by decide +kernel) (io_made _)) ?_
    refine elements_cons (sub_made (by decide +kernel) (mem_made _)) ?_
    fields
  obtain ⟨d, e, hd⟩ := hb
  obtain ⟨na, ena, hna⟩ := documents_made (f := marshalNetStat) (g := netFields) (l := p.netStat) fun n hn => net_made (h3 n hn)
  obtain ⟨a, ea, ha⟩ := array_made (s := "net") (by decide +kernel) hna
  unfold ProcessInfo.marshalDocument
  rw [e, Res.bind_ok]
  cases linux with
  | false =>
    refine ⟨d ++ [a], ?_, append_rep hd ⟨ha, trivial⟩⟩
    simp only [marshalMemExtra, appendOmitEmpty, ena, ea, Res.bind_ok, Bool.false_eq_true, if_false]
  | true =>
    obtain ⟨x, ex, hx⟩ := sub_made (s := "memExtra") (by decide +kernel) (extra_made p.memoryPlatform)
    have hne := isEmpty_cons (s := "memExtra") (extra_made p.memoryPlatform) (by decide +kernel) ex 0
    refine ⟨(d ++ [x]) ++ [a], ?_, ?_⟩
    · simp only [marshalMemExtra, appendOmitEmpty, ena, ea, ex, hne, Res.bind_ok, Bool.false_eq_true, if_false, if_true]
    · rw [List.append_assoc]
      exact append_rep hd ⟨hx, ha, trivial⟩

theorem system_made {trunc : UInt64 → Int} (ht : ∀ x, IsInt64 (trunc x)) {s : SystemInfo} (h : SystemFits s) : MadeDoc (s.marshalDocument trunc) (systemFields trunc s) := by
  obtain ⟨h1, h2, h3, h4, h5⟩ := h
  have hb : MadeDoc (elements [
    EC.int (ascii "num_cpu") s.numCPU,
    EC.double (ascii "cpu_percent") s.cpuPercent.toNat,
    subDocument (ascii "cpu") (marshalCPU s.cpu),
    subDocument (ascii "vmstat") (vmDocument trunc s.vmStat),
    subDocument (ascii "netstat") (marshalNetStat s.netStat)]) (.cons (ascii "num_cpu") (Spec.Metrics.int s.numCPU) <|
  .cons (ascii "cpu_percent") (.double s.cpuPercent.toNat) <|
  .cons (ascii "cpu") (.doc (cpuFields s.cpu)) <|
  .cons (ascii "vmstat") (.doc (vmFields trunc s.vmStat)) <|
  .cons (ascii "netstat") (.doc (netFields s.netStat)) .nil) := by
    fields
    refine elements_cons (sub_made (by decide +kernel) (cpu_made _)) ?_
    refine elements_cons (sub_made (by decide +kernel) (vm_made ht _)) ?_
    refine elements_cons (sub_made (by decide +kernel) (net_made h2)) ?_
    fields
  obtain ⟨d, e, hd⟩ := hb
  obtain ⟨u, eu, hu⟩ := documents_made (f := usageDocument) (g := usageFields) (l := s.usage) fun n hn => usage_made (h3 n hn).1 (h3 n hn).2
  obtain ⟨i, ei, hi⟩ := documents_made (f := iostatDocument) (g := iostatFields) (l := s.ioStat) fun n hn => iostat_made (h4 n hn).1 (h4 n hn).2.1 (h4 n hn).2.2
  obtain ⟨q, eq, hq⟩ := documents_made (f := partitionDocument) (g := partitionFields) (l := s.partitions)
    fun n hn => partition_made (h5 n hn).1 (h5 n hn).2.1 (h5 n hn).2.2.1 (h5 n hn).2.2.2
  obtain ⟨u', eu', hu'⟩ := array_made (s := "usage") (by decide +kernel) hu
  obtain ⟨i', ei', hi'⟩ := array_made (s := "iostat") (by decide +kernel) hi
  obtain ⟨q', eq', hq'⟩ := array_made (s := "partitions") (by decide +kernel) hq
  unfold SystemInfo.marshalDocument
  rw [e, Res.bind_ok]
  refine ⟨((d ++ [u']) ++ [i']) ++ [q'], ?_, ?_⟩
  · simp only [eu, ei, eq, eu', ei', eq', Res.bind_ok]
  · rw [List.append_assoc, List.append_assoc]
    exact append_rep hd ⟨hu', hi', hq', trivial⟩

theorem append_nil : ∀ fs : Fields, append fs .nil = fs
  | .nil => rfl
  | .cons _ _ fs => by rw [append, append_nil fs]

theorem append_assoc : ∀ fs gs hs : Fields, append (append fs gs) hs = append fs (append gs hs)
  | .nil, _, _ => rfl
  | .cons _ _ fs, gs, hs => by simp only [append, append_assoc fs gs hs]

theorem part_made {α : Type} {s : String} (h : good s = true) {m : α → Res Doc} {f : α → Fields} {d : Doc} {fs : Fields} (hd : RepFields d fs) {o : Option α} (ho : ∀ a ∈ o, MadeDoc (m a) (f a)) :
    MadeDoc (appendPart (ascii s) m d o) (append fs (part (ascii s) f o)) := by
  cases o with
  | none => exact ⟨d, rfl, by rw [part, append_nil]; exact hd⟩
  | some a =>
    obtain ⟨v, e, hv⟩ := marshaler_made h (ho a rfl)
    exact ⟨d ++ [v], by simp only [appendPart, e, Res.bind_ok], append_rep hd ⟨hv, trivial⟩⟩

theorem runtime_made (linux : Bool) {trunc : UInt64 → Int} (ht : ∀ x, IsInt64 (trunc x)) {r : Runtime} (h : RuntimeFits r) :
    MadeDoc (r.marshalDocument linux trunc) (runtimeFields linux trunc r) := by
  obtain ⟨h1, h2, h3, h4, h5, h6, h7⟩ := h
  have hb : MadeDoc (elements [EC.int (ascii "id") r.id, EC.time (ascii "ts") r.timestamp, EC.int (ascii "pid") r.pid])
      (.cons (ascii "id") (Spec.Metrics.int r.id) <| .cons (ascii "ts") (.datetime (nanoseconds r.timestamp / 1000000)) <| .cons (ascii "pid") (Spec.Metrics.int r.pid) .nil) := by
    fields
    refine elements_cons (time_made (by decide +kernel) h3 h4) ?_
    fields
  obtain ⟨d, e, hd⟩ := hb
  obtain ⟨d1, e1, hd1⟩ := part_made (s := "golang") (by decide +kernel) hd fun i hi => GoStats.info_rep (h5 i hi)
  obtain ⟨d2, e2, hd2⟩ := part_made (s := "system") (by decide +kernel) hd1 fun i hi => system_made ht (h6 i hi)
  obtain ⟨d3, e3, hd3⟩ := part_made (s := "process") (by decide +kernel) hd2 fun i hi => process_made linux (h7 i hi)
  refine ⟨d3, ?_, ?_⟩
  · unfold Runtime.marshalDocument
    simp only [e, e1, e2, e3, Res.bind_ok]
  · rw [append_assoc, append_assoc] at hd3
    exact hd3

theorem customs_made : ∀ {cs : List Custom} {xs : List (Bytes × Fields)}, Give cs xs →
    MadeDoc (elements (cs.map fun ec => subDocumentOf ec.name ec.operation)) (customFields xs)
  | [], [], _ => elements_nil
  | c :: cs, x :: xs, ⟨⟨hn, hk, hl, d, ho, hd⟩, h⟩ => by
    unfold Short at hl
    refine elements_cons ?_ (customs_made h)
    dsimp only
    rw [ho, ← hn]
    exact Ftdc.subDocument_rep hk (by omega) hd
  | [], _ :: _, h => h.elim
  | _ :: _, [], h => h.elim

theorem generate_made (linux : Bool) {trunc : UInt64 → Int} (ht : ∀ x, IsInt64 (trunc x)) {r : Runtime} (h : RuntimeFits r) {cs : List Custom} {xs : List (Bytes × Fields)}
    (hc : Give cs xs) : MadeDoc (generate linux trunc r cs) (sampleFields linux trunc r xs) := by
  obtain ⟨d, e, hd⟩ := runtime_made linux ht h
  unfold generate sampleFields
  rw [e, Res.bind_ok]
  match cs, xs, hc with
  | [], [], _ => exact ⟨d, rfl, hd⟩
  | c :: cs, x :: xs, hc =>
    rw [if_neg (by simp), if_neg (by simp)]
    exact elements_cons (sub_made (s := "runtime") (r := .ok d) (by decide +kernel) ⟨d, rfl, hd⟩) (customs_made hc)

/-! ### shapes -/

theorem docs_shape {α : Type} {f : α → Fields} (h : ∀ a b, (f a).metrics.SameShape (f b).metrics) : ∀ {l m : List α}, l.length = m.length →
    (docs f l).metrics.SameShape (docs f m).metrics
  | [], [], _ => by simp [docs, Vals.metrics, Vals.SameShape]
  | a :: l, b :: m, hl => by
    simp only [docs, Vals.metrics, BVal.metric, Vals.SameShape, BVal.SameShape]
    exact ⟨h a b, docs_shape h (by simpa using hl)⟩
  | [], _ :: _, hl => by simp at hl
  | _ :: _, [], hl => by simp at hl

theorem docs_kinds {α : Type} {f : α → Fields} {K : List UInt8} (h : ∀ a, (f a).kinds = K) : ∀ l : List α, (docs f l).kinds = (List.replicate l.length K).flatten
  | [] => rfl
  | a :: l => by simp [docs, Vals.kinds, BVal.kinds, h, docs_kinds h l, List.replicate_succ]

theorem net_shape (a b : NetStat) : (netFields a).metrics.SameShape (netFields b).metrics := by
  simp [netFields, Fields.metrics, BVal.metric, Fields.SameShape, BVal.SameShape, BVal.tag]
theorem usage_shape (a b : Usage) : (usageFields a).metrics.SameShape (usageFields b).metrics := by
  simp [usageFields, Fields.metrics, BVal.metric, Fields.SameShape, BVal.SameShape, BVal.tag]
theorem iostat_shape (a b : IOStat) : (iostatFields a).metrics.SameShape (iostatFields b).metrics := by
  simp [iostatFields, Fields.metrics, BVal.metric, Fields.SameShape, BVal.SameShape, BVal.tag]
theorem cpu_shape (a b : CPUTimes) : (cpuFields a).metrics.SameShape (cpuFields b).metrics := by
  simp [cpuFields, Fields.metrics, BVal.metric, Fields.SameShape, BVal.SameShape, BVal.tag]
theorem io_shape (a b : ProcessIO) : (ioFields a).metrics.SameShape (ioFields b).metrics := by
  simp [ioFields, Fields.metrics, BVal.metric, Fields.SameShape, BVal.SameShape, BVal.tag]
theorem mem_shape (a b : Memory) : (memFields a).metrics.SameShape (memFields b).metrics := by
  simp [memFields, Fields.metrics, BVal.metric, Fields.SameShape, BVal.SameShape, BVal.tag]
theorem extra_shape (a b : MemoryExtra) : (extraFields a).metrics.SameShape (extraFields b).metrics := by
  simp [extraFields, Fields.metrics, BVal.metric, Fields.SameShape, BVal.SameShape, BVal.tag]
theorem vm_shape (trunc : UInt64 → Int) (a b : VMStat) : (vmFields trunc a).metrics.SameShape (vmFields trunc b).metrics := by
  simp [vmFields, Fields.metrics, BVal.metric, Fields.SameShape, BVal.SameShape, BVal.tag]
theorem info_shape (a b : Info) : (Spec.GoStats.infoFields a).metrics.SameShape (Spec.GoStats.infoFields b).metrics := by
  simp [Spec.GoStats.infoFields, Fields.metrics, BVal.metric, Fields.SameShape, BVal.SameShape, BVal.tag]
theorem partition_metrics (p : Partition) : (partitionFields p).metrics = .nil := by simp [partitionFields, Fields.metrics, BVal.metric]

theorem int_metric {i : Int} (h : i < 2147483647) : Spec.Metrics.int i = .int32 i := by unfold Spec.Metrics.int; rw [if_pos h]

theorem append_metrics : ∀ fs gs : Fields, (append fs gs).metrics = append fs.metrics gs.metrics
  | .nil, _ => rfl
  | .cons k v fs, gs => by
    simp only [append, Fields.metrics, append_metrics fs gs]
    cases v.metric <;> rfl

theorem append_shape : ∀ {fs gs fs' gs' : Fields}, fs.SameShape fs' → gs.SameShape gs' → (append fs gs).SameShape (append fs' gs')
  | .nil, _, .nil, _, _, h => h
  | .cons _ _ _, _, .cons _ _ _, _, h, h' => by
    simp only [append, Fields.SameShape] at h ⊢
    exact ⟨h.1, h.2.1, append_shape h.2.2 h'⟩
  | .nil, _, .cons _ _ _, _, h, _ => by simp [Fields.SameShape] at h
  | .cons _ _ _, _, .nil, _, h, _ => by simp [Fields.SameShape] at h

theorem process_shape (linux : Bool) {p q : ProcessInfo} (hp : p.threads < 2147483647) (hq : q.threads < 2147483647) (h : p.netStat.length = q.netStat.length) :
    (processFields linux p).metrics.SameShape (processFields linux q).metrics := by
  simp only [processFields, append_metrics, Fields.metrics, BVal.metric, int_metric hp, int_metric hq, Fields.SameShape, BVal.SameShape, BVal.tag, true_and]
  refine ⟨cpu_shape _ _, io_shape _ _, mem_shape _ _, append_shape ?_ ?_⟩
  · cases linux
    · simp [Fields.metrics, Fields.SameShape]
    · simpa [Fields.metrics, BVal.metric, Fields.SameShape, BVal.SameShape] using extra_shape _ _
  · simpa [Fields.SameShape, BVal.SameShape] using docs_shape net_shape h

theorem system_shape (trunc : UInt64 → Int) {s q : SystemInfo} (hs : s.numCPU < 2147483647) (hq : q.numCPU < 2147483647) (hu : s.usage.length = q.usage.length)
    (hi : s.ioStat.length = q.ioStat.length) (hp : s.partitions.length = q.partitions.length) : (systemFields trunc s).metrics.SameShape (systemFields trunc q).metrics := by
  simp only [systemFields, Fields.metrics, BVal.metric, int_metric hs, int_metric hq, Fields.SameShape, BVal.SameShape, BVal.tag, true_and]
  refine ⟨cpu_shape _ _, vm_shape _ _ _, net_shape _ _, docs_shape usage_shape hu, docs_shape iostat_shape hi, docs_shape ?_ hp, trivial⟩
  intro a b
  rw [partition_metrics, partition_metrics]
  simp [Fields.SameShape]

theorem part_shape {α : Type} (key : Bytes) {f : α → Fields} {o o' : Option α} (h : o.isSome = o'.isSome) (hs : ∀ a ∈ o, ∀ b ∈ o', (f a).metrics.SameShape (f b).metrics) :
    (part key f o).metrics.SameShape (part key f o').metrics := by
  cases o <;> cases o' <;> simp at h
  · simp [part, Fields.metrics, Fields.SameShape]
  · simpa [part, Fields.metrics, BVal.metric, Fields.SameShape, BVal.SameShape] using hs _ rfl _ rfl

theorem runtime_shape (linux : Bool) (trunc : UInt64 → Int) {r q : Runtime} (hr : SmallInts r) (hq : SmallInts q) (hp : parts r = parts q) (hc : counts r = counts q)
    (hn : r.system.map (·.partitions.length) = q.system.map (·.partitions.length)) : (runtimeFields linux trunc r).metrics.SameShape (runtimeFields linux trunc q).metrics := by
  obtain ⟨a1, a2, a3, a4⟩ := hr
  obtain ⟨b1, b2, b3, b4⟩ := hq
  simp only [parts, Prod.mk.injEq] at hp
  simp only [counts, Prod.mk.injEq] at hc
  simp only [runtimeFields, append_metrics, Fields.metrics, BVal.metric, int_metric a1, int_metric a2, int_metric b1, int_metric b2, Fields.SameShape, BVal.SameShape, BVal.tag, true_and]
  refine append_shape (part_shape _ hp.1 fun a _ b _ => info_shape a b) (append_shape (part_shape _ hp.2.1 ?_) (part_shape _ hp.2.2 ?_))
  · intro a ha b hb
    have h := hc.1; rw [ha, hb] at h hn
    simp at h hn
    exact system_shape trunc (a3 a ha) (b3 b hb) h.1 h.2 hn
  · intro a ha b hb
    have h := hc.2; rw [ha, hb] at h
    simp at h
    exact process_shape linux (a4 a ha) (b4 b hb) h

/-- the types of the numbers of a file system, a disk and a network interface -/
def kU : List UInt8 := [0x12, 0x12, 0x12, 0x01, 0x12, 0x12, 0x01]
def kD : List UInt8 := List.replicate 11 0x12
def kN : List UInt8 := List.replicate 10 0x12

theorem append_kinds : ∀ fs gs : Fields, (append fs gs).kinds = fs.kinds ++ gs.kinds
  | .nil, _ => rfl
  | .cons k v fs, gs => by simp only [append, Fields.kinds, append_kinds fs gs, List.append_assoc]

theorem usage_kinds (a : Usage) : (usageFields a).kinds = kU := rfl
theorem iostat_kinds (a : IOStat) : (iostatFields a).kinds = kD := rfl
theorem net_kinds (a : NetStat) : (netFields a).kinds = kN := rfl
theorem partition_kinds (a : Partition) : (partitionFields a).kinds = [] := rfl
theorem replicate_nil : ∀ n : Nat, (List.replicate n ([] : List UInt8)).flatten = []
  | 0 => rfl
  | n + 1 => by simp [List.replicate_succ]

/-- the types of the numbers of a process before the network interfaces -/
def kP (linux : Bool) : List UInt8 := [0x10, 0x10, 0x10] ++ List.replicate (10 + 4 + 7 + if linux then 7 else 0) 0x12
/-- the types of the numbers of the system before the file systems -/
def kS : List UInt8 := [0x10, 0x01] ++ List.replicate (10 + 35 + 10) 0x12

theorem process_kinds (linux : Bool) {p : ProcessInfo} (hp : p.threads < 2147483647) :
    (processFields linux p).kinds = kP linux ++ (List.replicate p.netStat.length kN).flatten := by
  simp only [processFields, append_kinds, Fields.kinds, BVal.kinds, int_metric hp, docs_kinds net_kinds]
  cases linux <;> simp [kP, kN, Fields.kinds, BVal.kinds, cpuFields, ioFields, memFields, extraFields, List.replicate]

theorem system_kinds (trunc : UInt64 → Int) {s : SystemInfo} (hs : s.numCPU < 2147483647) :
    (systemFields trunc s).kinds = kS ++ ((List.replicate s.usage.length kU).flatten ++ (List.replicate s.ioStat.length kD).flatten) := by
  simp only [systemFields, Fields.kinds, BVal.kinds, int_metric hs, docs_kinds usage_kinds, docs_kinds iostat_kinds, docs_kinds partition_kinds, replicate_nil]
  simp [kS, Fields.kinds, BVal.kinds, cpuFields, netFields, vmFields, List.replicate]

theorem info_kinds (i : Info) : (Spec.GoStats.infoFields i).kinds = List.replicate 12 0x12 := rfl

theorem count_flatten (K : List UInt8) (x : UInt8) : ∀ n : Nat, (List.replicate n K).flatten.count x = n * K.count x
  | 0 => by simp
  | n + 1 => by simp [List.replicate_succ, count_flatten K x n, Nat.succ_mul, Nat.add_comm]

theorem flatten_replicate (a : UInt8) (m : Nat) : ∀ n : Nat, (List.replicate n (List.replicate m a)).flatten = List.replicate (n * m) a
  | 0 => by simp
  | n + 1 => by
    rw [List.replicate_succ, List.flatten_cons, flatten_replicate a m n, List.replicate_append_replicate, Nat.succ_mul, Nat.add_comm]

/-- equal runs, followed by something else -/
theorem run_inj {a : UInt8} {m n : Nat} {x y : List UInt8} (hx : ∀ c ∈ x.head?, c ≠ a) (hy : ∀ c ∈ y.head?, c ≠ a) (h : List.replicate m a ++ x = List.replicate n a ++ y) : m = n ∧ x = y := by
  induction m generalizing n with
  | zero =>
    cases n with
    | zero => exact ⟨rfl, by simpa using h⟩
    | succ n =>
      rw [List.replicate_succ] at h
      simp only [List.replicate_zero, List.nil_append, List.cons_append] at h
      subst h
      exact absurd rfl (hx a (by simp))
  | succ m ih =>
    cases n with
    | zero =>
      rw [List.replicate_succ] at h
      simp only [List.replicate_zero, List.nil_append, List.cons_append] at h
      subst h
      exact absurd rfl (hy a (by simp))
    | succ n =>
      rw [List.replicate_succ, List.replicate_succ] at h
      simp only [List.cons_append, List.cons.injEq, true_and] at h
      obtain ⟨h1, h2⟩ := ih h
      exact ⟨by omega, h2⟩

theorem kinds_count {u u' i i' : Nat} {x y : List UInt8} (hx : x.count 0x01 = 0) (hy : y.count 0x01 = 0) (hx' : ∀ c ∈ x.head?, c ≠ 0x12) (hy' : ∀ c ∈ y.head?, c ≠ 0x12)
    (h : kS ++ ((List.replicate u kU).flatten ++ (List.replicate i kD).flatten) ++ x = kS ++ ((List.replicate u' kU).flatten ++ (List.replicate i' kD).flatten) ++ y) :
    u = u' ∧ i = i' ∧ x = y := by
  have hc := congrArg (List.count 0x01) h
  simp only [List.count_append, count_flatten, hx, hy, show kU.count 0x01 = 2 from rfl, show kD.count 0x01 = 0 from rfl] at hc
  obtain rfl : u = u' := by omega
  simp only [List.append_assoc, List.append_cancel_left_eq] at h
  rw [show kD = List.replicate 11 0x12 from rfl, flatten_replicate, flatten_replicate] at h
  obtain ⟨h1, h2⟩ := run_inj hx' hy' h
  exact ⟨rfl, by omega, h2⟩

theorem part_kinds {α : Type} (key : Bytes) (f : α → Fields) (o : Option α) : (part key f o).kinds = o.elim [] fun a => (f a).kinds := by
  cases o <;> simp [part, Fields.kinds, BVal.kinds]

theorem process_inj (linux : Bool) {p q : ProcessInfo} (hp : p.threads < 2147483647) (hq : q.threads < 2147483647) (h : (processFields linux p).kinds = (processFields linux q).kinds) :
    p.netStat.length = q.netStat.length := by
  rw [process_kinds linux hp, process_kinds linux hq, List.append_cancel_left_eq] at h
  have := congrArg List.length h
  rw [show kN = List.replicate 10 0x12 from rfl, flatten_replicate, flatten_replicate] at this
  simp at this
  omega

theorem process_tail (linux : Bool) {p : ProcessInfo} (hp : p.threads < 2147483647) : (processFields linux p).kinds.count 0x01 = 0 ∧ ∀ c ∈ (processFields linux p).kinds.head?, c ≠ 0x12 := by
  rw [process_kinds linux hp]
  constructor
  · rw [List.count_append, count_flatten]
    cases linux <;> rfl
  · simp [kP]

theorem runtime_kinds (linux : Bool) (trunc : UInt64 → Int) {r q : Runtime} (hr : SmallInts r) (hq : SmallInts q) (hp : parts r = parts q)
    (h : (runtimeFields linux trunc r).kinds = (runtimeFields linux trunc q).kinds) : counts r = counts q := by
  obtain ⟨a1, a2, a3, a4⟩ := hr
  obtain ⟨b1, b2, b3, b4⟩ := hq
  simp only [parts, Prod.mk.injEq] at hp
  obtain ⟨p1, p2, p3⟩ := hp
  simp only [runtimeFields, append_kinds, Fields.kinds, BVal.kinds, int_metric a1, int_metric a2, int_metric b1, int_metric b2, List.append_cancel_left_eq, part_kinds] at h
  have h' : (r.system.elim [] fun a => (systemFields trunc a).kinds) ++ (r.process.elim [] fun a => (processFields linux a).kinds) =
      (q.system.elim [] fun a => (systemFields trunc a).kinds) ++ (q.process.elim [] fun a => (processFields linux a).kinds) := by
    cases hg : r.golang <;> cases hg' : q.golang <;> simp [hg, hg'] at p1
    · simpa [hg, hg'] using h
    · simpa [hg, hg', info_kinds] using h
  clear h
  unfold counts
  cases hs : r.system <;> cases hs' : q.system <;> simp [hs, hs'] at p2
  · cases ht : r.process <;> cases ht' : q.process <;> simp [ht, ht'] at p3
    · rfl
    · simp only [hs, hs', ht, ht', Option.elim, List.nil_append] at h'
      simp [process_inj linux (a4 _ ht) (b4 _ ht') h']
  · rename_i s s'
    simp only [hs, hs', Option.elim_some, system_kinds trunc (a3 _ hs), system_kinds trunc (b3 _ hs')] at h'
    cases ht : r.process <;> cases ht' : q.process <;> simp [ht, ht'] at p3
    · simp only [ht, ht', Option.elim_none] at h'
      obtain ⟨e1, e2, _⟩ := kinds_count rfl rfl (by simp) (by simp) h'
      simp [e1, e2]
    · simp only [ht, ht', Option.elim_some] at h'
      obtain ⟨e1, e2, e3⟩ := kinds_count (process_tail linux (a4 _ ht)).1 (process_tail linux (b4 _ ht')).1 (process_tail linux (a4 _ ht)).2 (process_tail linux (b4 _ ht')).2 h'
      simp [e1, e2, process_inj linux (a4 _ ht) (b4 _ ht') e3]

theorem runtime_kinds_eq (linux : Bool) (trunc : UInt64 → Int) {r q : Runtime} (hr : SmallInts r) (hq : SmallInts q) (hp : parts r = parts q) (hc : counts r = counts q) :
    (runtimeFields linux trunc r).kinds = (runtimeFields linux trunc q).kinds := by
  obtain ⟨a1, a2, a3, a4⟩ := hr
  obtain ⟨b1, b2, b3, b4⟩ := hq
  simp only [parts, Prod.mk.injEq] at hp
  obtain ⟨p1, p2, p3⟩ := hp
  simp only [counts, Prod.mk.injEq] at hc
  obtain ⟨c1, c2⟩ := hc
  simp only [runtimeFields, append_kinds, Fields.kinds, BVal.kinds, int_metric a1, int_metric a2, int_metric b1, int_metric b2, List.append_cancel_left_eq, part_kinds]
  congr 1
  · cases hg : r.golang <;> cases hg' : q.golang <;> simp [hg, hg'] at p1
    · rfl
    · simp [info_kinds]
  · congr 1
    · cases hs : r.system <;> cases hs' : q.system <;> simp [hs, hs'] at p2
      · rfl
      · simp [hs, hs'] at c1
        simp [system_kinds trunc (a3 _ hs), system_kinds trunc (b3 _ hs'), c1]
    · cases hs : r.process <;> cases hs' : q.process <;> simp [hs, hs'] at p3
      · rfl
      · simp [hs, hs'] at c2
        simp [process_kinds linux (a4 _ hs), process_kinds linux (b4 _ hs'), c2]

/-! ### answers -/

theorem saveError_eq (es : List Bytes) (stat : String) (e : Option Bytes) : saveError es stat e = es ++ complaint stat e := by
  cases e with
  | none => simp [saveError, complaint]
  | some e => simp only [saveError, complaint]; split <;> simp_all

theorem pointed_map {α β : Type} (f : α → β) (z : β) (a : Answer (Option α)) : pointed z ⟨a.value.map f, a.err⟩ = ((answered a).join.map f).getD z := by
  obtain ⟨v, e⟩ := a
  cases e <;> cases v <;> simp [pointed, answered]

theorem pointed_eq {α : Type} (z : α) (a : Answer (Option α)) : pointed z a = (answered a).join.getD z := by
  obtain ⟨v, e⟩ := a
  cases e <;> cases v <;> simp [pointed, answered]

theorem first_map {α β : Type} (f : α → β) (z : β) (a : Answer (List α)) : first z ⟨a.value.map f, a.err⟩ = (((answered a).bind List.head?).map f).getD z := by
  obtain ⟨v, e⟩ := a
  cases e <;> cases v <;> simp [first, answered]

theorem first_eq {α : Type} (z : α) (a : Answer (List α)) : first z a = ((answered a).bind List.head?).getD z := by
  obtain ⟨v, e⟩ := a
  cases e <;> cases v <;> simp [first, answered]

theorem inTicks_eq : convertCPUTimes = inTicks := rfl

theorem process_info (ticks : UInt64 → Int64) (a : ProcessAnswers) : IsProcess ticks a (makeProcessInfo ticks (.ok a)) := by
  unfold makeProcessInfo ProcessInfo.populate
  rw [inTicks_eq]
  simp only [saveError_eq, pointed_map]
  simp only [pointed_eq]
  constructor <;> simp [ProcessInfo.zero]
  unfold answered; split <;> simp

theorem usageLoop_eq (usage : Bytes → Answer Usage) : ∀ (ps : List Partition) (s : SystemInfo),
    usageLoop usage s ps = { s with usage := s.usage ++ usages usage ps, errors := s.errors ++ ps.flatMap fun p => complaint "partition" (usage p.mountpoint).err }
  | [], s => by simp [usageLoop, usages]
  | p :: ps, s => by
    unfold usageLoop
    simp only [saveError_eq]
    cases he : (usage p.mountpoint).err with
    | some e =>
      rw [if_pos (by simp), usageLoop_eq usage ps]
      simp [usages, answered, he]
    | none =>
      rw [if_neg (by simp), usageLoop_eq usage ps]
      simp [usages, answered, he, complaint]

theorem system_info (ticks : UInt64 → Int64) (numCPU : Int) (a : SystemAnswers) :
    (a.percent.err = none ∧ a.percent.value = [] ∧ makeSystemInfo ticks numCPU a = .panic) ∨
    (¬ (a.percent.err = none ∧ a.percent.value = []) ∧ ∃ s, makeSystemInfo ticks numCPU a = .ok s ∧ IsSystem ticks numCPU a s) := by
  unfold makeSystemInfo
  rw [inTicks_eq]
  simp only [saveError_eq, pointed_map, first_map, usageLoop_eq]
  simp only [first_eq]
  cases he : a.percent.err with
  | some e =>
    refine .inr ⟨by simp, _, rfl, ?_⟩
    cases hp : a.partitions.err <;> constructor <;> simp [SystemInfo.zero, answered, he, hp, complaint, usages]
  | none =>
    cases hv : a.percent.value with
    | nil => exact .inl ⟨rfl, rfl, rfl⟩
    | cons x xs =>
      refine .inr ⟨by simp, _, rfl, ?_⟩
      cases hp : a.partitions.err <;> constructor <;> simp [SystemInfo.zero, answered, he, hp, hv, complaint, usages]

/-! ### what is read -/

theorem docs_metrics {α : Type} {f : α → Fields} {g : α → α} (h : ∀ a, (f (g a)).metrics = (f a).metrics) : ∀ l : List α, (docs f (l.map g)).metrics = (docs f l).metrics
  | [] => rfl
  | a :: l => by simp [docs, Vals.metrics, BVal.metric, h, docs_metrics h l]

/-! ### a collector that gives nil -/

theorem elements_append : ∀ {as bs : List (Res Value)} {d e : Doc}, elements as = .ok d → elements bs = .ok e → elements (as ++ bs) = .ok (d ++ e)
  | [], _, d, e, h, h' => by cases h; exact h'
  | a :: as, bs, d, e, h, h' => by
    unfold elements at h
    obtain ⟨v, hv, h⟩ := Res.bind_eq_ok.mp h
    obtain ⟨d', hd, h⟩ := Res.bind_eq_ok.mp h
    cases h
    simp only [List.cons_append, elements, hv, elements_append hd h', Res.bind_ok]

theorem extractAll_panic {g : Value → Res (List (UInt8 × Ftdc.Num))} {v : Value} (hv : g v = .panic) : ∀ {d e : Doc} {l : List (UInt8 × Ftdc.Num)}, Ftdc.extractAll g d = .ok l →
    Ftdc.extractAll g (d ++ v :: e) = .panic
  | [], e, l, _ => by simp only [List.nil_append, Ftdc.extractAll, hv]; rfl
  | a :: d, e, l, h => by
    unfold Ftdc.extractAll at h
    obtain ⟨x, hx, h⟩ := Res.bind_eq_ok.mp h
    obtain ⟨y, hy, _⟩ := Res.bind_eq_ok.mp h
    simp only [List.cons_append, Ftdc.extractAll, hx, extractAll_panic hv hy, Res.bind_ok]; rfl

theorem nil_made {k : Bytes} (hl : Short k) : ∃ v, subDocumentOf k none = .ok v ∧ ∀ n, Ftdc.extractValue (n + 1) v = .panic := by
  unfold Short at hl
  refine ⟨.raw 0 (k.length + 2) (3 :: (k ++ [0])), ?_, fun n => ?_⟩
  · unfold subDocumentOf
    rw [header_ok 3 k (by omega), u32_small (by omega), show 1 + k.length + 1 = k.length + 2 by omega]; rfl
  · unfold Ftdc.extractValue
    have ht : type (.raw 0 (k.length + 2) (3 :: (k ++ [0]))) = .ok 3 := by simp [type, Value.offset, Value.data, Value.start, idx]
    have he : expect 3 (.raw 0 (k.length + 2) (3 :: (k ++ [0]))) = .ok () := by simp [expect, Value.offset, Value.data, Value.start, idx]
    rw [ht, Res.bind_ok, if_neg (by decide), if_pos rfl]
    unfold mutableDocument
    rw [he, Res.bind_ok]
    unfold getDoc
    dsimp only
    have hs : slice (3 :: (k ++ [0])) (k.length + 2) (u32 (k.length + 2 + 4)) = .panic := by
      rw [u32_small (by omega)]
      unfold slice
      rw [if_neg (by simp)]
    rw [hs]; rfl

theorem after_made : ∀ (cs : List Custom), (∀ c ∈ cs, Short c.name) → ∃ d, elements (cs.map fun ec => subDocumentOf ec.name ec.operation) = .ok d
  | [], _ => ⟨[], rfl⟩
  | c :: cs, h => by
    obtain ⟨d, hd⟩ := after_made cs fun c' h' => h c' (by simp [h'])
    have hc := h c (by simp)
    have hv : ∃ v, subDocumentOf c.name c.operation = .ok v := by
      cases c.operation with
      | none => exact (nil_made hc).imp fun _ h => h.1
      | some d =>
        unfold Short at hc
        exact ⟨_, by simp only [subDocumentOf, EC.subDocument]; rw [header_ok 3 c.name (by omega)]; rfl⟩
    obtain ⟨v, hv⟩ := hv
    exact ⟨v :: d, by simp only [List.map_cons, elements, hv, hd, Res.bind_ok]⟩

theorem generate_nil (linux : Bool) {trunc : UInt64 → Int} (ht : ∀ x, IsInt64 (trunc x)) {r : Runtime} (h : RuntimeFits r) {cs : List Custom} {xs : List (Bytes × Fields)}
    (hc : Give cs xs) {k : Bytes} (hk : Short k) {cs' : List Custom} (hc' : ∀ c ∈ cs', Short c.name)
    (hl : (Fields.cons (ascii "runtime") (.doc (runtimeFields linux trunc r)) (customFields xs)).enc.length < 2147483648) :
    ∃ d, generate linux trunc r (cs ++ ⟨k, none⟩ :: cs') = .ok d ∧ ∃ N, ∀ n, N ≤ n → Ftdc.extract n d = .panic := by
  obtain ⟨d, e, hd⟩ := runtime_made linux ht h
  obtain ⟨d1, e1, hd1⟩ := elements_cons (sub_made (s := "runtime") (r := .ok d) (by decide +kernel) ⟨d, rfl, hd⟩) (customs_made hc)
  obtain ⟨v, hv, hp⟩ := nil_made hk
  obtain ⟨d2, e2⟩ := after_made cs' hc'
  refine ⟨d1 ++ v :: d2, ?_, _, fun n hn => extractAll_panic ?_ (Ftdc.extract_rep n hd1 hl (Nat.lt_of_succ_le hn))⟩
  · unfold generate
    rw [e, Res.bind_ok, if_neg (by simp), List.map_append, List.map_cons, ← List.cons_append]
    refine elements_append e1 ?_
    simp only [elements, hv, e2, Res.bind_ok]
  · obtain ⟨m, rfl⟩ : ∃ m, n = m + 1 := ⟨n - 1, by omega⟩
    exact hp m

/-! ### processes -/

mutual
theorem children_mem : ∀ (p : Process) (a : ProcessAnswers), a ∈ childrenOf p ↔ ∃ c ∈ listed p, ∃ q, Below c q ∧ own q = a
  | .mk b cs err, a => by
    unfold childrenOf listed
    cases err with
    | true => simp
    | false =>
      by_cases h : cs.length = 0
      · obtain rfl := List.eq_nil_of_length_eq_zero h
        simp
      · rw [if_neg (by simp [h])]
        exact loop_mem cs a
theorem loop_mem : ∀ (ps : List Process) (a : ProcessAnswers), a ∈ childrenLoop ps ↔ ∃ c ∈ ps, ∃ q, Below c q ∧ own q = a
  | [], a => by simp [childrenLoop]
  | .mk b cs err :: ps, a => by
    simp only [childrenLoop, List.mem_cons, List.mem_append, loop_mem ps a, children_mem (.mk b cs err) a]
    constructor
    · rintro (rfl | ⟨c, hc, q, hq, rfl⟩ | ⟨c, hc, q, hq, rfl⟩)
      · exact ⟨_, .inl rfl, _, .refl _, rfl⟩
      · exact ⟨_, .inl rfl, q, .child hc hq, rfl⟩
      · exact ⟨c, .inr hc, q, hq, rfl⟩
    · rintro ⟨c, rfl | hc, q, hq, rfl⟩
      · cases hq with
        | refl => exact .inl rfl
        | child h1 h2 => exact .inr (.inl ⟨_, h1, q, h2, rfl⟩)
      · exact .inr (.inr ⟨c, hc, q, hq, rfl⟩)
end

mutual
theorem children_length : ∀ p : Process, (childrenOf p).length + 1 = count p
  | .mk b cs err => by
    unfold childrenOf count
    cases err with
    | true => simp
    | false =>
      by_cases h : cs.length = 0
      · obtain rfl := List.eq_nil_of_length_eq_zero h
        simp [countAll]
      · rw [if_neg (by simp [h]), if_neg (by simp), loop_length cs]
        omega
theorem loop_length : ∀ ps : List Process, (childrenLoop ps).length = countAll ps
  | [] => rfl
  | .mk b cs err :: ps => by
    simp only [childrenLoop, countAll, List.length_cons, List.length_append, loop_length ps, ← children_length (.mk b cs err)]
    omega
end

end Birch.Proofs.Metrics
