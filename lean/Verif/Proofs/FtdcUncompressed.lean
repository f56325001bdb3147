import Verif.Model.FtdcUncompressed
import Verif.Spec.Uncompressed
import Verif.Proofs.ExtJson
import Verif.Proofs.FtdcDynamic
import Verif.Proofs.Write

namespace Birch.Proofs.Ftdc
open Birch Model Model.Ftdc Spec

/-! ### texts without newlines -/

section
open Model.Json Spec.Json Proofs.Json

theorem esc1_line (b : UInt8) : (10 : UInt8) ∉ esc1 b := by
  revert b
  apply forall_byte
  decide +kernel

theorem esc_line : ∀ s : Bytes, (10 : UInt8) ∉ esc s
  | [] => by simp [esc]
  | b :: r => by simp only [esc, List.mem_append, not_or]; exact ⟨esc1_line b, esc_line r⟩

theorem key_line (x : Nat) : (10 : UInt8) ∉ decimalKey x := fun h => absurd (Proofs.Decimal.key_digit x 10 h) (by simp [Spec.Decimal.Digit])

theorem low_line : ∀ (n x : Nat), (10 : UInt8) ∉ lowDigits n x
  | 0, x => by simp [lowDigits]
  | n + 1, x => by
    simp only [lowDigits, List.mem_append, List.mem_singleton, not_or]
    refine ⟨low_line n _, fun h => ?_⟩
    have := congrArg UInt8.toNat h
    simp at this
    omega

theorem int_line (n : Int) : (10 : UInt8) ∉ formatInt n := by
  unfold formatInt
  split <;> simp [itoa_eq, key_line]

theorem float_line (b : UInt64) : (10 : UInt8) ∉ formatFloat b := by
  unfold formatFloat
  split
  · split
    · simp
    · cases Model.Json.sign b <;> simp
  · cases Model.Json.sign b <;> simp [itoa_eq, key_line, low_line]

theorem plainKey_line {k : Bytes} (h : PlainKey k) : (10 : UInt8) ∉ k := fun hm => absurd (h 10 hm).1 (by decide)

mutual
theorem marshal_line : ∀ (v : JVal) (t : Bytes), Plain v → marshal v = some t → (10 : UInt8) ∉ t
  | .nil, t, _, h => by simp [marshal] at h
  | .str s, t, _, h => by
    simp only [marshal, Option.some.injEq] at h
    rw [← h, write_eq]
    simp [esc_line]
  | .int n, t, _, h => by
    simp only [marshal, Option.some.injEq] at h
    rw [← h]; exact int_line n
  | .dbl b, t, _, h => by
    simp only [marshal, Option.some.injEq] at h
    rw [← h]; exact float_line b
  | .bool b, t, _, h => by
    simp only [marshal, Option.some.injEq] at h
    rw [← h]; cases b <;> simp
  | .null, t, _, h => by
    simp only [marshal, Option.some.injEq] at h
    rw [← h]; simp
  | .obj d, t, hp, h => by
    simp only [marshal, Option.map_eq_some_iff] at h
    obtain ⟨u, h1, rfl⟩ := h
    have := elems_line d true u (by rw [Plain] at hp; exact hp) h1
    simp [this]
  | .arr a, t, hp, h => by
    simp only [marshal, Option.map_eq_some_iff] at h
    obtain ⟨u, h1, rfl⟩ := h
    have := vals_line a true u (by rw [Plain] at hp; exact hp) h1
    simp [this]
theorem elems_line : ∀ (d : JElems) (first : Bool) (t : Bytes), PlainElems d → marshalElems first d = some t → (10 : UInt8) ∉ t
  | .nil, first, t, _, h => by simp [marshalElems] at h; simp [h]
  | .cons k v r, first, t, hp, h => by
    rw [PlainElems] at hp
    rw [marshalElems] at h
    split at h
    · cases h
    · next s hs =>
      split at h
      · cases h
      · next u hu =>
        cases h
        have a := marshal_line v s hp.2.1 hs
        have b := elems_line r false u hp.2.2 hu
        have c := plainKey_line hp.1
        cases first <;> simp [a, b, c]
theorem vals_line : ∀ (d : JVals) (first : Bool) (t : Bytes), PlainVals d → marshalVals first d = some t → (10 : UInt8) ∉ t
  | .nil, first, t, _, h => by simp [marshalVals] at h; simp [h]
  | .cons v r, first, t, hp, h => by
    rw [PlainVals] at hp
    rw [marshalVals] at h
    split at h
    · cases h
    · next s hs =>
      split at h
      · cases h
      · next u hu =>
        cases h
        have a := marshal_line v s hp.1 hs
        have b := vals_line r false u hp.2 hu
        cases first <;> simp [a, b]
end
end

/-! ### adding -/

theorem width_append : ∀ (l : List Nat) (n : Nat), width (l ++ [n]) = if width l = 0 then n else width l
  | [], n => by simp only [List.nil_append, width, if_true]; split <;> simp_all
  | a :: l, n => by
    simp only [List.cons_append, width]
    by_cases h : a = 0
    · simp only [h, if_true]; exact width_append l n
    · simp [h]

/-- the collector after the documents `docs` were offered: the ones that were taken are `taken` -/
inductive Offered (f : Format) (max : Nat) (md : Option Doc) : List Doc → List Doc → Uncompressed → Prop
  | start : Offered f max md [] [] ⟨f, max, 0, md, []⟩
  | add {docs taken c d} : Offered f max md docs taken c →
      Offered f max md (docs ++ [d]) (if (c.add d).2 = none then taken ++ [d] else taken) (c.add d).1

theorem offered_state {f : Format} {max : Nat} {md : Option Doc} {docs taken : List Doc} {c : Uncompressed} (h : Offered f max md docs taken c) :
    c = ⟨f, max, width (docs.map List.length), md, taken⟩ ∧ taken.length ≤ max := by
  induction h with
  | start => exact ⟨rfl, Nat.zero_le _⟩
  | @add docs taken c d _ ih =>
    obtain ⟨rfl, hl⟩ := ih
    simp only [Uncompressed.add, List.map_append, List.map_cons, List.map_nil, width_append]
    by_cases h0 : width (docs.map List.length) = 0
    · simp only [h0, if_true, ne_eq, not_true, if_false]
      by_cases hm : taken.length ≥ max
      · simp [hm, hl]
      · simp [hm]; omega
    · simp only [if_neg h0]
      by_cases hd : d.length = width (docs.map List.length)
      · by_cases hm : taken.length ≥ max
        · simp [hm, hl, hd]
        · simp [hm, hd]; omega
      · simp [hd, hl]

/-! ### resolving -/

theorem writeDocs_bson (C : ExtJson.Clock) (fuel : Nat) : ∀ {ds : List Doc} {fss : List Fields}, RepDocs ds fss →
    (∀ fs ∈ fss, (encDoc fs).length < 2147483648 ∧ (encDoc fs).length < fuel) → writeDocs C fuel .bson ds = .ok (fss.map encDoc).flatten
  | [], [], _, _ => rfl
  | d :: ds, fs :: fss, h, hl => by
    obtain ⟨h1, h2⟩ := hl fs (by simp)
    simp only [writeDocs, marshalWrite, docMarshal_rep fuel h.1 h1 h2, Res.bind_ok, writeDocs_bson C fuel h.2 (fun g hg => hl g (by simp [hg])),
      List.map_cons, List.flatten_cons]
  | [], _ :: _, h, _ => h.elim
  | _ :: _, [], h, _ => h.elim

theorem marshalDocument_line (C : ExtJson.Clock) {d : Doc} {fs : Fields} (hr : RepFields d fs) (hl : (encDoc fs).length < 2147483648)
    (hs : ExtJson.ShownFields C fs) :
    ∃ t es, Returns (fun n => ExtJson.marshalDocument C n d) (.ok t) ∧ (10 : UInt8) ∉ t ∧ Json.read t = some (.obj es) ∧ ExtJson.ExtFields C fs es := by
  obtain ⟨js, h1, h2, h3⟩ := ExtJson.shownFields_js C fs hs
  have hp : Json.Plain (.obj js) := by rw [Json.Plain]; exact h2
  obtain ⟨t, j, h4, h5, h6⟩ := Proofs.Json.read_marshal hp
  cases h6 with
  | obj h6 => exact ⟨t, _, ExtJson.marshalDocument_ok hr hl h1 h4, marshal_line _ _ hp h4, h5, h3 _ h6⟩

theorem writeDocs_json (C : ExtJson.Clock) : ∀ {ds : List Doc} {fss : List Fields}, RepDocs ds fss →
    (∀ fs ∈ fss, (encDoc fs).length < 2147483648 ∧ ExtJson.ShownFields C fs) → ∃ t, Returns (fun n => writeDocs C n .json ds) (.ok t) ∧ IsLines C fss t
  | [], [], _, _ => ⟨[], ⟨0, fun _ _ => rfl⟩, rfl⟩
  | d :: ds, fs :: fss, h, hl => by
    obtain ⟨h1, h2⟩ := hl fs (by simp)
    obtain ⟨t, es, ⟨n1, a1⟩, a2, a3, a4⟩ := marshalDocument_line C h.1 h1 h2
    obtain ⟨u, ⟨n2, b1⟩, b2⟩ := writeDocs_json C h.2 (fun g hg => hl g (by simp [hg]))
    refine ⟨t ++ 10 :: u, ⟨max n1 n2, fun n hn => ?_⟩, ⟨t, u, es, rfl, a2, a3, a4, b2⟩⟩
    have e1 := a1 n (by omega)
    have e2 := b1 n (by omega)
    simp only at e1 e2
    simp only [writeDocs, marshalWrite, e1, Res.bind_ok, e2, List.append_assoc, List.cons_append, List.nil_append]
  | [], _ :: _, h, _ => h.elim
  | _ :: _, [], h, _ => h.elim

theorem resolve_eq (C : ExtJson.Clock) (fuel : Nat) (c : Uncompressed) (h : c.samples ≠ []) :
    c.resolve C fuel = writeDocs C fuel c.format (c.metadata.toList ++ c.samples) := by
  unfold Uncompressed.resolve
  rw [if_neg h]
  cases c.metadata with
  | none => simp
  | some md => simp [writeDocs]

theorem resolve_file (C : ExtJson.Clock) (c : Uncompressed) {fss : List Fields} (h : c.samples ≠ []) (hr : RepDocs (c.metadata.toList ++ c.samples) fss)
    (hl : ∀ fs ∈ fss, (encDoc fs).length < 2147483648) (hs : c.format = .json → ∀ fs ∈ fss, ExtJson.ShownFields C fs) :
    ∃ t, Returns (fun n => c.resolve C n) (.ok t) ∧ IsFile C c.format fss t := by
  cases hf : c.format with
  | bson =>
    refine ⟨_, ⟨2147483648, fun n hn => ?_⟩, rfl⟩
    simp only [resolve_eq C n c h, hf]
    exact writeDocs_bson C n hr (fun fs hfs => ⟨hl fs hfs, by have := hl fs hfs; omega⟩)
  | json =>
    obtain ⟨t, ⟨n, h1⟩, h2⟩ := writeDocs_json C hr (fun fs hfs => ⟨hl fs hfs, hs hf fs hfs⟩)
    refine ⟨t, ⟨n, fun m hm => ?_⟩, h2⟩
    simp only [resolve_eq C m c h, hf]
    exact h1 m hm

theorem isLines_append (C : ExtJson.Clock) : ∀ {fss gss : List Fields} {t u : Bytes}, IsLines C fss t → IsLines C gss u → IsLines C (fss ++ gss) (t ++ u)
  | [], _, t, u, h, hu => by
    have : t = [] := h
    subst this; exact hu
  | _ :: _, _, _, _, h, hu => by
    obtain ⟨line, rest, es, rfl, a, b, c, d⟩ := h
    exact ⟨line, _, es, by simp, a, b, c, isLines_append C d hu⟩

theorem isFile_append (C : ExtJson.Clock) (f : Format) {fss gss : List Fields} {t u : Bytes} (h : IsFile C f fss t) (hu : IsFile C f gss u) :
    IsFile C f (fss ++ gss) (t ++ u) := by
  cases f with
  | bson =>
    have h1 : t = _ := h
    have h2 : u = _ := hu
    simp only [IsFile, h1, h2, List.map_append, List.flatten_append]
  | json => exact isLines_append C h hu

theorem isFile_nil (C : ExtJson.Clock) (f : Format) : IsFile C f [] [] := by cases f <;> rfl

/-! ### streaming -/

theorem streamingU_push (C : ExtJson.Clock) (n : Nat) (c : StreamingU) (d : Doc) (h : c.count ≤ c.maxSamples) : c.add C n d = .ok (c.push d) := by
  unfold StreamingU.add
  rw [if_neg (by omega)]

/-- what a streaming collector has taken is not more than its limit -/
theorem streamingU_limit (C : ExtJson.Clock) (n : Nat) : ∀ (docs : List Doc) (c : StreamingU), c.inner.batchSize = c.maxSamples → c.inner.samples.length = c.count →
    c.count ≤ c.maxSamples → ∃ c' es, addEach (fun c d => c.add C n d) c docs = .ok (c', es) ∧ c'.output = c.output ∧
      c.count + (es.filter Option.isNone).length ≤ c.maxSamples
  | [], c, _, _, h => ⟨c, [], rfl, rfl, by simpa using h⟩
  | d :: docs, c, h1, h2, h3 => by
    have key : ∃ c1 e, c.push d = (c1, e) ∧ c1.inner.batchSize = c1.maxSamples ∧ c1.inner.samples.length = c1.count ∧ c1.count ≤ c1.maxSamples ∧ c1.output = c.output ∧
        c1.maxSamples = c.maxSamples ∧ c1.count = c.count + ([e].filter Option.isNone).length := by
      obtain ⟨out, max, k, f, b, w, md, s⟩ := c
      simp only at h1 h2 h3
      subst h1 h2
      simp only [StreamingU.push, Uncompressed.add]
      by_cases hw : w = 0
      · subst hw
        by_cases hk : s.length ≥ b
        · exact ⟨_, _, by simp only [if_true, ne_eq, not_true, if_false, hk]; rfl, rfl, rfl, h3, rfl, rfl, rfl⟩
        · exact ⟨_, _, by simp only [if_true, ne_eq, not_true, if_false, hk]; rfl, rfl, by simp, by simp only; omega, rfl, rfl, rfl⟩
      · by_cases hd : d.length = w
        · by_cases hk : s.length ≥ b
          · exact ⟨_, _, by simp only [if_true, ne_eq, not_true, if_false, hk, hw, hd]; rfl, rfl, rfl, h3, rfl, rfl, rfl⟩
          · exact ⟨_, _, by simp only [ne_eq, not_true, if_false, hk, hw, hd]; rfl, rfl, by simp, by simp only; omega, rfl, rfl, rfl⟩
        · exact ⟨_, _, by simp only [if_true, ne_eq, not_false_eq_true, if_false, hw, hd]; rfl, rfl, rfl, h3, rfl, rfl, rfl⟩
    obtain ⟨c1, e, k1, k2, k3, k4, k5, k6, k7⟩ := key
    obtain ⟨c', es, r1, r2, r3⟩ := streamingU_limit C n docs c1 k2 k3 k4
    refine ⟨c', e :: es, ?_, r2.trans k5, ?_⟩
    · simp only [addEach, streamingU_push C n c d h3, k1, Res.bind_ok, r1]
    · have : ((e :: es).filter Option.isNone).length = ([e].filter Option.isNone).length + (es.filter Option.isNone).length := by
        rw [← List.length_append, ← List.filter_append]; rfl
      omega

/-- a dynamic streaming collector that has seen a document adds documents with the same keys as a streaming collector does -/
theorem raw_same (fsub : Nat → Nat → Nat) (zip : Bytes → Bytes) (now : Nat → Time) (C : ExtJson.Clock) {n : Nat} (hn : 2147483648 ≤ n) {f1 : Fields}
    (hne : hashText (f1.paths []).flatten ≠ []) : ∀ (docs : List Doc) (fss : List Fields), RepDocs docs fss → (∀ g ∈ fss, (encDoc g).length < 2147483648) →
    (∀ g ∈ fss, f1.kinds.length = g.kinds.length ∧ hashText (f1.paths []).flatten = hashText (g.paths []).flatten) → ∀ (c c' : StreamingU) (es : List (Option Err)), addEach (fun c d => c.add C n d) c docs = .ok (c', es) →
    addEach (fun c d => c.add fsub C zip now n d) (DynamicU.raw (hashText (f1.paths []).flatten) f1.kinds.length c) docs =
      .ok (.raw (hashText (f1.paths []).flatten) f1.kinds.length c', es)
  | [], [], _, _, _, c, c', es, h => by cases h; rfl
  | d :: docs, g :: fss, hd, hl, hk, c, c', es, h => by
    have k1 := metricKeyHash_rep n hd.1 (hl g (by simp)) (by have := hl g (by simp); omega)
    obtain ⟨⟨c1, e1⟩, a1, a2⟩ := Res.bind_eq_ok.mp h
    obtain ⟨⟨c2, es2⟩, a3, a4⟩ := Res.bind_eq_ok.mp a2
    cases a4
    have hg := hk g (by simp)
    have hs : (DynamicU.raw (hashText (f1.paths []).flatten) f1.kinds.length c).add fsub C zip now n d =
        .ok (.raw (hashText (f1.paths []).flatten) f1.kinds.length c1, e1) := by
      simp only [DynamicU.add, k1, Res.bind_ok, if_neg hne]
      rw [if_neg (by simp [hg])]
      simp only [DynamicU.addBase, a1, Res.bind_ok]
    simp only [addEach, hs, Res.bind_ok, raw_same fsub zip now C hn hne docs fss hd.2 (fun x hx => hl x (by simp [hx])) (fun x hx => hk x (by simp [hx])) c1 _ es2 a3]

/-- adding a batch of documents with `w` fields -/
theorem streamingU_batch (C : ExtJson.Clock) (n : Nat) {out : Sink} {f : Format} {max w : Nat} {md : Option Doc} : ∀ (docs s : List Doc) (m : Nat), (m = 0 ∨ m = w) →
    (∀ d ∈ docs, d.length = w) → s.length + docs.length ≤ max →
    ∃ m', addEach (fun (c : StreamingU) d => c.add C n d) ⟨out, max, s.length, ⟨f, max, m, md, s⟩⟩ docs =
      .ok (⟨out, max, (s ++ docs).length, ⟨f, max, m', md, s ++ docs⟩⟩, docs.map fun _ => none)
  | [], s, m, _, _, _ => ⟨m, by simp [addEach]⟩
  | d :: docs, s, m, hm, hd, hl => by
    simp only [List.length_cons] at hl
    have h1 : d.length = w := hd d (by simp)
    obtain ⟨m', h2⟩ := streamingU_batch C n (out := out) (f := f) (max := max) (md := md) docs (s ++ [d]) w (.inr rfl) (fun x hx => hd x (List.mem_cons_of_mem _ hx))
      (by simp; omega)
    refine ⟨m', ?_⟩
    have h3 : StreamingU.push ⟨out, max, s.length, ⟨f, max, m, md, s⟩⟩ d = (⟨out, max, (s ++ [d]).length, ⟨f, max, w, md, s ++ [d]⟩⟩, none) := by
      simp only [StreamingU.push, Uncompressed.add]
      rcases hm with rfl | rfl
      · simp [h1, show ¬ max ≤ s.length by omega]
      · by_cases hw : m = 0
        · simp [h1, show ¬ max ≤ s.length by omega, hw]
        · simp [h1, show ¬ max ≤ s.length by omega, hw]
    have h4 := streamingU_push C n ⟨out, max, s.length, ⟨f, max, m, md, s⟩⟩ d (by simp only; omega)
    simp only [addEach, h4, h3, Res.bind_ok, h2, List.map_cons, List.append_assoc, List.cons_append, List.nil_append]

theorem streamingU_flush {C : ExtJson.Clock} {n : Nat} {out t : Bytes} {f : Format} {max k m : Nat} {md : Option Doc} {s : List Doc} (hs : s ≠ [])
    (h : (⟨f, max, m, md, s⟩ : Uncompressed).resolve C n = .ok t) :
    (⟨⟨out, []⟩, max, k, ⟨f, max, m, md, s⟩⟩ : StreamingU).emit C n = .ok (⟨⟨out ++ t, []⟩, max, k, ⟨f, max, m, md, s⟩⟩, true, none) := by
  unfold StreamingU.emit
  simp [Uncompressed.info, hs, h, Sink.write]

/-! ### the dynamic collector -/

/-- the same collector on a writer that got `pre` before -/
def after (pre : Bytes) (c : Streaming) : Streaming := { c with output := { c.output with out := pre ++ c.output.out } }

theorem after_push (fsub : Nat → Nat → Nat) (pre : Bytes) (n : Nat) (c : Streaming) (d : Doc) :
    (after pre c).push fsub n d = (c.push fsub n d).bind fun r => .ok (after pre r.1, r.2) := by
  unfold Streaming.push
  simp only [after]
  cases h : c.inner.add fsub n d with
  | ok r => obtain ⟨i, e⟩ := r; cases e <;> rfl
  | err e => rfl
  | panic => rfl
  | oof => rfl

theorem add_fresh (fsub : Nat → Nat → Nat) (zip : Bytes → Bytes) (now : Nat → Time) (n max : Nat) (w : Sink) (d : Doc) :
    (Streaming.new max w).add fsub zip now n d = (Streaming.new max w).push fsub n d := by
  unfold Streaming.add
  rw [if_neg (by simp only [Streaming.new]; omega)]

theorem after_flush (zip : Bytes → Bytes) (now : Nat → Time) (pre : Bytes) (n : Nat) (c : Streaming) :
    (after pre c).flushWith renew zip now n = (c.flushWith renew zip now n).bind fun r => .ok (after pre r.1, r.2) := by
  unfold Streaming.flushWith
  simp only [after]
  by_cases h : c.inner.info.1 = 0
  · simp only [h, if_true]; rfl
  · simp only [h, if_false]
    cases c.inner.resolve zip (now c.flushes) n with
    | ok p =>
      obtain ⟨⟨out, plan⟩, max, k, i, fl⟩ := c
      cases plan with
      | nil => simp [Sink.write, renew, Streaming.new, Res.bind]
      | cons a plan =>
        rcases a with _ | ⟨j, _ | e⟩
        · simp [Sink.write, renew, Streaming.new, Res.bind]
        · simp only [Sink.write]
          split <;> simp_all [Res.bind, renew, Streaming.new]
        · simp [Sink.write, Res.bind]
    | err e => rfl
    | panic => rfl
    | oof => rfl

end Birch.Proofs.Ftdc
