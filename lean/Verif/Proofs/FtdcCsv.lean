import Verif.Spec.Csv
import Verif.Proofs.FtdcViews
import Verif.Proofs.FtdcDynamic
import Verif.Proofs.Construct
import Verif.Proofs.ReaderSearch
import Verif.Proofs.Json

/- Tables. -/

namespace Birch.Proofs.Ftdc
open Birch Model Model.Ftdc Spec

/-! ### numbers -/

theorem formatInt_text (x : Int) : Json.formatInt x = intText x := by
  unfold Json.formatInt intText
  split
  · rw [itoa_eq]; congr 2; omega
  · rw [itoa_eq]; congr 1; omega

theorem atoi_upTo (r : Bytes) : (if r = [] then none else match atoiDigits 0 r with
    | none => none
    | some n => if n < 9223372036854775808 then some (n : Int) else none : Option Int) = upTo r := by
  unfold upTo
  by_cases hr : r = []
  · subst hr; simp [digits]
  · rw [if_neg hr, atoiDigits_digits hr]
    cases digits r <;> simp

theorem atoi_text (s : Bytes) : atoi s = textInt s := by
  cases s with
  | nil => simp [atoi, textInt]
  | cons c r =>
    by_cases h1 : c = 45
    · subst h1
      simp only [atoi, textInt, if_true]
      by_cases hr : r = []
      · subst hr; simp [digits]
      · rw [if_neg hr, atoiDigits_digits hr]
        cases digits r <;> simp
    · by_cases h2 : c = 43
      · subst h2
        simp only [atoi, textInt, if_neg (show ¬ (43 : UInt8) = 45 by decide), if_true, Bool.false_eq_true, if_false]
        exact atoi_upTo r
      · have e : atoi (c :: r) = (if (c :: r) = [] then none else match atoiDigits 0 (c :: r) with
            | none => none
            | some n => if n < 9223372036854775808 then some (n : Int) else none : Option Int) := by
          unfold atoi
          split
          · rename_i he; split at he
            · rename_i h; simp only [List.cons.injEq] at h; exact absurd h.1 h1
            · rename_i h; simp only [List.cons.injEq] at h; exact absurd h.1 h2
            · cases he; rfl
        rw [e, atoi_upTo]
        simp only [textInt, if_neg h1, if_neg h2]

theorem textInt_intText {x : Int} (h : I64 x) : textInt (intText x) = some x := by
  unfold I64 at h
  unfold intText
  split
  · simp only [textInt, if_true, digits_decimalKey, Option.bind_some]
    rw [if_pos (by omega)]
    congr 1; omega
  · obtain ⟨c, t, hk, hc⟩ := Json.key_cons x.natAbs
    have h1 : c ≠ 45 ∧ c ≠ 43 := by constructor <;> rintro rfl <;> simp [Spec.Decimal.Digit] at hc
    rw [hk]
    simp only [textInt, if_neg h1.1, if_neg h1.2]
    rw [← hk]
    simp only [upTo, digits_decimalKey, Option.bind_some]
    rw [if_pos (by omega)]
    congr 1; omega

/-! ### one chunk -/

/-- every metric has its type and as many values as there are points -/
structure Full (c : Chunk) : Prop where
  types : ∀ m ∈ c.metrics, Number m.originalType
  vals : ∀ m ∈ c.metrics, m.values.length = c.nPoints

theorem full_good {c : Chunk} {fs : Fields} (h : Good c fs) : Full c := by
  refine ⟨fun m hm => ?_, fun m hm => (h.vals m hm).1⟩
  have h1 : tag m ∈ c.metrics.map tag := List.mem_map_of_mem hm
  rw [h.tags] at h1
  simp only [tags, List.mem_flatMap] at h1
  obtain ⟨n, hn, h1⟩ := h1
  have h2 := numbersF_types fs n hn
  split at h1
  · simp only [List.mem_cons, List.not_mem_nil, or_false, tag, Prod.mk.injEq] at h1
    rcases h1 with h1 | h1 <;> rw [h1.2] <;> exact h2
  · simp only [List.mem_singleton, tag, Prod.mk.injEq] at h1
    rw [h1.2]; exact h2

theorem field_ok (date : Int → Bytes) {i : Nat} {m : Metric} (ht : Number m.originalType) (hi : i < m.values.length) :
    m.field date i = .ok (numberText date m.originalType m.values[i]) := by
  unfold Metric.field numberText
  rw [List.getElem?_eq_getElem hi]
  rcases ht with h | h | h | h | h | h <;> simp [h, formatInt_text]

theorem getRecord_ok (date : Int → Bytes) {i : Nat} : ∀ (ms : List Metric), (∀ m ∈ ms, Number m.originalType ∧ i < m.values.length) →
    ∃ r, getRecord date i ms = .ok r ∧ r.length = ms.length ∧
      ∀ (j : Nat) (m : Metric), ms[j]? = some m → ∃ x, m.values[i]? = some x ∧ r[j]? = some (numberText date m.originalType x)
  | [], _ => ⟨[], rfl, rfl, by simp⟩
  | m :: ms, h => by
    obtain ⟨r, h1, h2, h3⟩ := getRecord_ok date ms (fun m hm => h m (by simp [hm]))
    have hm := h m (by simp)
    refine ⟨numberText date m.originalType m.values[i] :: r, by simp only [getRecord, field_ok date hm.1 hm.2, Res.bind_ok, h1], by simp [h2], fun j m' hj => ?_⟩
    cases j with
    | zero =>
      simp only [List.getElem?_cons_zero, Option.some.injEq] at hj; subst hj
      exact ⟨_, List.getElem?_eq_getElem hm.2, by simp⟩
    | succ j => simpa using h3 j m' (by simpa using hj)

/-- rows of the points `i`, `i + 1`, … -/
def RowsFrom (date : Int → Bytes) (c : Chunk) (i : Nat) (rows : List Record) : Prop :=
  ∀ (k : Nat) (row : List Bytes), rows[k]? = some row → row.length = c.metrics.length ∧
    ∀ (j : Nat) (m : Metric), c.metrics[j]? = some m → ∃ x, m.values[i + k]? = some x ∧ row[j]? = some (numberText date m.originalType x)

/-- writing `rows` either succeeds or fails; without a plan it succeeds -/
def Puts (w : CsvWriter) (rows : List Record) (f : CsvWriter → Res (CsvWriter × Option Err)) : Prop :=
  ∃ w' e, f w = .ok (w', e) ∧ w'.out = w.out ∧ (e = none → w'.buf = w.buf ++ rows) ∧ (w.plan = [] → e = none ∧ w'.plan = [])

theorem writePoints_ok (date : Int → Bytes) {c : Chunk} (hc : Full c) : ∀ (n i : Nat), i + n = c.nPoints →
    ∃ rows, rows.length = n ∧ RowsFrom date c i rows ∧ ∀ w, Puts w rows (writePoints date c n i)
  | 0, i, _ => ⟨[], rfl, fun k row h => by simp at h, fun w => ⟨w, none, rfl, rfl, fun _ => by simp, fun h => ⟨rfl, h⟩⟩⟩
  | n + 1, i, hi => by
    obtain ⟨rows, h1, h2, h3⟩ := writePoints_ok date hc n (i + 1) (by omega)
    obtain ⟨r, g1, g2, g3⟩ := getRecord_ok date (i := i) c.metrics (fun m hm => ⟨hc.types m hm, by rw [hc.vals m hm]; omega⟩)
    refine ⟨r :: rows, by simp [h1], fun k row hk => ?_, fun w => ?_⟩
    · cases k with
      | zero => simp only [List.getElem?_cons_zero, Option.some.injEq] at hk; subst hk; exact ⟨g2, g3⟩
      | succ k =>
        have := h2 k row (by simpa using hk)
        rwa [show i + 1 + k = i + (k + 1) by omega] at this
    · unfold Puts
      simp only [writePoints, g1, Res.bind_ok]
      match hp : w.plan with
      | false :: plan =>
        refine ⟨{ w with plan := plan }, some .other, by simp only [CsvWriter.write, hp], rfl, by simp, by simp⟩
      | [] =>
        obtain ⟨w', e, a1, a2, a3, a4⟩ := h3 ⟨w.out, w.buf ++ [r], w.plan.tail⟩
        refine ⟨w', e, by simp only [CsvWriter.write, hp] at a1 ⊢; exact a1, a2, fun h => by rw [a3 h]; simp, fun _ => a4 (by simp [hp])⟩
      | true :: plan =>
        obtain ⟨w', e, a1, a2, a3, a4⟩ := h3 ⟨w.out, w.buf ++ [r], w.plan.tail⟩
        refine ⟨w', e, by simp only [CsvWriter.write, hp] at a1 ⊢; exact a1, a2, fun h => by rw [a3 h]; simp, by simp⟩

theorem writeChunk_ok (date : Int → Bytes) {c : Chunk} (hc : Full c) :
    ∃ rows, IsTable date c rows ∧ ∀ w, ∃ w' e, writeChunk date c w = .ok (w', e) ∧
      (e = none → w'.out = w.out ++ w.buf ++ rows ∧ w'.buf = []) ∧ (e ≠ none → w'.out = w.out) ∧ (w.plan = [] → e = none ∧ w'.plan = []) := by
  obtain ⟨rows, h1, h2, h3⟩ := writePoints_ok date hc c.nPoints 0 (by omega)
  refine ⟨rows, ⟨h1, fun i row h => by simpa using h2 i row h⟩, fun w => ?_⟩
  obtain ⟨w1, e, a1, a2, a3, a4⟩ := h3 w
  unfold writeChunk
  simp only [a1, Res.bind_ok]
  match e, a3, a4 with
  | some e, _, a4 => exact ⟨w1, some e, rfl, by simp, fun _ => a2, fun h => by simpa using a4 h⟩
  | none, a3, a4 =>
    match hp : w1.plan with
    | false :: plan =>
      refine ⟨{ w1 with plan := plan }, some .other, by simp only [CsvWriter.flush, hp], by simp, fun _ => a2, fun h => ?_⟩
      have := (a4 h).2
      rw [hp] at this; cases this
    | [] => exact ⟨⟨w1.out ++ w1.buf, [], []⟩, none, by simp only [CsvWriter.flush, hp, List.tail_nil], fun _ => ⟨by simp [a2, a3 rfl], rfl⟩, by simp, fun _ => ⟨rfl, rfl⟩⟩
    | true :: plan =>
      refine ⟨⟨w1.out ++ w1.buf, [], plan⟩, none, by simp only [CsvWriter.flush, hp, List.tail_cons], fun _ => ⟨by simp [a2, a3 rfl], rfl⟩, by simp, fun h => ?_⟩
      have := (a4 h).2
      rw [hp] at this; cases this

/-! ### chunks -/

/-- after the header -/
theorem writeChunks_ok (date : Int → Bytes) {n : Nat} (hn : 0 < n) : ∀ (cs : List Chunk), (∀ c ∈ cs, Full c ∧ c.metrics.length = n) →
    ∃ ts, AreTables date cs ts ∧ ∀ (rest : List Chunk), (∀ c, rest.head? = some c → c.metrics.length ≠ n) → ∀ w : CsvWriter, w.buf = [] →
      ∃ w' e, writeChunks date n (cs ++ rest) w = .ok (w', e) ∧ (e = none → rest = [] ∧ w'.out = w.out ++ ts.flatten) ∧
        (w.plan = [] → w'.out = w.out ++ ts.flatten ∧ (rest = [] → e = none))
  | [], _ => by
    refine ⟨[], rfl, fun rest hr w hw => ?_⟩
    cases rest with
    | nil => exact ⟨w, none, rfl, by simp, by simp⟩
    | cons c rest =>
      have := hr c rfl
      refine ⟨w, some .other, ?_, by simp, by simp⟩
      simp only [List.nil_append]
      unfold writeChunks
      simp only [if_neg (Nat.pos_iff_ne_zero.mp hn), if_pos (Ne.symm this), ne_eq]
  | c :: cs, h => by
    obtain ⟨ts, h1, h2⟩ := writeChunks_ok date hn cs (fun c hc => h c (by simp [hc]))
    obtain ⟨hf, hl⟩ := h c (by simp)
    obtain ⟨t, g1, g2⟩ := writeChunk_ok date hf
    refine ⟨t :: ts, ⟨t, ts, rfl, g1, h1⟩, fun rest hr w hw => ?_⟩
    obtain ⟨w1, e, a1, a2, a3, a4⟩ := g2 w
    simp only [List.cons_append]
    unfold writeChunks
    rw [hl]
    simp only [if_neg (Nat.pos_iff_ne_zero.mp hn), ne_eq, not_true, if_false, a1, Res.bind_ok]
    match e, a2, a4 with
    | some e, _, a4 => exact ⟨w1, some e, rfl, by simp, fun hp => by have := (a4 hp).1; cases this⟩
    | none, a2, a4 =>
      obtain ⟨w2, e2, b1, b2, b3⟩ := h2 rest hr w1 (a2 rfl).2
      have ho := (a2 rfl).1
      rw [hw, List.append_nil] at ho
      refine ⟨w2, e2, b1, fun he => ⟨(b2 he).1, by rw [(b2 he).2, ho]; simp⟩, fun hp => ?_⟩
      have := b3 (a4 hp).2
      exact ⟨by rw [this.1, ho]; simp, this.2⟩

/-- the whole file -/
theorem writeCSV_ok (date : Int → Bytes) {c : Chunk} {cs : List Chunk} (hn : 0 < c.metrics.length) (h : ∀ x ∈ c :: cs, Full x ∧ x.metrics.length = c.metrics.length) :
    ∃ ts, AreTables date (c :: cs) ts ∧ ∀ (rest : List Chunk), (∀ x, rest.head? = some x → x.metrics.length ≠ c.metrics.length) → ∀ plan,
      ∃ w' e, writeCSV date (c :: cs ++ rest) plan = .ok (w', e) ∧ (e = none → rest = [] ∧ w'.out = c.metrics.map Metric.key :: ts.flatten) ∧
        (plan = [] → w'.out = c.metrics.map Metric.key :: ts.flatten ∧ (rest = [] → e = none)) := by
  obtain ⟨ts, h1, h2⟩ := writeChunks_ok date hn cs (fun x hx => h x (by simp [hx]))
  obtain ⟨hf, _⟩ := h c (by simp)
  obtain ⟨t, g1, g2⟩ := writeChunk_ok date hf
  refine ⟨t :: ts, ⟨t, ts, rfl, g1, h1⟩, fun rest hr plan => ?_⟩
  have hlen : c.fieldNames.length = c.metrics.length := by simp [Chunk.fieldNames]
  have key : ∀ plan, (∀ p, plan ≠ false :: p) → ∃ w' e, writeCSV date (c :: cs ++ rest) plan = .ok (w', e) ∧ (e = none → rest = [] ∧ w'.out = c.metrics.map Metric.key :: (t :: ts).flatten) ∧
        (plan = [] → w'.out = c.metrics.map Metric.key :: (t :: ts).flatten ∧ (rest = [] → e = none)) := by
    intro plan hplan
    have hw : (⟨[], [], plan⟩ : CsvWriter).write c.fieldNames = (⟨[], [c.fieldNames], plan.tail⟩, none) := by
      match plan, hplan with
      | [], _ => rfl
      | true :: _, _ => rfl
      | false :: p, h => exact absurd rfl (h p)
    obtain ⟨w1, e, a1, a2, a3, a4⟩ := g2 ⟨[], [c.fieldNames], plan.tail⟩
    unfold writeCSV
    simp only [List.cons_append]
    unfold writeChunks
    simp only [if_true, hw, a1, Res.bind_ok, hlen]
    match e, a2, a4 with
    | some e, _, a4 => exact ⟨w1, some e, rfl, by simp, fun hp => by have := (a4 (by rw [hp]; rfl)).1; cases this⟩
    | none, a2, a4 =>
      obtain ⟨w2, e2, b1, b2, b3⟩ := h2 rest hr w1 (a2 rfl).2
      have ho := (a2 rfl).1
      simp only [List.nil_append, Chunk.fieldNames] at ho
      refine ⟨w2, e2, b1, fun he => ⟨(b2 he).1, by rw [(b2 he).2, ho]; simp⟩, fun hp => ?_⟩
      have := b3 (a4 (by rw [hp]; rfl)).2
      exact ⟨by rw [this.1, ho]; simp, this.2⟩
  match plan with
  | false :: p =>
    refine ⟨⟨[], [], p⟩, some .other, ?_, by simp, by simp⟩
    simp only [writeCSV, List.cons_append]
    unfold writeChunks
    simp only [if_true, CsvWriter.write]
  | [] => exact key [] (by simp)
  | true :: p => exact key _ (by simp)

/-! ### files -/

theorem writeChunk_file (date : Int → Bytes) {c : Chunk} (hc : Full c) :
    ∃ rows, IsTable date c rows ∧ ∀ out buf, writeChunk date c ⟨out, buf, []⟩ = .ok (⟨out ++ buf ++ rows, [], []⟩, none) := by
  obtain ⟨rows, h1, h2⟩ := writeChunk_ok date hc
  refine ⟨rows, h1, fun out buf => ?_⟩
  obtain ⟨⟨o, b, p⟩, e, a1, a2, a3, a4⟩ := h2 ⟨out, buf, []⟩
  obtain ⟨rfl, hp⟩ := a4 rfl
  obtain ⟨ho, hb⟩ := a2 rfl
  simp only at hp ho hb
  subst hp; subst ho; subst hb
  exact a1

/-- the rest of a group of chunks -/
theorem dump_group (date : Int → Bytes) {n : Nat} (hn : 0 < n) : ∀ (cs : List Chunk), (∀ c ∈ cs, Full c ∧ c.metrics.length = n) →
    ∃ ts, AreTables date cs ts ∧ ∀ (rest : List Chunk) (files : List (List Record)) (out : List Record),
      dumpChunks date files (some ⟨out, [], []⟩) n (cs ++ rest) = dumpChunks date files (some ⟨out ++ ts.flatten, [], []⟩) n rest
  | [], _ => ⟨[], rfl, fun rest files out => by simp⟩
  | c :: cs, h => by
    obtain ⟨ts, h1, h2⟩ := dump_group date hn cs (fun c hc => h c (by simp [hc]))
    obtain ⟨hf, hl⟩ := h c (by simp)
    obtain ⟨t, g1, g2⟩ := writeChunk_file date hf
    refine ⟨t :: ts, ⟨t, ts, rfl, g1, h1⟩, fun rest files out => ?_⟩
    simp only [List.cons_append]
    conv => lhs; unfold dumpChunks
    rw [hl]
    simp only [if_neg (Nat.pos_iff_ne_zero.mp hn), ne_eq, not_true, if_false, Option.getD_some, g2, Res.bind_ok]
    rw [List.append_nil, h2]
    simp

theorem dump_groups (date : Int → Bytes) : ∀ (gs : List (List Chunk)) (b : Nat), 0 < b → Grouped b gs → (∀ g ∈ gs, ∀ c ∈ g, Full c) →
    ∃ fs, AreFiles date gs fs ∧ ∀ files out, dumpChunks date files (some ⟨out, [], []⟩) b gs.flatten = .ok (files ++ out :: fs)
  | [], b, _, _, _ => ⟨[], rfl, fun files out => rfl⟩
  | g :: gs, b, hb, ⟨n, hn, hnb, hg, hc, hgs⟩, hf => by
    match g, hg with
    | c :: cs, _ =>
      obtain ⟨fs, h1, h2⟩ := dump_groups date gs n hn hgs (fun g hg => hf g (by simp [hg]))
      obtain ⟨ts, g1, g2⟩ := dump_group date hn cs (fun x hx => ⟨hf _ (List.mem_cons_self ..) x (by simp [hx]), hc x (by simp [hx])⟩)
      obtain ⟨t, e1, e2⟩ := writeChunk_file date (hf _ (List.mem_cons_self ..) c (by simp))
      have hl := hc c (by simp)
      have hlen : c.fieldNames.length = n := by simp [Chunk.fieldNames, hl]
      refine ⟨_, ⟨c, t :: ts, fs, rfl, rfl, ⟨t, ts, rfl, e1, g1⟩, h1⟩, fun files out => ?_⟩
      simp only [List.flatten_cons, List.cons_append]
      conv => lhs; unfold dumpChunks
      simp only [if_neg (Nat.pos_iff_ne_zero.mp hb), hl, if_pos (Ne.symm hnb), ne_eq, Option.getD_some, CsvWriter.write, List.nil_append, List.tail_nil, e2, Res.bind_ok, hlen]
      rw [g2, h2]
      simp [Chunk.fieldNames]

theorem dumpCSV_ok (date : Int → Bytes) {gs : List (List Chunk)} (h : Grouped 0 gs) (hf : ∀ g ∈ gs, ∀ c ∈ g, Full c) :
    ∃ fs, AreFiles date gs fs ∧ dumpCSV date gs.flatten = .ok fs := by
  match gs, h with
  | [], _ => exact ⟨[], rfl, rfl⟩
  | (c :: cs) :: gs, ⟨n, hn, _, _, hc, hgs⟩ =>
    obtain ⟨fs, h1, h2⟩ := dump_groups date gs n hn hgs (fun g hg => hf g (by simp [hg]))
    obtain ⟨ts, g1, g2⟩ := dump_group date hn cs (fun x hx => ⟨hf _ (List.mem_cons_self ..) x (by simp [hx]), hc x (by simp [hx])⟩)
    obtain ⟨t, e1, e2⟩ := writeChunk_file date (hf _ (List.mem_cons_self ..) c (by simp))
    have hl := hc c (by simp)
    have hlen : c.fieldNames.length = n := by simp [Chunk.fieldNames, hl]
    refine ⟨_, ⟨c, t :: ts, fs, rfl, rfl, ⟨t, ts, rfl, e1, g1⟩, h1⟩, ?_⟩
    unfold dumpCSV
    simp only [List.flatten_cons, List.cons_append]
    conv => lhs; unfold dumpChunks
    simp only [if_true, Option.getD_none, CsvWriter.write, List.nil_append, List.tail_nil, e2, Res.bind_ok, hlen]
    rw [g2, h2]
    simp [Chunk.fieldNames]
  | [] :: gs, ⟨_, _, _, h, _⟩ => exact absurd rfl h

/-! ### reading -/

theorem rowElems_ok : ∀ (header row : Record), (∀ k ∈ header, NulFree k) → (rowFields header row).enc.length < 2147483648 →
    ∃ d, rowElems header row = .ok d ∧ RepFields d (rowFields header row)
  | [], _, _, _ => ⟨[], by simp [rowElems], by simp [rowFields, RepFields]⟩
  | _ :: _, [], _, _ => ⟨[], by simp [rowElems], by simp [rowFields, RepFields]⟩
  | k :: ks, f :: fs, hk, hl => by
    simp only [rowElems, rowFields, atoi_text] at hl ⊢
    cases hx : textInt f with
    | none =>
      rw [hx] at hl
      exact rowElems_ok ks fs (fun k hk' => hk k (by simp [hk'])) hl
    | some x =>
      rw [hx] at hl
      simp only at hl ⊢
      rw [fieldsEnc_length] at hl
      obtain ⟨d, h1, h2⟩ := rowElems_ok ks fs (fun k hk' => hk k (by simp [hk'])) (by omega)
      have hr : -9223372036854775808 ≤ x ∧ x < 9223372036854775808 := by
        clear hl h1 h2
        cases f with
        | nil => simp [textInt] at hx
        | cons c r =>
          simp only [textInt] at hx
          have hup : ∀ s, upTo s = some x → -9223372036854775808 ≤ x ∧ x < 9223372036854775808 := by
            intro s hs
            unfold upTo at hs
            cases hd : digits s with
            | none => rw [hd] at hs; cases hs
            | some n =>
              rw [hd] at hs
              simp only [Option.bind_some] at hs
              split at hs
              · simp only [Option.some.injEq] at hs; omega
              · cases hs
          split at hx
          · cases hd : digits r with
            | none => rw [hd] at hx; cases hx
            | some n =>
              rw [hd] at hx
              simp only [Option.bind_some] at hx
              split at hx
              · simp only [Option.some.injEq] at hx; omega
              · cases hx
          · split at hx
            · exact hup _ hx
            · exact hup _ hx
      obtain ⟨v, h3, h4⟩ := buildVal_rep k (.int64 x) (hk k (by simp)) (by simp only [BVal.WF]; omega) (by simp [BVal.enc] at hl ⊢; omega)
      have h3' : EC.int64 k x = .ok v := h3
      exact ⟨v :: d, by simp only [h3', Res.bind_ok, h1], ⟨h4, h2⟩⟩

theorem rows_docs {header : Record} (hk : ∀ k ∈ header, NulFree k) : ∀ (rows : List Record), (∀ r ∈ rows, (rowFields header r).enc.length < 2147483648) →
    ∃ docs, docs.length = rows.length ∧ RepDocs docs (rows.map (rowFields header)) ∧ ∀ (i : Nat) (r : Record), rows[i]? = some r → ∃ d, docs[i]? = some d ∧ rowElems header r = .ok d
  | [], _ => ⟨[], rfl, trivial, by simp⟩
  | r :: rows, h => by
    obtain ⟨docs, h0, h1, h2⟩ := rows_docs hk rows (fun r hr => h r (by simp [hr]))
    obtain ⟨d, h3, h4⟩ := rowElems_ok header r hk (h r (by simp))
    refine ⟨d :: docs, by simp [h0], ⟨h4, h1⟩, fun i r' hi => ?_⟩
    cases i with
    | zero => simp only [List.getElem?_cons_zero, Option.some.injEq] at hi; subst hi; exact ⟨d, by simp, h3⟩
    | succ i => simpa using h2 i r' (by simpa using hi)

/-- adding the documents of the rows -/
theorem convertLoop_add {fsub : Nat → Nat → Nat} {zip : Bytes → Bytes} {now : Nat → Time} {fuel : Nat} (bad : Option Err) {header : Record} :
    ∀ (rows : List Record) (docs : List Doc) (c c' : StreamingDynamic), (∀ r ∈ rows, r.length = header.length) → docs.length = rows.length →
    (∀ (i : Nat) (r : Record), rows[i]? = some r → ∃ d, docs[i]? = some d ∧ rowElems header r = .ok d) →
    addEach (fun c d => c.add fsub zip now fuel d) c docs = .ok (c', docs.map fun _ => none) →
    convertLoop fsub zip now fuel header.length bad header c rows = .ok (c', bad)
  | [], [], c, c', _, _, _, h => by
    simp only [addEach, List.map_nil, Res.ok.injEq, Prod.mk.injEq] at h
    rw [← h.1]; rfl
  | r :: rows, [], c, c', _, hl, _, _ => by simp at hl
  | [], d :: docs, c, c', _, hl, _, _ => by simp at hl
  | r :: rows, d :: docs, c, c', hw, hl, hd, h => by
    obtain ⟨d', h1, h2⟩ := hd 0 r rfl
    simp only [List.getElem?_cons_zero, Option.some.injEq] at h1
    subst h1
    simp only [addEach, List.map_cons] at h
    obtain ⟨⟨c1, e⟩, h3, h⟩ := Res.bind_eq_ok.mp h
    obtain ⟨⟨c2, es⟩, h4, h⟩ := Res.bind_eq_ok.mp h
    simp only [Res.ok.injEq, Prod.mk.injEq, List.cons.injEq] at h
    obtain ⟨rfl, rfl, rfl⟩ := h
    have hr := hw r (by simp)
    simp only [convertLoop, hr, ne_eq, not_true, if_false, h2, Res.bind_ok, h3]
    exact convertLoop_add bad rows docs c1 c2 (fun r hr => hw r (by simp [hr])) (by simpa using hl)
      (fun i r' hi => by simpa using hd (i + 1) r' (by simpa using hi)) h4

/-- nothing is recorded under a header of another width -/
theorem convertLoop_stuck {fsub : Nat → Nat → Nat} {zip : Bytes → Bytes} {now : Nat → Time} {fuel width : Nat} (bad : Option Err) :
    ∀ (rows : List Record) (header : Record) (c : StreamingDynamic), header.length ≠ width →
    ∃ e, convertLoop fsub zip now fuel width bad header c rows = .ok (c, e) ∧
      ((∀ r ∈ rows, r.length ≠ width) → e = bad) ∧ ((∃ r ∈ rows, r.length = width) → e = some .other)
  | [], header, c, _ => ⟨bad, rfl, by simp, by simp⟩
  | r :: rows, header, c, h => by
    by_cases hr : r.length = width
    · refine ⟨some .other, ?_, fun h => absurd hr (h r (by simp)), fun _ => rfl⟩
      simp only [convertLoop, hr, ne_eq, not_true, if_false, if_pos (Ne.symm h)]
    · obtain ⟨e, h1, h2, h3⟩ := convertLoop_stuck (fsub := fsub) (zip := zip) (now := now) (fuel := fuel) bad rows r c hr
      refine ⟨e, by simp only [convertLoop, ne_eq, hr, not_false_eq_true, if_true]; exact h1, fun h => h2 (fun r hr => h r (by simp [hr])), ?_⟩
      rintro ⟨x, hx, hw⟩
      rcases List.mem_cons.mp hx with rfl | hx
      · exact absurd hw hr
      · exact h3 ⟨x, hx, hw⟩

theorem convertLoop_append {fsub : Nat → Nat → Nat} {zip : Bytes → Bytes} {now : Nat → Time} {fuel width : Nat} (bad : Option Err) (rest : List Record) :
    ∀ (rows : List Record) (header : Record) (c c' : StreamingDynamic), convertLoop fsub zip now fuel width none header c rows = .ok (c', none) →
    ∃ header', convertLoop fsub zip now fuel width bad header c (rows ++ rest) = convertLoop fsub zip now fuel width bad header' c' rest
  | [], header, c, c', h => by
    simp only [convertLoop, Res.ok.injEq, Prod.mk.injEq, and_true] at h
    subst h; exact ⟨header, rfl⟩
  | r :: rows, header, c, c', h => by
    simp only [List.cons_append, convertLoop] at h ⊢
    split
    · rename_i hw
      rw [if_pos hw] at h
      exact convertLoop_append bad rest rows r c c' h
    · rename_i hw
      rw [if_neg hw] at h
      split
      · rename_i hw'; rw [if_pos hw'] at h; simp at h
      · rename_i hw'
        rw [if_neg hw'] at h
        obtain ⟨doc, h1, h⟩ := Res.bind_eq_ok.mp h
        obtain ⟨⟨c1, e⟩, h2, h⟩ := Res.bind_eq_ok.mp h
        simp only [h1, Res.bind_ok, h2]
        cases e with
        | some e => simp at h
        | none => exact convertLoop_append bad rest rows header c1 c' h

/-- a collector with one document whose writer fails -/
theorem one_flush_fails {fsub : Nat → Nat → Nat}
    (hsub : ∀ a b, a < 18446744073709551616 → b < 18446744073709551616 → fsub a b < 18446744073709551616)
    {zip : Bytes → Bytes} {unzip : Bytes → Option Bytes} (hz : ∀ b, unzip (zip b) = some b) (now : Nat → Time) {n max : Nat} (hn : 10000000000 ≤ n)
    (hmax : max < 4294967295) {d : Doc} {f : Fields} (hd : RepFields d f) (hl : (encDoc f).length < 2147483648) (hsm : SmallChunks fsub zip max none [d]) (e : Err) :
    ∃ c c', (StreamingDynamic.new max ⟨[], [some (0, some e)]⟩).add fsub zip now n d = .ok (c, none) ∧
      c.flush zip now n = .ok (c', some e) ∧ c'.base.output.out = [] := by
  have hr : Run [d] [f] := ⟨⟨hd, trivial⟩, by simpa using hl, by simpa using shapeF_refl _⟩
  have h0 : SInv fsub zip now n max (Streaming.new max ⟨[], [some (0, some e)]⟩) [] (Part.empty max none) :=
    ⟨rfl, rfl, rfl, rfl, rfl, by simp, by simp, run_nil, filled_nil fsub n max _, Nat.zero_le _, by simp [Part.empty]⟩
  obtain ⟨b, p, h1, h2, h3, h4, h5, h6⟩ := stream_push (d := d) (f := f) hn h0 (by simpa [Part.empty] using hr) (by simp [Part.empty])
  have hkey := metricKeyHash_rep n hd hl (by omega)
  have hadd : (StreamingDynamic.new max ⟨[], [some (0, some e)]⟩).add fsub zip now n d = .ok (⟨hashText (f.paths []).flatten, f.kinds.length, b⟩, none) := by
    unfold StreamingDynamic.add
    rw [hkey]
    simp only [Res.bind_ok, StreamingDynamic.new, if_true]
    rw [if_neg (by simp [Streaming.new])]
    unfold StreamingDynamic.addBase Streaming.add
    simp only
    rw [if_neg (by simp only [Streaming.new]; omega), h1]
    rfl
  have hne : p.fss ≠ [] := by rw [h5]; simp [Part.empty]
  have hpd : p.docs = [d] := by rw [h4]; simp [Part.empty]
  have hp := hsm [d] n p.chunk _ (List.Sublist.refl _) (by omega) (by have := h2.filled; rw [hpd, h3] at this; exact this)
  obtain ⟨gss, _, _, hres⟩ := run_yields hsub hz h2.run hne h2.filled h2.room (by omega) (by have := h2.room; omega) h2.md hp (now b.flushes)
  have hres := (hres n hn).1
  have hinf := filled_info h2.run h2.filled h2.room (by omega)
  have hpos : p.fss.length ≠ 0 := by simpa using hne
  refine ⟨⟨hashText (f.paths []).flatten, f.kinds.length, b⟩,
    ⟨hashText (f.paths []).flatten, f.kinds.length, { b with inner := p.chunk, output := ⟨[], []⟩ }⟩, hadd, ?_, rfl⟩
  unfold StreamingDynamic.flush Streaming.flushWith
  simp only
  rw [h2.inner, hinf, if_neg hpos, hres]
  simp [h6, Streaming.new, Sink.write]

end Birch.Proofs.Ftdc
