import Verif.Proofs.FtdcDamage
import Verif.Props.FtdcLayout

/- C101: damaged and truncated FTDC data. -/

namespace Birch.Props
open Birch Model Model.Ftdc Spec Proofs Proofs.Ftdc

/-! ### C101

`readPayload fuel md buf` reads the decompressed data `buf` of a chunk; `md` is the metadata in force. -/

/-- A number is read where the bytes begin with one of 64 bits in at most ten bytes, and everything else gives an error. -/
theorem C101_numbers (b : Bytes) :
    (∀ x rest, readUvarint b = .ok (x, rest) ↔ ∃ a, b = a ++ rest ∧ Number64 a x.toNat) ∧
    ((∀ a rest n, b = a ++ rest → ¬ Number64 a n) → ∃ e, readUvarint b = .err e) := by
  refine ⟨read_iff b, fun h => ?_⟩
  rcases readUvarint_noPanic b with ⟨⟨x, rest⟩, h1⟩ | h1
  · obtain ⟨a, e, hn⟩ := (read_iff _ _ _).mp h1
    exact absurd hn (h a rest _ e)
  · exact h1

/-- the number 1 in three bytes is read although two of them are not needed; eleven bytes are too many -/
example : readUvarint [129, 128, 0, 7] = .ok (1, [7]) ∧ ∃ e, readUvarint (List.replicate 10 128 ++ [0]) = .err e := by
  constructor
  · exact ((C101_numbers _).1 1 [7]).mpr ⟨[129, 128, 0], rfl,
      .more 129 _ 0 (by decide) (.more 128 _ 0 (by decide) (.last 0 (by decide))), by decide, by decide⟩
  · refine (C101_numbers _).2 ?_
    rintro a rest n h ⟨hv, _, hl⟩
    have key : ∀ (k : Nat) (a rest : Bytes) (n : Nat), Varint a n → List.replicate k (128 : UInt8) ++ [0] = a ++ rest → k < a.length := by
      intro k
      induction k with
      | zero => intro a rest n hv _; cases hv <;> simp
      | succ k ih =>
        intro a rest n hv h
        cases hv with
        | last c hc => simp only [List.replicate_succ, List.cons_append, List.cons.injEq] at h; rw [← h.1] at hc; exact absurd hc (by decide)
        | more c b n hc hv =>
          simp only [List.replicate_succ, List.cons_append, List.cons.injEq] at h
          have := ih b rest n hv h.2
          simp; omega
    have := key 10 a rest n hv h
    omega

/-- Whatever bytes follow the first sample of a chunk, reading it ends with the chunk or with an error, without a panic. -/
theorem C101_safe {fs : Fields} (wf : fs.WF) (hl : (encDoc fs).length < 2147483648) (tail : Bytes) (md : Option Doc) :
    (∃ c, Returns (fun fuel => readPayload fuel md (encDoc fs ++ tail)) (.ok c)) ∨ ∃ e, Returns (fun fuel => readPayload fuel md (encDoc fs ++ tail)) (.err e) := by
  obtain ⟨ref, _, h⟩ := payload_eq wf hl
  rcases tailOf_noPanic fs ref md tail with ⟨c, h1⟩ | ⟨e, h1⟩
  · exact .inl ⟨c, (encDoc fs).length + 1, fun n hn => (h n (by omega) tail md).trans h1⟩
  · exact .inr ⟨e, (encDoc fs).length + 1, fun n hn => (h n (by omega) tail md).trans h1⟩

/-- `{n: 5, d: 1.5, t: Timestamp(2, 3)}` -/
def exDamaged : Fields := .cons [110] (.int32 5) (.cons [100] (.double 0x3FF8000000000000) (.cons [116] (.timestamp 2 3) .nil))

theorem exDamaged_ok : exDamaged.WF ∧ (encDoc exDamaged).length < 2147483648 ∧ exDamaged.cells.length = 4 :=
  ⟨by simp [exDamaged, Fields.WF, BVal.WF, NulFree], by decide +kernel, rfl⟩

example (tail : Bytes) : (∃ c, Returns (fun fuel => readPayload fuel none (encDoc exDamaged ++ tail)) (.ok c)) ∨
    ∃ e, Returns (fun fuel => readPayload fuel none (encDoc exDamaged ++ tail)) (.err e) := C101_safe exDamaged_ok.1 exDamaged_ok.2.1 tail none

/-- A chunk is read exactly if after its first sample come the number of the sample's metrics, a number of further samples, and differences
    for all of them; `Tail` says how. -/
theorem C101_accepts {fs : Fields} (wf : fs.WF) (hl : (encDoc fs).length < 2147483648) (tail : Bytes) (md : Option Doc) :
    (∃ c, Returns (fun fuel => readPayload fuel md (encDoc fs ++ tail)) (.ok c)) ↔ ∃ samples diffs, Tail fs.cells.length samples diffs tail := by
  obtain ⟨ref, _, h⟩ := payload_eq wf hl
  rw [← tail_iff fs ref md tail]
  constructor
  · rintro ⟨c, n, hn⟩
    have := hn (n + (encDoc fs).length + 1) (by omega)
    exact ⟨c, (h _ (by omega) tail md).symm.trans this⟩
  · rintro ⟨c, h1⟩
    exact ⟨c, (encDoc fs).length + 1, fun n hn => (h n (by omega) tail md).trans h1⟩

/-- two further samples: the differences of `n` are 7 and -7, the first difference of the timestamp's seconds is 1000, and all others are 0 -/
def exTail : Bytes := le32 4 ++ le32 2 ++ [7, 249, 255, 255, 255, 255, 255, 255, 255, 255, 1, 0, 1, 232, 7, 0, 2]

theorem exTail_ok : Tail 4 2 [7, 18446744073709551609, 0, 0, 1000, 0, 0, 0] exTail := by
  refine ⟨by decide, by decide, rfl, [7, 249, 255, 255, 255, 255, 255, 255, 255, 255, 1, 0, 1, 232, 7, 0, 2], 0, [], rfl, ?_⟩
  have n1 : ∀ c : UInt8, c.toNat < 128 → Number64 [c] c.toNat := fun c h => ⟨.last c h, by omega, by simp⟩
  have a := Coded.zeros (n1 0 (by decide)) (n1 2 (by decide)) .nil
  have b : Number64 [232, 7] 1000 := ⟨.more 232 _ 7 (by decide) (.last 7 (by decide)), by decide, by decide⟩
  have c := Coded.zeros (n1 0 (by decide)) (n1 1 (by decide)) (Coded.number b (by decide) a)
  have d : Number64 [249, 255, 255, 255, 255, 255, 255, 255, 255, 1] 18446744073709551609 :=
    ⟨.more 249 _ 144115188075855871 (by decide) (.more 255 _ 1125899906842623 (by decide) (.more 255 _ 8796093022207 (by decide) (.more 255 _ 68719476735 (by decide)
      (.more 255 _ 536870911 (by decide) (.more 255 _ 4194303 (by decide) (.more 255 _ 32767 (by decide) (.more 255 _ 255 (by decide) (.more 255 _ 1 (by decide)
      (.last 1 (by decide)))))))))), by decide, by decide⟩
  exact Coded.number (n1 7 (by decide)) (by decide) (Coded.number d (by decide) c)

example : ∃ c, Returns (fun fuel => readPayload fuel none (encDoc exDamaged ++ exTail)) (.ok c) :=
  (C101_accepts exDamaged_ok.1 exDamaged_ok.2.1 exTail none).mpr ⟨2, _, exTail_ok⟩

/-- The chunk then has the first sample and the number of further samples given, and every metric has the values that its first value and its
    differences give. -/
theorem C101_values {fs : Fields} (wf : fs.WF) (hl : (encDoc fs).length < 2147483648) {tail : Bytes} {samples : Nat} {diffs : List Nat}
    (h : Tail fs.cells.length samples diffs tail) (md : Option Doc) :
    ∃ c, Returns (fun fuel => readPayload fuel md (encDoc fs ++ tail)) (.ok c) ∧ c.nPoints = samples + 1 ∧ c.metadata = md ∧ RepFields c.reference fs ∧
      c.metrics.length = fs.starts.length ∧
      ∀ (i : Nat) (s : Cell), fs.starts[i]? = some s → ∃ m, c.metrics[i]? = some m ∧ Column s (diffsOf i samples diffs) m.values := by
  obtain ⟨ref, hr, he⟩ := payload_eq wf hl
  refine ⟨_, ⟨(encDoc fs).length + 1, fun n hn => (he n (by omega) tail md).trans (tail_ok h ref md)⟩, rfl, rfl, hr, ?_, fun i s hs => tail_values wf _ _ i s hs⟩
  simp only [List.length_zipWith, length_metsF, List.length_map, startsF_length, cells_count]
  have : ∀ (k : Nat) (l : List Nat), (split samples k l).length = k := by
    intro k; induction k with
    | zero => intro l; rfl
    | succ k ih => intro l; simp [split, ih]
  rw [this]; omega

/-- the values of `n` -/
example : ∃ c m, Returns (fun fuel => readPayload fuel none (encDoc exDamaged ++ exTail)) (.ok c) ∧ c.nPoints = 3 ∧ c.metrics[0]? = some m ∧ m.values[1]? = some 12 ∧ m.values[2]? = some 5 := by
  obtain ⟨c, h1, h2, _, _, _, h3⟩ := C101_values exDamaged_ok.1 exDamaged_ok.2.1 exTail_ok none
  obtain ⟨m, h4, h5, h6, h7⟩ := h3 0 (.int 5) rfl
  have e : (diffsOf 0 2 [7, 18446744073709551609, 0, 0, 1000, 0, 0, 0]).map signed64 = [7, -7] := by decide +kernel
  rw [e] at h5 h7
  match hm : m.values, h5 with
  | [x, y, z], _ =>
    rw [hm] at h6 h7
    simp at h6
    subst h6
    obtain ⟨a1, a2, a3⟩ := h7 0 7 5 y rfl rfl rfl
    have hy : y = 12 := by unfold Same64 at a1; omega
    subst hy
    obtain ⟨b1, b2, b3⟩ := h7 1 (-7) 12 z rfl rfl rfl
    have hz : z = 5 := by unfold Same64 at b1; omega
    subst hz
    exact ⟨c, m, h1, h2, h4, by rw [hm]; rfl, by rw [hm]; rfl⟩

/-- Only the numbers matter, not how they are coded, by how much the last run of zeros is too long, or what follows. -/
theorem C101_same {fs : Fields} (wf : fs.WF) (hl : (encDoc fs).length < 2147483648) {tail tail' : Bytes} {samples : Nat} {diffs : List Nat}
    (h : Tail fs.cells.length samples diffs tail) (h' : Tail fs.cells.length samples diffs tail') (md : Option Doc) :
    ∃ c, Returns (fun fuel => readPayload fuel md (encDoc fs ++ tail)) (.ok c) ∧ Returns (fun fuel => readPayload fuel md (encDoc fs ++ tail')) (.ok c) := by
  obtain ⟨ref, hr, he⟩ := payload_eq wf hl
  exact ⟨_, ⟨(encDoc fs).length + 1, fun n hn => (he n (by omega) tail md).trans (tail_ok h ref md)⟩,
    ⟨(encDoc fs).length + 1, fun n hn => (he n (by omega) tail' md).trans (tail_ok h' ref md)⟩⟩

/-- Bytes after the last difference are ignored. -/
theorem C101_trailing {fs : Fields} (wf : fs.WF) (hl : (encDoc fs).length < 2147483648) {tail : Bytes} {md : Option Doc} {c : Chunk}
    (h : Returns (fun fuel => readPayload fuel md (encDoc fs ++ tail)) (.ok c)) (more : Bytes) :
    Returns (fun fuel => readPayload fuel md (encDoc fs ++ (tail ++ more))) (.ok c) := by
  obtain ⟨n, l, ht⟩ := (C101_accepts wf hl tail md).mp ⟨c, h⟩
  have ht' : Tail fs.cells.length n l (tail ++ more) := by
    obtain ⟨h1, h2, h3, b, z, rest, rfl, h5⟩ := ht
    exact ⟨h1, h2, h3, b, z, rest ++ more, by simp, h5⟩
  obtain ⟨c', h1, h2⟩ := C101_same wf hl ht ht' md
  have := Returns.unique h h1
  cases this
  exact h2

/-- the chunk above, with a last run of 100 zeros where three are left, and with two more bytes -/
example : ∃ c, Returns (fun fuel => readPayload fuel none (encDoc exDamaged ++ exTail)) (.ok c) ∧
    Returns (fun fuel => readPayload fuel none (encDoc exDamaged ++
      (le32 4 ++ le32 2 ++ [7, 249, 255, 255, 255, 255, 255, 255, 255, 255, 1, 0, 1, 232, 7, 0, 99] ++ [1, 2]))) (.ok c) := by
  have ht : Tail 4 2 [7, 18446744073709551609, 0, 0, 1000, 0, 0, 0] (le32 4 ++ le32 2 ++ [7, 249, 255, 255, 255, 255, 255, 255, 255, 255, 1, 0, 1, 232, 7, 0, 99]) := by
    refine ⟨by decide, by decide, rfl, [7, 249, 255, 255, 255, 255, 255, 255, 255, 255, 1, 0, 1, 232, 7, 0, 99], 97, [], rfl, ?_⟩
    have n1 : ∀ c : UInt8, c.toNat < 128 → Number64 [c] c.toNat := fun c h => ⟨.last c h, by omega, by simp⟩
    have a := Coded.zeros (n1 0 (by decide)) (n1 99 (by decide)) .nil
    have b : Number64 [232, 7] 1000 := ⟨.more 232 _ 7 (by decide) (.last 7 (by decide)), by decide, by decide⟩
    have c := Coded.zeros (n1 0 (by decide)) (n1 1 (by decide)) (Coded.number b (by decide) a)
    have d : Number64 [249, 255, 255, 255, 255, 255, 255, 255, 255, 1] 18446744073709551609 :=
      ⟨.more 249 _ 144115188075855871 (by decide) (.more 255 _ 1125899906842623 (by decide) (.more 255 _ 8796093022207 (by decide) (.more 255 _ 68719476735 (by decide)
        (.more 255 _ 536870911 (by decide) (.more 255 _ 4194303 (by decide) (.more 255 _ 32767 (by decide) (.more 255 _ 255 (by decide) (.more 255 _ 1 (by decide)
        (.last 1 (by decide)))))))))), by decide, by decide⟩
    exact Coded.number (n1 7 (by decide)) (by decide) (Coded.number d (by decide) c)
  obtain ⟨c, h1, h2⟩ := C101_same exDamaged_ok.1 exDamaged_ok.2.1 exTail_ok ht none
  exact ⟨c, h1, C101_trailing exDamaged_ok.1 exDamaged_ok.2.1 h2 [1, 2]⟩

/-- A number of metrics other than that of the first sample is found out. -/
theorem C101_mismatch {fs : Fields} (wf : fs.WF) (hl : (encDoc fs).length < 2147483648) {m n : Nat} (hm : m < 4294967296) (hn : n < 4294967296)
    (h : m ≠ fs.cells.length) (b : Bytes) (md : Option Doc) :
    Returns (fun fuel => readPayload fuel md (encDoc fs ++ (le32 m ++ le32 n ++ b))) (.err .other) := by
  obtain ⟨ref, _, he⟩ := payload_eq wf hl
  exact ⟨(encDoc fs).length + 1, fun k hk => by
    show readPayload k md (encDoc fs ++ (le32 m ++ le32 n ++ b)) = _
    rw [he k (by omega), tailOf_counts fs ref md hm hn, if_pos (by rw [← cells_count]; exact h)]⟩

example : Returns (fun fuel => readPayload fuel none (encDoc exDamaged ++ (le32 3 ++ le32 2 ++ [0, 5]))) (.err .other) :=
  C101_mismatch exDamaged_ok.1 exDamaged_ok.2.1 (by decide) (by decide) (by decide) _ none

/-- The data of a chunk that break off anywhere give an error. -/
theorem C101_cut {fsub : Nat → Nat → Nat}
    (hsub : ∀ a b, a < 18446744073709551616 → b < 18446744073709551616 → fsub a b < 18446744073709551616)
    {f0 : Fields} {fss : List Fields} (wf : ∀ f ∈ f0 :: fss, f.WF) (hl : (encDoc f0).length < 2147483648) (hn : fss.length < 4294967296)
    {part rest : Bytes} (h : chunkPayload fsub f0 fss = part ++ rest) (hr : rest ≠ []) (md : Option Doc) :
    ∃ e, Returns (fun fuel => readPayload fuel md part) (.err e) := by
  obtain ⟨hc, hlen, hcode⟩ := payload_tail hsub wf hl hn
  unfold chunkPayload at h
  simp only [List.append_assoc] at h
  by_cases hp : part.length < (encDoc f0).length
  · obtain ⟨t, ht, htl⟩ : ∃ t, encDoc f0 = part ++ t ∧ t ≠ [] := by
      rcases List.append_eq_append_iff.mp h with ⟨a, h1, _⟩ | ⟨a, h1, _⟩
      · rw [h1] at hp; simp at hp; omega
      · refine ⟨a, h1, ?_⟩
        rintro rfl
        rw [h1] at hp; simp at hp
    refine ⟨if part.length = 0 ∨ part.length = 4 then .eof else .unexpectedEOF, 0, fun n _ => ?_⟩
    obtain ⟨_, h2⟩ := C11_truncated f0 hl ⟨[part], false⟩ t (by simpa [Stream.Source.left] using ht) htl n
    show readPayload n md part = _
    unfold readPayload
    simp only [h2, Stream.Source.left, List.flatten_cons, List.flatten_nil, List.append_nil]
    rfl
  · obtain ⟨t, rfl, ht⟩ : ∃ t, part = encDoc f0 ++ t ∧ le32 f0.cells.length ++ (le32 fss.length ++
        (runs (byMetric f0.cells.length (diffRows fsub f0.cells (fss.map Fields.cells)))).flatMap leb128) = t ++ rest := by
      rcases List.append_eq_append_iff.mp h with ⟨a, h1, h2⟩ | ⟨a, h1, h2⟩
      · exact ⟨a, h1, h2⟩
      · have : a = [] := by rw [h1] at hp; simp at hp; simpa using hp
        subst this
        exact ⟨[], by simpa using h1.symm, by simpa using h2.symm⟩
    have hno := tail_short (by omega) hn hlen hcode (by simpa using ht) hr
    rcases C101_safe (wf f0 (by simp)) hl t md with hok | he
    · exact absurd ((C101_accepts (wf f0 (by simp)) hl t md).mp hok) hno
    · exact he

example (part rest : Bytes) (h : chunkPayload (fun a _ => a) exDamaged [exDamaged, exDamaged] = part ++ rest) (hr : rest ≠ []) :
    ∃ e, Returns (fun fuel => readPayload fuel none part) (.err e) :=
  C101_cut (fun a _ h _ => h) (by intro f hf; simp at hf; subst hf; exact exDamaged_ok.1) exDamaged_ok.2.1 (by decide) h hr none

/-- the last ten bytes are the number 18446744073709551615 -/
def bombTail (metrics samples : Nat) : Bytes := le32 metrics ++ le32 samples ++ [0, 255, 255, 255, 255, 255, 255, 255, 255, 255, 1]

/-- Nothing bounds the number of samples by the size of the data: 19 bytes after the first sample give any number of samples below 2 to the 32, for every metric. -/
theorem C101_bomb {fs : Fields} (wf : fs.WF) (hl : (encDoc fs).length < 2147483648) {samples : Nat} (hs : samples < 4294967296) (md : Option Doc) :
    (bombTail fs.cells.length samples).length = 19 ∧
    ∃ c, Returns (fun fuel => readPayload fuel md (encDoc fs ++ bombTail fs.cells.length samples)) (.ok c) ∧ c.nPoints = samples + 1 ∧
      c.metrics.length = fs.cells.length ∧ ∀ m ∈ c.metrics, m.values.length = samples + 1 := by
  refine ⟨by simp [bombTail], ?_⟩
  have hc : fs.cells.length < 2147483648 := by
    have := countF_le fs
    rw [cells_count]
    simp only [encDoc, wrapDoc_length] at hl
    omega
  have hb : fs.cells.length * samples ≤ 18446744073709551615 :=
    Nat.le_trans (Nat.mul_le_mul (Nat.le_of_lt hc) (Nat.le_of_lt hs)) (by decide)
  have d : Number64 [255, 255, 255, 255, 255, 255, 255, 255, 255, 1] 18446744073709551615 :=
    ⟨.more 255 _ 144115188075855871 (by decide) (.more 255 _ 1125899906842623 (by decide) (.more 255 _ 8796093022207 (by decide) (.more 255 _ 68719476735 (by decide)
      (.more 255 _ 536870911 (by decide) (.more 255 _ 4194303 (by decide) (.more 255 _ 32767 (by decide) (.more 255 _ 255 (by decide) (.more 255 _ 1 (by decide)
      (.last 1 (by decide)))))))))), by decide, by decide⟩
  have ht : Tail fs.cells.length samples (List.replicate (fs.cells.length * samples) 0) (bombTail fs.cells.length samples) := by
    refine ⟨by omega, hs, by simp, _, 18446744073709551616 - fs.cells.length * samples, [], (List.append_nil _).symm, ?_⟩
    rw [List.replicate_append_replicate]
    have := Coded.zeros (a := [0]) ⟨.last 0 (by decide), by decide, by decide⟩ d .nil
    have e : fs.cells.length * samples + (18446744073709551616 - fs.cells.length * samples) = 18446744073709551615 + 1 := by omega
    rw [e]
    rw [List.append_nil] at this
    rw [List.append_nil] at this
    exact this
  obtain ⟨c, h1, h2, _, _, h3, h4⟩ := C101_values wf hl ht md
  refine ⟨c, h1, h2, by rw [h3, startsF_length], fun m hm => ?_⟩
  obtain ⟨i, hi, rfl⟩ := List.mem_iff_getElem.mp hm
  obtain ⟨m', h5, h6⟩ := h4 i (fs.starts[i]'(h3 ▸ hi)) (by simp)
  rw [List.getElem?_eq_getElem hi] at h5
  cases h5
  have hd : (diffsOf i samples (List.replicate (fs.cells.length * samples) 0)).length = samples := by
    have : i + 1 ≤ fs.cells.length := by rw [← startsF_length, ← h3]; exact hi
    have := Nat.mul_le_mul_right samples this
    rw [Nat.add_mul, Nat.one_mul] at this
    simp only [diffsOf, List.length_take, List.length_drop, List.length_replicate]; omega
  cases hcell : fs.starts[i]'(h3 ▸ hi) with
  | int a => rw [hcell] at h6; obtain ⟨h7, _⟩ := h6; rw [h7]; simp [hd]
  | dbl a =>
    rw [hcell] at h6
    have : c.metrics[i].values = _ := h6
    rw [this]; simp [hd]

/-- 17 billion values from 19 bytes -/
example : ∃ c, Returns (fun fuel => readPayload fuel none (encDoc exDamaged ++ bombTail 4 4294967295)) (.ok c) ∧ c.nPoints = 4294967296 ∧ c.metrics.length = 4 := by
  obtain ⟨_, c, h1, h2, h3, _⟩ := C101_bomb exDamaged_ok.1 exDamaged_ok.2.1 (samples := 4294967295) (by decide) none
  exact ⟨c, h1, h2, h3⟩

/-- A file that breaks off inside a document has the chunks of the documents before, and an error at the end; but there is no error if it breaks
    off right after the document's four bytes of length. -/
theorem C101_file_cut (unzip : Bytes → Option Bytes) {fss : List Fields} (wf : ∀ fs ∈ fss, fs.WF ∧ (encDoc fs).length < 2147483648)
    {f : Fields} (hf : (encDoc f).length < 2147483648) {part rest : Bytes} (he : encDoc f = part ++ rest) (hr : rest ≠ [])
    {s s' : Stream.Source} (hs : s.left = (fss.map encDoc).flatten ++ part) (hs' : s'.left = (fss.map encDoc).flatten) :
    ∃ M, ∀ m, M ≤ m → ∀ cs, readAll unzip m s' = (cs, .ok ()) →
      readAll unzip m s = (cs, if part.length = 0 ∨ part.length = 4 then .ok () else .err .unexpectedEOF) := by
  refine ⟨2147483648 + fss.length + 1, fun m hm cs h => ?_⟩
  obtain ⟨ds, h1, _, h2⟩ := readDiagnostic_cut fss f part rest m s wf hf he hr (fun fs hfs => by have := (wf fs hfs).2; omega) (by omega) hs
  unfold readAll at h ⊢
  rw [h2 s' hs'] at h
  rw [h1]
  simp only [Prod.mk.injEq] at h
  obtain ⟨h3, h4⟩ := h
  cases e : readChunks unzip m none ds with
  | mk c r =>
    rw [e] at h3 h4
    simp only at h3 h4 ⊢
    subst h3
    cases r with
    | ok u => simp only [e]
    | err e => cases h4
    | panic => cases h4
    | oof => cases h4

/-- a document cut after six bytes, behind another -/
example : ∃ M, ∀ m, M ≤ m → ∀ cs, readAll some m ⟨[encDoc exDamaged], false⟩ = (cs, .ok ()) →
    readAll some m ⟨[encDoc exDamaged ++ (encDoc exDamaged).take 6], false⟩ = (cs, .err .unexpectedEOF) := by
  have h := C101_file_cut some (fss := [exDamaged]) (by intro f hf; simp at hf; subst hf; exact ⟨exDamaged_ok.1, exDamaged_ok.2.1⟩)
    (f := exDamaged) exDamaged_ok.2.1 (part := (encDoc exDamaged).take 6) (rest := (encDoc exDamaged).drop 6) (by simp) (by decide +kernel)
    (s := ⟨[encDoc exDamaged ++ (encDoc exDamaged).take 6], false⟩) (s' := ⟨[encDoc exDamaged], false⟩) (by simp [Stream.Source.left]) (by simp [Stream.Source.left])
  have e : ((encDoc exDamaged).take 6).length = 6 := by decide +kernel
  rw [e, if_neg (by decide)] at h
  exact h

/-- A damaged chunk ends the reading: the chunks before it are passed on, then there is the error, and none of the chunks after it is read. -/
theorem C101_stops {doc : Doc} {fs : Fields} (h : RepFields doc fs) (hc : ChunkDoc fs) {z : Bytes} (hz : Compressed fs z) {unzip : Bytes → Option Bytes} {fuel : Nat}
    (hbad : unzip z = none ∨ ∃ buf, unzip z = some buf ∧ ∀ md, ∃ e, readPayload fuel md buf = .err e)
    {before : List Doc} {md : Option Doc} {cs : List Chunk} (hb : readChunks unzip fuel md before = (cs, .ok ())) :
    ∃ e, ∀ after, readChunks unzip fuel md (before ++ doc :: after) = (cs, .err e) := by
  have hdoc : ∀ md, ∃ e, readChunkDoc unzip fuel md doc = .err e := by
    intro md
    rw [(C76_documents h unzip fuel md).2.2.1 hc z hz]
    rcases hbad with hu | ⟨buf, hu, hp⟩
    · rw [hu]; exact ⟨_, rfl⟩
    · obtain ⟨e, he⟩ := hp md
      rw [hu]
      exact ⟨e, by simp only [he]; rfl⟩
  induction before generalizing md cs with
  | nil =>
    obtain ⟨e, he⟩ := hdoc md
    simp only [readChunks, Prod.mk.injEq] at hb
    refine ⟨e, fun after => ?_⟩
    rw [List.nil_append, readChunks, he, ← hb.1]
  | cons d before ih =>
    rw [readChunks] at hb
    cases e : readChunkDoc unzip fuel md d with
    | ok r =>
      obtain ⟨md', c⟩ := r
      rw [e] at hb
      simp only [Prod.mk.injEq] at hb
      obtain ⟨e', h1⟩ := ih (cs := (readChunks unzip fuel md' before).1) (md := md') (by rw [← hb.2])
      refine ⟨e', fun after => ?_⟩
      rw [List.cons_append, readChunks, e]
      simp only [h1 after, ← hb.1]
    | err _ => rw [e] at hb; cases hb
    | panic => rw [e] at hb; cases hb
    | oof => rw [e] at hb; cases hb

example : ∃ doc, ∃ e, ∀ after, readChunks (fun _ => none) 9 none ([] ++ doc :: after) = ([], .err e) := by
  have wf : (exForeign (.binary 0 [9, 0, 0, 0, 120]) (.double 0x3FF0000000000000)).WF := by
    have h1 : (0 : UInt8) ∉ ascii "data" ∧ (0 : UInt8) ∉ ascii "type" := by decide +kernel
    simp only [exForeign, Fields.WF, BVal.WF, NulFree]
    exact ⟨fun c hc h0 => h1.1 (h0 ▸ hc), by simp, fun c hc h0 => h1.2 (h0 ▸ hc), by decide, trivial⟩
  have h := readDocument_enc 1000 _ wf [] (by decide +kernel) (by decide +kernel)
  obtain ⟨doc, _, h⟩ := h
  have hk : ascii "data" ≠ ascii "type" := by decide +kernel
  exact ⟨doc, C101_stops h ⟨.double 0x3FF0000000000000, by simp [exForeign, Fields.firstNamed, hk], rfl⟩ (z := [120])
    ⟨0, [9, 0, 0, 0, 120], by simp [exForeign, Fields.firstNamed], by decide, rfl⟩ (.inl rfl) (before := []) (md := none) rfl⟩

end Birch.Props
