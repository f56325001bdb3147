import Verif.Proofs.JsonFiles
import Verif.Proofs.JsonStream
import Verif.Props.FtdcDynamic
import Verif.Props.ExtJsonRead

/- C105: JSON lines become FTDC files. -/

namespace Birch.Props
open Birch Model Spec Proofs Model.ExtJson Model.Ftdc Model.JsonFiles Spec.JsonFiles Spec.Events Proofs.Ftdc Proofs.JsonFiles

section
variable {fsub : Nat → Nat → Nat} (hsub : ∀ a b, a < 18446744073709551616 → b < 18446744073709551616 → fsub a b < 18446744073709551616)
  {zip : Bytes → Bytes} {unzip : Bytes → Option Bytes} (hz : ∀ b, unzip (zip b) = some b)
  {size : Nat} (h1 : 1 ≤ size) (h32 : size < 4294967295) {L : Nat} (hL : L < 2147483648)
  (hzL : ∀ b, b.length ≤ L + 28 + 30 * (L * size) → (zip b).length ≤ 2147482000)

include hsub hz h1 h32 hL hzL in
/-- Lines of JSON, flushed whenever the timer fires: there is a file for each session that has samples, and reading it gives the numbers of its lines, in their order and under their
    keys; so altogether those of all lines.

    Missing from the full claim: integers below -2^31 (`C105_cut`); doubles, timestamps and dates far away, which FTDC does not keep; sessions in which types change
    (`C105_type_change`) or keys change and change back (`C105_renamed`). -/
theorem C105_kept_partial (S : Gjson.Strconv) (C : Clock) (now : Nat → Nat → Time) {ts : List Turn} {xs : List (Option Fields)} (ht : Turns S C ts xs)
    (ho : ∀ g ∈ sessions xs, Orderly g) (hl : ∀ f, some f ∈ xs → (encDoc f).length ≤ L ∧ f.metrics.Kept) :
    ∃ N, ∀ n, N ≤ n → ∃ s, run S C fsub zip now n (JsonFiles.new size) ts = .ok (s, none) ∧
      Pairs (Holds unzip) s.files (filled (sessions xs)) ∧ (filled (sessions xs)).flatten = xs.filterMap id := by
  obtain ⟨N, hN⟩ := exists_bound ts
  have hm : ∀ g ∈ sessions xs, ∀ f ∈ g, some f ∈ xs := fun g hg f hf => by
    have : f ∈ (filled (sessions xs)).flatten := by rw [filled_flatten]; exact List.mem_flatten.mpr ⟨g, hg, hf⟩
    rw [sessions_flatten] at this
    simpa using this
  refine ⟨N + 10000000000, fun n hn => ?_⟩
  obtain ⟨files, k1, k2⟩ := run_ok hsub hz h1 h32 hL hzL (n := n) (by omega) (now := now) ht (fun l h => by have := hN l h; omega)
    (fun g hg => ⟨ho g hg, fun f hf => (hl f (hm g hg f hf)).1, fun f hf => (hl f (hm g hg f hf)).2⟩)
  exact ⟨_, k1, k2, sessions_flatten xs⟩

include hsub hz h1 h32 hL hzL in
/-- However the goroutines and the flush timer interleave: if the lines of the source are alike, and the result is nil, and with a file the context was not cancelled, then there
    are turns with these lines in their order for which the loop writes as many files as the execution has, with the same division of the lines, and they hold all numbers. -/
theorem C105_schedules (S : Gjson.Strconv) (C : Clock) (now : Nat → Nat → Time) {sys : JsonStream.Sys Doc} (hp : Parses S C sys) {contents : Bytes} {fs : List Fields}
    (hs : Pairs (Says S C) (JsonStream.scanLines contents) fs) (ha : ∀ f ∈ fs, ∀ g ∈ fs, Alike f g) (hl : ∀ f ∈ fs, (encDoc f).length ≤ L ∧ f.metrics.Kept)
    {t : JsonStream.State Doc} {i j : Nat} (h : JsonStream.Steps sys (JsonStream.new sys contents) i j t) (hr : t.returned = some none)
    (hm : sys.mode = .reader ∨ t.cancelled = false) :
    ∃ ts gs, linesOf ts = JsonStream.scanLines contents ∧ gs.flatten = fs ∧ Pairs RepDocs t.files gs ∧
      ∃ N, ∀ n, N ≤ n → ∃ s, run S C fsub zip now n (JsonFiles.new size) ts = .ok (s, none) ∧ Pairs (Holds unzip) s.files gs := by
  obtain ⟨p1, p2⟩ := parsed_says hp hs fun f hf => by have := (hl f hf).1; omega
  have hk := (Proofs.JsonStream.nil_kept p1 h hr).2 hm
  have hne := (Proofs.JsonStream.inv_of h).filled
  rw [← hk] at p2
  obtain ⟨bss, b1, b2⟩ := pairs_divide _ _ p2
  obtain ⟨z1, z2⟩ := pairs_zip hs
  have hgs : (bss.map (List.map Prod.snd)).flatten = fs := by rw [← List.map_flatten, b1, z2]
  have hls : (bss.map (List.map Prod.fst)).flatten = JsonStream.scanLines contents := by rw [← List.map_flatten, b1, z1]
  have hsay : Pairs (Pairs (Says S C)) (bss.map (List.map Prod.fst)) (bss.map (List.map Prod.snd)) := by
    have : ∀ b ∈ bss, ∀ x ∈ b, Says S C x.1 x.2 := pairs_right (fun _ _ k => pairs_right (fun _ _ k => k.2) k) b2
    clear b1 b2 hgs hls
    induction bss with
    | nil => trivial
    | cons b bss ih =>
      refine ⟨?_, ih fun c hc => this c (by simp [hc])⟩
      have hb := this b (by simp)
      clear this ih
      induction b with
      | nil => trivial
      | cons x b ih => exact ⟨hb x (by simp), ih fun y hy => hb y (by simp [hy])⟩
  have hrep : Pairs RepDocs t.files (bss.map (List.map Prod.snd)) := by
    have := pairs_mono (R' := RepDocs) id (List.map Prod.snd) (fun ds b k => by
      have := pairs_mono (R' := RepFields) id Prod.snd (fun _ _ k => k.1) k
      exact repDocs_pairs (by simpa using this)) b2
    simpa using this
  refine ⟨turnsOf (bss.map (List.map Prod.fst)), bss.map (List.map Prod.snd), by rw [turnsOf_lines, hls], hgs, hrep, ?_⟩
  obtain ⟨c1, c2⟩ := saysOf_sessions (bss.map (List.map Prod.snd))
  have hmem : ∀ g ∈ bss.map (List.map Prod.snd), ∀ f ∈ g, f ∈ fs := fun g hg f hf => by rw [← hgs]; exact List.mem_flatten.mpr ⟨g, hg, hf⟩
  have hsess : sessions (saysOf (bss.map (List.map Prod.snd))) = bss.map (List.map Prod.snd) ++ [[]] := by rw [sessions, c1, c2]
  obtain ⟨N, hN⟩ := C105_kept_partial hsub hz h1 h32 hL hzL S C now (turnsOf_says hsay) (by
    rw [hsess]
    intro g hg
    rcases List.mem_append.mp hg with hg | hg
    · exact orderly_alike fun f hf f' hf' => ha f (hmem g hg f hf) f' (hmem g hg f' hf')
    · simp only [List.mem_singleton] at hg; subst hg; exact orderly_alike (by simp))
    (fun f hf => by
      simp only [saysOf, List.mem_flatMap, List.mem_append, List.mem_map, Option.some.injEq, exists_eq_right, List.mem_singleton, reduceCtorEq, or_false] at hf
      obtain ⟨g, hg, hf⟩ := hf
      exact hl f (hmem g (by simpa using hg) f hf))
  refine ⟨N, fun n hn => ?_⟩
  obtain ⟨s, s1, s2, _⟩ := hN n hn
  refine ⟨s, s1, ?_⟩
  rw [hsess] at s2
  have hfill : filled (bss.map (List.map Prod.snd) ++ [[]]) = bss.map (List.map Prod.snd) := by
    have : ∀ g ∈ bss.map (List.map Prod.snd), g ≠ [] := by
      have hz : ∀ {as : List (List Doc)} {gs : List (List Fields)}, Pairs RepDocs as gs → (∀ a ∈ as, a ≠ []) → ∀ g ∈ gs, g ≠ [] := by
        intro as
        induction as with
        | nil => intro gs k _; match gs, k with | [], _ => simp
        | cons a as ih =>
          intro gs k hn
          match gs, k with
          | g :: gs, k =>
            intro x hx
            rcases List.mem_cons.mp hx with rfl | hx
            · rintro rfl
              match a, k.1, hn a (by simp) with
              | [], _, h => exact h rfl
            · exact ih k.2 (fun b hb => hn b (by simp [hb])) x hx
      exact hz hrep hne
    unfold filled
    rw [List.filter_append, List.filter_eq_self.mpr fun g hg => by simpa using this g hg]
    simp
  rwa [hfill] at s2

include hsub hz h1 h32 hL hzL in
/-- If the type of a number changes, but not the keys, and the last chunk is not full, the collection ends with an error, and all samples since the last flush are lost. -/
theorem C105_type_change (S : Gjson.Strconv) (C : Clock) (now : Nat → Nat → Time) {ts : List Turn} {xs : List (Option Fields)} (ht : Turns S C ts xs)
    (ho : ∀ g ∈ sessions xs, Orderly g) (hl : ∀ f, some f ∈ xs → (encDoc f).length ≤ L ∧ f.metrics.Kept)
    {f : Fields} {fss : List Fields} (hp : pending [] xs = f :: fss) (ha : ∀ g ∈ f :: fss, ∀ h ∈ f :: fss, Alike g h) (hm : (f :: fss).length % size ≠ 0)
    {l : Bytes} {g : Fields} (hs : Says S C l g) (hg : (encDoc g).length < 2147483648) (hsame : g.paths [] = f.paths []) (hk : g.kinds ≠ f.kinds) (more : List Turn) :
    ∃ N, ∀ n, N ≤ n → ∃ s e, run S C fsub zip now n (JsonFiles.new size) (ts ++ .line l :: more) = .ok (s, some e) ∧
      Pairs (Holds unzip) s.files (filled (closed [] xs)) := by
  obtain ⟨N, hN⟩ := exists_bound ts
  have hmem : ∀ g ∈ sessions xs, ∀ f ∈ g, some f ∈ xs := fun g hg f hf => by
    have : f ∈ (filled (sessions xs)).flatten := by rw [filled_flatten]; exact List.mem_flatten.mpr ⟨g, hg, hf⟩
    rw [sessions_flatten] at this
    simpa using this
  obtain ⟨d, d1, d2⟩ := lineDoc_says hs hg
  refine ⟨N + l.length + 10000000000, fun n hn => ?_⟩
  obtain ⟨files, c, docs, k1, k2, k3, k4⟩ := run_then hsub hz h1 h32 hL hzL (n := n) (by omega) (now := now) ht (fun l h => by have := hN l h; omega)
    (fun g hg => ⟨ho g hg, fun f hf => (hl f (hmem g hg f hf)).1, fun f hf => (hl f (hmem g hg f hf)).2⟩) (.line l :: more)
  rw [hp] at k3
  obtain ⟨c', e, k5⟩ := alike_refused (fsub := fsub) (size := size) h1 (n := n) (by omega) k3 ha
    (fun g hg => by
      have := (hl g (hmem (pending [] xs) (by simp [sessions]) g (hp ▸ hg))).1
      omega) hm k2 d1 hg (by rw [hsame]) hk
  refine ⟨⟨c', files⟩, e, ?_, k4⟩
  rw [k1, run, d2 n (by omega)]
  dsimp only
  rw [k5]
  rfl

include hsub hz h1 h32 hL hzL in
/-- A line that is no JSON object ends the collection with an error; again all samples since the last flush are lost. -/
theorem C105_bad_line (S : Gjson.Strconv) (C : Clock) (now : Nat → Nat → Time) {ts : List Turn} {xs : List (Option Fields)} (ht : Turns S C ts xs)
    (ho : ∀ g ∈ sessions xs, Orderly g) (hl : ∀ f, some f ∈ xs → (encDoc f).length ≤ L ∧ f.metrics.Kept)
    {l : Bytes} (hb : ¬ ∃ es ws, JsonText.Text true l (.obj es) ∧ JsonText.ConvElems S es ws) (more : List Turn) :
    ∃ N, ∀ n, N ≤ n → ∃ s, run S C fsub zip now n (JsonFiles.new size) (ts ++ .line l :: more) = .ok (s, some .other) ∧
      Pairs (Holds unzip) s.files (filled (closed [] xs)) := by
  obtain ⟨N, hN⟩ := exists_bound ts
  have hmem : ∀ g ∈ sessions xs, ∀ f ∈ g, some f ∈ xs := fun g hg f hf => by
    have : f ∈ (filled (sessions xs)).flatten := by rw [filled_flatten]; exact List.mem_flatten.mpr ⟨g, hg, hf⟩
    rw [sessions_flatten] at this
    simpa using this
  obtain ⟨N', d2⟩ := lineDoc_bad (C := C) hb
  refine ⟨N + N' + 10000000000, fun n hn => ?_⟩
  obtain ⟨files, c, docs, k1, k2, k3, k4⟩ := run_then hsub hz h1 h32 hL hzL (n := n) (by omega) (now := now) ht (fun l h => by have := hN l h; omega)
    (fun g hg => ⟨ho g hg, fun f hf => (hl f (hmem g hg f hf)).1, fun f hf => (hl f (hmem g hg f hf)).2⟩) (.line l :: more)
  refine ⟨⟨c, files⟩, ?_, k4⟩
  rw [k1, run, d2 n (by omega)]
  rfl

end

/-! ### one number -/

/-- the line is an object with one key and a number -/
def NumberLine (l k t : Bytes) : Prop := ∃ lax, JsonText.Text lax l (.obj (.cons k (.num t) .nil))

theorem says_int {S : Gjson.Strconv} {C : Clock} {l k t : Bytes} {i : Int} (hl : NumberLine l k t) (hk : NulFree k) (hi : JsonText.Conv S (.num t) (.int i)) :
    Says S C l (.cons k (ExtJson.ofInt i) .nil) := by
  obtain ⟨lax, h⟩ := hl
  refine ⟨⟨lax, _, h, .cons (.int hi) .nil⟩, ?_⟩
  have hi' : -2 ^ 63 ≤ i ∧ i < 2 ^ 63 := by
    cases hi with
    | int _ h => cases h <;> omega
  unfold ExtJson.ofInt
  split
  · simp only [Fields.WF, BVal.WF]; exact ⟨hk, by omega, trivial⟩
  · simp only [Fields.WF, BVal.WF]; exact ⟨hk, by omega, trivial⟩

theorem says_double {S : Gjson.Strconv} {C : Clock} {l k t : Bytes} {x : UInt64} (hl : NumberLine l k t) (hk : NulFree k) (hi : JsonText.Conv S (.num t) (.dbl x)) :
    Says S C l (.cons k (.double x.toNat) .nil) := by
  obtain ⟨lax, h⟩ := hl
  refine ⟨⟨lax, _, h, .cons (.double hi) .nil⟩, ?_⟩
  simp only [Fields.WF, BVal.WF]
  exact ⟨hk, by have := x.toNat_lt; omega, trivial⟩

theorem one_size (k : Bytes) (v : BVal) (hk : k.length < 65536) (hv : v.enc.length ≤ 8) : (encDoc (.cons k v .nil)).length ≤ 65550 := by
  simp [encDoc, wrapDoc_length, Fields.enc]; omega

theorem ofInt_size (i : Int) : (ExtJson.ofInt i).enc.length ≤ 8 := by
  unfold ExtJson.ofInt; split <;> simp [BVal.enc, le32, le64]

theorem ofInt_kept (k : Bytes) (i : Int) : (Fields.cons k (ExtJson.ofInt i) .nil).metrics.Kept := by
  unfold ExtJson.ofInt; split <;> simp [Fields.metrics, BVal.metric, Fields.Kept, BVal.Kept]

theorem ofInt_paths (k : Bytes) (i : Int) : (Fields.cons k (ExtJson.ofInt i) .nil).paths [] = [46 :: k] := by
  unfold ExtJson.ofInt; split <;> simp [Fields.paths, BVal.paths]

theorem alike_refl (f : Fields) : Alike f f := ⟨rfl, shapeF_refl _⟩

section
variable {fsub : Nat → Nat → Nat} (hsub : ∀ a b, a < 18446744073709551616 → b < 18446744073709551616 → fsub a b < 18446744073709551616)
  {zip : Bytes → Bytes} {unzip : Bytes → Option Bytes} (hz : ∀ b, unzip (zip b) = some b)
  {size : Nat} (h2 : 2 ≤ size) (h32 : size < 4294967295) (hzL : ∀ b, b.length ≤ 65578 + 30 * (65550 * size) → (zip b).length ≤ 2147482000)

include hsub hz h2 h32 hzL in
theorem two_refused {S : Gjson.Strconv} {C : Clock} {now : Nat → Nat → Time} {k l l' : Bytes} {i : Int} {v : BVal} (hk : k.length < 65536)
    (hs : Says S C l (.cons k (ExtJson.ofInt i) .nil)) (hs' : Says S C l' (.cons k v .nil)) (hv : v.enc.length ≤ 8)
    (hp : v.paths (46 :: k) = [46 :: k]) (hne : (Fields.cons k v .nil).kinds ≠ (Fields.cons k (ExtJson.ofInt i) .nil).kinds) (more : List Turn) :
    ∃ N, ∀ n, N ≤ n → ∃ s e, run S C fsub zip now n (JsonFiles.new size) (.line l :: .line l' :: more) = .ok (s, some e) ∧ s.files = [] := by
  obtain ⟨N, h⟩ := C105_type_change hsub hz (by omega) h32 (L := 65550) (by omega) (by simpa using hzL) S C now (ts := [.line l]) (xs := [some (.cons k (ExtJson.ofInt i) .nil)])
    ⟨hs, trivial⟩
    (fun g hg => by
      simp only [sessions, closed, pending, List.nil_append, List.mem_cons, List.not_mem_nil, or_false] at hg
      subst hg
      exact orderly_alike (by simp [alike_refl]))
    (fun f hf => by
      simp only [List.mem_cons, Option.some.injEq, List.not_mem_nil, or_false] at hf
      subst hf
      exact ⟨one_size k _ hk (ofInt_size i), ofInt_kept k i⟩)
    (f := .cons k (ExtJson.ofInt i) .nil) (fss := []) rfl (by simp [alike_refl])
    (by simp; omega) hs' (by have := one_size k v hk hv; omega) (by rw [ofInt_paths]; simpa [Fields.paths] using hp) hne more
  refine ⟨N, fun n hn => ?_⟩
  obtain ⟨s, e, a, b⟩ := h n hn
  refine ⟨s, e, a, ?_⟩
  simp only [closed, filled, List.filter_nil] at b
  cases hs : s.files with
  | nil => rfl
  | cons _ _ => rw [hs] at b; exact b.elim

include hsub hz h2 h32 hzL in
/-- A counter that reaches 2^31-1 ends the collection: `{"n":2147483646}` and then `{"n":2147483647}` are an error, and nothing is written.  -/
theorem C105_counter (S : Gjson.Strconv) (C : Clock) (now : Nat → Nat → Time) {k l l' t t' : Bytes} {i j : Int} (hk : NulFree k) (hk' : k.length < 65536)
    (hl : NumberLine l k t) (hi : JsonText.Conv S (.num t) (.int i)) (hl' : NumberLine l' k t') (hj : JsonText.Conv S (.num t') (.int j))
    (h : i < 2147483647) (h' : 2147483647 ≤ j) (more : List Turn) :
    ∃ N, ∀ n, N ≤ n → ∃ s e, run S C fsub zip now n (JsonFiles.new size) (.line l :: .line l' :: more) = .ok (s, some e) ∧ s.files = [] := by
  refine two_refused hsub hz h2 h32 hzL hk' (says_int hl hk hi) (says_int hl' hk hj) (ofInt_size j) ?_ ?_ more
  · unfold ExtJson.ofInt; split <;> simp [BVal.paths]
  · unfold ExtJson.ofInt
    rw [if_pos h, if_neg (by omega)]
    simp [Fields.kinds, BVal.kinds]

include hsub hz h2 h32 hzL in
/-- So does a number that is an integer at first and then has a fraction. -/
theorem C105_fraction (S : Gjson.Strconv) (C : Clock) (now : Nat → Nat → Time) {k l l' t t' : Bytes} {i : Int} {x : UInt64} (hk : NulFree k) (hk' : k.length < 65536)
    (hl : NumberLine l k t) (hi : JsonText.Conv S (.num t) (.int i)) (hl' : NumberLine l' k t') (hj : JsonText.Conv S (.num t') (.dbl x)) (more : List Turn) :
    ∃ N, ∀ n, N ≤ n → ∃ s e, run S C fsub zip now n (JsonFiles.new size) (.line l :: .line l' :: more) = .ok (s, some e) ∧ s.files = [] := by
  refine two_refused hsub hz h2 h32 hzL hk' (says_int hl hk hi) (says_double hl' hk hj) (by simp [BVal.enc, le64]) (by simp [BVal.paths]) ?_ more
  unfold ExtJson.ofInt
  split <;> simp [Fields.kinds, BVal.kinds]

include hsub hz h2 h32 hzL in
/-- A number below -2^31 is collected as another one, without an error. -/
theorem C105_cut (S : Gjson.Strconv) (C : Clock) (now : Nat → Nat → Time) {k l t : Bytes} {i : Int} (hk : NulFree k) (hk' : k.length < 65536)
    (hl : NumberLine l k t) (hi : JsonText.Conv S (.num t) (.int i)) (h : i < -2147483648) :
    ∃ j, j ≠ i ∧ ∃ N, ∀ n, N ≤ n → ∃ s file, run S C fsub zip now n (JsonFiles.new size) [.line l] = .ok (s, none) ∧ s.files = [file] ∧
      Holds unzip file [.cons k (.int32 j) .nil] := by
  refine ⟨(i + 2147483648) % 4294967296 - 2147483648, by omega, ?_⟩
  obtain ⟨N, h'⟩ := C105_kept_partial hsub hz (by omega) h32 (L := 65550) (by omega) (by simpa using hzL) S C now (ts := [.line l]) (xs := [some (.cons k (ExtJson.ofInt i) .nil)])
    ⟨says_int hl hk hi, trivial⟩
    (fun g hg => by
      simp only [sessions, closed, pending, List.nil_append, List.mem_cons, List.not_mem_nil, or_false] at hg
      subst hg
      exact orderly_alike (by simp [alike_refl]))
    (fun f hf => by
      simp only [List.mem_cons, Option.some.injEq, List.not_mem_nil, or_false] at hf
      subst hf
      exact ⟨one_size k _ hk' (ofInt_size i), ofInt_kept k i⟩)
  refine ⟨N, fun n hn => ?_⟩
  obtain ⟨s, a, b, _⟩ := h' n hn
  have hf : filled (sessions [some (.cons k (ExtJson.ofInt i) .nil)]) = [[.cons k (ExtJson.ofInt i) .nil]] := rfl
  rw [hf] at b
  match hs : s.files, b with
  | [file], b =>
    refine ⟨s, file, a, hs, ?_⟩
    have := b.1
    rwa [ExtJson.ofInt, if_pos (by omega)] at this
  | _ :: _ :: _, b => exact b.2.elim

include hsub hz h2 h32 hzL in
/-- Lines of two kinds that take turns are mixed up without an error: after `{"a":i}` and `{"b":j}` the line `{"a":k}` is read back as `{"b":k}`. -/
theorem C105_renamed (S : Gjson.Strconv) (C : Clock) (now : Nat → Nat → Time) {a b l1 l2 l3 t1 t2 t3 : Bytes} {i j k : Int} (ha : NulFree a) (hb : NulFree b)
    (ha' : a.length < 65536) (hb' : b.length < 65536) (hl1 : NumberLine l1 a t1) (hi : JsonText.Conv S (.num t1) (.int i)) (hl2 : NumberLine l2 b t2)
    (hj : JsonText.Conv S (.num t2) (.int j)) (hl3 : NumberLine l3 a t3) (hk : JsonText.Conv S (.num t3) (.int k))
    (hi' : -2147483648 ≤ i ∧ i < 2147483647) (hj' : -2147483648 ≤ j ∧ j < 2147483647) (hk' : -2147483648 ≤ k ∧ k < 2147483647)
    (hne : hashText (46 :: b) ≠ hashText (46 :: a)) :
    ∃ N, ∀ n, N ≤ n → ∃ s file, run S C fsub zip now n (JsonFiles.new size) [.line l1, .line l2, .line l3] = .ok (s, none) ∧ s.files = [file] ∧
      Holds unzip file [.cons a (.int32 i) .nil, .cons b (.int32 j) .nil, .cons b (.int32 k) .nil] := by
  have small : ∀ {x : Int}, -2147483648 ≤ x ∧ x < 2147483647 → ExtJson.ofInt x = .int32 x := fun {x} h => by
    unfold ExtJson.ofInt
    rw [if_pos h.2]
    congr 1
    omega
  have sz : ∀ (key : Bytes) (x : Int), key.length < 65536 → (encDoc (.cons key (.int32 x) .nil)).length ≤ 65550 := fun key x h => one_size key _ h (by simp [BVal.enc, le32])
  have s1 := says_int (S := S) (C := C) hl1 ha hi
  have s2 := says_int (S := S) (C := C) hl2 hb hj
  have s3 := says_int (S := S) (C := C) hl3 ha hk
  rw [small hi'] at s1
  rw [small hj'] at s2
  rw [small hk'] at s3
  obtain ⟨d1, r1, x1⟩ := lineDoc_says s1 (by have := sz a i ha'; omega)
  obtain ⟨d2, r2, x2⟩ := lineDoc_says s2 (by have := sz b j hb'; omega)
  obtain ⟨d3, r3, x3⟩ := lineDoc_says s3 (by have := sz a k ha'; omega)
  obtain ⟨d3', _, r3'⟩ := buildDoc_rep (.cons b (.int32 k) .nil) (by simp only [Fields.WF, BVal.WF]; exact ⟨hb, by omega, trivial⟩)
    (by have := sz b k hb'; simp only [encDoc, wrapDoc_length] at this; omega)
  have kept : ∀ (key : Bytes) (x : Int), (Fields.cons key (.int32 x) .nil).metrics.Kept := fun key x => by simp [Fields.metrics, BVal.metric, Fields.Kept, BVal.Kept]
  have shape : ∀ (key : Bytes) (x y : Int), (Fields.cons key (.int32 x) .nil).metrics.SameShape (Fields.cons key (.int32 y) .nil).metrics := fun key x y => by
    simp [Fields.metrics, BVal.metric, Fields.SameShape, BVal.SameShape, BVal.tag]
  refine ⟨l1.length + l2.length + l3.length + 10000000000, fun n hn => ?_⟩
  obtain ⟨c, c1, c2, c3⟩ := renamed hsub hz h32 (L := 65550) (by omega) (by simpa using hzL) (n := n) (by omega) h2 r1 r2 r3 r3' (sz _ _ ha') (sz _ _ hb') (sz _ _ ha') (sz _ _ hb')
    (by simpa [Fields.paths, BVal.paths] using hne) (by simp [Fields.paths, BVal.paths]) (shape _ _ _) (shape _ _ _) rfl (kept _ _) (kept _ _) (kept _ _)
  obtain ⟨file, f1, f2⟩ := c3 (now 0)
  refine ⟨⟨c.reset, [file]⟩, file, ?_, rfl, f2⟩
  have := run_lines (S := S) (C := C) (fsub := fsub) (zip := zip) (now := now) (n := n) [] (ls := [l1, l2, l3]) (docs := [d1, d2, d3]) (s := JsonFiles.new size)
    ⟨x1 n (by omega), x2 n (by omega), x3 n (by omega), trivial⟩ c1
  refine this.trans ?_
  rw [run]
  unfold flushed flusher
  rw [if_neg c2]
  dsimp only [JsonFiles.new, List.length_nil]
  rw [f1]
  rfl

end

/-! ### examples -/

/-- `{"x":…}` -/
def xLine (k : UInt8) (t : Bytes) : Bytes := 123 :: 34 :: k :: 34 :: 58 :: (t ++ [125])

theorem xLine_number (k : UInt8) (hk : 97 ≤ k ∧ k ≤ 122) {t : Bytes} (h : JsonText.Number false t) : NumberLine (xLine k t) [k] t := by
  have hk' : 97 ≤ k.toNat ∧ k.toNat ≤ 122 := by simpa [UInt8.le_iff_toNat_le] using hk
  have hv : JsonText.Val false (123 :: (([] ++ 34 :: ([k] ++ 34 :: ([] ++ 58 :: ([] ++ (t ++ []))))) ++ [125])) (.obj (.cons [k] (.num t) .nil)) :=
    .obj (.last Gjson.ws_nil (.plain (by simp only [UInt8.le_iff_toNat_le]; simp; omega) (by rintro rfl; simp at hk') (by rintro rfl; simp at hk') .nil) Gjson.ws_nil Gjson.ws_nil (.num h)
      Gjson.ws_nil)
  exact ⟨false, by simpa [xLine] using Proofs.ExtJson.val_text hv⟩

theorem digits_number {t : Bytes} (h : JsonText.Digits t) (h0 : t.head? ≠ some 48) : JsonText.Number false t := by
  simpa using JsonText.Number.pos (lax := false) (.digits h h0) .none .none

theorem digits_conv (S : Gjson.Strconv) {t : Bytes} (h : JsonText.Digits t) (hv : JsonText.natValue t < 2 ^ 63) : JsonText.Conv S (.num t) (.int (JsonText.natValue t : Nat)) :=
  .int (.integral (.inl h)) (.pos h hv)

theorem minus_conv (S : Gjson.Strconv) {t : Bytes} (h : JsonText.Digits t) (hv : JsonText.natValue t ≤ 2 ^ 63) :
    JsonText.Conv S (.num (45 :: t)) (.int (-(JsonText.natValue t : Nat) : Int)) := .int (.integral (.inr ⟨t, rfl, h.2⟩)) (.neg h hv)

theorem xLine_says (S : Gjson.Strconv) (C : Clock) (k : UInt8) (hk : 97 ≤ k ∧ k ≤ 122) {t : Bytes} (h : JsonText.Digits t) (h0 : t.head? ≠ some 48) (hv : JsonText.natValue t < 2147483647) :
    Says S C (xLine k t) (intField k (JsonText.natValue t : Nat)) := by
  have hk' : 97 ≤ k.toNat := by simpa [UInt8.le_iff_toNat_le] using hk.1
  have := says_int (S := S) (C := C) (xLine_number k hk (digits_number h h0)) (by intro c hc h; simp only [List.mem_singleton] at hc; subst hc; subst h; simp at hk') (digits_conv S h (by omega))
  rw [ExtJson.ofInt, if_pos (by omega)] at this
  have e : ((JsonText.natValue t : Nat) + 2147483648 : Int) % 4294967296 - 2147483648 = (JsonText.natValue t : Nat) := by omega
  rw [e] at this
  exact this

theorem intField_alike (k : UInt8) (i j : Int) : Alike (intField k i) (intField k j) := ⟨by simp [intField, Fields.paths, BVal.paths], intField_shape k i j⟩

/-- `{"x":5}`, the flush timer twice, `{"x":61}` and `{"y":7}`: two files, one with one sample and one with two -/
def exTurns : List Turn := [.line (xLine 120 [53]), .tick, .tick, .line (xLine 120 [54, 49]), .line (xLine 121 [55])]
def exSays : List (Option Fields) := [some (intField 120 5), none, none, some (intField 120 61), some (intField 121 7)]

theorem exTurns_say (S : Gjson.Strconv) (C : Clock) : Turns S C exTurns exSays :=
  ⟨xLine_says S C 120 (by decide) (t := [53]) (by unfold JsonText.Digits JsonText.Digit; decide) (by decide) (by decide),
    xLine_says S C 120 (by decide) (t := [54, 49]) (by unfold JsonText.Digits JsonText.Digit; decide) (by decide) (by decide),
    xLine_says S C 121 (by decide) (t := [55]) (by unfold JsonText.Digits JsonText.Digit; decide) (by decide) (by decide), trivial⟩

theorem exSays_sessions : sessions exSays = [[intField 120 5], [], [intField 120 61, intField 121 7]] := rfl

theorem exSays_orderly : ∀ g ∈ sessions exSays, Orderly g := by
  rw [exSays_sessions]
  simp only [List.mem_cons, List.not_mem_nil, or_false]
  rintro g (rfl | rfl | rfl)
  · exact orderly_alike (by simp [alike_refl])
  · exact orderly_alike (by simp)
  · refine ⟨[intField 120 61], [intField 121 7], rfl, by simp [alike_refl], by simp, ?_⟩
    simp only [List.mem_cons, List.not_mem_nil, or_false]
    rintro f rfl g rfl
    decide +kernel

theorem exSays_small : ∀ f, some f ∈ exSays → (encDoc f).length ≤ 12 ∧ f.metrics.Kept := by
  simp only [exSays, List.mem_cons, Option.some.injEq, reduceCtorEq, List.not_mem_nil, or_false, false_or]
  rintro f (rfl | rfl | rfl) <;> exact ⟨by rw [intField_size]; omega, by simp [intField, Fields.metrics, BVal.metric, Fields.Kept, BVal.Kept]⟩

example (S : Gjson.Strconv) (C : Clock) (now : Nat → Nat → Time) : ∃ N, ∀ n, N ≤ n → ∃ s a b, run S C (fun a _ => a) id now n (JsonFiles.new 100) exTurns = .ok (s, none) ∧
    s.files = [a, b] ∧ Holds some a [intField 120 5] ∧ Holds some b [intField 120 61, intField 121 7] := by
  obtain ⟨N, h⟩ := C105_kept_partial (fsub := fun a _ => a) (fun _ _ h _ => h) (zip := id) (unzip := some) (fun _ => rfl) (size := 100) (by omega) (by omega) (L := 12) (by omega)
    (fun b hb => by simp only [id]; omega) S C now (exTurns_say S C) exSays_orderly exSays_small
  refine ⟨N, fun n hn => ?_⟩
  obtain ⟨s, h1, h2, _⟩ := h n hn
  match hs : s.files, h2 with
  | [a, b], h2 => exact ⟨s, a, b, h1, hs, h2.1, h2.2.1⟩
  | _ :: _ :: _ :: _, h2 => exact h2.2.2.elim

open Classical in
/-- a reader whose lines become what `lineDoc` returns -/
noncomputable def exReader (S : Gjson.Strconv) (C : Clock) : JsonStream.Sys Doc where
  mode := .reader
  parse := fun l => if h : ∃ d N, ∀ n, N ≤ n → lineDoc S C n l = .ok d then some (.ok h.choose) else some (.error .other)
  openErr := none
  closeErr := none
  fails := false

theorem exReader_parses (S : Gjson.Strconv) (C : Clock) : Parses S C (exReader S C) := by
  rintro l d ⟨N, h⟩
  have hex : ∃ d N, ∀ n, N ≤ n → lineDoc S C n l = .ok d := ⟨d, N, h⟩
  have e : hex.choose = d := by
    obtain ⟨M, hM⟩ := hex.choose_spec
    have := (hM (N + M) (by omega)).symm.trans (h (N + M) (by omega))
    simpa using this
  simp only [exReader, dif_pos hex, e]

/-- hypotheses of `C105_schedules`: the lines `{"x":5}` and `{"x":61}`, with a flush between them -/
example (S : Gjson.Strconv) (C : Clock) : ∃ contents fs t i, Pairs (Says S C) (JsonStream.scanLines contents) fs ∧ fs = [intField 120 5, intField 120 61] ∧
    JsonStream.Steps (exReader S C) (JsonStream.new (exReader S C) contents) i 1 t ∧ t.returned = some none ∧ t.files.length = 2 := by
  have hs : JsonStream.scanLines (xLine 120 [53] ++ 10 :: xLine 120 [54, 49]) = [xLine 120 [53], xLine 120 [54, 49]] := by decide +kernel
  obtain ⟨d, _, h1⟩ := lineDoc_says (exTurns_say S C).1 (by rw [intField_size]; omega)
  obtain ⟨e, _, h2⟩ := lineDoc_says (exTurns_say S C).2.1 (by rw [intField_size]; omega)
  have p1 := exReader_parses S C _ d ⟨_, h1⟩
  have p2 := exReader_parses S C _ e ⟨_, h2⟩
  exact ⟨xLine 120 [53] ++ 10 :: xLine 120 [54, 49], _, _, _, by rw [hs]; exact ⟨(exTurns_say S C).1, (exTurns_say S C).2.1, trivial⟩, rfl,
    .step (.scan rfl rfl hs p1) (.step (.take rfl rfl rfl) (.tick (.tick rfl rfl) (.step (.scan rfl rfl rfl p2) (.step (.take rfl rfl rfl) (.step (.eof rfl rfl rfl)
      (.step (.closeErrs (p := false) rfl rfl) (.step (.finish (e := none) (q := []) rfl rfl (.inr ⟨rfl, rfl, rfl, rfl⟩) (.inl rfl)) .refl))))))), rfl, rfl⟩

/-- hypotheses of `C105_type_change`: after these turns comes `{"x":true}`; only the first file is written -/
example (S : Gjson.Strconv) (C : Clock) : ∃ (ts : List Turn) (xs : List (Option Fields)) (f : Fields) (l : Bytes) (g : Fields), Turns S C ts xs ∧ (∀ g ∈ sessions xs, Orderly g) ∧
    pending [] xs = [f] ∧ filled (closed [] xs) = [[intField 120 5]] ∧ Says S C l g ∧ g.paths [] = f.paths [] ∧ g.kinds ≠ f.kinds := by
  refine ⟨[.line (xLine 120 [53]), .tick, .line (xLine 120 [54, 49])], [some (intField 120 5), none, some (intField 120 61)], intField 120 61, _, .cons [120] (.bool true) .nil,
    ⟨(exTurns_say S C).1, (exTurns_say S C).2.1, trivial⟩, ?_, rfl, rfl, ⟨⟨false, .cons [120] (.bool true) .nil, Proofs.ExtJson.val_text
      (.obj (.last (s := [120]) Gjson.ws_nil (.plain (by decide) (by decide) (by decide) .nil) Gjson.ws_nil Gjson.ws_nil .tru Gjson.ws_nil)), .cons .bool .nil⟩,
      by simp [Fields.WF, BVal.WF, NulFree]⟩, rfl, by decide⟩
  intro g hg
  simp only [sessions, closed, pending, List.nil_append, List.cons_append, List.mem_cons, List.not_mem_nil, or_false] at hg
  rcases hg with rfl | rfl <;> exact orderly_alike (by simp [alike_refl])

/-- hypothesis of `C105_bad_line`: a line that ends too soon -/
example (S : Gjson.Strconv) : ¬ ∃ es ws, JsonText.Text true [123] (.obj es) ∧ JsonText.ConvElems S es ws := by
  rintro ⟨es, ws, h, _⟩
  have := (C56_accepts [123]).mpr ⟨⟨_, h⟩, by decide⟩
  revert this
  decide +kernel

/-- `{"x":2147483646}` and `{"x":2147483647}` -/
example (S : Gjson.Strconv) (C : Clock) (now : Nat → Nat → Time) : ∃ N, ∀ n, N ≤ n → ∃ s e, run S C (fun a _ => a) id now n (JsonFiles.new 100)
    [.line (xLine 120 [50, 49, 52, 55, 52, 56, 51, 54, 52, 54]), .line (xLine 120 [50, 49, 52, 55, 52, 56, 51, 54, 52, 55])] = .ok (s, some e) ∧ s.files = [] := by
  have d1 : JsonText.Digits [50, 49, 52, 55, 52, 56, 51, 54, 52, 54] := by unfold JsonText.Digits JsonText.Digit; decide
  have d2 : JsonText.Digits [50, 49, 52, 55, 52, 56, 51, 54, 52, 55] := by unfold JsonText.Digits JsonText.Digit; decide
  exact C105_counter (fsub := fun a _ => a) (fun _ _ h _ => h) (zip := id) (unzip := some) (fun _ => rfl) (size := 100) (by omega) (by omega)
    (fun b hb => by simp only [id]; omega) S C now (k := [120]) (by simp [NulFree]) (by simp) (xLine_number 120 (by decide) (digits_number d1 (by decide))) (digits_conv S d1 (by decide))
    (xLine_number 120 (by decide) (digits_number d2 (by decide))) (digits_conv S d2 (by decide)) (by decide) (by decide) []

/-- `{"x":5}` and `{"x":0.5}`, if `strconv` writes one half as `0.5` -/
example (S : Gjson.Strconv) (hf : S.formatFloat 0x3fe0000000000000 = [48, 46, 53]) (hp : S.parseFloat [48, 46, 53] = (0x3fe0000000000000, true)) (C : Clock) (now : Nat → Nat → Time) :
    ∃ N, ∀ n, N ≤ n → ∃ s e, run S C (fun a _ => a) id now n (JsonFiles.new 100) [.line (xLine 120 [53]), .line (xLine 120 [48, 46, 53])] = .ok (s, some e) ∧ s.files = [] := by
  have d : JsonText.Digits [53] := by unfold JsonText.Digits JsonText.Digit; decide
  have hn : ¬ JsonText.Digits [48, 46, 53] := by unfold JsonText.Digits JsonText.Digit; decide
  have hw : JsonText.Written S [48, 46, 53] (S.formatFloat (S.parseFloat [48, 46, 53]).1) := .float (by
    rintro (h | ⟨ds, h, _⟩)
    · exact hn h
    · simp at h)
  rw [hp] at hw
  simp only [hf] at hw
  exact C105_fraction (fsub := fun a _ => a) (fun _ _ h _ => h) (zip := id) (unzip := some) (fun _ => rfl) (size := 100) (by omega) (by omega)
    (fun b hb => by simp only [id]; omega) S C now (k := [120]) (by simp [NulFree]) (by simp) (xLine_number 120 (by decide) (digits_number d (by decide))) (digits_conv S d (by decide))
    (xLine_number 120 (by decide) (by simpa using JsonText.Number.pos (lax := false) .zero (.some d) .none))
    (.dbl hw (by rintro ⟨i, h⟩; generalize hs : ([48, 46, 53] : Bytes) = s at h; cases h with
      | pos h _ => subst hs; exact hn h
      | plus h _ => simp at hs
      | neg h _ => simp at hs) hp) []

/-- `{"x":-3000000000}` -/
example (S : Gjson.Strconv) (C : Clock) (now : Nat → Nat → Time) : ∃ j, j ≠ -3000000000 ∧ ∃ N, ∀ n, N ≤ n → ∃ s file, run S C (fun a _ => a) id now n (JsonFiles.new 100)
    [.line (xLine 120 (45 :: [51, 48, 48, 48, 48, 48, 48, 48, 48, 48]))] = .ok (s, none) ∧ s.files = [file] ∧ Holds some file [.cons [120] (.int32 j) .nil] := by
  have d1 : JsonText.Digits [51, 48, 48, 48, 48, 48, 48, 48, 48, 48] := by unfold JsonText.Digits JsonText.Digit; decide
  exact C105_cut (fsub := fun a _ => a) (fun _ _ h _ => h) (zip := id) (unzip := some) (fun _ => rfl) (size := 100) (by omega) (by omega)
    (fun b hb => by simp only [id]; omega) S C now (k := [120]) (by simp [NulFree]) (by simp)
    (xLine_number 120 (by decide) (by simpa using JsonText.Number.neg (lax := false) (.digits d1 (by decide)) .none .none)) (minus_conv S d1 (by decide)) (by decide)

/-- `{"x":1}`, `{"y":2}` and `{"x":3}` -/
example (S : Gjson.Strconv) (C : Clock) (now : Nat → Nat → Time) : ∃ N, ∀ n, N ≤ n → ∃ s file, run S C (fun a _ => a) id now n (JsonFiles.new 100)
    [.line (xLine 120 [49]), .line (xLine 121 [50]), .line (xLine 120 [51])] = .ok (s, none) ∧ s.files = [file] ∧
      Holds some file [intField 120 1, intField 121 2, intField 121 3] := by
  have d : ∀ c : UInt8, 49 ≤ c → c ≤ 57 → JsonText.Digits [c] := fun c h1 h2 => ⟨by simp, by
    simp only [List.mem_singleton, forall_eq]
    exact ⟨by simp only [UInt8.le_iff_toNat_le] at *; simp at *; omega, h2⟩⟩
  exact C105_renamed (fsub := fun a _ => a) (fun _ _ h _ => h) (zip := id) (unzip := some) (fun _ => rfl) (size := 100) (by omega) (by omega)
    (fun b hb => by simp only [id]; omega) S C now (a := [120]) (b := [121]) (by simp [NulFree]) (by simp [NulFree]) (by simp) (by simp)
    (xLine_number 120 (by decide) (digits_number (d 49 (by decide) (by decide)) (by decide))) (digits_conv S (d 49 (by decide) (by decide)) (by decide))
    (xLine_number 121 (by decide) (digits_number (d 50 (by decide) (by decide)) (by decide))) (digits_conv S (d 50 (by decide) (by decide)) (by decide))
    (xLine_number 120 (by decide) (digits_number (d 51 (by decide) (by decide)) (by decide))) (digits_conv S (d 51 (by decide) (by decide)) (by decide))
    (by decide) (by decide) (by decide) (by decide +kernel)

end Birch.Props
