import Verif.Spec.ReadAccess
import Verif.Proofs.Validated
import Verif.Model.Access

/- The accessors on the elements that `ReadDocument` yields. -/

namespace Birch.Proofs.ReadAccess
open Birch Model Spec
open Birch.Proofs (bind_eq_ok ite_eq_ok)

theorem int32At_some {b : Bytes} {i : Nat} (h : i + 4 ≤ b.length) : ∃ z, int32At b i = some z ∧ -2147483648 ≤ z ∧ z < 2147483648 ∧ readi32 (b.drop i) = .ok z ∧
    readi32 ((b.take (i + 4)).drop i) = .ok z := by
  have hd : (b.drop i).length ≥ 4 := by simp; omega
  have ht : (b.take (i + 4)).drop i = (b.drop i).take 4 := by rw [List.drop_take]; congr 1; omega
  match hb : b.drop i, hd with
  | x0 :: x1 :: x2 :: x3 :: r, _ =>
    have h0 := x0.toNat_lt; have h1 := x1.toNat_lt; have h2 := x2.toNat_lt; have h3 := x3.toNat_lt
    refine ⟨_, by simp only [int32At, hb]; rfl, ?_, ?_, ?_, ?_⟩
    · split <;> omega
    · split <;> omega
    · simp only [readi32, rdU32, Res.bind_ok, Res.pure_eq, Res.ok.injEq, i32]; split <;> omega
    · rw [ht, hb]; simp only [List.take, readi32, rdU32, Res.bind_ok, Res.pure_eq, Res.ok.injEq, i32]; split <;> omega

theorem int32At_none {b : Bytes} {i : Nat} (h : b.length < i + 4) : int32At b i = none := by
  have hd : (b.drop i).length < 4 := by simp; omega
  unfold int32At
  match b.drop i, hd with
  | [], _ => rfl
  | [_], _ => rfl
  | [_, _], _ => rfl
  | [_, _, _], _ => rfl

theorem slice_ok {b : Bytes} {i j : Nat} (h : i ≤ j) (h' : j ≤ b.length) : slice b i j = .ok ((b.take j).drop i) := by
  unfold slice; rw [if_pos ⟨h, h'⟩]

theorem slice_bad {b : Bytes} {i j : Nat} (h : j < i ∨ b.length < j) : slice b i j = .panic := by
  unfold slice; rw [if_neg (by omega)]

/-- an element that `ReadDocument` yields -/
structure Elem (b : Bytes) (v : Value) (t : UInt8) : Prop where
  raw : ∃ p off m, v = .raw p off b ∧ 0 < off ∧ off ≤ b.length ∧ idx b p = .ok t ∧ rawSize b p off = .ok m

theorem iterLoop_elem (b : Bytes) (hl : b.length < 2147483648) : ∀ (fuel pos end_ : Nat) (d : Doc), iterLoop fuel b pos end_ = .ok d → ∀ v ∈ d, ∃ t, Elem b v t
  | 0, _, _, _, h => by simp [iterLoop] at h
  | fuel + 1, pos, end_, d, h => by
    unfold iterLoop at h
    obtain ⟨hp, h⟩ := ite_eq_ok h
    obtain ⟨t, ht, h⟩ := bind_eq_ok h
    by_cases h0 : t = 0
    · rw [if_pos h0] at h; cases h; simp
    rw [if_neg h0] at h
    obtain ⟨n, hn, h⟩ := bind_eq_ok h
    simp only at h
    obtain ⟨m, hm, h⟩ := bind_eq_ok h
    obtain ⟨rest, hr, h⟩ := bind_eq_ok h
    cases h
    have hpos : pos < b.length := by
      unfold idx at ht
      split at ht
      · next x hx => exact (List.getElem?_eq_some_iff.mp hx).1
      · cases ht
    have e1 : u32 (pos + 1) = pos + 1 := u32_small (by omega)
    rw [e1] at hn hm hr ⊢
    have hn' : pos + 1 + n ≤ b.length ∧ 1 ≤ n := by
      simp only [readerKey] at hn
      split at hn
      · cases hn
      · split at hn
        · cases hn
        · cases hn; omega
    have e2 : u32 (pos + 1 + n) = pos + 1 + n := u32_small (by omega)
    rw [e2] at hm ⊢
    intro v hv
    rcases List.mem_cons.mp hv with rfl | hv
    · exact ⟨t, ⟨pos, _, m, rfl, by omega, hn'.1, ht, hm⟩⟩
    · exact iterLoop_elem b hl fuel _ _ rest hr v hv

theorem readDocument_elem {b : Bytes} (hl : b.length < 2147483648) {fuel : Nat} {d : Doc} (h : readDocument fuel b = .ok d) : ∀ v ∈ d, ∃ t, type v = .ok t ∧ Elem b v t := by
  unfold readDocument at h
  obtain ⟨e, _, h⟩ := bind_eq_ok h
  intro v hv
  obtain ⟨t, hE⟩ := iterLoop_elem b hl fuel 4 e d h v hv
  obtain ⟨p, off, m, rfl, h0, h1, h2, h3⟩ := hE.raw
  refine ⟨t, ?_, hE⟩
  unfold type
  rw [if_neg (by
    intro hc
    rcases hc with hc | hc
    · simp only [Value.offset] at hc; omega
    · simp only [Value.data] at hc; simp [hc] at h1; omega)]
  exact h2

theorem expect_ok {b : Bytes} {p off : Nat} {t : UInt8} (h0 : 0 < off) (h1 : off ≤ b.length) (h2 : idx b p = .ok t) : expect t (.raw p off b) = .ok () := by
  unfold expect
  rw [if_neg (by
    intro hc
    rcases hc with hc | hc
    · simp only [Value.offset] at hc; omega
    · simp only [Value.data] at hc; simp [hc] at h1; omega)]
  simp only [Value.data, Value.start, h2, Res.bind_ok]
  rw [if_neg (by simp)]

theorem data_ne {b : Bytes} {off : Nat} (h0 : 0 < off) (h1 : off ≤ b.length) : b ≠ [] := fun h => by simp [h] at h1; omega

theorem rdU32_ok {b : Bytes} (h : 4 ≤ b.length) : ∃ n, rdU32 b = .ok n := by
  match b, h with
  | _ :: _ :: _ :: _ :: _, _ => exact ⟨_, rfl⟩

theorem rdU64_ok {b : Bytes} (h : 8 ≤ b.length) : ∃ n, rdU64 b = .ok n := by
  obtain ⟨n, hn⟩ := rdU32_ok (b := b) (by omega)
  obtain ⟨m, hm⟩ := rdU32_ok (b := b.drop 4) (by simp; omega)
  exact ⟨n + m * 4294967296, by simp only [rdU64, hn, hm, Res.bind_ok, Res.pure_eq]⟩

theorem u64_at {b : Bytes} {i j : Nat} (h : i + 8 ≤ b.length) (hj : j = i + 8) : ∃ n, ∀ {α : Type} (f : Nat → Res α),
    (slice b i j >>= fun x => rdU64 x >>= f) = f n := by
  obtain ⟨n, hn⟩ := rdU64_ok (b := (b.take j).drop i) (by simp; omega)
  exact ⟨n, fun f => by rw [slice_ok (by omega) (by omega), Res.bind_ok, hn, Res.bind_ok]⟩

theorem u32_at {b : Bytes} {i j : Nat} (h : i + 4 ≤ b.length) (hj : j = i + 4) : ∃ n, ∀ {α : Type} (f : Nat → Res α),
    (slice b i j >>= fun x => rdU32 x >>= f) = f n := by
  obtain ⟨n, hn⟩ := rdU32_ok (b := (b.take j).drop i) (by simp; omega)
  exact ⟨n, fun f => by rw [slice_ok (by omega) (by omega), Res.bind_ok, hn, Res.bind_ok]⟩

theorem i32_at {b : Bytes} {i j : Nat} (h : i + 4 ≤ b.length) (hj : j = i + 4) : ∃ z, int32At b i = some z ∧ -2147483648 ≤ z ∧ z < 2147483648 ∧
    ∀ {α : Type} (f : Int → Res α), (slice b i j >>= fun x => readi32 x >>= f) = f z := by
  obtain ⟨z, h1, h2, h3, _, h5⟩ := int32At_some h
  subst hj
  exact ⟨z, h1, h2, h3, fun f => by rw [slice_ok (by omega) h, Res.bind_ok, h5, Res.bind_ok]⟩

/-- the fixed sizes -/
def fixedSize (t : UInt8) : Option Nat :=
  if t = 0x01 ∨ t = 0x09 ∨ t = 0x11 ∨ t = 0x12 then some 8 else if t = 0x07 then some 12 else if t = 0x08 then some 1
  else if t = 0x10 then some 4 else if t = 0x13 then some 16 else none

theorem rawSize_fixed {b : Bytes} {p off m : Nat} {t : UInt8} (hl : b.length < 2147483648) (h1 : off ≤ b.length) (h0 : 0 < off) (h2 : idx b p = .ok t)
    (h3 : rawSize b p off = .ok m) {n : Nat} (hf : fixedSize t = some n) : off + n ≤ b.length := by
  unfold rawSize at h3
  rw [if_neg (data_ne h0 h1)] at h3
  simp only [h2, Res.bind_ok] at h3
  have key : ∀ {k : Nat} {x : Res Nat}, k ≤ 16 → (if b.length < u32 (off + k) then Res.err Err.tooSmall else x) = .ok m → off + k ≤ b.length := by
    intro k x hk h
    obtain ⟨hc, _⟩ := ite_eq_ok h
    rw [u32_small (by omega)] at hc; omega
  unfold fixedSize at hf
  split at hf
  · next ht =>
    cases hf
    rcases ht with rfl | rfl | rfl | rfl <;> simp at h3 <;> exact key (by omega) h3
  split at hf
  · next ht => cases hf; subst ht; simp at h3; exact key (by omega) h3
  split at hf
  · next ht => cases hf; subst ht; simp at h3; exact key (by omega) h3
  split at hf
  · next ht => cases hf; subst ht; simp at h3; exact key (by omega) h3
  split at hf
  · next ht => cases hf; subst ht; simp at h3; exact key (by omega) h3
  · cases hf

/-! ### no accessor returns an error -/

structure NoErr {α : Type} (r : Res α) : Prop where
  no : ∀ e, r ≠ .err e

theorem NoErr.ok {α : Type} (a : α) : NoErr (.ok a) := ⟨fun _ => by simp⟩
theorem NoErr.panic {α : Type} : NoErr (.panic : Res α) := ⟨fun _ => by simp⟩
theorem NoErr.bind {α β : Type} {r : Res α} {f : α → Res β} (h : NoErr r) (hf : ∀ a, NoErr (f a)) : NoErr (r >>= f) := by
  cases r with
  | ok a => exact hf a
  | err e => exact absurd rfl (h.no e)
  | panic => exact ⟨fun e h => by cases h⟩
  | oof => exact ⟨fun e h => by cases h⟩
theorem NoErr.ite {α : Type} {c : Prop} [Decidable c] {a b : Res α} (h1 : NoErr a) (h2 : NoErr b) : NoErr (if c then a else b) := by
  split <;> assumption
theorem NoErr.slice (b : Bytes) (i j : Nat) : NoErr (slice b i j) := by unfold Birch.slice; exact .ite (.ok _) .panic
theorem NoErr.sliceI (b : Bytes) (i : Nat) (j : Int) : NoErr (sliceI b i j) := by unfold Birch.sliceI; exact .ite (.slice ..) .panic
theorem NoErr.idx (b : Bytes) (i : Nat) : NoErr (idx b i) := by unfold Birch.idx; split <;> first | exact .ok _ | exact .panic
theorem NoErr.rdU32 (b : Bytes) : NoErr (rdU32 b) := by unfold Birch.rdU32; split <;> first | exact .ok _ | exact .panic
theorem NoErr.rdU64 (b : Bytes) : NoErr (rdU64 b) := by unfold Birch.rdU64; exact .bind (.rdU32 _) fun _ => .bind (.rdU32 _) fun _ => .ok _
theorem NoErr.readi32 (b : Bytes) : NoErr (readi32 b) := by unfold Birch.readi32; exact .bind (.rdU32 _) fun _ => .ok _
theorem NoErr.expect (t : UInt8) (v : Value) : NoErr (expect t v) := by
  unfold Model.expect; exact .ite .panic (.bind (.idx ..) fun _ => .ite .panic (.ok _))
theorem NoErr.orPanic {α : Type} (r : Res α) : NoErr (orPanic r) := by cases r <;> exact ⟨fun e h => by cases h⟩
theorem NoErr.getReader (fuel : Nat) (v : Value) : NoErr (getReader fuel v) := by
  cases v
  · exact .bind (.slice ..) fun _ => .bind (.readi32 _) fun _ => .slice ..
  · exact .orPanic _
theorem NoErr.getDoc (fuel : Nat) (v : Value) : NoErr (getDoc fuel v) := by
  cases v
  · exact .orPanic _
  · exact .ok _
theorem NoErr.getString (v : Value) : NoErr (getString v) := .bind (.slice ..) fun _ => .bind (.readi32 _) fun _ => .sliceI ..
theorem NoErr.getCode (v : Value) : NoErr (getCode v) := .bind (.slice ..) fun _ => .bind (.readi32 _) fun _ => .bind (.slice ..) fun _ => .ok _
theorem NoErr.scanNul (b : Bytes) (i : Nat) : NoErr (scanNul b i) := by unfold Model.scanNul; exact .ite (.ok _) .panic
theorem NoErr.okVariant {α : Type} (t : UInt8) (f : Value → Res α) (v : Value) (h : NoErr (f v)) : NoErr (okVariant t f v) := by
  unfold Model.okVariant; exact .ite (.ok _) (.bind (.idx ..) fun _ => .ite (.ok _) (.bind h fun _ => .ok _))

theorem NoErr.u64 (v : Value) : NoErr (getUint64 v) := .bind (.slice ..) fun _ => .rdU64 _

theorem NoErr.double (v : Value) : NoErr (double v) := .bind (.expect ..) fun _ => .u64 v
theorem NoErr.stringValue (v : Value) : NoErr (stringValue v) := .bind (.expect ..) fun _ => .getString v
theorem NoErr.javaScript (v : Value) : NoErr (javaScript v) := .bind (.expect ..) fun _ => .getString v
theorem NoErr.symbol (v : Value) : NoErr (symbol v) := .bind (.expect ..) fun _ => .getString v
theorem NoErr.readerDocument (fuel : Nat) (v : Value) : NoErr (readerDocument fuel v) := .bind (.expect ..) fun _ => .getReader ..
theorem NoErr.readerArray (fuel : Nat) (v : Value) : NoErr (readerArray fuel v) := .bind (.expect ..) fun _ => .getReader ..
theorem NoErr.mutableDocument (fuel : Nat) (v : Value) : NoErr (mutableDocument fuel v) := .bind (.expect ..) fun _ => .getDoc ..
theorem NoErr.mutableArray (fuel : Nat) (v : Value) : NoErr (mutableArray fuel v) := .bind (.expect ..) fun _ => .getDoc ..
theorem NoErr.binary (v : Value) : NoErr (binary v) :=
  .bind (.expect ..) fun _ => .bind (.slice ..) fun _ => .bind (.readi32 _) fun _ => .bind (.idx ..) fun _ => .ite
    (.bind (.slice ..) fun _ => .bind (.readi32 _) fun _ => .ite .panic (.bind (.sliceI ..) fun _ => .ok _)) (.ite .panic (.bind (.sliceI ..) fun _ => .ok _))
theorem NoErr.objectID (v : Value) : NoErr (objectID v) := .bind (.expect ..) fun _ => .slice ..
theorem NoErr.boolean (v : Value) : NoErr (boolean v) := .bind (.expect ..) fun _ => .bind (.idx ..) fun _ => .ok _
theorem NoErr.dateTime (v : Value) : NoErr (dateTime v) := .bind (.expect ..) fun _ => .bind (.u64 v) fun _ => .ok _
theorem NoErr.regex (v : Value) : NoErr (regex v) := .bind (.expect ..) fun _ => .bind (.scanNul ..) fun _ => .bind (.scanNul ..) fun _ =>
  .bind (.slice ..) fun _ => .bind (.slice ..) fun _ => .ok _
theorem NoErr.dbPointer (v : Value) : NoErr (dbPointer v) := .bind (.expect ..) fun _ => .bind (.slice ..) fun _ => .bind (.readi32 _) fun _ =>
  .bind (.slice ..) fun _ => .bind (.sliceI ..) fun _ => .ok _
theorem NoErr.readerCodeWithScope (fuel : Nat) (v : Value) : NoErr (readerCodeWithScope fuel v) := by
  refine .bind (.expect ..) fun _ => .bind (.getCode v) fun x => ?_
  cases v
  · exact .bind (.slice ..) fun _ => .bind (.readi32 _) fun _ => .bind (.slice ..) fun _ => .ok _
  · exact .bind (.orPanic _) fun _ => .ok _
theorem NoErr.mutableCodeWithScope (fuel : Nat) (v : Value) : NoErr (mutableCodeWithScope fuel v) := by
  refine .bind (.expect ..) fun _ => .bind (.slice ..) fun _ => .bind (.rdU32 _) fun _ => .bind (.getCode v) fun x => ?_
  cases v
  · exact .bind (.orPanic _) fun _ => .ok _
  · exact .ok _
theorem NoErr.int32 (v : Value) : NoErr (int32 v) := .bind (.expect ..) fun _ => .bind (.slice ..) fun _ => .readi32 _
theorem NoErr.timestamp (v : Value) : NoErr (timestamp v) := .bind (.expect ..) fun _ => .bind (.slice ..) fun _ => .bind (.rdU32 _) fun _ =>
  .bind (.slice ..) fun _ => .bind (.rdU32 _) fun _ => .ok _
theorem NoErr.int64 (v : Value) : NoErr (int64 v) := .bind (.expect ..) fun _ => .bind (.u64 v) fun _ => .ok _
theorem NoErr.decimal128 (v : Value) : NoErr (decimal128 v) := .bind (.expect ..) fun _ => .bind (.slice ..) fun _ => .bind (.rdU64 _) fun _ =>
  .bind (.slice ..) fun _ => .bind (.rdU64 _) fun _ => .ok _
theorem NoErr.int (v : Value) : NoErr (int v) := by
  unfold Model.int
  refine .bind (.okVariant _ _ _ (.int32 v)) fun o => ?_
  cases o
  · refine .bind (.okVariant _ _ _ (.int64 v)) fun o => ?_
    cases o
    · exact .panic
    · exact .ok _
  · exact .ok _

/-! ### when they return -/

theorem Exactly_bind_ok {α β : Type} {r : Res α} {P : Prop} (h : Exactly r P) (f : α → β) : Exactly (r >>= fun a => .ok (f a)) P := by
  refine ⟨fun hp => ?_, fun hp => ?_⟩
  · obtain ⟨a, ha⟩ := h.1 hp; exact ⟨f a, by rw [ha, Res.bind_ok]⟩
  · rw [h.2 hp]; rfl

theorem sliceI_exactly {b : Bytes} {i : Nat} {j : Int} {P : Prop} (h : P ↔ (i : Int) ≤ j ∧ j ≤ b.length) : Exactly (sliceI b i j) P := by
  unfold sliceI
  refine ⟨fun hp => ?_, fun hp => ?_⟩
  · have := h.1 hp
    rw [if_pos (by omega), slice_ok (by omega) (by omega)]
    exact ⟨_, rfl⟩
  · rw [h] at hp
    split
    · exact slice_bad (by omega)
    · rfl

theorem slice_exactly {b : Bytes} {i j : Nat} {P : Prop} (h : P ↔ i ≤ j ∧ j ≤ b.length) : Exactly (slice b i j) P := by
  refine ⟨fun hp => ?_, fun hp => ?_⟩
  · have := h.1 hp
    rw [slice_ok (by omega) (by omega)]
    exact ⟨_, rfl⟩
  · rw [h] at hp; exact slice_bad (by omega)

/-- two steps that return exactly when their conditions hold -/
theorem Exactly_bind {α β : Type} {r : Res α} {f : α → Res β} {P Q : Prop} (h : Exactly r P) (hf : ∀ a, Exactly (f a) Q) : Exactly (r >>= f) (P ∧ Q) := by
  refine ⟨fun ⟨hp, hq⟩ => ?_, fun hn => ?_⟩
  · obtain ⟨a, ha⟩ := h.1 hp
    rw [ha, Res.bind_ok]; exact (hf a).1 hq
  · by_cases hp : P
    · obtain ⟨a, ha⟩ := h.1 hp
      rw [ha, Res.bind_ok]; exact (hf a).2 fun hq => hn ⟨hp, hq⟩
    · rw [h.2 hp]; rfl

theorem _root_.Birch.Spec.Exactly.congr {α : Type} {r : Res α} {P Q : Prop} (h : Exactly r P) (hpq : P ↔ Q) : Exactly r Q := ⟨fun hq => h.1 (hpq.2 hq), fun hq => h.2 fun hp => hq (hpq.1 hp)⟩

variable {b : Bytes} {p off : Nat}

theorem getString_exactly (hl : b.length < 2147483647) (hs : off + 4 ≤ b.length) :
    Exactly (getString (.raw p off b)) (∃ n, int32At b off = some n ∧ 1 ≤ n ∧ off + 3 + n ≤ b.length) := by
  obtain ⟨z, hz, z0, z1, hr⟩ := i32_at (j := u32 (off + 4)) hs (u32_small (by omega))
  unfold getString
  simp only [Value.data, Value.offset, hr, hz]
  rw [u32_small (by omega)]
  refine sliceI_exactly ⟨?_, fun h => ⟨z, rfl, ?_⟩⟩
  · rintro ⟨n, hn, n1, n2⟩; cases hn; unfold i32; omega
  · unfold i32 at h; omega

theorem stringSize {t : UInt8} {m : Nat} (ht : t = 0x02 ∨ t = 0x0D ∨ t = 0x0E) (hl : b.length < 2147483647) (h0 : 0 < off) (h1 : off ≤ b.length) (h2 : idx b p = .ok t)
    (h3 : rawSize b p off = .ok m) : off + 4 ≤ b.length ∧ ∀ n, int32At b off = some n → (off + 4 + n ≤ b.length ∨ 2147483648 ≤ off + 4 + n) := by
  unfold rawSize at h3
  rw [if_neg (data_ne h0 h1)] at h3
  simp only [h2, Res.bind_ok] at h3
  rw [if_neg (by rcases ht with rfl | rfl | rfl <;> decide), if_neg (by rcases ht with rfl | rfl | rfl <;> decide), if_pos ht] at h3
  obtain ⟨hc, h3⟩ := ite_eq_ok h3
  rw [u32_small (by omega)] at hc
  obtain ⟨z, hz, z0, z1, hr⟩ := i32_at (b := b) (i := off) (j := u32 (off + 4)) (by omega) (u32_small (by omega))
  rw [hr] at h3
  obtain ⟨hc', h3⟩ := ite_eq_ok h3
  refine ⟨by omega, fun n hn => ?_⟩
  rw [hz] at hn; cases hn
  unfold i32 at hc'; omega

theorem text_exactly {t : UInt8} {m : Nat} (ht : t = 0x02 ∨ t = 0x0D ∨ t = 0x0E) (hl : b.length < 2147483647) (h0 : 0 < off) (h1 : off ≤ b.length) (h2 : idx b p = .ok t)
    (h3 : rawSize b p off = .ok m) : Exactly (getString (.raw p off b)) (StringFits b off) := by
  obtain ⟨hs, hf⟩ := stringSize ht hl h0 h1 h2 h3
  refine (getString_exactly hl hs).congr ⟨?_, ?_⟩
  · rintro ⟨n, hn, n1, n2⟩
    have := hf n hn
    exact ⟨n, hn, n1, by omega⟩
  · rintro ⟨n, hn, n1, n2⟩
    exact ⟨n, hn, n1, by omega⟩

theorem binary_exactly {m : Nat} (hl : b.length < 2147483647) (h0 : 0 < off) (h1 : off ≤ b.length) (h2 : idx b p = .ok 0x05)
    (h3 : rawSize b p off = .ok m) : Exactly (binary (.raw p off b)) (BinaryFits b off) := by
  have hs : off + 5 ≤ b.length := by
    unfold rawSize at h3
    rw [if_neg (data_ne h0 h1)] at h3
    simp only [h2, Res.bind_ok] at h3
    simp at h3
    obtain ⟨hc, h3⟩ := ite_eq_ok h3
    rw [u32_small (by omega)] at hc
    omega
  obtain ⟨z, hz, z0, z1, hr⟩ := i32_at (b := b) (i := off) (j := u32 (off + 4)) (by omega) (u32_small (by omega))
  obtain ⟨st, hst⟩ : ∃ st, b[off + 4]? = some st := ⟨_, List.getElem?_eq_getElem (by omega)⟩
  have hi : idx b (off + 4) = .ok st := by unfold idx; rw [hst]
  unfold binary
  rw [expect_ok h0 h1 h2, Res.bind_ok]
  simp only [Value.data, Value.offset, hr]
  have e4 : u32 (off + 4) = off + 4 := u32_small (by omega)
  have e5 : u32 (off + 5) = off + 5 := u32_small (by omega)
  have e9 : u32 (off + 9) = off + 9 := u32_small (by omega)
  rw [e4, hi, Res.bind_ok, e5, e9]
  unfold BinaryFits
  simp only [hz, hst, Option.some.injEq]
  by_cases h : st = 2
  · subst h
    rw [if_pos rfl, if_pos rfl]
    by_cases h9 : off + 9 ≤ b.length
    · obtain ⟨y, hy, y0, y1, hr'⟩ := i32_at (b := b) (i := off + 5) (j := off + 9) (by omega) (by omega)
      rw [hr']
      simp only [hy, Option.some.injEq]
      by_cases hneg : y < 0
      · rw [if_pos hneg]
        refine ⟨?_, fun _ => rfl⟩
        rintro ⟨k, hk, k0, k1⟩; omega
      · rw [if_neg hneg]
        refine Exactly_bind_ok (sliceI_exactly ?_) _
        constructor
        · rintro ⟨k, rfl, k0, k1⟩; unfold i32; omega
        · intro h; exact ⟨y, rfl, by omega, by unfold i32 at h; omega⟩
    · rw [slice_bad (by omega)]
      refine ⟨?_, fun _ => rfl⟩
      rintro ⟨k, hk, _⟩
      rw [int32At_none (by omega)] at hk; cases hk
  · rw [if_neg h, if_neg h]
    by_cases hneg : z < 0
    · rw [if_pos hneg]
      refine ⟨?_, fun _ => rfl⟩
      rintro ⟨n, hn, n0, _⟩; omega
    · rw [if_neg hneg]
      refine Exactly_bind_ok (sliceI_exactly ?_) _
      constructor
      · rintro ⟨n, rfl, n0, k1⟩; unfold i32; omega
      · intro h; exact ⟨z, rfl, by omega, by unfold i32 at h; omega⟩

theorem dbPointer_exactly {m : Nat} (hl : b.length < 2147483647) (h0 : 0 < off) (h1 : off ≤ b.length) (h2 : idx b p = .ok 0x0C)
    (h3 : rawSize b p off = .ok m) : Exactly (dbPointer (.raw p off b)) (PointerFits b off) := by
  have hs : off + 4 ≤ b.length := by
    unfold rawSize at h3
    rw [if_neg (data_ne h0 h1)] at h3
    simp only [h2, Res.bind_ok] at h3
    simp at h3
    obtain ⟨hc, h3⟩ := ite_eq_ok h3
    rw [u32_small (by omega)] at hc
    omega
  obtain ⟨z, hz, z0, z1, hr⟩ := i32_at (b := b) (i := off) (j := u32 (off + 4)) (by omega) (u32_small (by omega))
  unfold dbPointer
  rw [expect_ok h0 h1 h2, Res.bind_ok]
  simp only [Value.data, Value.offset, hr]
  unfold PointerFits
  simp only [hz, Option.some.injEq]
  rw [show u32 (off + 4) = off + 4 from u32_small (by omega)]
  refine (Exactly_bind (slice_exactly (P := u32 (off + 4 + u32i z) ≤ u32 (off + 4 + u32i z + 12) ∧ u32 (off + 4 + u32i z + 12) ≤ b.length) Iff.rfl) fun _ =>
    Exactly_bind_ok (sliceI_exactly (P := ((off + 4 : Nat) : Int) ≤ i32 (i32 off + 4 + z - 1) ∧ i32 (i32 off + 4 + z - 1) ≤ b.length) Iff.rfl) _).congr ?_
  constructor
  · intro h
    refine ⟨z, rfl, ?_⟩
    unfold i32 u32i u32 at h; omega
  · rintro ⟨n, rfl, n0, n1⟩
    unfold i32 u32i u32; omega

theorem Res.bind_assoc {α β γ : Type} (r : Res α) (f : α → Res β) (g : β → Res γ) : ((r >>= f) >>= g) = r >>= fun a => f a >>= g := by
  cases r <;> rfl

theorem readerCode_exactly {m : Nat} (fuel : Nat) (hl : b.length < 2147483647) (h0 : 0 < off) (h1 : off ≤ b.length) (h2 : idx b p = .ok 0x0F)
    (h3 : rawSize b p off = .ok m) : Exactly (readerCodeWithScope fuel (.raw p off b)) (CodeFits b off) := by
  have hs : off + 4 ≤ b.length := by
    unfold rawSize at h3
    rw [if_neg (data_ne h0 h1)] at h3
    simp only [h2, Res.bind_ok] at h3
    simp at h3
    obtain ⟨hc, h3⟩ := ite_eq_ok h3
    rw [u32_small (by omega)] at hc
    omega
  obtain ⟨z, hz, z0, z1, hr⟩ := i32_at (b := b) (i := off) (j := u32 (off + 4)) (by omega) (u32_small (by omega))
  unfold readerCodeWithScope getCode
  rw [expect_ok h0 h1 h2, Res.bind_ok]
  simp only [Value.data, Value.offset]
  have e4 : u32 (off + 4) = off + 4 := u32_small (by omega)
  have e8 : u32 (off + 8) = off + 8 := u32_small (by omega)
  rw [e4] at hr
  rw [e4, e8]
  unfold CodeFits
  by_cases h8 : off + 8 ≤ b.length
  · obtain ⟨y, hy, y0, y1, hr'⟩ := i32_at (b := b) (i := off + 4) (j := off + 8) (by omega) (by omega)
    rw [Res.bind_assoc]
    simp only [Res.bind_assoc]
    rw [hr']
    simp only [Res.bind_ok]
    simp only [hz, hy, Option.some.injEq]
    refine (Exactly_bind (slice_exactly (P := off + 8 ≤ u32i ((off : Int) + 8 + u32i y - 1) ∧ u32i ((off : Int) + 8 + u32i y - 1) ≤ b.length) Iff.rfl) fun _ => ?_).congr
      (P := _ ∧ (u32 (off + 8 + u32i y) ≤ u32 (off + u32i z) ∧ u32 (off + u32i z) ≤ b.length)) ?_
    · rw [hr]
      exact Exactly_bind_ok (slice_exactly Iff.rfl) _
    · constructor
      · intro h
        refine ⟨z, y, rfl, rfl, ?_⟩
        unfold u32i u32 at h; omega
      · rintro ⟨n, m, rfl, rfl, n0, n1, n2⟩
        unfold u32i u32; omega
  · rw [slice_bad (by omega)]
    refine ⟨?_, fun _ => rfl⟩
    rintro ⟨n, m, _, hm, _⟩
    rw [int32At_none (by omega)] at hm; cases hm

theorem getReader_exactly {t : UInt8} {m : Nat} (fuel : Nat) (ht : t = 0x03 ∨ t = 0x04) (hl : b.length < 2147483647) (h0 : 0 < off) (h1 : off ≤ b.length)
    (h2 : idx b p = .ok t) (h3 : rawSize b p off = .ok m) : Exactly (getReader fuel (.raw p off b)) (DocumentFits b off) := by
  unfold rawSize at h3
  rw [if_neg (data_ne h0 h1)] at h3
  simp only [h2, Res.bind_ok] at h3
  rw [if_neg (by rcases ht with rfl | rfl <;> decide), if_neg (by rcases ht with rfl | rfl <;> decide), if_neg (by rcases ht with rfl | rfl <;> decide), if_pos ht] at h3
  obtain ⟨hc, h3⟩ := ite_eq_ok h3
  rw [u32_small (by omega)] at hc
  obtain ⟨z, hz, z0, z1, hr⟩ := i32_at (b := b) (i := off) (j := u32 (off + 4)) (by omega) (u32_small (by omega))
  rw [hr] at h3
  obtain ⟨hc', h3⟩ := ite_eq_ok h3
  simp only [getReader, rawReader, hr]
  unfold DocumentFits
  simp only [hz, Option.some.injEq]
  refine slice_exactly ⟨?_, ?_⟩
  · rintro ⟨n, rfl, n1⟩
    unfold u32i u32; omega
  · intro h
    refine ⟨z, rfl, ?_⟩
    unfold u32i u32 at h; omega

theorem scanNul_ok {b : Bytes} {i : Nat} (h : i + (cstrAt b i).length < b.length) : scanNul b i = .ok (i + (cstrAt b i).length) := by
  unfold scanNul; exact if_pos h

theorem regex_ok {m : Nat} (h0 : 0 < off) (h1 : off ≤ b.length) (h2 : idx b p = .ok 0x0B) (h3 : rawSize b p off = .ok m) : ∃ r, regex (.raw p off b) = .ok r := by
  unfold rawSize at h3
  rw [if_neg (data_ne h0 h1)] at h3
  simp only [h2, Res.bind_ok] at h3
  simp at h3
  rw [if_neg (by omega)] at h3
  obtain ⟨hc, h3⟩ := ite_eq_ok h3
  obtain ⟨hc', h3⟩ := ite_eq_ok h3
  unfold regex
  rw [expect_ok h0 h1 h2, Res.bind_ok]
  simp only [Value.data, Value.offset]
  rw [scanNul_ok (show off + (cstrAt b off).length < b.length by omega), Res.bind_ok,
    scanNul_ok (show off + (cstrAt b off).length + 1 + (cstrAt b (off + (cstrAt b off).length + 1)).length < b.length by omega), Res.bind_ok, slice_ok (by omega) (by omega), Res.bind_ok, slice_ok (by omega) (by omega), Res.bind_ok]
  exact ⟨_, rfl⟩

/-! ### a value of fixed size -/

theorem bind_ok_right {α : Type} (r : Res α) : (r >>= Res.ok) = r := by cases r <;> rfl

theorem getUint64_ok (hl : b.length < 2147483647) (h3 : off + 8 ≤ b.length) : ∃ r, getUint64 (.raw p off b) = .ok r := by
  obtain ⟨n, hn⟩ := u64_at (j := u32 (off + 8)) h3 (u32_small (by omega))
  refine ⟨n, ?_⟩
  have := hn Res.ok
  simp only [bind_ok_right] at this
  exact this

theorem fixed_ok {m : Nat} {t : UInt8} (hl : b.length < 2147483647) (h0 : 0 < off) (h1 : off ≤ b.length) (h2 : idx b p = .ok t) (h3 : rawSize b p off = .ok m) :
    (t = 0x01 → ∃ r, double (.raw p off b) = .ok r) ∧ (t = 0x07 → ∃ r, objectID (.raw p off b) = .ok r) ∧
    (t = 0x08 → ∃ r, boolean (.raw p off b) = .ok r) ∧ (t = 0x09 → ∃ r, dateTime (.raw p off b) = .ok r) ∧
    (t = 0x10 → ∃ r, int32 (.raw p off b) = .ok r) ∧ (t = 0x11 → ∃ r, timestamp (.raw p off b) = .ok r) ∧
    (t = 0x12 → ∃ r, int64 (.raw p off b) = .ok r) ∧ (t = 0x13 → ∃ r, decimal128 (.raw p off b) = .ok r) := by
  have hsz := fun {n : Nat} (hf : fixedSize t = some n) => rawSize_fixed (by omega) h1 h0 h2 h3 hf
  refine ⟨?_, ?_, ?_, ?_, ?_, ?_, ?_, ?_⟩ <;> rintro rfl
  · obtain ⟨n, hn⟩ := getUint64_ok (p := p) hl (hsz (n := 8) (by decide))
    unfold double; rw [expect_ok h0 h1 h2, Res.bind_ok]; exact ⟨n, hn⟩
  · have := hsz (n := 12) (by decide)
    unfold objectID; rw [expect_ok h0 h1 h2, Res.bind_ok]; simp only [Value.data, Value.offset]
    rw [u32_small (by omega), slice_ok (by omega) (by omega)]; exact ⟨_, rfl⟩
  · have := hsz (n := 1) (by decide)
    unfold boolean; rw [expect_ok h0 h1 h2, Res.bind_ok]; simp only [Value.data, Value.offset]
    have : idx b off = .ok b[off] := by unfold idx; rw [List.getElem?_eq_getElem (by omega)]
    rw [this]; exact ⟨_, rfl⟩
  · obtain ⟨n, hn⟩ := getUint64_ok (p := p) hl (hsz (n := 8) (by decide))
    unfold dateTime; rw [expect_ok h0 h1 h2, Res.bind_ok, hn]; exact ⟨_, rfl⟩
  · have := hsz (n := 4) (by decide)
    obtain ⟨n, _, _, _, hn⟩ := i32_at (j := u32 (off + 4)) this (u32_small (by omega))
    have := hn Res.ok
    simp only [bind_ok_right] at this
    unfold int32; rw [expect_ok h0 h1 h2, Res.bind_ok]; exact ⟨_, this⟩
  · have := hsz (n := 8) (by decide)
    obtain ⟨n, hn⟩ := u32_at (b := b) (i := u32 (off + 4)) (j := u32 (off + 8)) (by rw [u32_small] <;> omega) (by rw [u32_small, u32_small] <;> omega)
    obtain ⟨k, hk⟩ := u32_at (b := b) (i := off) (j := u32 (off + 4)) (by omega) (by rw [u32_small]; omega)
    unfold timestamp; rw [expect_ok h0 h1 h2, Res.bind_ok]; simp only [Value.data, Value.offset, hn, hk]; exact ⟨_, rfl⟩
  · obtain ⟨n, hn⟩ := getUint64_ok (p := p) hl (hsz (n := 8) (by decide))
    unfold int64; rw [expect_ok h0 h1 h2, Res.bind_ok, hn]; exact ⟨_, rfl⟩
  · have := hsz (n := 16) (by decide)
    obtain ⟨n, hn⟩ := u64_at (b := b) (i := u32 (off + 8)) (j := u32 (off + 16)) (by rw [u32_small] <;> omega) (by rw [u32_small, u32_small] <;> omega)
    obtain ⟨k, hk⟩ := u64_at (b := b) (i := off) (j := u32 (off + 8)) (by omega) (by rw [u32_small]; omega)
    unfold decimal128; rw [expect_ok h0 h1 h2, Res.bind_ok]; simp only [Value.data, Value.offset, hn, hk]; exact ⟨_, rfl⟩

end Birch.Proofs.ReadAccess
