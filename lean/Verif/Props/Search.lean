import Verif.Proofs.ReaderSearch
import Verif.Proofs.Returns
import Verif.Props.Bson

/- C15 (Search) and C16: looking up elements by key and by path. -/

namespace Birch.Props
open Birch Model Spec Proofs

set_option linter.unusedVariables false

/-! ### C15 -/

/-- `Search(k)` returns the first element with key `k`, and an error exactly when no element has it. -/
theorem C15_search (fuel : Nat) (k : Bytes) (d : Doc) (hd : ∀ v ∈ d, ∃ k', key v = .ok k') :
    (∀ v, search fuel [k] d = .ok v ↔ ∃ pre post, d = pre ++ v :: post ∧ key v = .ok k ∧ ∀ u ∈ pre, key u ≠ .ok k) ∧
    (search fuel [k] d = .err .elementNotFound ↔ ∀ v ∈ d, key v ≠ .ok k) := by
  simp only [search]
  induction d with
  | nil => simp [findElemForKey]
  | cons x d ih =>
    obtain ⟨k', hk'⟩ := hd x (by simp)
    have ih := ih (fun v hv => hd v (List.mem_cons_of_mem _ hv))
    simp only [findElemForKey, hk', Res.bind_ok]
    by_cases h : k' = k
    · subst h
      simp only [if_true, Res.bind_ok]
      refine ⟨fun v => ⟨fun e => ?_, ?_⟩, ?_⟩
      · cases e; exact ⟨[], d, rfl, hk', by simp⟩
      · rintro ⟨pre, post, e, h1, h2⟩
        cases pre with
        | nil => cases e; rfl
        | cons y pre => cases e; exact absurd hk' (h2 x (by simp))
      · simp [hk']
    · rw [if_neg h]
      refine ⟨fun v => ⟨fun e => ?_, ?_⟩, ?_⟩
      · obtain ⟨pre, post, rfl, h1, h2⟩ := (ih.1 v).1 e
        refine ⟨x :: pre, post, rfl, h1, ?_⟩
        intro u hu
        rcases List.mem_cons.1 hu with rfl | hu
        · rw [hk']; simpa using h
        · exact h2 u hu
      · rintro ⟨pre, post, e, h1, h2⟩
        cases pre with
        | nil => cases e; rw [hk'] at h1; cases h1; exact absurd rfl h
        | cons y pre =>
          cases e
          exact (ih.1 v).2 ⟨pre, post, rfl, h1, fun u hu => h2 u (List.mem_cons_of_mem _ hu)⟩
      · rw [ih.2]
        simp [hk', h]

example : search 9 [[98]] [.raw 0 3 [10, 97, 0], .raw 0 3 [10, 98, 0], .raw 0 3 [6, 98, 0]] = .ok (.raw 0 3 [10, 98, 0]) := by
  refine ((C15_search 9 [98] _ ?_).1 _).2 ⟨[.raw 0 3 [10, 97, 0]], [.raw 0 3 [6, 98, 0]], rfl, by decide, by decide⟩
  intro v hv
  simp only [List.mem_cons, List.not_mem_nil, or_false] at hv
  rcases hv with rfl | rfl | rfl
  · exact ⟨[97], by decide⟩
  · exact ⟨[98], by decide⟩
  · exact ⟨[98], by decide⟩

/-! ### C16 -/

/-- `Search(k1, …, kn)` on any document, however it is held in memory: it returns an element with the last key and the value
    reached by the path, and `ElementNotFound` exactly when some step of the path does not exist (or the path is empty).
    Array positions may be written with a sign and leading zeros (`index`).
    The element may be a copy under the given key; `Rep` is claimed if that copy is under 2 GiB, the limit for all documents. -/
theorem C16_search (d : Doc) (fs : Fields) (path : List Bytes) (h : RepFields d fs) (hl : (encDoc fs).length < 2147483648)
    (hp : ∀ k ∈ path, k.length < 2147483648) :
    (∀ k t, Reaches index fs path k t → ∃ v, Returns (fun n => search n path d) (.ok v) ∧
      key v = .ok k ∧ type v = .ok t.tag ∧ (v.data.length < 2147483648 → Rep v k t)) ∧
    (¬ Exists index fs path → Returns (fun n => search n path d) (.err .elementNotFound)) := by
  simp only [encDoc, wrapDoc_length] at hl
  by_cases hne : path = []
  · subst hne
    refine ⟨fun k t hr => by simp [Reaches] at hr, fun _ => ⟨0, fun m _ => rfl⟩⟩
  · have hs := fun m (hm : fs.enc.length + 5 < m) => search_rep m path hp h hl hm hne
    cases hf : BVal.follow index path (.doc fs) with
    | none =>
      refine ⟨fun k t hr => ?_, fun _ => returns_of (fs.enc.length + 5) fun m hm => ?_⟩
      · rw [hr.2] at hf; cases hf
      · have := hs m hm; rw [hf] at this; exact this
    | some t =>
      have h0 := hs (fs.enc.length + 6) (by omega)
      rw [hf] at h0
      obtain ⟨v, k, h1, h2, h3, h4, h5⟩ := h0
      refine ⟨fun k' t' hr => ⟨v, ?_, ?_⟩, fun hn => absurd ⟨k, t, h1, hf⟩ hn⟩
      · exact returns_of (fs.enc.length + 5) fun m hm => by rw [search_mono (show fs.enc.length + 6 ≤ m by omega) _ _ (by rw [h2]; simp), h2]
      · obtain ⟨r1, r2⟩ := hr
        rw [hf] at r2; cases r2
        rw [h1] at r1; cases r1
        exact ⟨h3, h4, h5⟩

/-- a document `{a: [null, {b: [true]}], a: 1}` -/
def nested : Fields := .cons [97] (.array (.cons .null (.cons (.doc (.cons [98] (.array (.cons (.bool true) .nil)) .nil)) .nil)))
  (.cons [97] (.int32 1) .nil)

theorem nested_wf : nested.WF := by simp [nested, Fields.WF, BVal.WF, Vals.WF, NulFree]

/-- the path `a, +01, b, 0` exists, `a, 2` does not -/
example : Reaches index nested [[97], [43, 48, 49], [98], [48]] [48] (.bool true) ∧ ¬ Exists index nested [[97], [50]] := by
  constructor
  · exact ⟨rfl, by rfl⟩
  · rintro ⟨k, t, _, h⟩
    have : BVal.follow index [[97], [50]] (.doc nested) = none := by decide +kernel
    rw [this] at h; cases h

example : ∃ d, RepFields d nested := by
  obtain ⟨d, _, h⟩ := buildDoc_rep nested nested_wf (by decide +kernel)
  exact ⟨d, h⟩

/-- `Reader.RecursiveLookup` on the bytes of any document returns the element reached by the path, and an error exactly
    when some step does not exist or the path is empty.  Array positions must be written canonically. -/
theorem C16_reader (fs : Fields) (wf : fs.WF) (path : List Bytes) (hl : (encDoc fs).length < 2147483648) :
    (∀ k t, Reaches canonicalIndex fs path k t →
      ∃ v, Returns (fun n => recursiveLookup n (encDoc fs) path) (.ok v) ∧ Rep v k t) ∧
    (¬ Exists canonicalIndex fs path → ∃ e, Returns (fun n => recursiveLookup n (encDoc fs) path) (.err e) ∧
      (e = .elementNotFound ∨ e = .invalidDepthTraversal ∨ e = .emptyKey)) := by
  simp only [encDoc, wrapDoc_length] at hl
  by_cases hne : path = []
  · subst hne
    refine ⟨fun k t hr => by simp [Reaches] at hr, fun _ => ⟨_, ⟨0, fun m _ => by unfold recursiveLookup; rfl⟩, Or.inr (Or.inr rfl)⟩⟩
  · have h0 := (lookup_enc (fs.enc.length + 6)).1 fs wf path hne (by omega) hl
    have ret : ∀ {r}, recursiveLookup (fs.enc.length + 6) (encDoc fs) path = r → r ≠ .oof →
        Returns (fun n => recursiveLookup n (encDoc fs) path) r := by
      intro r hr hn
      exact ⟨fs.enc.length + 6, fun m hm => by simp only; rw [(lookup_mono _ m hm).1 _ _ (by rw [hr]; exact hn), hr]⟩
    cases hf : BVal.follow canonicalIndex path (.doc fs) with
    | none =>
      rw [hf] at h0
      refine ⟨fun k t hr => ?_, fun _ => ?_⟩
      · rw [hr.2] at hf; cases hf
      · rcases h0 with h0 | h0
        · exact ⟨_, ret h0 (by simp), Or.inl rfl⟩
        · exact ⟨_, ret h0 (by simp), Or.inr (Or.inl rfl)⟩
    | some t =>
      rw [hf] at h0
      obtain ⟨v, k, h1, h2, h3⟩ := h0
      refine ⟨fun k' t' hr => ⟨v, ret h2 (by simp), ?_⟩, fun hn => absurd ⟨k, t, h1, hf⟩ hn⟩
      obtain ⟨r1, r2⟩ := hr
      rw [hf] at r2; cases r2
      rw [h1] at r1; cases r1
      exact h3

example := C16_reader nested nested_wf [[97], [49], [98], [48]] (by decide +kernel)

/-- Whatever `RecursiveLookup` finds in the bytes of a document, `Search` finds in the document. -/
theorem C16_agree (fs : Fields) (path : List Bytes) (k : Bytes) (t : BVal) (h : Reaches canonicalIndex fs path k t) :
    Reaches index fs path k t := ⟨h.1, follow_canonical h.2⟩

example : Reaches canonicalIndex nested [[97], [49], [98], [48]] [48] (.bool true) := ⟨rfl, by rfl⟩

end Birch.Props
