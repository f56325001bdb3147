import Verif.Proofs.FtdcRuns

/- The hash of the keys of a document. -/

namespace Birch.Proofs.Ftdc
open Birch Model Model.Ftdc Spec

theorem keysOfDocument_rep {g : Bytes → Value → Res (Bytes × Nat)} {N : Nat}
    (hg : ∀ p v k t, Rep v k t → t.enc.length < N → g p v = .ok ((t.paths p).flatten, t.kinds.length)) (p : Bytes) :
    ∀ (d : Doc) (fs : Fields), RepFields d fs → fs.enc.length < N → keysOfDocument g p d = .ok ((fs.paths p).flatten, fs.kinds.length)
  | [], .nil, _, _ => by simp [keysOfDocument, Fields.paths, Fields.kinds]
  | [], .cons _ _ _, h, _ => by simp [RepFields] at h
  | _ :: _, .nil, h, _ => by simp [RepFields] at h
  | v :: d, .cons k t fs, h, hl => by
    simp only [RepFields] at h
    simp only [Fields.enc, List.length_append, List.length_cons, List.length_nil] at hl
    unfold keysOfDocument
    rw [key_rep h.1]
    simp only [Res.bind_ok]
    rw [hg _ v k t h.1 (by omega)]
    simp only [Res.bind_ok]
    rw [keysOfDocument_rep hg p d fs h.2 (by omega)]
    simp [Fields.paths, Fields.kinds]

theorem keysOfArray_rep {g : Bytes → Value → Res (Bytes × Nat)} {N : Nat}
    (hg : ∀ p v k t, Rep v k t → t.enc.length < N → g p v = .ok ((t.paths p).flatten, t.kinds.length)) (p : Bytes) :
    ∀ (d : Doc) (vs : Vals) (i : Nat), RepVals d vs → (vs.encFrom i).length < N → keysOfArray g p i d = .ok ((vs.paths p i).flatten, vs.kinds.length)
  | [], .nil, _, _, _ => by simp [keysOfArray, Vals.paths, Vals.kinds]
  | [], .cons _ _, _, h, _ => by simp [RepVals] at h
  | _ :: _, .nil, _, h, _ => by simp [RepVals] at h
  | v :: d, .cons t vs, i, h, hl => by
    simp only [RepVals] at h
    obtain ⟨⟨k, h1⟩, h2⟩ := h
    rw [encFrom_length] at hl
    unfold keysOfArray
    rw [hg _ v k t h1 (by omega)]
    simp only [Res.bind_ok]
    rw [keysOfArray_rep hg p d vs (i + 1) h2 (by omega)]
    simp [Vals.paths, Vals.kinds, itoa_eq]

theorem keysOfValue_rep : ∀ (fuel : Nat) (p : Bytes) (v : Value) (k : Bytes) (t : BVal), Rep v k t → t.enc.length < 2147483648 →
    t.enc.length < fuel → keysOfValue fuel p v = .ok ((t.paths p).flatten, t.kinds.length)
  | 0, _, _, _, _, _, _, h => by omega
  | fuel + 1, p, v, k, t, h, hl, hf => by
    have ih := keysOfValue_rep fuel
    unfold keysOfValue
    rw [type_rep h]
    simp only [Res.bind_ok]
    cases t with
    | doc fs =>
      obtain ⟨d, h1, h2⟩ := mutableDocument_rep h hl hf
      simp only [BVal.enc, wrapDoc_length] at hl hf
      have := keysOfDocument_rep (g := keysOfValue fuel) (N := min 2147483648 fuel) (fun p v k t hr ht => ih p v k t hr (by omega) (by omega)) p d fs h2 (by omega)
      simp only [BVal.tag]; simp [h1, this, BVal.paths, BVal.kinds]
    | array vs =>
      obtain ⟨d, h1, h2⟩ := mutableArray_rep h hl hf
      simp only [BVal.enc, wrapDoc_length] at hl hf
      have := keysOfArray_rep (g := keysOfValue fuel) (N := min 2147483648 fuel) (fun p v k t hr ht => ih p v k t hr (by omega) (by omega)) p d vs 0 h2 (by omega)
      simp only [BVal.tag]; simp [h1, this, BVal.paths, BVal.kinds]
    | _ => simp [BVal.tag, BVal.paths, BVal.kinds]

theorem metricKeyHash_rep (fuel : Nat) {d : Doc} {fs : Fields} (h : RepFields d fs) (hl : (encDoc fs).length < 2147483648) (hf : (encDoc fs).length < fuel) :
    metricKeyHash fuel d = .ok (hashText (fs.paths []).flatten, fs.kinds.length) := by
  simp only [encDoc, wrapDoc_length] at hl hf
  unfold metricKeyHash
  rw [keysOfDocument_rep (g := keysOfValue fuel) (N := min 2147483648 fuel) (fun p v k t hr ht => keysOfValue_rep fuel p v k t hr (by omega) (by omega)) [] d fs h (by omega)]
  rfl

theorem hashText_ne (b : Bytes) : hashText b ≠ [] := by
  unfold hashText le64 le32
  simp [hexEncode]

end Birch.Proofs.Ftdc
