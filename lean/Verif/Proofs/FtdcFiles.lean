import Verif.Proofs.FtdcLayout
import Verif.Proofs.FtdcParts
import Verif.Proofs.CsvRows

/- What several chunks are resolved to, byte for byte. -/

namespace Birch.Proofs.Ftdc
open Birch Model Model.Ftdc Spec

/-- the chunks of collectors that are filled, one after the other -/
theorem parts_layout {fsub : Nat → Nat → Nat} (hsub : ∀ a b, a < 18446744073709551616 → b < 18446744073709551616 → fsub a b < 18446744073709551616)
    {zip : Bytes → Bytes} {n max : Nat} (hn : 2147483648 ≤ n) (hmax : max < 4294967295) {now : Nat → Time} (hnow : ∀ j, 0 ≤ (now j).nsec) : ∀ (parts : List Part) (i : Nat),
    (∀ p ∈ parts, p.Ok fsub n max) → (∀ p ∈ parts, ∀ b, Returns p.chunk.payload (.ok b) → (zip b).length ≤ 2147482000) →
    ∃ cs : List LaidChunk, (cs.map fun c => c.first :: c.rest) = parts.map Part.fss ∧ (∀ c ∈ cs, c.Good fsub zip) ∧
      (∀ j c, cs[j]? = some c → c.ms = i64 ((now (i + j)).sec * 1000 + (now (i + j)).nsec / 1000000)) ∧
      (∀ (j : Nat) (c : LaidChunk), cs[j]? = some c → ∃ p : Part, parts[j]? = some p ∧ RepMeta p.md c.metadata) ∧
      ∀ fuel, 10000000000 ≤ fuel → resolveChunks zip now fuel i (parts.map Part.chunk) = .ok (cs.flatMap (LaidChunk.bytes fsub zip))
  | [], _, _, _ => ⟨[], rfl, nofun, by simp, by simp, fun _ _ => rfl⟩
  | p :: parts, i, h, hp => by
    obtain ⟨cs, c1, c2, c4, c5, c3⟩ := parts_layout hsub hn hmax hnow parts (i + 1) (fun q hq => h q (by simp [hq])) (fun q hq => hp q (by simp [hq]))
    obtain ⟨run, ne, filled, room, md⟩ := h p (by simp)
    have hsm := hp p (by simp)
    obtain ⟨pmd, pdocs, pfss, pchunk⟩ := p
    simp only at run ne filled room md hsm
    match pfss, ne with
    | f0 :: fss, _ =>
      have hrl : fss.length ≤ max := by simpa using room
      have hwf := repDocs_wf _ _ run.rep
      have hz : (zip (chunkPayload fsub f0 fss)).length ≤ 2147482000 := by
        have h3 := filled_state run filled (by simp; omega) hn
        match pdocs, run, h3 with
        | d0 :: docs, run, h3 =>
          obtain ⟨e1, e2, e3, e4⟩ := h3
          refine hsm _ ⟨2147483648, fun m hm => ?_⟩
          have hs0 := run.size f0 (by simp)
          show pchunk.payload m = _
          rw [payload_ok e4 e3 hs0 (by simp; omega) m (by omega), payload_layout hsub e4 hwf hs0 (by omega)]
      obtain ⟨mfs, m1, m2⟩ : ∃ mfs, RepMeta pmd mfs ∧ ∀ f, mfs = some f → f.WF ∧ (encDoc f).length ≤ 2147483000 := by
        cases hm : pmd with
        | none => exact ⟨none, trivial, nofun⟩
        | some m =>
          obtain ⟨mf, h1, h2⟩ := md m hm
          exact ⟨some mf, h1, fun f hf => by cases hf; exact ⟨repFields_wf h1, h2⟩⟩
      have hr := i64_range ((now i).sec * 1000 + (now i).nsec / 1000000)
      refine ⟨⟨i64 ((now i).sec * 1000 + (now i).nsec / 1000000), mfs, f0, fss⟩ :: cs, by simp [c1], ?_, ?_, ?_, fun fuel hf => ?_⟩
      · intro c hc
        rcases List.mem_cons.mp hc with rfl | hc
        · exact ⟨hr.1, hr.2, m2, fun f hf => ⟨hwf f hf, run.size f hf, run.shape f hf⟩, by show fss.length < _; omega, hz⟩
        · exact c2 c hc
      · intro j c hj
        rcases j with _ | j
        · simp only [List.getElem?_cons_zero, Option.some.injEq] at hj
          rw [← hj]; rfl
        · simp only [List.getElem?_cons_succ] at hj
          rw [c4 j c hj, show i + 1 + j = i + (j + 1) by omega]
      · intro j c hj
        rcases j with _ | j
        · simp only [List.getElem?_cons_zero, Option.some.injEq] at hj
          rw [← hj]; exact ⟨_, rfl, m1⟩
        · simp only [List.getElem?_cons_succ] at hj ⊢
          exact c5 j c hj
      · have := filled_layout hsub run filled hrl hn (by omega) m1 (fun f hf => (m2 f hf).2) hz (hnow i) fuel hf
        simp only [List.map_cons, resolveChunks, this, Res.bind_ok, c3 fuel hf]
        simp [LaidChunk.bytes]

end Birch.Proofs.Ftdc
