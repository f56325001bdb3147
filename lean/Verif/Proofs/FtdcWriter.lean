import Verif.Model.FtdcWriter
import Verif.Spec.FtdcDocs
import Verif.Proofs.Access
import Verif.Proofs.Fuel

namespace Birch.Proofs.Ftdc
open Birch Model Model.Ftdc Spec

/-- reading documents that are followed by something -/
theorem read_each : ∀ (l : List (Fields × Bytes)), (∀ p ∈ l, p.1.WF ∧ (encDoc p.1 ++ p.2).length < 2147483648) →
    ∃ docs : List (Bytes × Doc), docs.map Prod.fst = l.map (fun p => encDoc p.1 ++ p.2) ∧ RepDocs (docs.map Prod.snd) (l.map Prod.fst) ∧
      ∀ n, 2147483648 ≤ n → ∀ q ∈ docs, readDocument n q.1 = .ok q.2
  | [], _ => ⟨[], rfl, trivial, by simp⟩
  | (f, post) :: l, h => by
    obtain ⟨wf, hl⟩ := h (f, post) (by simp)
    obtain ⟨docs, h1, h2, h3⟩ := read_each l (fun p hp => h p (List.mem_cons_of_mem _ hp))
    obtain ⟨d, h4, h5⟩ := readDocument_enc 2147483648 f wf post (by simp at hl; omega) hl
    refine ⟨(encDoc f ++ post, d) :: docs, by simp [h1], ⟨h5, h2⟩, fun n hn q hq => ?_⟩
    rcases List.mem_cons.mp hq with rfl | hq
    · simp only
      rw [readDocument_mono hn (by rw [h4]; simp), h4]
    · exact h3 n hn q hq

theorem writeEach_add (fsub : Nat → Nat → Nat) (zip : Bytes → Bytes) (now : Nat → Time) (n : Nat) (ce : Option Err) (k : Nat) :
    ∀ (docs : List (Bytes × Doc)) (c c' : StreamingDynamic), (∀ q ∈ docs, readDocument n q.1 = .ok q.2) →
    addEach (fun c d => c.add fsub zip now n d) c (docs.map Prod.snd) = .ok (c', (docs.map Prod.snd).map fun _ => none) →
    writeEach fsub zip now n ⟨c, ce, k⟩ (docs.map Prod.fst) = .ok (⟨c', ce, k⟩, docs.map fun q => (q.1.length, none))
  | [], c, c', _, h => by
    simp only [List.map_nil, addEach, Res.ok.injEq, Prod.mk.injEq, and_true] at h
    subst h; rfl
  | (b, d) :: docs, c, c', hr, h => by
    simp only [List.map_cons, addEach] at h
    obtain ⟨⟨c1, e⟩, h1, h2⟩ := Res.bind_eq_ok.mp h
    obtain ⟨⟨c2, es⟩, h3, h4⟩ := Res.bind_eq_ok.mp h2
    simp only [Res.ok.injEq, Prod.mk.injEq, List.cons.injEq] at h4
    obtain ⟨rfl, rfl, rfl⟩ := h4
    have ih := writeEach_add fsub zip now n ce k docs c1 c2 (fun q hq => hr q (List.mem_cons_of_mem _ hq)) h3
    have hb : readDocument n b = .ok d := hr (b, d) (by simp)
    simp only [List.map_cons, writeEach, WriterCollector.write, hb, h1, Res.bind_ok, ih]

end Birch.Proofs.Ftdc
