import Verif.Proofs.GraphOpen
import Verif.Spec.Ascii

/- C87: what values, elements and documents share. -/

namespace Birch.Props
open Birch Model Model.Graph Spec Spec.Graph

/-! ### C87 -/

/-- no objects -/
def exNone : World := ⟨fun _ => [], 0, fun _ => ⟨0, 0, ⟨0, 0, 0⟩, none⟩, 0, fun _ => 0, 0, fun _ => [], 0⟩

theorem exNone_good : Good exNone := by
  intro a b h; cases a <;> exact absurd h (Nat.not_lt_zero _)

/-- { "a": null } made by constructors -/
def exNull : World := runAll exNone [.construct [0x0A, 97, 0] 3 none]

/-- A call changes nothing but what it is said to write to, and the objects refer to objects there are.  Copying, constructing and reading write to nothing. -/
theorem C87_writes {w : World} (g : Good w) {c : Call} (ha : Args w c) :
    Good (c.run w) ∧ (∀ o, Made w o → Made (c.run w) o) ∧ ∀ o, Made w o → ¬ Writes w c o → Same w (c.run w) o :=
  Proofs.Graph.run_frame g ha

example : Good exNone ∧ Args exNone (.construct [0x0A, 97, 0] 3 none) := ⟨exNone_good, nofun⟩

theorem exNull_good : Good exNull := (C87_writes exNone_good (c := .construct [0x0A, 97, 0] 3 none) nofun).1

/-- A value stays as it is through any calls that do not write to what it refers to. -/
theorem C87_frame {w : World} (g : Good w) {p : Nat} (hp : Made w (.val p)) {cs : List Call} (h : Avoid (Reach w (.val p)) w cs) (n : Nat) :
    viewVal (runAll w cs) n p = viewVal w n p :=
  Proofs.Graph.view_frame n p (Proofs.Graph.all_frame cs w g (fun _ r => Proofs.Graph.reach_made g hp r) h).2.2

/-- and so does a document -/
theorem C87_frame_document {w : World} (g : Good w) {d : Nat} (hd : Made w (.doc d)) {cs : List Call} (h : Avoid (Reach w (.doc d)) w cs) (n : Nat) :
    viewDoc (runAll w cs) n d = viewDoc w n d :=
  Proofs.Graph.viewDoc_frame n d (Proofs.Graph.all_frame cs w g (fun _ r => Proofs.Graph.reach_made g hd r) h).2.2

example : Made exNull (.val 0) ∧ Avoid (Reach exNull (.val 0)) exNull [.copyElement 0, .setValue 0 1] := by
  refine ⟨by show 0 < 1; decide, by show 0 < 1; decide, fun _ _ h => h.elim, ⟨by show 0 < 2; decide, by show 1 < 2; decide⟩, ?_, trivial⟩
  rintro o r rfl
  cases r with
  | step e r => cases e with
    | data => cases r with
      | step e _ => cases e
    | d h => cases h

/-- `Element.Copy` gives a new element with a new value, and the copy has the same contents. -/
theorem C87_copy {w : World} (g : Good w) {e : Nat} (he : Made w (.elem e)) :
    ∃ e' w', copyElement e w = (w', .ok e') ∧ ¬ Made w (.elem e') ∧ ¬ Made w (.val (w'.elems e')) ∧ (∀ o, Made w o → Same w w' o) ∧
      ∀ n, viewVal w' n (w'.elems e') = viewVal w n (w.elems e) :=
  ⟨w.ne, (copyElement e w).1, rfl, (Proofs.Graph.copied g he rfl).new, (Proofs.Graph.copied g he rfl).newVal, (Proofs.Graph.copied g he rfl).same,
    (Proofs.Graph.copied g he rfl).view⟩

example : Made exNull (.elem 0) := by show 0 < 1; decide

/-- A copy of an element that has not been opened stays as it is whatever is done to the original: set another value, open it, change what is in it.  Only the bytes
    are shared. -/
theorem C87_independent {w w' : World} (g : Good w) {e e' : Nat} (he : Made w (.elem e)) (hc : copyElement e w = (w', .ok e'))
    (hd : (w.vals (w.elems e)).d = none) {cs : List Call}
    (h : Avoid (fun o => o = .elem e' ∨ o = .val (w'.elems e') ∨ o = .buf (w.vals (w.elems e)).data.buf) w' cs) (n : Nat) :
    (runAll w' cs).elems e' = w'.elems e' ∧ viewVal (runAll w' cs) n (w'.elems e') = viewVal w n (w.elems e) := by
  have c := Proofs.Graph.copied g he hc
  have hb : Made w' (.buf (w.vals (w.elems e)).data.buf) := c.made _ (g _ _ (g _ _ he (.value e)) (.data _))
  obtain ⟨_, _, s⟩ := Proofs.Graph.all_frame cs w' c.good (by rintro o (rfl | rfl | rfl); exact c.elem; exact c.val; exact hb) h
  refine ⟨(s (.elem e') (.inl rfl)).symm, ?_⟩
  rw [← c.view n]
  apply Proofs.Graph.view_frame
  intro o r
  cases r with
  | refl => exact s _ (.inr (.inl rfl))
  | step ed r =>
    cases ed with
    | data =>
      cases r with
      | refl => rw [c.eq]; exact s _ (.inr (.inr rfl))
      | step ed _ => cases ed
    | d hd' => rw [c.eq, hd] at hd'; cases hd'

example : (exNull.vals (exNull.elems 0)).d = none ∧ copyElement 0 exNull = ((copyElement 0 exNull).1, .ok 1) ∧
    Avoid (fun o => o = .elem 1 ∨ o = .val ((copyElement 0 exNull).1.elems 1) ∨ o = .buf (exNull.vals (exNull.elems 0)).data.buf) (copyElement 0 exNull).1
      [.construct [0x10, 98, 0, 7, 0, 0, 0] 3 none, .set 0 2, .setValue 0 2] := by
  refine ⟨rfl, rfl, nofun, fun _ _ h => h, ⟨by show 0 < 3; decide, by show 2 < 3; decide⟩, ?_, ⟨by show 0 < 3; decide, by show 2 < 3; decide⟩, ?_, trivial⟩
  · rintro o (rfl | rfl | rfl) h <;> cases h
  · rintro o (rfl | rfl | rfl) h <;> cases h

/-- An element that has been opened shares its document with the copy: both are the same as long as neither value is written to, so what is done to the document of one
    is done to that of the other. -/
theorem C87_shared {w w' : World} (g : Good w) {e e' : Nat} (he : Made w (.elem e)) (hc : copyElement e w = (w', .ok e')) {cs : List Call}
    (h : Avoid (fun o => o = .val (w.elems e) ∨ o = .val (w'.elems e')) w' cs) (n : Nat) :
    viewVal (runAll w' cs) n (w'.elems e') = viewVal (runAll w' cs) n (w.elems e) ∧
      ((runAll w' cs).vals (w'.elems e')).d = (w.vals (w.elems e)).d := by
  have c := Proofs.Graph.copied g he hc
  have hp : Made w (.val (w.elems e)) := g _ _ he (.value e)
  obtain ⟨_, _, s⟩ := Proofs.Graph.all_frame cs w' c.good (by rintro o (rfl | rfl); exact c.made _ hp; exact c.val) h
  have a1 : w'.vals (w.elems e) = (runAll w' cs).vals (w.elems e) := s _ (.inl rfl)
  have a2 : w'.vals (w'.elems e') = (runAll w' cs).vals (w'.elems e') := s _ (.inr rfl)
  have a3 : w.vals (w.elems e) = w'.vals (w.elems e) := c.same _ hp
  have a4 : (runAll w' cs).vals (w'.elems e') = (runAll w' cs).vals (w.elems e) := by rw [← a2, c.eq, a3, a1]
  refine ⟨?_, by rw [← a2, c.eq]⟩
  cases n with
  | zero => rfl
  | succ n => unfold viewVal; rw [a4]

/-- { "d": { } } with the inner document constructed, and a copy of its element; the last call adds { "n": null } to the inner document of the original -/
def exSub : List Call := [.read 9 ⟨0, 0, 5⟩, .construct [3, 100, 0] 3 (some 0), .construct [0x0A, 110, 0] 3 none]

/-- five bytes, an empty document -/
def exBytes : World := { exNone with bufs := fun _ => [5, 0, 0, 0, 0], nb := 1 }

theorem exBytes_good : Good exBytes := by
  intro a b h e
  cases e <;> exact absurd h (Nat.not_lt_zero _)

/-- So copies are not independent: what is added to the document of the original is in the copy. -/
theorem C87_not_independent : ∃ (w w' : World) (e e' : Nat) (cs : List Call), Good w ∧ Made w (.elem e) ∧ copyElement e w = (w', .ok e') ∧
    Avoid (fun o => o = .elem e' ∨ o = .val (w'.elems e')) w' cs ∧ 
      viewVal w' 9 (w'.elems e') = .ok (.withDoc 0 3 [3, 100, 0] []) ∧
      viewVal (runAll w' cs) 9 (w'.elems e') = .ok (.withDoc 0 3 [3, 100, 0] [.raw 0 3 [0x0A, 110, 0]]) := by
  have g1 := (C87_writes exBytes_good (c := .read 9 ⟨0, 0, 5⟩) (by show 0 < 1; decide)).1
  have g2 := (C87_writes g1 (c := .construct [3, 100, 0] 3 (some 0)) (by rintro i h; cases h; show 0 < 1; decide)).1
  have g3 := (C87_writes g2 (c := .construct [0x0A, 110, 0] 3 none) nofun).1
  refine ⟨runAll exBytes exSub, _, 0, 2, [.change 0 [1]], g3, by show 0 < 2; decide, rfl, ⟨⟨by show 0 < 1; decide, ?_⟩, ?_, trivial⟩, rfl, rfl⟩
  · rintro e he; obtain rfl := List.mem_singleton.mp he; show 1 < 3; decide
  · rintro o (rfl | rfl) h <;> cases h

/-- `Document.Copy` gives a new document of the same elements.  It shows what is done to the elements, and not what is done to the list of the other. -/
theorem C87_document_copy {w w' : World} (g : Good w) {d d' : Nat} (hd : Made w (.doc d)) (hc : copyDocument d w = (w', .ok d')) :
    ¬ Made w (.doc d') ∧ (∀ o, Made w o → Same w w' o) ∧ (∀ n, viewDoc w' n d' = viewDoc w n d) ∧
      ∀ cs, (Avoid (fun o => o = .doc d ∨ o = .doc d') w' cs → ∀ n, viewDoc (runAll w' cs) n d' = viewDoc (runAll w' cs) n d) ∧
        (Avoid (fun o => o = .doc d') w' cs → (runAll w' cs).docs d' = w.docs d) := by
  have x := Proofs.Graph.copyDocument_ext w d g hd
  have e1 : (copyDocument d w).1.docs w.nd = w.docs d := Proofs.Graph.upd_self _ _ _
  have e2 : (copyDocument d w).1.nd = w.nd + 1 := rfl
  have e3 : (copyDocument d w).2 = .ok w.nd := rfl
  rw [hc] at x e1 e2 e3
  simp only [Res.ok.injEq] at x e1 e2 e3
  subst e3
  have hm : Made w' (.doc w.nd) := by show w.nd < w'.nd; omega
  have e4 : w.docs d = w'.docs d := x.same (.doc d) hd
  refine ⟨Nat.lt_irrefl _, x.same, ?_, ?_⟩
  · intro n
    rw [← Proofs.Graph.viewDoc_frame n d (fun o r => x.same o (Proofs.Graph.reach_made g hd r))]
    unfold viewDoc
    rw [e1, e4]
  · intro cs
    constructor
    · intro h n
      obtain ⟨_, _, s⟩ := Proofs.Graph.all_frame cs w' (x.good g) (by rintro o (rfl | rfl); exact x.made hd; exact hm) h
      have a1 : w'.docs d = (runAll w' cs).docs d := s _ (.inl rfl)
      have a2 : w'.docs w.nd = (runAll w' cs).docs w.nd := s _ (.inr rfl)
      unfold viewDoc
      rw [← a1, ← a2, e1, e4]
    · intro h
      obtain ⟨_, _, s⟩ := Proofs.Graph.all_frame cs w' (x.good g) (by rintro o rfl; exact hm) h
      have a2 : w'.docs w.nd = (runAll w' cs).docs w.nd := s _ rfl
      rw [← a2, e1]

example : Good (runAll exBytes [.read 9 ⟨0, 0, 5⟩]) ∧ Made (runAll exBytes [.read 9 ⟨0, 0, 5⟩]) (.doc 0) :=
  ⟨(C87_writes exBytes_good (c := .read 9 ⟨0, 0, 5⟩) (by show 0 < 1; decide)).1, by show 0 < 1; decide⟩

/-- `EC.Value` gives a new element with its own bytes, and with its own list of the elements of the document, if there is one. -/
theorem C87_value {w w' : World} (g : Good w) {key : Bytes} {p e : Nat} (hp : Made w (.val p))
    (hc : Graph.convertValueToElem key p w = (w', .ok (some e))) :
    (∀ o, Made w o → Same w w' o) ∧ ¬ Made w (.elem e) ∧ ¬ Made w (.val (w'.elems e)) ∧ ¬ Made w (.buf (w'.vals (w'.elems e)).data.buf) ∧
      (w'.vals (w'.elems e)).start = 0 ∧ (w'.vals (w'.elems e)).offset = u32 (key.length + 2) ∧
      (∃ t, (w.bytes (w.vals p).data)[(w.vals p).start]? = some t ∧
        w'.bytes (w'.vals (w'.elems e)).data = t :: (key ++ 0 :: (w.bytes (w.vals p).data).drop (w.vals p).offset)) ∧
      match (w.vals p).d with
      | none => (w'.vals (w'.elems e)).d = none
      | some d => ∃ d', (w'.vals (w'.elems e)).d = some d' ∧ ¬ Made w (.doc d') ∧ w'.docs d' = w.docs d :=
  Proofs.Graph.converted g hp hc

example : Graph.convertValueToElem [98] 0 exNull = ((Graph.convertValueToElem [98] 0 exNull).1, .ok (some 1)) := rfl

/-- For a value that has no bytes `EC.Value` gives nil and makes nothing. -/
theorem C87_value_nil {w : World} {p : Nat} (key : Bytes) (h : (w.vals p).offset = 0 ∨ w.bytes (w.vals p).data = []) :
    Graph.convertValueToElem key p w = (w, .ok none) := Proofs.Graph.converted_nil key h

/-- with an offset but no bytes -/
example : ((({ exNone with vals := fun _ => ⟨0, 3, ⟨0, 0, 0⟩, none⟩, nv := 1 } : World).vals 0).offset = 0 ∨
    ({ exNone with vals := fun _ => ⟨0, 3, ⟨0, 0, 0⟩, none⟩, nv := 1 } : World).bytes ⟨0, 0, 0⟩ = []) := .inr (by simp [World.bytes])

/-- `EC.SubDocument` and `EC.Array` give a new element with its own bytes that holds the document itself: whatever is done to the document later, or before, the element
    stands for what the document then is. -/
theorem C87_subdocument {w : World} (g : Good w) {d : Nat} (hd : Made w (.doc d)) {key : Bytes} (hl : key.length + 2 < 2147483648) {tag : UInt8} {make : Bytes → Doc → Res Value}
    (hm : tag = 3 ∧ make = EC.subDocument ∨ tag = 4 ∧ make = EC.array) :
    ∃ w' e, withDocument tag key d w = (w', .ok e) ∧ Good w' ∧ ¬ Made w (.elem e) ∧ ¬ Made w (.val (w'.elems e)) ∧ ¬ Made w (.buf (w'.vals (w'.elems e)).data.buf) ∧
      (∀ o, Made w o → Same w w' o) ∧
      ∀ cs, Avoid (fun o => o = .elem e ∨ o = .val (w'.elems e) ∨ o = .buf (w'.vals (w'.elems e)).data.buf) w' cs → ∀ n,
        viewVal (runAll w' cs) (n + 1) ((runAll w' cs).elems e) = (do make key (← viewDoc (runAll w' cs) n d)) := by
  have hx := Proofs.Graph.construct_ext w (tag :: (key ++ [0])) (u32 (1 + key.length + 1)) (some d) (fun i hi => by cases hi; exact hd)
  have he : withDocument tag key d w = construct (tag :: (key ++ [0])) (u32 (1 + key.length + 1)) (some d) w := by
    unfold withDocument
    rw [Proofs.Graph.bind_ok_run (Proofs.Graph.lift_run _ _ |>.trans (by rw [Proofs.header_ok tag key hl]))]
  have e1 : (construct (tag :: (key ++ [0])) (u32 (1 + key.length + 1)) (some d) w).1.elems w.ne = w.nv := Proofs.Graph.upd_self _ _ _
  have e2 : (construct (tag :: (key ++ [0])) (u32 (1 + key.length + 1)) (some d) w).1.vals w.nv = ⟨0, u32 (1 + key.length + 1), ⟨w.nb, 0, (tag :: (key ++ [0])).length⟩, some d⟩ :=
    Proofs.Graph.upd_self _ _ _
  have e3 : (construct (tag :: (key ++ [0])) (u32 (1 + key.length + 1)) (some d) w).1.bufs w.nb = tag :: (key ++ [0]) := Proofs.Graph.upd_self _ _ _
  have hnb : (construct (tag :: (key ++ [0])) (u32 (1 + key.length + 1)) (some d) w).1.nb = w.nb + 1 := rfl
  have hnv : (construct (tag :: (key ++ [0])) (u32 (1 + key.length + 1)) (some d) w).1.nv = w.nv + 1 := rfl
  have hne : (construct (tag :: (key ++ [0])) (u32 (1 + key.length + 1)) (some d) w).1.ne = w.ne + 1 := rfl
  have hr : construct (tag :: (key ++ [0])) (u32 (1 + key.length + 1)) (some d) w = ((construct (tag :: (key ++ [0])) (u32 (1 + key.length + 1)) (some d) w).1, .ok w.ne) := rfl
  generalize (construct (tag :: (key ++ [0])) (u32 (1 + key.length + 1)) (some d) w).1 = w' at *
  refine ⟨w', w.ne, he.trans hr, hx.good g, by simp [Made], by rw [e1]; simp [Made], by rw [e1, e2]; simp [Made], hx.same, fun cs h n => ?_⟩
  rw [e1, e2] at h
  obtain ⟨_, _, s⟩ := Proofs.Graph.all_frame cs w' (hx.good g) (by rintro o (rfl | rfl | rfl) <;> simp only [Made] <;> omega) h
  have s1 : w'.elems w.ne = (runAll w' cs).elems w.ne := s _ (.inl rfl)
  have s2 : w'.vals w.nv = (runAll w' cs).vals w.nv := s _ (.inr (.inl rfl))
  have s3 : w'.bufs w.nb = (runAll w' cs).bufs w.nb := s _ (.inr (.inr rfl))
  have hb : (runAll w' cs).bytes ⟨w.nb, 0, (tag :: (key ++ [0])).length⟩ = tag :: (key ++ [0]) := by
    rw [World.bytes, ← s3, e3, List.drop_zero, List.take_length]
  rw [← s1, e1, viewVal, ← s2, e2]
  simp only [hb]
  show (viewDoc (runAll w' cs) n d).bind _ = (viewDoc (runAll w' cs) n d).bind _
  cases viewDoc (runAll w' cs) n d with
  | ok t =>
    rcases hm with ⟨rfl, rfl⟩ | ⟨rfl, rfl⟩
    · simp only [Res.bind, EC.subDocument, Proofs.header_ok _ key hl]; rfl
    · simp only [Res.bind, EC.array, Proofs.header_ok _ key hl]; rfl
  | err e => rfl
  | panic => rfl
  | oof => rfl

example := C87_subdocument (C87_writes exBytes_good (c := .read 9 ⟨0, 0, 5⟩) (by show 0 < 1; decide)).1 (d := 0) (by show 0 < 1; decide) (key := [100]) (by decide) (.inl ⟨rfl, rfl⟩)

/-- `ReadDocument` of a well-formed document gives a new document that stands for it and whose elements refer to the bytes. -/
theorem C87_read {w : World} {s : Span} (hs : Made w (.buf s.buf)) {fs : Fields} (wf : fs.WF) (hb : w.bytes s = encDoc fs)
    (hl : (encDoc fs).length < 2147483648) {n : Nat} (hn : (encDoc fs).length < n) :
    ∃ d w', Graph.readDocument n s w = (w', .ok d) ∧ ¬ Made w (.doc d) ∧ (∀ o, Made w o → Same w w' o) ∧ Calm w' n d fs ∧
      ∀ e ∈ w'.docs d, (w'.vals (w'.elems e)).data = s := by
  obtain ⟨t, h1, h2⟩ := Proofs.readDocument_enc n fs wf [] hn (by simpa using hl)
  rw [List.append_nil, ← hb] at h1
  obtain ⟨d, w', r1, x, r2, r3, r4, r5⟩ := Proofs.Graph.read_view hs h1
  obtain ⟨k, rfl⟩ : ∃ k, n = k + 1 := ⟨n - 1, by omega⟩
  refine ⟨d, w', r1, Nat.not_lt.mpr r2, x.same, ⟨⟨t, r4 k, h2⟩, ?_⟩, fun e he => (r5 e he).2.2.1⟩
  intro p r _
  cases r with
  | step ed r => cases ed with
    | elem he => cases r with
      | step ed r => cases ed with
        | value => 
          obtain ⟨_, _, _, q⟩ := r5 _ he
          cases r with
          | refl => exact q
          | step ed r => cases ed with
            | data => cases r with
              | step ed _ => cases ed
            | d hd => rw [q] at hd; cases hd

example : exBytes.bytes ⟨0, 0, 5⟩ = encDoc .nil := by decide +kernel

/-- Marshalling a well-formed document changes nothing and gives its encoding, if no scope in it has been opened. -/
theorem C87_marshal {w : World} {n d : Nat} {fs : Fields} (h : Calm w n d fs) (hl : (encDoc fs).length < 2147483648)
    (hn : (encDoc fs).length < n) : Graph.marshal n d w = (w, .ok (encDoc fs)) := Proofs.Graph.marshal_calm h hl hn

theorem exCalm : Calm (runAll exBytes [.read 9 ⟨0, 0, 5⟩]) 9 0 .nil := by
  obtain ⟨d, w', h1, _, _, h2, _⟩ := C87_read (w := exBytes) (s := ⟨0, 0, 5⟩) (fs := .nil) (n := 9) (by show 0 < 1; decide) trivial (by decide +kernel)
    (by decide +kernel) (by decide +kernel)
  have e : Graph.readDocument 9 ⟨0, 0, 5⟩ exBytes = (runAll exBytes [.read 9 ⟨0, 0, 5⟩], .ok 0) := rfl
  rw [e] at h1
  simp only [Prod.mk.injEq, Res.ok.injEq] at h1
  obtain ⟨rfl, rfl⟩ := h1
  exact h2

/-- { "c": code "f" with the scope { "a": null } } -/
def exCode : Fields := .cons [99] (.codeScope [102] (.cons [97] .null .nil)) .nil

/-- its bytes; a document read from them; a copy of the document, which has a copy of the element; the scope is opened and { "b": null } is appended to it -/
def exScope : World := runAll { exNone with bufs := fun _ => encDoc exCode, nb := 1 }
  [.read 50 ⟨0, 0, 26⟩, .copyElement 0, .copyDocument 0, .change 1 [1], .open 50 0, .construct [0x0A, 98, 0] 3 none, .change 2 [2, 3]]

/-- Otherwise marshalling changes what others have: the length of code is written into the bytes from which the document was read.  Here, after the marshalling of the
    document, which gives the right bytes, the bytes it was read from are no longer a document, and the copy can no longer be marshalled. -/
theorem C87_marshal_overwrites : exScope.bufs 0 = encDoc exCode ∧
    (Graph.marshal 50 1 exScope).2 = .ok (encDoc exCode) ∧
    (Graph.marshal 50 0 exScope).2 = .ok (encDoc (.cons [99] (.codeScope [102] (.cons [97] .null (.cons [98] .null .nil))) .nil)) ∧
    (Graph.marshal 50 0 exScope).1.bufs 0 = (encDoc exCode).set 7 21 ∧ (encDoc exCode).set 7 21 ≠ encDoc exCode ∧
    (Graph.readDocument 50 ⟨0, 0, 26⟩ (Graph.marshal 50 0 exScope).1).2 = .err .tooSmall ∧
    (Graph.marshal 50 1 (Graph.marshal 50 0 exScope).1).2 = .err .tooSmall := by decide +kernel

/-- Opening: the value gets a document, nothing else that there was changes, the value is then as `Model.openValue` says, and every value stands for what it did before. -/
theorem C87_open {w : World} (g : Good w) {p n k : Nat} (hp : Made w (.val p)) {v v' : Value} (hv : viewVal w k p = .ok v) (ho : Model.openValue n v = .ok v') :
    ∃ d w', Graph.openValue n p w = (w', .ok d) ∧ w'.vals p = { w.vals p with d := some d } ∧ viewVal w' (k + 1) p = .ok v' ∧
      (∀ o, Made w o → o ≠ .val p → Same w w' o) ∧
      ∀ m q u key t, Made w (.val q) → viewVal w m q = .ok u → Rep u key t → t.enc.length < 2147483648 → t.enc.length < n →
        ∃ u', viewVal w' (m + 1) q = .ok u' ∧ Rep u' key t := by
  obtain ⟨d, w', h1, h2, h3⟩ := Proofs.Graph.open_view g hp hv ho
  obtain ⟨_, _, h4, h5, _⟩ := Proofs.Graph.open_others g hp h1
  exact ⟨d, w', h1, h5, h3, h4, Proofs.Graph.open_keeps g hp h1⟩

/-- Opening panics where it does for the value alone, also if it is because the bytes of the inner document can not be read. -/
theorem C87_open_panics {w : World} {p n k : Nat} {v : Value} (hv : viewVal w k p = .ok v) (ho : Model.openValue n v = .panic) :
    (Graph.openValue n p w).2 = .panic := Proofs.Graph.open_panics hv ho

/-- { "d": ... } with an inner document of which only the length is right -/
def exTorn : World := runAll { exNone with bufs := fun _ => [13, 0, 0, 0, 3, 100, 0, 5, 0, 0, 0, 7, 0], nb := 1 } [.read 17 ⟨0, 0, 13⟩]

example : Made exTorn (.val 0) ∧ ∃ v, viewVal exTorn 1 0 = .ok v ∧ Model.openValue 17 v = .panic := by
  refine ⟨show 0 < exTorn.nv by decide +kernel, ?_⟩
  have h1 : (match viewVal exTorn 1 0 with
      | .ok v => (match Model.openValue 17 v with | .panic => true | _ => false)
      | _ => false) = true := by decide +kernel
  split at h1
  · next v hv =>
    split at h1
    · next hv' => exact ⟨v, hv, hv'⟩
    · cases h1
  · cases h1

/-- Opening a document or an array keeps that a document can be marshalled without a change. -/
theorem C87_open_calm {w w' : World} (g : Good w) {p n d m d0 : Nat} {fs : Fields} (hp : Made w (.val p)) (hnc : ¬ IsCode w p)
    (h : Graph.openValue n p w = (w', .ok d)) (hd0 : Made w (.doc d0)) (hc : Calm w m d0 fs) (hl : (encDoc fs).length < 2147483648)
    (hn : (encDoc fs).length < n) : Calm w' (m + 1) d0 fs := Proofs.Graph.open_calm g hp hnc h hd0 hc hl hn

/-- { "d": { "a": null } }, read -/
def exHeld : World := runAll { exNone with bufs := fun _ => [16, 0, 0, 0, 3, 100, 0, 8, 0, 0, 0, 10, 97, 0, 0, 0], nb := 1 } [.read 17 ⟨0, 0, 16⟩]

example : Made exHeld (.val 0) ∧ ¬ IsCode exHeld 0 ∧ Made exHeld (.doc 0) ∧
    (∃ v v', viewVal exHeld 1 0 = .ok v ∧ Model.openValue 17 v = .ok v') ∧ (Graph.openValue 17 0 exHeld).2 = .ok 1 := by
  have h1 : (match viewVal exHeld 1 0 with
      | .ok v => (match Model.openValue 17 v with | .ok _ => true | _ => false)
      | _ => false) = true := by decide +kernel
  have h2 : (match (Graph.openValue 17 0 exHeld).2 with | .ok d => d == 1 | _ => false) = true := by decide +kernel
  refine ⟨by show 0 < 1; decide, by unfold IsCode; decide +kernel, by show 0 < 1; decide, ?_, ?_⟩
  · split at h1
    · next v hv =>
      split at h1
      · next v' hv' => exact ⟨v, v', hv, hv'⟩
      · cases h1
    · cases h1
  · split at h2
    · next d hd => rw [hd, eq_of_beq h2]
    · cases h2

/-- Opening again gives the same document and changes nothing. -/
theorem C87_open_again {w w' : World} (g : Good w) {p n d : Nat} (hp : Made w (.val p)) (h : Graph.openValue n p w = (w', .ok d)) (m : Nat) :
    Graph.openValue m p w' = (w', .ok d) := Proofs.Graph.open_again g hp h m

/-- A document that is in itself can not be looked at or marshalled: the call never returns (in Go, the stack overflows). -/
theorem C87_cycle {w : World} {d e : Nat} (he : e ∈ w.docs d) (r : Reach w (.elem e) (.doc d)) (n : Nat) :
    viewDoc w n d = .oof ∧ Graph.marshal n d w = (w, .oof) := by
  have h : viewDoc w n d = .oof := (Proofs.Graph.viewDoc_ok_or_oof n d).resolve_left (Proofs.Graph.view_cycle he r n)
  refine ⟨h, ?_⟩
  unfold Graph.marshal
  rw [Proofs.Graph.bind_run, Proofs.Graph.look_run, h]
  rfl

/-- `d.Append(EC.SubDocument("d", d))` -/
example : let w := runAll exBytes [.read 9 ⟨0, 0, 5⟩, .construct [3, 100, 0] 3 (some 0), .change 0 [0]]
    0 ∈ w.docs 0 ∧ Reach w (.elem 0) (.doc 0) :=
  ⟨by decide, .step (.value 0) (.step (.d rfl) (.refl _))⟩

/-- All others can. -/
theorem C87_acyclic {w : World} {rank : Nat → Nat} (h : Ranked w rank) {n p : Nat} (hn : rank p < n) : ∃ v, viewVal w n p = .ok v :=
  Proofs.Graph.view_ranked h n p hn

example : Ranked (runAll exBytes exSub) (fun p => if p = 0 then 1 else 0) := by
  intro p d hd e he
  have : ∀ d, (runAll exBytes exSub).docs d = [] := by intro d; show upd (fun _ => []) 0 [] d = []; unfold upd; split <;> rfl
  rw [this] at he; cases he

end Birch.Props
