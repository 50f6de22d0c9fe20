import Verif.Proofs.UnitStart
/-
The calls of the element-wise writer, against the specification.
-/
set_option linter.unusedSimpArgs false
namespace Srcml
open Spec

/-! ### The contents follow the start tag -/

/-- What is written after the start tag `S` of the unit: nothing, or `>` and something. -/
def Grown (S name : Str) (w : Writer) : Prop :=
  (w.out = S ∧ w.stack = [(name, true)] ∧ w.nsstack = []) ∨ ∃ r, w.out = S ++ '>' :: r

theorem closeTag_grows (w : Writer) : ∃ r, w.closeTag.out = w.out ++ r := by
  unfold Writer.closeTag
  split
  · exact ⟨w.nsstack.flatMap (fun p => attrText p.1 p.2) ++ ['>'], by simp [Writer.outputNs]⟩
  · exact ⟨[], by simp⟩

theorem Grown.closeTag {S name : Str} {w : Writer} (h : Grown S name w) : ∃ r, w.closeTag.out = S ++ '>' :: r := by
  rcases h with ⟨h1, h2, h3⟩ | ⟨r, h⟩
  · exact ⟨[], by simp [Writer.closeTag, h1, h2, h3, Writer.outputNs]⟩
  · obtain ⟨r', h'⟩ := closeTag_grows w
    exact ⟨r ++ r', by rw [h', h]; simp⟩

theorem Grown.writeRaw {S name : Str} {w : Writer} (h : Grown S name w) (s : Str) : Grown S name (w.writeRaw s) := by
  obtain ⟨r, hr⟩ := h.closeTag
  exact Or.inr ⟨r ++ s, by simp [Writer.writeRaw, hr]⟩

theorem Grown.writeString {S name : Str} {w : Writer} (h : Grown S name w) (s : Str) : Grown S name (w.writeString s) := by
  unfold Writer.writeString; split <;> exact h.writeRaw _

theorem Grown.addString {S name : Str} (s : Str) : ∀ {w : Writer} (acc : Str), Grown S name w →
    Grown S name (addStringLoop w acc s) := by
  induction s with
  | nil => intro w acc h; exact h.writeString _
  | cons c cs ih =>
    intro w acc h
    unfold addStringLoop
    split
    · exact ih [] ((h.writeString acc).writeRaw _)
    · exact ih _ h

theorem Grown.startElement {S name : Str} {w : Writer} (h : Grown S name w) (pre : Option Str) (n : Str) (uri : Option Str) :
    Grown S name (w.startElement pre n uri).1 := by
  unfold Writer.startElement
  split
  · exact h
  · obtain ⟨r, hr⟩ := h.closeTag
    exact Or.inr ⟨r ++ '<' :: qname pre n, by simp [hr]⟩

theorem Grown.of_ext {S name : Str} {w w' : Writer} (h : ∃ r, w.out = S ++ '>' :: r) (h' : ∃ r, w'.out = w.out ++ r) :
    Grown S name w' := by
  obtain ⟨r, h⟩ := h
  obtain ⟨r', h'⟩ := h'
  exact Or.inr ⟨r ++ r', by rw [h', h]; simp⟩

theorem writeAttribute_grows (w : Writer) (n v : Str) : ∃ r, (w.writeAttribute n v).1.out = w.out ++ r := by
  unfold Writer.writeAttribute
  split
  · split
    · exact ⟨[], by simp⟩
    · exact ⟨attrText n v, rfl⟩
  · exact ⟨[], by simp⟩

theorem writeAttributeNS_grows (w : Writer) (pre : Option Str) (n : Str) (uri : Option Str) (v : Str) :
    ∃ r, (w.writeAttributeNS pre n uri v).1.out = w.out ++ r := by
  unfold Writer.writeAttributeNS
  split
  · exact ⟨[], by simp⟩
  · split
    · exact writeAttribute_grows _ _ _
    · split
      · split
        · exact writeAttribute_grows _ _ _
        · exact ⟨[], by simp⟩
      · exact writeAttribute_grows { w with nsstack := _ } _ _

theorem endElement_grows (w : Writer) : ∃ r, w.endElement.1.out = w.out ++ r := by
  unfold Writer.endElement
  split
  · exact ⟨[], by simp⟩
  · exact ⟨w.nsstack.flatMap (fun p => attrText p.1 p.2) ++ ['/', '>'], by simp [Writer.outputNs]⟩
  · rename_i n rest _
    exact ⟨'<' :: '/' :: n ++ ['>'], by simp⟩

/-- Inside of an element, the start tag of the unit is complete. -/
theorem Rel.inside {name S : Str} {pre0 : List Ev} {b : Build} {w : Writer} (h : Rel name pre0 b w) (hg : Grown S name w)
    (hb : b.stack ≠ [] ∨ b.evs ≠ []) : ∃ r, w.out = S ++ '>' :: r := by
  rcases hg with ⟨_, h2, _⟩ | h2
  · exfalso
    unfold Rel at h
    cases hc : b.cur with
    | some e =>
      rw [hc] at h
      obtain ⟨st, _, _, _, _, h5⟩ := h
      have := h5.stack
      simp only [h2, List.append_nil] at this
      have := congrArg List.length this
      simp at this
    | none =>
      rw [hc] at h
      obtain ⟨flag, h5, h6⟩ := h
      have := h5.stack
      rw [h2] at this
      simp only [List.append_nil] at this
      cases hst : b.stack with
      | cons x xs =>
        rw [hst] at this
        have := congrArg List.length this
        simp at this
      | nil =>
        rw [hst] at this
        simp only [List.map_nil, List.nil_append, List.cons.injEq, Prod.mk.injEq, true_and, and_true] at this
        subst this
        rcases hb with hb | hb
        · exact hb hst
        · exact hb (h6 rfl).2
  · exact h2

/-! ### One call -/

/-- The piece that a call writes, if its arguments are there. -/
def WriteCall.piece : WriteCall → Option Piece
  | .startElement pre (some name) uri => some (.start pre name uri)
  | .endElement => some .fin
  | .attribute pre (some name) uri (some v) => some (.attr pre name uri v)
  | .namespace pre (some uri) => some (.ns pre uri)
  | .string (some s) => some (.text s)
  | _ => none

/-- A translator in the middle of a unit. -/
structure TRel (S name : Str) (pre0 : List Ev) (b : Build) (t : Translator) : Prop where
  rel : Rel name pre0 b t.out.w
  grown : Grown S name t.out.w
  outputting : t.outputting = true
  depth : t.depth = b.stack.length

theorem step_ok (sax : Sax) (a : Archive) (thread : ThreadState) {S name : Str} {pre0 : List Ev} {b b' : Build}
    {t : Translator} (h : TRel S name pre0 b t) (u : UnitObj) (hu : u.translator = some t) (c : WriteCall) (p : Piece)
    (hc : c.piece = some p) (hs : b.step p = some b') :
    ∃ t', c.run sax a thread u = .val (.ok, { u with translator := some t' }) ∧ TRel S name pre0 b' t' := by
  have inside : ∀ e, b.cur = some e → ∃ r, t.out.w.out = S ++ '>' :: r := by
    intro e he
    refine h.rel.inside h.grown (Or.inl ?_)
    have := h.rel
    unfold Rel at this
    rw [he] at this
    obtain ⟨st, h1, _⟩ := this
    rw [h1]; simp
  cases c with
  | startUnit => cases hc
  | endUnit => cases hc
  | startElement pre n uri =>
    cases n with
    | none => cases hc
    | some n =>
      cases hc
      obtain ⟨h1, h2, h3', h4⟩ := h.rel.start pre n uri hs
      have h3 : n ≠ ['u', 'n', 'i', 't'] := h3'
      refine ⟨(t.addStartElement pre (some n) uri).1, ?_, ?_⟩
      · simp [WriteCall.run, UnitObj.viaTranslator, hu, Translator.addStartElement, h.outputting, h3, h2]
      · refine ⟨?_, ?_, ?_, ?_⟩
        · simpa [Translator.addStartElement, h.outputting, h3] using h1
        · simpa [Translator.addStartElement, h.outputting, h3] using h.grown.startElement pre n _
        · simp [Translator.addStartElement, h.outputting, h3]
        · simp [Translator.addStartElement, h.outputting, h3, h.depth, h4]
  | endElement =>
    cases hc
    obtain ⟨h1, h2, h3⟩ := h.rel.fin hs
    refine ⟨t.addEndElement.1, ?_, ?_⟩
    · simp [WriteCall.run, UnitObj.viaTranslator, hu, Translator.addEndElement, h.outputting, h2]
    · refine ⟨?_, ?_, ?_, ?_⟩
      · simpa [Translator.addEndElement, h.outputting] using h1
      · have := Grown.of_ext (S := S) (name := name) (h.rel.inside h.grown (Or.inl (by intro e; simp [e] at h3)))
          (endElement_grows t.out.w)
        simpa [Translator.addEndElement, h.outputting] using this
      · simp [Translator.addEndElement, h.outputting]
      · simp only [Translator.addEndElement, h.outputting, h.depth, h3, Bool.true_eq_false, if_false]
        omega
  | «namespace» pre uri =>
    cases uri with
    | none => cases hc
    | some uri =>
      cases hc
      obtain ⟨h1, h2, h3⟩ := h.rel.ns pre uri hs
      have hcur : ∃ e, b.cur = some e := by
        simp only [Build.step] at hs
        cases hb : b.cur with
        | none => rw [hb] at hs; cases hs
        | some e => exact ⟨e, rfl⟩
      obtain ⟨e, he⟩ := hcur
      refine ⟨(t.addNamespace pre (some uri)).1, ?_, ?_⟩
      · simp [WriteCall.run, UnitObj.viaTranslator, hu, Translator.addNamespace, h.outputting, h2]
      · refine ⟨?_, ?_, ?_, ?_⟩
        · simpa [Translator.addNamespace, h.outputting] using h1
        · have := Grown.of_ext (S := S) (name := name) (inside e he) (writeAttribute_grows t.out.w (xmlnsName pre) uri)
          simpa [Translator.addNamespace, h.outputting] using this
        · simp [Translator.addNamespace, h.outputting]
        · simp [Translator.addNamespace, h.outputting, h.depth, h3]
  | «attribute» pre n uri v =>
    cases n with
    | none => cases hc
    | some n =>
      cases v with
      | none => cases hc
      | some v =>
        cases hc
        obtain ⟨h1, h2, h3⟩ := h.rel.attr pre n uri v hs
        have hcur : ∃ e, b.cur = some e := by
          simp only [Build.step] at hs
          cases hb : b.cur with
          | none => rw [hb] at hs; cases hs
          | some e => exact ⟨e, rfl⟩
        obtain ⟨e, he⟩ := hcur
        refine ⟨(t.addAttribute pre (some n) uri (some v)).1, ?_, ?_⟩
        · simp [WriteCall.run, UnitObj.viaTranslator, hu, Translator.addAttribute, h.outputting, h2]
        · refine ⟨?_, ?_, ?_, ?_⟩
          · simpa [Translator.addAttribute, h.outputting] using h1
          · have := Grown.of_ext (S := S) (name := name) (inside e he) (writeAttributeNS_grows t.out.w pre n uri v)
            simpa [Translator.addAttribute, h.outputting] using this
          · simp [Translator.addAttribute, h.outputting]
          · simp [Translator.addAttribute, h.outputting, h.depth, h3]
  | string s =>
    cases s with
    | none => cases hc
    | some s =>
      cases hc
      simp only [Build.step] at hs
      split at hs
      · rename_i hl
        cases hs
        have h1 := h.rel.addString s [] (fun _ h => by cases h) hl
        refine ⟨(t.addString (some s)).1, ?_, ?_⟩
        · simp [WriteCall.run, UnitObj.viaTranslator, hu, Translator.addString, h.outputting]
        · refine ⟨?_, ?_, ?_, ?_⟩
          · simpa [Translator.addString, h.outputting] using h1
          · simpa [Translator.addString, h.outputting] using h.grown.addString s []
          · simp [Translator.addString, h.outputting]
          · simp [Translator.addString, h.outputting, h.depth]
      · cases hs

/-! ### The end of the unit -/

theorem endElements_ok {S name : Str} {pre0 : List Ev} (n : Nat) : ∀ {b : Build} {t : Translator}, TRel S name pre0 b t →
    b.stack.length = n →
    ∃ b', TRel S name pre0 b' (t.endElements n) ∧ b'.stack = [] ∧ b'.cur = none ∧
      b'.evs = b.flush ++ b.stack.map .cl := by
  induction n with
  | zero =>
    intro b t h hn
    have hst : b.stack = [] := by simpa using hn
    have hc : b.cur = none := by
      cases hc : b.cur with
      | none => rfl
      | some e =>
        have := h.rel
        unfold Rel at this; rw [hc] at this
        obtain ⟨st, h1, _⟩ := this
        rw [hst] at h1; cases h1
    exact ⟨b, h, hst, hc, by simp [Build.flush, hc, hst]⟩
  | succ n ih =>
    intro b t h hn
    cases hst : b.stack with
    | nil => rw [hst] at hn; simp at hn
    | cons x xs =>
      have hs : b.step .fin = some { evs := b.flush ++ [.cl x], cur := none, stack := xs } := by
        simp [Build.step, hst]
      obtain ⟨h1, h2, h3⟩ := h.rel.fin hs
      have h' : TRel S name pre0 { evs := b.flush ++ [.cl x], cur := none, stack := xs } t.addEndElement.1 := by
        refine ⟨?_, ?_, ?_, ?_⟩
        · simpa [Translator.addEndElement, h.outputting] using h1
        · have := Grown.of_ext (S := S) (name := name) (h.rel.inside h.grown (Or.inl (by rw [hst]; simp)))
            (endElement_grows t.out.w)
          simpa [Translator.addEndElement, h.outputting] using this
        · simp [Translator.addEndElement, h.outputting]
        · simp only [Translator.addEndElement, h.outputting, h.depth, hst, Bool.true_eq_false, if_false, List.length_cons]
          omega
      obtain ⟨b', k1, k2, k3, k4⟩ := ih h' (by rw [hst] at hn; simpa using hn)
      refine ⟨b', k1, k2, k3, ?_⟩
      rw [k4]
      simp [Build.flush]

/-- Ending the unit itself: the document is complete. -/
theorem addEndUnit_ok {S name : Str} {pre0 : List Ev} {b : Build} {t : Translator} (h : TRel S name pre0 b t)
    (hst : b.stack = []) (hc : b.cur = none) (hne : pre0 ≠ []) :
    t.addEndUnit.2 = true ∧ readXml t.addEndUnit.1.out.w.out = some (pre0 ++ b.evs ++ [.cl name]) ∧
      ((t.out.w.out = S ∧ t.addEndUnit.1.out.w.out = S ++ ['/', '>']) ∨
        ∃ r r', t.out.w.out = S ++ '>' :: r ∧ t.addEndUnit.1.out.w.out = S ++ '>' :: r ++ r') := by
  have hd : t.depth.toNat = 0 := by rw [h.depth, hst]; rfl
  have hr := h.rel
  unfold Rel at hr
  rw [hc] at hr
  obtain ⟨flag, h1, h2⟩ := hr
  rw [hst] at h1
  have h3 := h1.endElement Base.ok_init
  have e1 : t.addEndUnit = ({ t with outputting := false, out := { t.out with w := t.out.w.endElement.1 } }, t.out.w.endElement.2) := by
    unfold Translator.addEndUnit
    rw [if_neg (by rw [h.outputting]; simp), hd]
    rfl
  rw [e1]
  refine ⟨h3.2, h3.1.read (by simp [hne]), ?_⟩
  rcases h.grown with ⟨g1, g2, g3⟩ | ⟨r, g⟩
  · left
    refine ⟨g1, ?_⟩
    simp [Writer.endElement, g2, Writer.outputNs, g3, g1]
  · right
    obtain ⟨r', e⟩ := endElement_grows t.out.w
    exact ⟨r, r', g, by show t.out.w.endElement.1.out = _; rw [e, g]⟩

/-- The unit as it is put together is what was written. -/
theorem assembled_same {S x y : Str} (h : (x = S ∧ y = S ++ ['/', '>']) ∨
    ∃ r r', x = S ++ '>' :: r ∧ y = S ++ '>' :: r ++ r') : assembled S y (S.length + 1) (x.length + 1) = y := by
  unfold assembled
  rcases h with ⟨h1, h2⟩ | ⟨r, r', h1, h2⟩
  · rw [if_neg (by rw [h1]; simp), h2]
  · rw [if_pos (by rw [h1]; simp), h2]
    have : (S ++ '>' :: r ++ r').drop (S.length + 1) = r ++ r' := by
      rw [show S ++ '>' :: r ++ r' = (S ++ ['>']) ++ (r ++ r') by simp,
        show S.length + 1 = (S ++ ['>']).length by simp, List.drop_left]
    rw [this]; simp

end Srcml
