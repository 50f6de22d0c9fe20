import Verif.Model.UnitWriter
import Verif.Spec.UnitWriter
import Verif.Proofs.UnitTag
/-
Element-wise writing against its specification.
-/
set_option linter.unusedSimpArgs false
namespace Srcml
open Spec

theorem prefixed_eq (pre : Option Str) (n : Str) : prefixed pre n = qname pre n := by cases pre <;> rfl

theorem declName_eq (pre : Option Str) : declName pre = xmlnsName pre := by cases pre <;> rfl

theorem legalName_iff (s : Str) : legalName s ↔ ValidName s := Iff.rfl

theorem legalText_iff (s : Str) : legalText s ↔ ValidValue s := Iff.rfl

theorem srcUri_eq : srcUri = SRC_NS_URI := rfl

/-! ### Pending declarations -/

theorem Sync.attrs {B : Base} {n : Str} {rest : List (Str × Bool)} {evs : List Ev} (l : List (Str × Str)) :
    ∀ (w : Writer) (attrs : List (Str × Str)), Sync B w (evs ++ [.op n attrs]) ((n, true) :: rest) →
      (∀ d ∈ l, ValidName d.1 ∧ ValidValue d.2) → ((attrs ++ l).map (·.1)).Nodup →
      Sync B { w with out := w.out ++ l.flatMap (fun p => attrText p.1 p.2) } (evs ++ [.op n (attrs ++ l)]) ((n, true) :: rest) := by
  induction l with
  | nil => intro w attrs h _ _; simpa using h
  | cons d l ih =>
    intro w attrs h hv hn
    obtain ⟨v1, v2⟩ := hv d (by simp)
    have hd : d.1 ∉ attrs.map (·.1) := by
      rw [List.map_append, List.nodup_append] at hn
      intro hc
      exact hn.2.2 d.1 hc d.1 (by simp) rfl
    obtain ⟨h1, h2⟩ := h.writeAttribute d.1 d.2 v1 v2 hd
    rw [h2] at h1
    have := ih _ _ h1 (fun x hx => hv x (by simp [hx])) (by simpa using hn)
    simpa [List.append_assoc] using this

/-- The writer and what was built agree. `name` is the unit, `pre0` what comes before the body. -/
def Rel (name : Str) (pre0 : List Ev) (b : Build) (w : Writer) : Prop :=
  match b.cur with
  | some e => ∃ st, b.stack = e.name :: st ∧ w.nsstack = e.decls ∧ e.legal ∧
      (∀ d ∈ e.decls, ValidName d.1 ∧ ValidValue d.2) ∧
      Sync {} { w with nsstack := [] } (pre0 ++ b.evs ++ [.op e.name e.attrs])
        ((e.name, true) :: ((st ++ [name]).map (fun x => (x, false))))
  | none => ∃ flag, Sync {} w (pre0 ++ b.evs) (b.stack.map (fun x => (x, false)) ++ [(name, flag)]) ∧
      (flag = true → b.stack = [] ∧ b.evs = [])

theorem outputNs_idem (w : Writer) : w.outputNs.outputNs = w.outputNs := by
  simp [Writer.outputNs]

theorem closeTag_outputNs {w : Writer} {n : Str} {rest : List (Str × Bool)} (h : w.stack = (n, true) :: rest) :
    w.closeTag = w.outputNs.closeTag := by
  unfold Writer.closeTag
  have h2 : w.outputNs.stack = (n, true) :: rest := h
  rw [h, h2]
  simp only [outputNs_idem]

/-- Completing the start tag: another writer that will go on the same way. -/
theorem Rel.flush {name : Str} {pre0 : List Ev} {b : Build} {w : Writer} (h : Rel name pre0 b w) :
    ∃ w' top, Sync {} w' (pre0 ++ b.flush) top ∧ w.closeTag = w'.closeTag ∧ w.endElement = w'.endElement ∧
      w.stack = w'.stack ∧ closedTop top = (b.stack ++ [name]).map (fun x => (x, false)) := by
  unfold Rel at h
  cases hc : b.cur with
  | none =>
    rw [hc] at h
    obtain ⟨flag, h1, h2⟩ := h
    refine ⟨w, b.stack.map (fun x => (x, false)) ++ [(name, flag)], ?_, rfl, rfl, rfl, ?_⟩
    · unfold Build.flush; rw [hc]; simpa using h1
    · simp [closedTop]
  | some e =>
    rw [hc] at h
    obtain ⟨st, h1, h2, h3, h4, h5⟩ := h
    have h6 := h5.attrs e.decls _ _ h4 (by simpa [Elem.legal] using h3)
    have hw : w.outputNs = { w with nsstack := [], out := w.out ++ e.decls.flatMap (fun p => attrText p.1 p.2) } := by
      simp [Writer.outputNs, h2]
    have hs : w.stack = (e.name, true) :: ((st ++ [name]).map (fun x => (x, false))) := by
      have := h5.stack; simpa using this
    refine ⟨w.outputNs, (e.name, true) :: ((st ++ [name]).map (fun x => (x, false))), ?_, closeTag_outputNs hs, ?_, rfl, ?_⟩
    · rw [hw]
      unfold Build.flush
      rw [hc]
      rw [← List.append_assoc]
      exact h6
    · unfold Writer.endElement
      have h2 : w.outputNs.stack = w.stack := rfl
      rw [h2, hs]
      simp only [outputNs_idem]
    · rw [h1]; simp [closedTop]

theorem Rel.stack_ne {name : Str} {pre0 : List Ev} {b : Build} {w : Writer} (h : Rel name pre0 b w) : w.stack ≠ [] := by
  obtain ⟨w', top, h1, _, _, h2, h3⟩ := h.flush
  rw [h2, h1.stack]
  intro he
  have : top = [] := by simpa using he
  rw [this] at h3
  simp [closedTop] at h3

theorem writeRaw_closeTag {w w' : Writer} (h : w.closeTag = w'.closeTag) (p : Str) : w.writeRaw p = w'.writeRaw p := by
  unfold Writer.writeRaw; rw [h]

theorem startElement_closeTag {w w' : Writer} (h : w.closeTag = w'.closeTag) (pre : Option Str) (n : Str) (u : Option Str)
    (hn : n ≠ []) : w.startElement pre n u = w'.startElement pre n u := by
  unfold Writer.startElement; rw [if_neg hn, if_neg hn, h]

/-- Starting an element. -/
theorem Rel.start {name : Str} {pre0 : List Ev} {b b' : Build} {w : Writer} (h : Rel name pre0 b w)
    (pre : Option Str) (n : Str) (uri : Option Str) (hs : b.step (.start pre n uri) = some b') :
    Rel name pre0 b' (w.startElement pre n (if uri = some SRC_NS_URI then none else uri)).1 ∧
      (w.startElement pre n (if uri = some SRC_NS_URI then none else uri)).2 = true ∧ n ≠ "unit".toList ∧
      b'.stack.length = b.stack.length + 1 := by
  simp only [Build.step] at hs
  split at hs
  · rename_i hl
    obtain ⟨l1, l2, l3, l4⟩ := hl
    cases hs
    obtain ⟨w', top, k1, k2, _, k4, k5⟩ := h.flush
    rw [startElement_closeTag k2 _ _ _ l1]
    have hwne : w'.stack ≠ [] := k4 ▸ h.stack_ne
    have h1 := k1.startElement Base.ok_init pre n (by rw [← prefixed_eq]; exact l3) l1 (Or.inl hwne)
    have hns : w'.closeTag.nsstack = [] := (k1.content Base.ok_init).1.ns
    refine ⟨?_, by simp [Writer.startElement, l1], l2, by simp⟩
    unfold Rel
    simp only []
    refine ⟨b.stack, rfl, ?_, ?_, ?_, ?_⟩
    · cases uri with
      | none => simp [Writer.startElement, l1, hns]
      | some u =>
        by_cases hu : u = SRC_NS_URI
        · simp [Writer.startElement, l1, hns, hu, srcUri_eq]
        · simp [Writer.startElement, l1, hns, hu, srcUri_eq, declName_eq]
    · unfold Elem.legal
      cases uri with
      | none => simp
      | some u => simp only []; split <;> simp
    · cases uri with
      | none => simp
      | some u =>
        simp only []
        by_cases hu : u = srcUri
        · simp [hu]
        · simp only [hu, if_false]
          have := l4 u rfl hu
          intro d hd
          simp only [List.mem_singleton] at hd
          subst hd
          exact this
    · have e1 : ({ (w'.startElement pre n (if uri = some SRC_NS_URI then none else uri)).1 with nsstack := [] } : Writer) =
          (w'.startElement pre n none).1 := by
        simp [Writer.startElement, l1, hns]
      rw [e1, prefixed_eq]
      have e2 : closedTop top = (b.stack ++ [name]).map (fun x => (x, false)) := k5
      rw [e2] at h1
      exact h1
  · cases hs

/-- Ending an element. -/
theorem Rel.fin {name : Str} {pre0 : List Ev} {b b' : Build} {w : Writer} (h : Rel name pre0 b w)
    (hs : b.step .fin = some b') :
    Rel name pre0 b' w.endElement.1 ∧ w.endElement.2 = true ∧ b.stack.length = b'.stack.length + 1 := by
  simp only [Build.step] at hs
  cases hb : b.stack with
  | nil => rw [hb] at hs; cases hs
  | cons n st =>
    rw [hb] at hs
    simp only [Option.some.injEq] at hs
    obtain ⟨w', top, k1, k2, k3, k4, k5⟩ := h.flush
    rw [hb] at k5
    cases top with
    | nil => simp [closedTop] at k5
    | cons x rest =>
      obtain ⟨xn, xb⟩ := x
      have e1 : xn = n := by simpa [closedTop] using congrArg (fun l => (l.head?).map (·.1)) k5
      subst e1
      have e2 : closedTop rest = (st ++ [name]).map (fun x => (x, false)) := by
        have := congrArg List.tail k5
        simpa [closedTop] using this
      have e3 := k1.endElement Base.ok_init
      rw [k3]
      refine ⟨?_, e3.2, by subst hs; simp⟩
      have hrest : ∀ x ∈ rest, x.2 = false := by
        obtain ⟨s, _, _, _, _, hm⟩ := k1
        cases xb with
        | true => exact hm.1
        | false => exact fun x hx => hm.1 x (by simp [hx])
      rw [closedTop_of_false hrest] at e2
      subst hs
      unfold Rel
      simp only []
      refine ⟨false, ?_, by simp⟩
      have := e3.1
      rw [e2] at this
      simpa using this

theorem writeAttribute_ns (w : Writer) (ns : List (Str × Str)) (an v : Str) :
    ({ w with nsstack := ns }.writeAttribute an v) =
      ({ (w.writeAttribute an v).1 with nsstack := ns }, (w.writeAttribute an v).2) := by
  cases w with
  | mk out stack nss =>
    unfold Writer.writeAttribute
    match stack with
    | [] => rfl
    | (n, false) :: rest => rfl
    | (n, true) :: rest =>
      simp only []
      split <;> rfl

/-- Writing an attribute, with the declarations it adds. -/
theorem Rel.addAttr {name : Str} {pre0 : List Ev} {b : Build} {w : Writer} {e : Elem} (hc : b.cur = some e)
    (h : Rel name pre0 b w) (an v : Str) (ds : List (Str × Str))
    (hl : ({ e with attrs := e.attrs ++ [(an, v)], decls := ds } : Elem).legal)
    (hn : ValidName an) (hv : ValidValue v) (hd : ∀ d ∈ ds, ValidName d.1 ∧ ValidValue d.2) :
    Rel name pre0 { b with cur := some { e with attrs := e.attrs ++ [(an, v)], decls := ds } }
      ({ w with nsstack := ds }.writeAttribute an v).1 ∧ ({ w with nsstack := ds }.writeAttribute an v).2 = true := by
  unfold Rel at h
  rw [hc] at h
  obtain ⟨st, h1, h2, h3, h4, h5⟩ := h
  have hnd : an ∉ e.attrs.map (·.1) := by
    unfold Elem.legal at hl
    simp only [List.map_append, List.map_cons, List.map_nil] at hl
    have := (List.nodup_append.mp (List.nodup_append.mp hl).1).2.2
    intro hx
    exact this an hx an (by simp) rfl
  have h6 := h5.writeAttribute an v hn hv hnd
  have hs : w.stack = (e.name, true) :: ((st ++ [name]).map (fun x => (x, false))) := by
    have := h5.stack; simpa using this
  rw [writeAttribute_ns]
  refine ⟨?_, ?_⟩
  · unfold Rel
    simp only []
    refine ⟨st, h1, trivial, hl, hd, ?_⟩
    have e1 : ({ (w.writeAttribute an v).1 with nsstack := [] } : Writer) =
        ({ w with nsstack := [] }.writeAttribute an v).1 := by rw [writeAttribute_ns w [] an v]
    have e2 := h6.1
    rw [← e1] at e2
    exact e2
  · simp [Writer.writeAttribute, hs, hn.1]

/-- A declaration. -/
theorem Rel.ns {name : Str} {pre0 : List Ev} {b b' : Build} {w : Writer} (h : Rel name pre0 b w)
    (pre : Option Str) (uri : Str) (hs : b.step (.ns pre uri) = some b') :
    Rel name pre0 b' (w.writeAttribute (xmlnsName pre) uri).1 ∧ (w.writeAttribute (xmlnsName pre) uri).2 = true ∧
      b'.stack = b.stack := by
  simp only [Build.step] at hs
  cases hc : b.cur with
  | none => rw [hc] at hs; cases hs
  | some e =>
    rw [hc] at hs
    simp only [] at hs
    split at hs
    · rename_i hl
      cases hs
      have hns : w.nsstack = e.decls := by
        have h' := h
        unfold Rel at h'; rw [hc] at h'
        obtain ⟨_, _, h2, _⟩ := h'
        exact h2
      have hd : ∀ d ∈ e.decls, ValidName d.1 ∧ ValidValue d.2 := by
        have h' := h
        unfold Rel at h'; rw [hc] at h'
        obtain ⟨_, _, _, _, h2, _⟩ := h'
        exact h2
      have hw : ({ w with nsstack := e.decls } : Writer) = w := by rw [← hns]
      have := h.addAttr hc (declName pre) uri e.decls hl.1 hl.2.1 hl.2.2 hd
      rw [hw] at this
      rw [← declName_eq]
      exact ⟨this.1, this.2, rfl⟩
    · cases hs

/-- An attribute. -/
theorem Rel.attr {name : Str} {pre0 : List Ev} {b b' : Build} {w : Writer} (h : Rel name pre0 b w)
    (pre : Option Str) (n : Str) (uri : Option Str) (v : Str) (hs : b.step (.attr pre n uri v) = some b') :
    Rel name pre0 b' (w.writeAttributeNS pre n uri v).1 ∧ (w.writeAttributeNS pre n uri v).2 = true ∧
      b'.stack = b.stack := by
  simp only [Build.step] at hs
  cases hc : b.cur with
  | none => rw [hc] at hs; cases hs
  | some e =>
    rw [hc] at hs
    simp only [] at hs
    have hns : w.nsstack = e.decls := by
      have h' := h
      unfold Rel at h'; rw [hc] at h'
      obtain ⟨_, _, h2, _⟩ := h'
      exact h2
    cases hds : addDecl e.decls pre uri with
    | none => rw [hds] at hs; cases hs
    | some ds =>
      rw [hds] at hs
      simp only [] at hs
      split at hs
      · rename_i hl
        obtain ⟨l1, l2, l3, l4, l5⟩ := hl
        cases hs
        have key := h.addAttr hc (prefixed pre n) v ds l2 l3 l4 l5
        have hw : w.writeAttributeNS pre n uri v = ({ w with nsstack := ds }.writeAttribute (prefixed pre n) v) := by
          unfold Writer.writeAttributeNS
          rw [if_neg l1, prefixed_eq]
          unfold addDecl at hds
          cases uri with
          | none =>
            simp only [Option.some.injEq] at hds
            subst hds
            simp only []
            rw [← hns]
          | some u =>
            simp only [] at hds ⊢
            rw [hns, ← declName_eq]
            cases hf : e.decls.find? (fun d => d.1 = declName pre) with
            | none =>
              rw [hf] at hds
              simp only [Option.some.injEq] at hds
              subst hds
              rfl
            | some d =>
              rw [hf] at hds
              simp only [] at hds ⊢
              split at hds
              · rename_i hu
                simp only [Option.some.injEq] at hds
                subst hds
                obtain ⟨d1, d2⟩ := d
                simp only [] at hu ⊢
                rw [if_pos hu]
                rw [← hns]
              · cases hds
        rw [hw]
        exact ⟨key.1, key.2, rfl⟩
      · cases hs

/-! ### Text -/

/-- Escaped text as the library writes it reads back. -/
theorem textEscape_char (r : RState) (c : Char) (hp : r.pos = .content) (hs : r.stack ≠ [])
    (hc : xmlChar c = true ∨ c = '\r') : r.run (textEscapeChar c) = some { r with evs := r.evs ++ [.ch c] } := by
  have hch : ∀ q : RState, q.stack = r.stack → ∀ d, q.char d = some { q with pos := .content, evs := q.evs ++ [.ch d] } := by
    intro q hq d; unfold RState.char; rw [hq, if_neg hs]
  obtain ⟨pos, stack, rooted, evs⟩ := r
  simp only at hp hs hch
  subst hp
  by_cases h1 : c = '<'
  · subst h1
    simp [textEscapeChar, RState.run, RState.step, entity, hch]
  by_cases h2 : c = '>'
  · subst h2
    simp [textEscapeChar, RState.run, RState.step, entity, hch]
  by_cases h3 : c = '&'
  · subst h3
    simp [textEscapeChar, RState.run, RState.step, entity, hch]
  by_cases h4 : c = '"'
  · subst h4
    simp [textEscapeChar, RState.run, RState.step, entity, hch]
  by_cases h5 : c = '\r'
  · subst h5
    have hd : decimal "13".toList = some 13 := by decide
    have he : entity "#13".toList = some '\r' := by decide
    simp only [textEscapeChar]
    simp [RState.run, RState.step, hch]
    have : entity ['#', '1', '3'] = some '\r' := he
    simp [this, hch]
  · have hx : xmlChar c = true := by rcases hc with h | h; exact h; exact absurd h h5
    simp [textEscapeChar, h1, h2, h3, h4, h5, RState.run, RState.step, hx, hch]

theorem run_textEscape (r : RState) (t : Str) (hp : r.pos = .content) (hs : r.stack ≠ [])
    (ht : ∀ c ∈ t, xmlChar c = true ∨ c = '\r') :
    r.run (t.flatMap textEscapeChar) = some { r with evs := r.evs ++ t.map .ch } := by
  induction t generalizing r with
  | nil => simp [RState.run]
  | cons c cs ih =>
    rw [List.flatMap_cons, run_append_some (textEscape_char r c hp hs (ht c (by simp)))]
    rw [ih { r with evs := r.evs ++ [.ch c] } hp hs (fun x hx => ht x (by simp [hx]))]
    simp

/-- Raw text after which the reader is where it was, in a relation. -/
theorem Rel.raw {name : Str} {pre0 : List Ev} {b : Build} {w : Writer} (h : Rel name pre0 b w) (p : Str) (evs' : List Ev)
    (hp : ∀ r : RState, r.pos = .content → r.stack ≠ [] → r.rooted = true →
      r.run p = some { r with evs := r.evs ++ evs' }) :
    Rel name pre0 { b with evs := b.flush ++ evs', cur := none } (w.writeRaw p) := by
  obtain ⟨w', top, k1, k2, k3, k4, k5⟩ := h.flush
  have h1 := k1.writeRaw Base.ok_init (k4 ▸ h.stack_ne) p hp
  rw [← writeRaw_closeTag k2] at h1
  unfold Rel
  simp only []
  refine ⟨false, ?_, by simp⟩
  rw [k5] at h1
  simpa using h1

theorem writeString_stack {w : Writer} (h : w.stack ≠ []) (s : Str) : w.writeString s = w.writeRaw (s.flatMap textEscapeChar) := by
  unfold Writer.writeString
  cases hs : w.stack with
  | nil => exact absurd hs h
  | cons => rfl

theorem Rel.addString {name : Str} {pre0 : List Ev} (s : Str) : ∀ {b : Build} {w : Writer} (acc : Str), Rel name pre0 b w →
    legalText acc → legalText s →
    Rel name pre0 { b with evs := b.flush ++ (acc ++ s).map .ch, cur := none } (addStringLoop w acc s) := by
  induction s with
  | nil =>
    intro b w acc h ha _
    unfold addStringLoop
    rw [writeString_stack h.stack_ne]
    simpa using h.raw (acc.flatMap textEscapeChar) (acc.map .ch) (fun r h1 h2 _ => run_textEscape r acc h1 h2 ha)
  | cons c cs ih =>
    intro b w acc h ha hs
    have hcs : legalText cs := fun x hx => hs x (by simp [hx])
    unfold addStringLoop
    split
    · rename_i hq
      rw [writeString_stack h.stack_ne]
      have h1 := h.raw (acc.flatMap textEscapeChar) (acc.map .ch) (fun r h1 h2 _ => run_textEscape r acc h1 h2 ha)
      have h2 := h1.raw ['"'] [.ch '"'] (fun r h1 h2 _ => by
        simp [RState.run, RState.step, h1, RState.char, h2, show xmlChar '"' = true from by decide])
      have h3 := ih [] h2 (fun _ h => by cases h) hcs
      simp only [Build.flush, List.append_nil, List.nil_append] at h3 ⊢
      rw [hq]
      simpa [List.append_assoc] using h3
    · have := ih (acc ++ [c]) h (fun x hx => by
        simp only [List.mem_append, List.mem_singleton] at hx
        rcases hx with hx | hx
        · exact ha x hx
        · exact hs x (by simp [hx])) hcs
      simpa using this

end Srcml
