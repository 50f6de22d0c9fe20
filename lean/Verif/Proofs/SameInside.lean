import Verif.Props.ParseCalls
/-
What the tokens of a source add to the start tag of a unit does not depend on the start tag.
-/
set_option linter.unusedSimpArgs false
namespace Srcml
open Spec

/-- Two writers that have written the same after their own beginnings, and have the same elements open. -/
structure WSame (s1 s2 : Str) (w1 w2 : Writer) : Prop where
  out : ∃ r, w1.out = s1 ++ r ∧ w2.out = s2 ++ r
  stack : w2.stack = w1.stack
  ns : w2.nsstack = w1.nsstack

theorem WSame.add {s1 s2 : Str} {w1 w2 : Writer} (h : WSame s1 s2 w1 w2) (x : Str) (st : List (Str × Bool)) (ns : List (Str × Str)) :
    WSame s1 s2 { out := w1.out ++ x, stack := st, nsstack := ns } { out := w2.out ++ x, stack := st, nsstack := ns } := by
  obtain ⟨r, h1, h2⟩ := h.out
  exact ⟨⟨r ++ x, by simp [h1], by simp [h2]⟩, rfl, rfl⟩

theorem WSame.outputNs {s1 s2 : Str} {w1 w2 : Writer} (h : WSame s1 s2 w1 w2) : WSame s1 s2 w1.outputNs w2.outputNs := by
  unfold Writer.outputNs
  rw [h.ns, h.stack]
  exact h.add _ _ _

theorem WSame.closeTag {s1 s2 : Str} {w1 w2 : Writer} (h : WSame s1 s2 w1 w2) : WSame s1 s2 w1.closeTag w2.closeTag := by
  obtain ⟨o1, st, n1⟩ := w1
  obtain ⟨o2, st2, n2⟩ := w2
  have e : st2 = st := h.stack
  subst e
  unfold Writer.closeTag
  cases st2 with
  | nil => exact h
  | cons x xs =>
    obtain ⟨n, b⟩ := x
    cases b with
    | false => exact h
    | true =>
      have h2 := h.outputNs
      simpa [h2.ns] using h2.add ['>'] ((n, false) :: xs) (Writer.outputNs ⟨o1, (n, true) :: xs, n1⟩).nsstack

theorem WSame.writeRaw {s1 s2 : Str} {w1 w2 : Writer} (h : WSame s1 s2 w1 w2) (x : Str) : WSame s1 s2 (w1.writeRaw x) (w2.writeRaw x) := by
  have h2 := h.closeTag
  unfold Writer.writeRaw
  dsimp only
  rw [h2.stack, h2.ns]
  exact h2.add x _ _

theorem WSame.bufferWrite {s1 s2 : Str} {w1 w2 : Writer} (h : WSame s1 s2 w1 w2) (x : Str) : WSame s1 s2 (w1.bufferWrite x) (w2.bufferWrite x) := by
  unfold Writer.bufferWrite
  rw [h.stack, h.ns]
  exact h.add x _ _

theorem WSame.startElement {s1 s2 : Str} {w1 w2 : Writer} (h : WSame s1 s2 w1 w2) (pre : Option Str) (name : Str) (uri : Option Str) :
    WSame s1 s2 (w1.startElement pre name uri).1 (w2.startElement pre name uri).1 := by
  have h2 := h.closeTag
  unfold Writer.startElement
  split
  · exact h
  · rw [h2.stack, h2.ns]
    exact h2.add _ _ _

theorem WSame.writeAttribute {s1 s2 : Str} {w1 w2 : Writer} (h : WSame s1 s2 w1 w2) (name value : Str) :
    WSame s1 s2 (w1.writeAttribute name value).1 (w2.writeAttribute name value).1 := by
  obtain ⟨o1, st, n1⟩ := w1
  obtain ⟨o2, st2, n2⟩ := w2
  have e : st2 = st := h.stack
  have e2 : n2 = n1 := h.ns
  subst e; subst e2
  unfold Writer.writeAttribute
  cases st2 with
  | nil => exact h
  | cons x xs =>
    obtain ⟨n, b⟩ := x
    cases b with
    | false => exact h
    | true =>
      dsimp only
      split
      · exact h
      · exact h.add _ _ _

theorem WSame.endElement {s1 s2 : Str} {w1 w2 : Writer} (h : WSame s1 s2 w1 w2) : WSame s1 s2 w1.endElement.1 w2.endElement.1 := by
  obtain ⟨o1, st, n1⟩ := w1
  obtain ⟨o2, st2, n2⟩ := w2
  have e : st2 = st := h.stack
  subst e
  unfold Writer.endElement
  cases st2 with
  | nil => exact h
  | cons x xs =>
    obtain ⟨n, b⟩ := x
    cases b with
    | false =>
      have e2 : n2 = n1 := h.ns
      subst e2
      simpa using h.add ('<' :: '/' :: n ++ ['>']) xs n2
    | true =>
      have h2 := h.outputNs
      simpa [h2.ns] using h2.add ['/', '>'] xs (Writer.outputNs ⟨o1, (n, true) :: xs, n1⟩).nsstack

theorem WSame.writeOptAttr {s1 s2 : Str} {w1 w2 : Writer} (h : WSame s1 s2 w1 w2) (name value : Option Str) :
    WSame s1 s2 (Srcml.writeOptAttr w1 name value) (Srcml.writeOptAttr w2 name value) := by
  unfold Srcml.writeOptAttr
  split
  · exact h.writeAttribute _ _
  · exact h

/-- Two outputs that have written the same inside of their units, and will write the same for the same token. -/
structure OSame (s1 s2 : Str) (o1 o2 : Out) : Prop where
  w : WSame s1 s2 o1.w o2.w
  prefixes : ∀ p, prefixOf o2.namespaces p = prefixOf o1.namespaces p
  position : o2.threadPosition = o1.threadPosition
  openings : o2.thread.posAttrs.getD (posAttrOpenings o2.namespaces) = o1.thread.posAttrs.getD (posAttrOpenings o1.namespaces)

theorem OSame.mark {s1 s2 : Str} {o1 o2 : Out} (h : OSame s1 s2 o1 o2) (p : Prefixes) :
    OSame s1 s2 { o1 with namespaces := markUsed o1.namespaces p } { o2 with namespaces := markUsed o2.namespaces p } where
  w := h.w
  prefixes := by intro q; simp only [prefixOf_markUsed]; exact h.prefixes q
  position := h.position
  openings := by simp only [posAttrOpenings_markUsed]; exact h.openings

theorem OSame.initThread {s1 s2 : Str} {o1 o2 : Out} (h : OSame s1 s2 o1 o2) : OSame s1 s2 o1.initThread o2.initThread where
  w := h.w
  prefixes := h.prefixes
  position := h.position
  openings := h.openings

theorem OSame.addPosition {s1 s2 : Str} {o1 o2 : Out} (h : OSame s1 s2 o1 o2) (t : Tok) : OSame s1 s2 (o1.addPosition t) (o2.addPosition t) := by
  unfold Out.addPosition
  split
  · exact h
  · refine ⟨?_, h.prefixes, h.position, ?_⟩
    · dsimp only
      rw [h.openings]
      exact h.w.bufferWrite _
    · dsimp only [Option.getD_some]
      exact h.openings

theorem OSame.startTag {s1 s2 : Str} {o1 o2 : Out} (h : OSame s1 s2 o1 o2) (t : Tok) (b : Bool) (name pre : Str) (a1 v1 a2 v2 : Option Str) :
    OSame s1 s2 (o1.startTag t b name pre a1 v1 a2 v2) (o2.startTag t b name pre a1 v1 a2 v2) := by
  have h2 : OSame s1 s2
      { o1 with w := Srcml.writeOptAttr (Srcml.writeOptAttr (o1.w.startElement (nullIfEmpty pre) name none).1 a1 v1) a2 v2, openelementcount := o1.openelementcount + 1 }
      { o2 with w := Srcml.writeOptAttr (Srcml.writeOptAttr (o2.w.startElement (nullIfEmpty pre) name none).1 a1 v1) a2 v2, openelementcount := o2.openelementcount + 1 } :=
    ⟨((h.w.startElement _ _ _).writeOptAttr _ _).writeOptAttr _ _, h.prefixes, h.position, h.openings⟩
  unfold Out.startTag
  dsimp only
  split
  · exact h2.addPosition t
  · exact h2

theorem OSame.endTag {s1 s2 : Str} {o1 o2 : Out} (h : OSame s1 s2 o1 o2) : OSame s1 s2 o1.endTag o2.endTag :=
  ⟨h.w.endElement, h.prefixes, h.position, h.openings⟩

theorem OSame.processToken {s1 s2 : Str} {o1 o2 : Out} (h : OSame s1 s2 o1 o2) (t : Tok) (name pre : Str) (a1 v1 a2 v2 : Option Str) :
    OSame s1 s2 (o1.processToken t name pre a1 v1 a2 v2) (o2.processToken t name pre a1 v1 a2 v2) := by
  unfold Out.processToken
  split
  · exact h
  · dsimp only
    rw [h.position]
    have hi := h.initThread
    split <;> split
    · exact (hi.startTag _ _ _ _ _ _ _ _).endTag
    · exact hi.endTag
    · exact hi.startTag _ _ _ _ _ _ _ _
    · exact hi

theorem OSame.outputToken {s1 s2 : Str} {o1 o2 : Out} (h : OSame s1 s2 o1 o2) (t : Tok) : OSame s1 s2 (o1.outputToken t) (o2.outputToken t) := by
  unfold Out.outputToken
  split
  · exact h
  · split
    · dsimp only
      rw [h.prefixes]
      exact (h.mark _).processToken _ _ _ _ _ _ _
    · exact ⟨h.w.writeRaw _, h.prefixes, h.position, h.openings⟩

theorem OSame.consume {s1 s2 : Str} (ts : List Tok) : ∀ {o1 o2 : Out}, OSame s1 s2 o1 o2 → OSame s1 s2 (o1.consume ts) (o2.consume ts) := by
  induction ts with
  | nil => intro o1 o2 h; exact h
  | cons t ts ih => intro o1 o2 h; exact ih (h.outputToken t)

theorem OSame.start {a1 a2 : Archive} {u1 u2 : UnitData} {t1 t2 : ThreadState} (h1 : WriteOk a1 u1) (h2 : WriteOk a2 u2)
    (hp : ∀ p, prefixOf (mergeNamespaces defaultNamespaces (namespacesOf a2 u2)) p = prefixOf (mergeNamespaces defaultNamespaces (namespacesOf a1 u1)) p)
    (ho : isoption (unitOptions a2) OPTION_POSITION = isoption (unitOptions a1) OPTION_POSITION)
    (g1 : (unitOut a1 u1 t1).ThreadAgrees) (g2 : (unitOut a2 u2 t2).ThreadAgrees) :
    OSame (tagText (unitOut a1 u1 t1) (startMeta a1 u1)) (tagText (unitOut a2 u2 t2) (startMeta a2 u2))
      ((unitOut a1 u1 t1).startUnit (startMeta a1 u1) false) ((unitOut a2 u2 t2).startUnit (startMeta a2 u2) false) := by
  have e1 := (start_facts h1 t1).1
  have e2 := (start_facts h2 t2).1
  obtain ⟨f1, f2, f3, _⟩ := startUnit_fields (unitOut a1 u1 t1) (startMeta a1 u1) false
  obtain ⟨k1, k2, k3, _⟩ := startUnit_fields (unitOut a2 u2 t2) (startMeta a2 u2) false
  have p1 := prefixOf_of_prefixes f3
  have p2 := prefixOf_of_prefixes k3
  have hn : ∀ p, prefixOf (unitOut a2 u2 t2).namespaces p = prefixOf (unitOut a1 u1 t1).namespaces p := hp
  have hop : isoption (unitOut a2 u2 t2).options OPTION_POSITION = isoption (unitOut a1 u1 t1).options OPTION_POSITION := ho
  have hpos : ∀ x : Out, posAttrOpenings x.namespaces = posAttrOpenings x.namespaces := fun _ => rfl
  have q1 : posAttrOpenings ((unitOut a1 u1 t1).startUnit (startMeta a1 u1) false).namespaces = posAttrOpenings (unitOut a1 u1 t1).namespaces := by
    unfold posAttrOpenings; rw [p1]
  have q2 : posAttrOpenings ((unitOut a2 u2 t2).startUnit (startMeta a2 u2) false).namespaces = posAttrOpenings (unitOut a1 u1 t1).namespaces := by
    unfold posAttrOpenings; rw [p2, hn]
  have q3 : posAttrOpenings (unitOut a2 u2 t2).namespaces = posAttrOpenings (unitOut a1 u1 t1).namespaces := by
    unfold posAttrOpenings; rw [hn]
  refine ⟨?_, ?_, ?_, ?_⟩
  · rw [e1, e2]
    refine ⟨⟨[], by simp, by simp⟩, ?_, rfl⟩
    dsimp only
    unfold Out.unitName
    rw [hn]
  · intro p; rw [p1, p2, hn]
  · unfold Out.threadPosition
    rw [f1, f2, k1, k2]
    rcases g1.1 with g | g <;> rcases g2.1 with g' | g' <;> rw [g, g'] <;> simp [hop]
  · rw [f2, k2, q1, q2]
    rcases g1.2 with g | g <;> rcases g2.2 with g' | g' <;> rw [g, g'] <;> simp [q3]

/-- What `srcml_unit_get_srcml_inner` returns for a unit that was parsed: what was written after the `>` of the start tag. -/
theorem parseTokens_inner {sax : Sax} {a : Archive} {th : ThreadState} {u v : UnitObj} {encoding : Option Str} {toks : List Tok} {hash : Option Str} {r : Str}
    (hw : WriteOk a (beforeParse a u.data encoding)) (hraw : u.srcmlRaw = none)
    (hr : (((unitOut a (beforeParse a u.data encoding) th).startUnit (startMeta a (beforeParse a u.data encoding)) false).consume toks).w.out =
      tagText (unitOut a (beforeParse a u.data encoding) th) (startMeta a (beforeParse a u.data encoding)) ++ r)
    (h : u.parseTokens sax a th encoding toks hash = .val (.ok, v)) : v.getInner.1 = some (r.drop 1) := by
  unfold UnitObj.parseTokens at h
  dsimp only at h
  obtain ⟨b, e, t, k1, k2, k3, _⟩ := writeStartUnit_ok (a := a) (u := { u with data := { u.data with encoding := encoding, url := a.url } }) hw th
  rw [k1] at h
  dsimp only at h
  have hd : t.depth = 0 := by rw [k2.depth]; rfl
  have ho : t.outputting = true := k2.outputting
  have k3' : t.out = (unitOut a (beforeParse a u.data encoding) th).startUnit (startMeta a (beforeParse a u.data encoding)) false := k3
  rw [← k3'] at hr
  clear k3 k3'
  generalize hS : tagText (unitOut a (beforeParse a u.data encoding) th) (startMeta a (beforeParse a u.data encoding)) = S at *
  have hS' : tagText (unitOut a { u.data with encoding := encoding, url := a.url } th) (startMeta a { u.data with encoding := encoding, url := a.url }) = S := hS
  rw [hS'] at h
  unfold UnitObj.writeEndUnit at h
  dsimp only at h
  rw [hd, ho] at h
  rw [if_neg (by simp)] at h
  have he : ∀ x : Translator, x.endElements (Int.toNat 0) = x := fun x => rfl
  rw [he] at h
  have hadd : ∀ (x : Translator), x.depth = 0 → x.outputting = true →
      x.addEndUnit = ({ x with outputting := false, out := { x.out with w := x.out.w.endElement.1 } }, x.out.w.endElement.2) := by
    intro x h1 h2
    unfold Translator.addEndUnit
    rw [if_neg (by rw [h2]; simp)]
    have : x.endElements x.depth.toNat = x := by rw [h1]; rfl
    dsimp only
    rw [this]
  rw [hadd _ (by rfl) (by rfl)] at h
  dsimp only at h
  obtain ⟨r2, hr2⟩ := endElement_grows (t.out.consume toks).w
  split at h
  · cases h
  · split at h
    · cases h
    · rename_i st u2 h2
      split at h
      · cases h
      · rename_i t3 h3
        split at h
        · cases h
        · cases h
          have hb : u2.data.contentBegin = t3.out.w.out.length + 1 ∧ u2.srcmlRaw = u.srcmlRaw := by
            unfold UnitObj.writeStartUnit at h2
            dsimp only at h2
            split at h2
            · cases h2
            · cases h2
              cases h3
              exact ⟨rfl, rfl⟩
          unfold UnitObj.getInner
          dsimp only
          rw [if_neg (by simp)]
          rw [hb.2, hraw, hb.1, hr2, hr]
          have hl : (((S ++ r).length + 1 + (t3.out.w.out.length + 1) - (S.length + 1) : Nat) : Int) - ((t3.out.w.out.length + 1 : Nat) : Int) - 1 = (r.length : Int) - 1 := by
            simp; omega
          rw [hl]
          by_cases hz : (r.length : Int) - 1 ≤ 0
          · rw [if_pos hz]
            rw [List.drop_of_length_le (by omega)]
          · rw [if_neg hz]
            dsimp only
            unfold assembled
            rw [if_pos (by rw [List.length_append]; omega)]
            have e1 : (t3.out.w.out ++ '>' :: (S ++ r ++ r2).drop (S.length + 1)).drop (t3.out.w.out.length + 1) = (S ++ r ++ r2).drop (S.length + 1) := by
              rw [show t3.out.w.out ++ '>' :: (S ++ r ++ r2).drop (S.length + 1) = (t3.out.w.out ++ ['>']) ++ (S ++ r ++ r2).drop (S.length + 1) by simp,
                show t3.out.w.out.length + 1 = (t3.out.w.out ++ ['>']).length by simp, List.drop_left]
            rw [e1]
            cases r with
            | nil => simp at hz
            | cons c cs =>
              rw [show S ++ c :: cs ++ r2 = (S ++ [c]) ++ (cs ++ r2) by simp, show S.length + 1 = (S ++ [c]).length by simp, List.drop_left]
              have : ((c :: cs).length : Int) - 1 = (cs.length : Int) := by simp
              rw [this]
              simp

end Srcml
