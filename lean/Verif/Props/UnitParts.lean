import Verif.Proofs.UnitParts
import Verif.Props.UnitWriter
import Verif.Proofs.UnitParse
/-
C31: the srcML of a unit, its outer form and its contents.
-/
set_option linter.unusedSimpArgs false
namespace Srcml
open Spec

/-- The parts of a finished unit: the text is the start tag with the attributes, the contents, and the end; the marks
that the accessors use are at the right places. -/
structure Parts (u : UnitData) (name : Str) (attrs : List (Str × Str)) (inner : Option Str) : Prop where
  text : u.srcml = '<' :: name ++ attrsText attrs ++ tailOf name inner
  contentBegin : u.contentBegin = ('<' :: name ++ attrsText attrs).length + 1
  contentEnd : u.contentEnd = u.contentBegin + (match inner with | none => 0 | some i => i.length + 1)
  marks : tagMarks ('<' :: name ++ attrsText attrs) = some (u.insertBegin, u.insertEnd)
  body : u.readBody = true

theorem unitLoc_lines (s : Str) : unitLoc s = (textLines s).length := by
  induction s with
  | nil => rfl
  | cons c cs ih =>
    unfold unitLoc at ih ⊢
    unfold textLines
    have hlast : (c :: cs).getLast? = some (cs.getLast?.getD c) := by
      cases cs with
      | nil => rfl
      | cons d ds => rw [List.getLast?_cons_cons, List.getLast?_eq_some_getLast (by simp)]; rfl
    rw [hlast, List.count_cons]
    by_cases hc : c = '\n'
    · subst hc
      cases hl : cs.getLast? with
      | none => rw [hl] at ih; simp at ih ⊢; omega
      | some x => rw [hl] at ih; simp at ih ⊢; omega
    · simp only [hc, if_false, beq_iff_eq]
      cases cs with
      | nil => simp [textLines, hc]
      | cons d ds =>
        have hl : (d :: ds).getLast? = some ((d :: ds).getLast (by simp)) := List.getLast?_eq_some_getLast (by simp)
        rw [hl] at ih ⊢
        cases hm : textLines (d :: ds) with
        | nil => exfalso; unfold textLines at hm; split at hm; exact absurd hm (by simp); split at hm <;> cases hm
        | cons l ls => rw [hm] at ih; simp at ih ⊢; omega

/-- Ending a unit in the middle of which the translator is. The start tag is written anew, with what the unit says then. -/
theorem end_parts (sax : Sax) (a : Archive) (thread : ThreadState) {name : Str} {attrs : List (Str × Str)} {b : Build}
    {t : Translator} (h : TRel ('<' :: name ++ attrsText attrs) name [.op name attrs] b t) (hn : ValidName name)
    (hv : ∀ a ∈ attrs, ValidName a.1 ∧ ValidValue a.2) (hd : (attrs.map (·.1)).Nodup)
    (v : UnitObj) (hvt : v.translator = some t) (hok : WriteOk a v.data)
    (hname : (unitOut a v.data thread).unitName = name)
    (hcb : v.data.contentBegin = ('<' :: name ++ attrsText attrs).length + 1)
    {src : Str} (hsrc : v.data.src = some src ∨ v.data.src = none ∧ Reads sax ∧
      extractEvents (escapeNameOf (namespacesOf a v.data))
        (.op name ((unitOut a v.data thread).tagAttrs (startMeta a v.data)) :: b.events ++ [.cl name]) = .val src) :
    ∃ u' inner, v.writeEndUnit sax a thread = .val (.ok, u') ∧
      Parts u'.data name ((unitOut a v.data thread).tagAttrs (startMeta a v.data)) inner ∧
      readXml u'.data.srcml = some (.op name ((unitOut a v.data thread).tagAttrs (startMeta a v.data)) :: b.events ++ [.cl name]) ∧
      u'.translator = none ∧ u'.srcmlFragment = v.srcmlFragment ∧ u'.srcmlRaw = v.srcmlRaw ∧
      u'.data.src = some src ∧ u'.data.loc = unitLoc src := by
  have hdep : ¬ (t.depth < 0 ∨ (t.outputting = false ∧ t.depth ≠ 0)) := by
    rw [h.depth, h.outputting]; simp
  obtain ⟨b', e1, e2, e3, e4⟩ := endElements_ok t.depth.toNat h (by rw [h.depth]; simp)
  obtain ⟨x1, inner, x2, x3, x4⟩ := addEndUnit_tail e1 hn hv hd e2 e3
  rw [e4] at x4
  generalize hT1 : t.endElements t.depth.toNat = tt at *
  generalize hT2 : tt.addEndUnit = te at *
  obtain ⟨t2, okk⟩ := te
  simp only at x1 x2 x3
  subst x1
  -- the second start tag
  have hok2 : WriteOk a { v.data with contentEnd := tt.out.w.out.length + 1 } := ⟨hok.decl, hok.clean, hok.flags, hok.metadata⟩
  obtain ⟨b3, m3, t3, z1, z2, z3, z4⟩ := writeStartUnit_ok (u := { v with
    data := { v.data with contentEnd := tt.out.w.out.length + 1 }, translator := some t2 }) hok2 thread
  obtain ⟨f1, _, _, _, _⟩ := start_facts hok thread
  have hv2 := tagAttrs_valid (o := unitOut a v.data thread) (m := startMeta a v.data) hok.clean hok.metadata
  have hd2 := tagAttrs_nodup (o := unitOut a v.data thread) (m := startMeta a v.data) hok.clean hok.metadata
  have hS2 : tagText (unitOut a v.data thread) (startMeta a v.data) =
      '<' :: name ++ attrsText ((unitOut a v.data thread).tagAttrs (startMeta a v.data)) := by
    unfold tagText; rw [hname]
  have z1' : ({ v with data := { v.data with contentEnd := tt.out.w.out.length + 1 }, translator := some t2 } : UnitObj).writeStartUnit a thread =
      .val (.ok, { v with
        data := { v.data with
          contentEnd := tt.out.w.out.length + 1
          namespaces := some (namespacesOf a v.data)
          contentBegin := (tagText (unitOut a v.data thread) (startMeta a v.data)).length + 1
          insertBegin := b3, insertEnd := m3 }
        translator := some t3 }) := z1
  have z3' : t3.out.w.out = tagText (unitOut a v.data thread) (startMeta a v.data) := by
    rw [z3]
    have : (unitOut a v.data thread).startUnit (startMeta a v.data) false =
      (unitOut a { v.data with contentEnd := tt.out.w.out.length + 1 } thread).startUnit
        (startMeta a { v.data with contentEnd := tt.out.w.out.length + 1 }) false := rfl
    rw [← this, f1]
  have z4' : tagMarks (tagText (unitOut a v.data thread) (startMeta a v.data)) = some (b3, m3) := z4
  generalize hA2 : (unitOut a v.data thread).tagAttrs (startMeta a v.data) = attrs2 at *
  -- the new document
  have hasm : assembled t3.out.w.out t2.out.w.out v.data.contentBegin (tt.out.w.out.length + 1) =
      '<' :: name ++ attrsText attrs2 ++ tailOf name inner := by
    rw [z3', hS2, x2, x3, hcb]
    unfold assembled
    cases inner with
    | none => rw [if_neg (by simp)]; rfl
    | some i =>
      rw [if_pos (by simp)]
      rw [show '<' :: name ++ attrsText attrs ++ tailOf name (some i) =
        ('<' :: name ++ attrsText attrs ++ ['>']) ++ (i ++ ('<' :: '/' :: name ++ ['>'])) by simp [tailOf]]
      rw [show ('<' :: name ++ attrsText attrs).length + 1 = ('<' :: name ++ attrsText attrs ++ ['>']).length by simp; omega, List.drop_left]
      simp [tailOf]
  have hread2 : readXml ('<' :: name ++ attrsText attrs2 ++ tailOf name inner) =
      some (.op name attrs2 :: b.events ++ [.cl name]) := by
    have := retag hn hv hv2 hd hd2 (tailOf_end name inner) (evs := b.events ++ [.cl name])
      (by rw [x4]; simp [Build.events])
    simpa using this
  have hread : textOf sax (namespacesOf a v.data) v.data.src ('<' :: name ++ attrsText attrs2 ++ tailOf name inner) = .val src := by
    unfold textOf
    rcases hsrc with hsrc | ⟨h1, h2, h3⟩
    · rw [hsrc]
    · rw [h1]
      simp only []
      rw [h2 _ _ hread2, h3]
  unfold UnitObj.writeEndUnit
  rw [hvt]
  simp only []
  rw [if_neg hdep, hT1, hT2]
  simp only [Bool.true_eq_false, if_false]
  rw [z1']
  simp only [hasm, Option.getD_some, hread]
  refine ⟨_, inner, rfl, ⟨rfl, ?_, ?_, ?_, rfl⟩, hread2, rfl, rfl, rfl, rfl, rfl⟩
  · simp only [hS2]
  · simp only [hcb, x3, hS2]
    cases inner with
    | none => simp
    | some i => simp; omega
  · rw [← hS2, z4']

/-! ### The marks on a start tag -/

theorem first_xmlns {name : Str} (h : findSub "xmlns".toList name = none) :
    findSub "xmlns".toList (('<' :: name ++ [' ']) ++ "xmlns".toList) = some ('<' :: name ++ [' ']).length := by
  rw [findSub_skip]
  · rw [show findSub "xmlns".toList "xmlns".toList = some 0 by decide +kernel]; simp
  · intro x b e hb
    cases hp : "xmlns".toList.isPrefixOf (b ++ "xmlns".toList) with
    | false => rfl
    | true =>
      exfalso
      obtain ⟨post, hpost⟩ := List.isPrefixOf_iff_prefix.mp hp
      have hlast : ∃ b', b = b' ++ [' '] := by
        rcases List.eq_nil_or_concat b with hb' | ⟨b', z, hz⟩
        · exact absurd hb' hb
        · refine ⟨b', ?_⟩
          have e' : '<' :: name ++ [' '] = (x ++ b') ++ [z] := by rw [e, hz]; simp
          have := (List.append_inj' e' rfl).2
          cases this
          rw [hz]; simp
      obtain ⟨b', hb'⟩ := hlast
      rw [List.append_eq_append_iff] at hpost
      rcases hpost with ⟨w, h1, h2⟩ | ⟨w, h1, h2⟩
      · -- the whole word is before the blank
        rcases List.eq_nil_or_concat w with hw | ⟨w', z, hz⟩
        · subst hw
          simp only [List.append_nil] at h1
          have : ' ' ∈ "xmlns".toList := by rw [← h1, hb']; simp
          exact absurd this (by decide)
        · have e' : '<' :: name ++ [' '] = (x ++ "xmlns".toList ++ w') ++ [z] := by rw [e, h1, hz]; simp
          have e2 := (List.append_inj' e' rfl).1
          cases x with
          | nil => simp at e2
          | cons c cs =>
            have e3 : name = cs ++ "xmlns".toList ++ w' := by
              have := congrArg List.tail e2
              simpa using this
            exact findSub_none h ⟨cs, w', e3⟩
      · have : ' ' ∈ "xmlns".toList := by rw [h1, hb']; simp
        exact absurd this (by decide)

/-- The first declaration on the start tag is marked: its name and value with the blank after it. -/
theorem marks_of_tag {name n v : Str} {attrs : List (Str × Str)}
    (h : findSub "xmlns".toList name = none) (hd : ∃ z, n = "xmlns".toList ++ z) (hv : ValidName n) :
    tagMarks ('<' :: name ++ attrsText ((n, v) :: attrs)) =
      some (name.length + 2, name.length + 1 + (attrText n v).length + 1) := by
  obtain ⟨z, rfl⟩ := hd
  have hq : '"' ∉ z ++ ['='] := by
    have := (name_not_eq hv.2).2.2.1
    simp only [List.mem_append, not_or] at this ⊢
    exact ⟨this.2, by decide⟩
  have := tagMarks_exact ('<' :: name ++ [' ']) (z ++ ['=']) (v.flatMap attrEscapeChar) (attrsText attrs) (first_xmlns h) hq
    (escaped_clean v).1
  have e : '<' :: name ++ attrsText (("xmlns".toList ++ z, v) :: attrs) =
      '<' :: name ++ [' '] ++ "xmlns".toList ++ (z ++ ['=']) ++ '"' :: v.flatMap attrEscapeChar ++ '"' :: attrsText attrs := by
    simp [attrsText, attrText]
  rw [e, this]
  simp [attrText]
  omega

/-! ### Cutting the url out -/

theorem find_gt {name : Str} {attrs : List (Str × Str)} (inner : Option Str) (hn : ValidName name)
    (hv : ∀ a ∈ attrs, ValidName a.1) :
    ∃ q, findFirst '>' ('<' :: name ++ attrsText attrs ++ tailOf name inner) = some q ∧
      ∃ sl, ('<' :: name ++ attrsText attrs ++ tailOf name inner).take q = '<' :: name ++ attrsText attrs ++ sl ∧
        (sl = [] ∨ sl = ['/']) := by
  have h1 : '>' ∉ '<' :: name ++ attrsText attrs := by
    simp only [List.cons_append, List.mem_cons, List.mem_append, not_or]
    exact ⟨by decide, (name_not_eq hn.2).2.2.2, attrs_no_gt attrs hv⟩
  cases inner with
  | some i =>
    refine ⟨_, findFirst_append _ _ h1, [], ?_, Or.inl rfl⟩
    rw [List.take_left]; simp
  | none =>
    have h2 : '>' ∉ '<' :: name ++ attrsText attrs ++ ['/'] := by
      simp only [List.mem_append, not_or] at h1 ⊢
      exact ⟨h1, by decide⟩
    have e : '<' :: name ++ attrsText attrs ++ tailOf name none = ('<' :: name ++ attrsText attrs ++ ['/']) ++ '>' :: [] := by
      simp [tailOf]
    rw [e]
    refine ⟨_, findFirst_append _ _ h2, ['/'], ?_, Or.inr rfl⟩
    rw [List.take_left]

theorem findSub_url_end {sl : Str} (h : sl = [] ∨ sl = ['/']) : findSub urlText sl = none := by
  rcases h with rfl | rfl <;> decide +kernel

theorem urlText_eq : " url=".toList = urlText := by decide +kernel

theorem urlCut_none {name : Str} {attrs : List (Str × Str)} (inner : Option Str) (hn : ValidName name)
    (hv : ∀ a ∈ attrs, ValidName a.1 ∧ a.1 ≠ "url".toList ∧ NoUrl a.2) :
    urlCut ('<' :: name ++ attrsText attrs ++ tailOf name inner) = (0, 0) := by
  obtain ⟨q, h1, sl, h2, h3⟩ := find_gt inner hn (fun a ha => (hv a ha).1)
  unfold urlCut
  rw [h1]
  simp only [h2, urlText_eq]
  rw [show '<' :: name ++ attrsText attrs ++ sl = ('<' :: name) ++ (attrsText attrs ++ sl) by simp,
    noBlank_skip ('<' :: name) _ (by
      simp only [List.mem_cons, not_or]; exact ⟨by decide, (name_not_eq hn.2).2.1⟩),
    attrs_skip attrs sl hv, findSub_url_end h3]
  rfl

theorem url_valid : ValidName "url".toList := by constructor <;> decide

theorem urlCut_some {name v : Str} {pre post : List (Str × Str)} (inner : Option Str) (hn : ValidName name)
    (hpre : ∀ a ∈ pre, ValidName a.1 ∧ a.1 ≠ "url".toList ∧ NoUrl a.2)
    (hpost : ∀ a ∈ post, ValidName a.1) :
    urlCut ('<' :: name ++ attrsText (pre ++ ("url".toList, v) :: post) ++ tailOf name inner) =
      (('<' :: name ++ attrsText pre).length,
       ('<' :: name ++ attrsText (pre ++ [("url".toList, v)])).length) := by
  obtain ⟨q, h1, sl, h2, h3⟩ := find_gt (attrs := pre ++ ("url".toList, v) :: post) inner hn (by
    intro a ha
    rcases List.mem_append.mp ha with ha | ha
    · exact (hpre a ha).1
    · rcases List.mem_cons.mp ha with rfl | ha
      · exact url_valid
      · exact hpost a ha)
  unfold urlCut
  rw [h1]
  simp only [h2, urlText_eq]
  have hnb : ' ' ∉ '<' :: name := by
    simp only [List.mem_cons, not_or]; exact ⟨by decide, (name_not_eq hn.2).2.1⟩
  have e : '<' :: name ++ attrsText (pre ++ ("url".toList, v) :: post) ++ sl =
      ('<' :: name) ++ (attrsText pre ++ (urlText ++ ('"' :: (v.flatMap attrEscapeChar ++ '"' :: (attrsText post ++ sl))))) := by
    rw [attrsText_append]
    simp [attrsText, attrText, urlText]
  have hf : findSub urlText ('<' :: name ++ attrsText (pre ++ ("url".toList, v) :: post) ++ sl) =
      some ('<' :: name ++ attrsText pre).length := by
    rw [e, noBlank_skip _ _ hnb, attrs_skip pre _ hpre]
    have : ∀ Y, findSub urlText (urlText ++ Y) = some 0 := by
      intro Y
      rw [show urlText ++ Y = ' ' :: ("url=".toList ++ Y) from rfl, findSub, if_pos]
      rw [show ' ' :: ("url=".toList ++ Y) = urlText ++ Y from rfl]
      exact List.isPrefixOf_iff_prefix.mpr ⟨Y, rfl⟩
    rw [this]
    simp
    omega
  rw [hf]
  simp only []
  have hdrop : ('<' :: name ++ attrsText (pre ++ ("url".toList, v) :: post) ++ sl).drop (('<' :: name ++ attrsText pre).length + 6) =
      v.flatMap attrEscapeChar ++ '"' :: (attrsText post ++ sl) := by
    rw [e, show ('<' :: name) ++ (attrsText pre ++ (urlText ++ ('"' :: (v.flatMap attrEscapeChar ++ '"' :: (attrsText post ++ sl))))) =
      (('<' :: name ++ attrsText pre) ++ (urlText ++ ['"'])) ++ (v.flatMap attrEscapeChar ++ '"' :: (attrsText post ++ sl)) by simp]
    rw [show ('<' :: name ++ attrsText pre).length + 6 = (('<' :: name ++ attrsText pre) ++ (urlText ++ ['"'])).length by
      rw [List.length_append (bs := urlText ++ ['"'])]; rfl, List.drop_left]
  rw [hdrop, findFirst_append _ _ (escaped_clean v).1]
  simp only [Prod.mk.injEq, true_and]
  rw [attrsText_append]
  simp [attrsText, attrText]
  omega

/-! ### The accessors -/

/-- The attributes of the outer form: without the declaration of the srcML namespace, and without the url. -/
def outerAttrs : List (Str × Str) → List (Str × Str)
  | [] => []
  | _ :: rest => rest.filter (fun a => a.1 ≠ "url".toList)

/-- Start tags whose outer form is computed correctly: the first attribute declares a namespace, another one follows
that is not the url, and no value contains the text ` url=`. -/
structure OuterOk (name : Str) (attrs : List (Str × Str)) : Prop where
  valid : ValidName name
  noXmlns : findSub "xmlns".toList name = none
  names : ∀ a ∈ attrs, ValidName a.1 ∧ NoUrl a.2
  nodup : (attrs.map (·.1)).Nodup
  shape : ∃ n v r rs, attrs = (n, v) :: r :: rs ∧ (∃ z, n = "xmlns".toList ++ z) ∧ r.1 ≠ "url".toList

theorem noUrl_filter {l : List (Str × Str)} (h : "url".toList ∉ l.map (·.1)) : l.filter (fun a => a.1 ≠ "url".toList) = l := by
  rw [List.filter_eq_self]
  intro a ha
  simp only [ne_eq, decide_eq_true_eq]
  intro e
  exact h (List.mem_map.mpr ⟨a, ha, e⟩)

theorem outer_text {u : UnitData} {name : Str} {attrs : List (Str × Str)} {inner : Option Str}
    (hp : Parts u name attrs inner) (ho : OuterOk name attrs) :
    outerFragment u = some ('<' :: name ++ attrsText (outerAttrs attrs) ++ tailOf name inner) := by
  obtain ⟨hvn, hx, hnames, hnd, n, v, r, rs, rfl, hz, hr⟩ := ho
  have hmk := marks_of_tag (attrs := r :: rs) (v := v) hx hz (hnames (n, v) (by simp)).1
  have hm := hp.marks
  rw [hmk] at hm
  simp only [Option.some.injEq, Prod.mk.injEq] at hm
  obtain ⟨hb, he⟩ := hm
  have hn1 : n ≠ "url".toList := by
    obtain ⟨z, rfl⟩ := hz
    intro e
    have : 'x' ∈ "url".toList := by rw [← e]; simp
    exact absurd this (by decide)
  -- the text
  obtain ⟨X, hX⟩ : ∃ X, attrText n v = ' ' :: X := ⟨_, rfl⟩
  obtain ⟨Y, hY⟩ : ∃ Y, attrText r.1 r.2 = ' ' :: Y := ⟨_, rfl⟩
  have htake : ∀ R, ('<' :: name ++ attrsText ((n, v) :: r :: rs) ++ R).take u.insertBegin = '<' :: name ++ [' '] := by
    intro R
    rw [← hb, show '<' :: name ++ attrsText ((n, v) :: r :: rs) ++ R =
      ('<' :: name ++ [' ']) ++ (X ++ attrsText (r :: rs) ++ R) by simp [attrsText, hX]]
    rw [show name.length + 2 = ('<' :: name ++ [' ']).length by simp, List.take_left]
  have hdrop : ∀ R, ('<' :: name ++ attrsText ((n, v) :: r :: rs) ++ R).drop u.insertEnd = Y ++ attrsText rs ++ R := by
    intro R
    rw [← he, show '<' :: name ++ attrsText ((n, v) :: r :: rs) ++ R =
      ('<' :: name ++ attrText n v ++ [' ']) ++ (Y ++ attrsText rs ++ R) by simp [attrsText, hY]]
    rw [show name.length + 1 + (attrText n v).length + 1 = ('<' :: name ++ attrText n v ++ [' ']).length by simp; omega, List.drop_left]
  have hlen : ¬ u.srcml.length < u.insertEnd := by
    rw [hp.text, ← he]
    simp [attrsText, hY]
    omega
  by_cases hu : "url".toList ∈ rs.map (·.1)
  · obtain ⟨w, hw1, hw2⟩ := List.mem_map.mp hu
    obtain ⟨p2, post, hsplit⟩ := List.append_of_mem hw1
    obtain ⟨w1, w2⟩ := w
    simp only at hw2
    subst hw2
    have hnd' : "url".toList ∉ p2.map (·.1) ∧ "url".toList ∉ post.map (·.1) := by
      rw [hsplit] at hnd
      simp only [List.map_cons, List.map_append, List.nodup_cons, List.mem_cons, List.mem_append, not_or] at hnd
      obtain ⟨_, _, hnd⟩ := hnd
      rw [List.nodup_append] at hnd
      exact ⟨fun hm => hnd.2.2 _ hm _ (by simp) rfl, by
        have := hnd.2.1
        simp only [List.nodup_cons] at this
        exact this.1⟩
    have hpre : ∀ a ∈ (n, v) :: r :: p2, ValidName a.1 ∧ a.1 ≠ "url".toList ∧ NoUrl a.2 := by
      intro a ha
      have hmem : a ∈ (n, v) :: r :: rs := by
        rw [hsplit]
        simp only [List.mem_cons, List.mem_append] at ha ⊢
        rcases ha with ha | ha | ha
        · exact Or.inl ha
        · exact Or.inr (Or.inl ha)
        · exact Or.inr (Or.inr (Or.inl ha))
      refine ⟨(hnames a hmem).1, ?_, (hnames a hmem).2⟩
      simp only [List.mem_cons] at ha
      rcases ha with rfl | rfl | ha
      · exact hn1
      · exact hr
      · intro e; exact hnd'.1 (List.mem_map.mpr ⟨a, ha, e⟩)
    have hcut := urlCut_some (v := w2) (post := post) inner hvn hpre (by
      intro a ha
      exact (hnames a (by rw [hsplit]; simp [ha])).1)
    have hall : (n, v) :: r :: rs = ((n, v) :: r :: p2) ++ ("url".toList, w2) :: post := by rw [hsplit]; rfl
    unfold outerFragment
    simp only []
    rw [if_neg hlen]
    rw [hp.text]
    rw [← hall] at hcut
    rw [hcut]
    simp only []
    rw [if_neg (by simp), htake, hdrop]
    rw [if_neg (by rw [← he]; simp [attrsText, hY]; omega)]
    have hcnt : ('<' :: name ++ attrsText ((n, v) :: r :: p2)).length - u.insertEnd = (Y ++ attrsText p2).length := by
      rw [← he]
      simp [attrsText, hY]
      omega
    rw [hcnt]
    have h1 : (Y ++ attrsText rs ++ tailOf name inner).take (Y ++ attrsText p2).length = Y ++ attrsText p2 := by
      rw [hsplit, attrsText_append]
      rw [show Y ++ (attrsText p2 ++ attrsText (("url".toList, w2) :: post)) ++ tailOf name inner =
        (Y ++ attrsText p2) ++ (attrsText (("url".toList, w2) :: post) ++ tailOf name inner) by simp, List.take_left]
    have h2 : ('<' :: name ++ attrsText ((n, v) :: r :: rs) ++ tailOf name inner).drop
        ('<' :: name ++ attrsText ((n, v) :: r :: p2 ++ [("url".toList, w2)])).length = attrsText post ++ tailOf name inner := by
      rw [hall, show ((n, v) :: r :: p2) ++ ("url".toList, w2) :: post = ((n, v) :: r :: p2 ++ [("url".toList, w2)]) ++ post by simp,
        attrsText_append (_ ++ [_]) post]
      rw [show '<' :: name ++ (attrsText ((n, v) :: r :: p2 ++ [("url".toList, w2)]) ++ attrsText post) ++ tailOf name inner =
        ('<' :: name ++ attrsText ((n, v) :: r :: p2 ++ [("url".toList, w2)])) ++ (attrsText post ++ tailOf name inner) by simp,
        List.drop_left]
    rw [h1, h2]
    have hout : outerAttrs ((n, v) :: r :: rs) = r :: (p2 ++ post) := by
      show (r :: rs).filter (fun a => a.1 ≠ "url".toList) = _
      rw [hsplit]
      rw [List.filter_cons_of_pos (by simpa using hr), List.filter_append, List.filter_cons_of_neg (by simp),
        noUrl_filter hnd'.1, noUrl_filter hnd'.2]
    rw [hout]
    simp [attrsText, hY]
  · have hcut := urlCut_none (attrs := (n, v) :: r :: rs) inner hvn (by
      intro a ha
      refine ⟨(hnames a ha).1, ?_, (hnames a ha).2⟩
      simp only [List.mem_cons] at ha
      rcases ha with rfl | rfl | ha
      · exact hn1
      · exact hr
      · intro e; exact hu (List.mem_map.mpr ⟨a, ha, e⟩))
    unfold outerFragment
    simp only []
    rw [if_neg hlen, hp.text, hcut]
    simp only [if_true]
    rw [htake, hdrop]
    have hout : outerAttrs ((n, v) :: r :: rs) = r :: rs := by
      show (r :: rs).filter (fun a => a.1 ≠ "url".toList) = _
      rw [List.filter_cons_of_pos (by simpa using hr), noUrl_filter hu]
    rw [hout]
    simp [attrsText, hY]

theorem inner_text {u : UnitData} {name : Str} {attrs : List (Str × Str)} {inner : Option Str}
    (hp : Parts u name attrs inner) : (UnitObj.getInner { data := u }).1 = some (inner.getD []) := by
  unfold UnitObj.getInner
  rw [if_neg (by simp [hp.body])]
  simp only [hp.contentEnd]
  cases inner with
  | none => simp
  | some i =>
    simp only [Option.getD_some]
    split
    · rename_i h
      have : i = [] := by
        cases i with
        | nil => rfl
        | cons c cs => simp at h; omega
      rw [this]
    · congr 1
      rw [hp.text, hp.contentBegin]
      rw [show '<' :: name ++ attrsText attrs ++ tailOf name (some i) =
        ('<' :: name ++ attrsText attrs ++ ['>']) ++ (i ++ ('<' :: '/' :: name ++ ['>'])) by simp [tailOf]]
      rw [show ('<' :: name ++ attrsText attrs).length + 1 = ('<' :: name ++ attrsText attrs ++ ['>']).length by simp; omega, List.drop_left]
      rw [show ((↑((('<' :: name ++ attrsText attrs ++ ['>']).length) + (i.length + 1)) : Int) -
        ↑(('<' :: name ++ attrsText attrs ++ ['>']).length) - 1).toNat = i.length by omega, List.take_left]

/-- The document is a start tag, the contents, and the end tag; or an empty element, and the contents are empty. -/
def Spec.Contents (name doc inner : Str) : Prop :=
  ∃ tag, '>' ∉ tag ∧ (doc = tag ++ '>' :: inner ++ "</".toList ++ name ++ ">".toList ∨
    inner = [] ∧ doc = tag ++ "/>".toList)

theorem contents_of {name : Str} {attrs : List (Str × Str)} {inner : Option Str} (hn : ValidName name)
    (hv : ∀ a ∈ attrs, ValidName a.1) :
    Contents name ('<' :: name ++ attrsText attrs ++ tailOf name inner) (inner.getD []) := by
  refine ⟨'<' :: name ++ attrsText attrs, ?_, ?_⟩
  · simp only [List.cons_append, List.mem_cons, List.mem_append, not_or]
    exact ⟨by decide, (name_not_eq hn.2).2.2.2, attrs_no_gt attrs hv⟩
  · cases inner with
    | none => exact Or.inr ⟨rfl, rfl⟩
    | some i => left; simp [tailOf]

/-- The outer form and the contents of a unit, as the accessors return them. -/
structure Spec.Accessors (u : UnitObj) (name : Str) (attrs : List (Str × Str)) (evs : List Ev) (inner outer : Str) : Prop where
  whole : readXml u.data.srcml = some (.op name attrs :: evs ++ [.cl name])
  getInner : u.getInner.1 = some inner
  between : Contents name u.data.srcml inner
  getOuter : ∃ u', u.getOuter = .val (some outer, u')
  outerBetween : Contents name outer inner
  outerReads : readXml outer = some (.op name (outerAttrs attrs) :: evs ++ [.cl name])

theorem accessors_ok {u : UnitObj} {name : Str} {attrs : List (Str × Str)} {inner : Option Str} {evs : List Ev}
    (hp : Parts u.data name attrs inner) (ho : OuterOk name attrs) (hv : ∀ a ∈ attrs, ValidName a.1 ∧ ValidValue a.2)
    (h1 : u.srcmlFragment = none) (h2 : u.srcmlRaw = none)
    (hr : readXml u.data.srcml = some (.op name attrs :: evs ++ [.cl name])) :
    ∃ outer, Accessors u name attrs evs (inner.getD []) outer := by
  have hsub : ∀ a ∈ outerAttrs attrs, a ∈ attrs := by
    intro a ha
    cases attrs with
    | nil => cases ha
    | cons x rest => exact List.mem_cons_of_mem _ (List.mem_filter.mp ha).1
  have hnd : ((outerAttrs attrs).map (·.1)).Nodup := by
    have : (outerAttrs attrs).Sublist attrs := by
      cases attrs with
      | nil => exact List.Sublist.refl _
      | cons x rest => exact List.Sublist.cons _ List.filter_sublist
    exact List.Sublist.nodup (this.map _) ho.nodup
  refine ⟨'<' :: name ++ attrsText (outerAttrs attrs) ++ tailOf name inner, hr, ?_, ?_, ?_, ?_, ?_⟩
  · have := inner_text hp
    have hu : ({ data := u.data } : UnitObj).getInner.1 = u.getInner.1 := by
      unfold UnitObj.getInner
      rw [h2]
      simp only []
      split
      · rfl
      · split <;> rfl
    rw [← hu, this]
  · rw [hp.text]
    exact contents_of ho.valid (fun a ha => (hv a ha).1)
  · unfold UnitObj.getOuter
    rw [if_neg (by simp [hp.body]), h1]
    simp only [outer_text hp ho]
    exact ⟨_, rfl⟩
  · exact contents_of ho.valid (fun a ha => (hv a (hsub a ha)).1)
  · rw [hp.text] at hr
    exact retag ho.valid hv (fun a ha => hv a (hsub a ha)) ho.nodup hnd (tailOf_end _ _) hr

/-- The name and the attributes of a unit with these settings. -/
def unitNameOf (a : Archive) (u : UnitData) (thread : ThreadState) : Str := (unitOut a u thread).unitName
def unitAttrsOf (a : Archive) (u : UnitData) (thread : ThreadState) : List (Str × Str) :=
  (unitOut a u thread).tagAttrs (startMeta a u)

/-- What a sequence of calls leaves in the unit. -/
theorem written_parts (sax : Sax) (a : Archive) (thread : ThreadState) (u : UnitObj) (cs : List WriteCall)
    (sts : List Status) (b : Build) (hok : WriteOk a u.data) (hcs : ({} : Build).calls cs = some (sts, b))
    (hsrc : u.data.src = none → Reads sax ∧
      ∀ attrs, Ev.op (escapeNameOf (namespacesOf a u.data)) attrs ∈ b.events → attrs ≠ []) :
    ∃ u' inner, runWrites sax a thread u (.startUnit :: cs ++ [.endUnit]) = .val (.ok :: sts ++ [.ok], u') ∧
      Parts u'.data (unitNameOf a u.data thread) (unitAttrsOf a u.data thread) inner ∧
      readXml u'.data.srcml = some (.op (unitNameOf a u.data thread) (unitAttrsOf a u.data thread) :: b.events ++
        [.cl (unitNameOf a u.data thread)]) ∧
      u'.srcmlFragment = u.srcmlFragment ∧ u'.srcmlRaw = u.srcmlRaw := by
  obtain ⟨bb, ee, t0, s1, s2, s3, s4⟩ := writeStartUnit_ok hok thread
  obtain ⟨_, _, _, _, hne⟩ := start_facts hok thread
  have hv := tagAttrs_valid (o := unitOut a u.data thread) (m := startMeta a u.data) hok.clean hok.metadata
  have hd := tagAttrs_nodup (o := unitOut a u.data thread) (m := startMeta a u.data) hok.clean hok.metadata
  obtain ⟨t1, q1, q2⟩ := calls_ok sax a thread cs s2 { u with
        data := { u.data with
          namespaces := some (namespacesOf a u.data)
          contentBegin := (tagText (unitOut a u.data thread) (startMeta a u.data)).length + 1
          insertBegin := bb, insertEnd := ee }
        translator := some t0 } rfl hcs [.endUnit]
  have hs : ∃ src, (u.data.src = some src ∨ u.data.src = none ∧ Reads sax ∧
      extractEvents (escapeNameOf (namespacesOf a u.data))
        (.op (unitOut a u.data thread).unitName ((unitOut a u.data thread).tagAttrs (startMeta a u.data)) ::
          b.events ++ [.cl (unitOut a u.data thread).unitName]) = .val src) := by
    cases h : u.data.src with
    | some s => exact ⟨s, Or.inl rfl⟩
    | none =>
      obtain ⟨r1, r2⟩ := hsrc h
      obtain ⟨s, hs⟩ := extractEvents_val (escapeNameOf (namespacesOf a u.data))
        (.op (unitOut a u.data thread).unitName ((unitOut a u.data thread).tagAttrs (startMeta a u.data)) ::
          b.events ++ [.cl (unitOut a u.data thread).unitName]) (by
          intro as ha
          simp only [List.cons_append, List.nil_append, List.mem_append, List.mem_cons, Ev.op.injEq, List.not_mem_nil, or_false,
            reduceCtorEq] at ha
          rcases ha with ⟨_, ha⟩ | ha
          · rw [ha]; exact hne
          · exact r2 as ha)
      exact ⟨s, Or.inr ⟨rfl, r1, hs⟩⟩
  obtain ⟨src, hs⟩ := hs
  obtain ⟨u', inner, f1, f2, f3, f4, f5, f6, f7, f8⟩ := end_parts sax a thread (name := (unitOut a u.data thread).unitName)
    (attrs := (unitOut a u.data thread).tagAttrs (startMeta a u.data)) q1 (unitName_valid hok.clean) hv hd
    { u with
        data := { u.data with
          namespaces := some (namespacesOf a u.data)
          contentBegin := (tagText (unitOut a u.data thread) (startMeta a u.data)).length + 1
          insertBegin := bb, insertEnd := ee }
        translator := some t1 } rfl ⟨hok.decl, hok.clean, hok.flags, hok.metadata⟩ rfl rfl (src := src) hs
  refine ⟨u', inner, ?_, f2, f3, f5, f6⟩
  rw [List.cons_append, runWrites]
  simp only [WriteCall.run, s1]
  rw [q2]
  simp only [runWrites, WriteCall.run, f1]
  simp

/-- C31 for a unit written element by element: the accessors return the unit element, without the declaration of the srcML
namespace and without the url, and its contents, which are the text between the tags of both. -/
theorem C31_written_partial (sax : Sax) (a : Archive) (thread : ThreadState) (u : UnitObj) (cs : List WriteCall)
    (sts : List Status) (b : Build) (hok : WriteOk a u.data) (hcs : ({} : Build).calls cs = some (sts, b))
    (hsrc : u.data.src = none → Reads sax ∧
      ∀ attrs, Ev.op (escapeNameOf (namespacesOf a u.data)) attrs ∈ b.events → attrs ≠ [])
    (hcache : u.srcmlFragment = none ∧ u.srcmlRaw = none)
    (hout : OuterOk (unitNameOf a u.data thread) (unitAttrsOf a u.data thread)) :
    ∃ u' inner outer, runWrites sax a thread u (.startUnit :: cs ++ [.endUnit]) = .val (.ok :: sts ++ [.ok], u') ∧
      Accessors u' (unitNameOf a u.data thread) (unitAttrsOf a u.data thread) b.events inner outer := by
  obtain ⟨u', inner, f1, f2, f3, f5, f6⟩ := written_parts sax a thread u cs sts b hok hcs hsrc
  have hv := tagAttrs_valid (o := unitOut a u.data thread) (m := startMeta a u.data) hok.clean hok.metadata
  obtain ⟨outer, ho⟩ := accessors_ok (u := u') f2 hout hv (f5.trans hcache.1) (f6.trans hcache.2) f3
  exact ⟨u', inner.getD [], outer, f1, ho⟩

/-! ### Parsing -/

theorem rel_flag {name : Str} {attrs : List (Str × Str)} {evs : List Ev} {w : Writer} {flag : Bool} (hn : ValidName name)
    (hv : ∀ a ∈ attrs, ValidName a.1 ∧ ValidValue a.2) (hd : (attrs.map (·.1)).Nodup)
    (hg : Grown ('<' :: name ++ attrsText attrs) name w)
    (h1 : Sync {} w ([.op name attrs] ++ evs) [(name, flag)]) (hf : flag = true) : evs = [] := by
  subst hf
  obtain ⟨s, k1, k2, k3, k4, k5⟩ := h1
  simp only [List.map_nil, List.nil_append] at k5
  obtain ⟨_, pos, as, rooted, evs0, k6, _, _, k7, k8⟩ := k5
  have k7 := k7 (by simp)
  subst k7
  have k2' : w.out = s := by simpa using k2
  have k6' : ({} : RState).run s = some ⟨pos, [], false, evs0⟩ := by simpa using k6
  obtain ⟨p, e1, e2⟩ := run_tag hn hv
  rcases hg with ⟨g, _, _⟩ | ⟨r, g⟩
  · rw [← k2', g, e1] at k6'
    simp only [Option.some.injEq, RState.mk.injEq] at k6'
    have : evs0 = [] := k6'.2.2.2.symm
    rw [this] at k8
    simp at k8
    exact k8.2
  · exfalso
    have o1 := run_closeOpen { pos := p } name attrs e2 hd (fun _ => rfl)
    rw [← k2', g, run_append_some e1, show '>' :: r = ['>'] ++ r from rfl, run_append_some o1] at k6'
    have := run_rooted r k6' rfl
    cases this

/-- The translator after parsing. -/
theorem trel_consume {a : Archive} {u : UnitData} (hok : WriteOk a u) (thread : ThreadState) {t : Translator}
    (h : TRel (tagText (unitOut a u thread) (startMeta a u)) (unitOut a u thread).unitName
      [.op (unitOut a u thread).unitName ((unitOut a u thread).tagAttrs (startMeta a u))] {} t)
    (ht : t.out = (unitOut a u thread).startUnit (startMeta a u) false) (hth : (unitOut a u thread).ThreadAgrees)
    (toks : List Tok) (htext : ∀ x ∈ toks, x.text.all xmlChar = true) {evs : List Ev}
    (hev : tokenEvents (unitOut a u thread).env [] toks = some (evs, [])) :
    TRel (tagText (unitOut a u thread) (startMeta a u)) (unitOut a u thread).unitName
      [.op (unitOut a u thread).unitName ((unitOut a u thread).tagAttrs (startMeta a u))] { evs := evs }
      { t with first := false, out := t.out.consume toks } := by
  have hsync : Sync {} t.out.w [.op (unitOut a u thread).unitName ((unitOut a u thread).tagAttrs (startMeta a u))]
      [((unitOut a u thread).unitName, true)] := by
    rw [ht]; exact (start_facts hok thread).2.1
  obtain ⟨top', h2, htop, _, _⟩ := consume_ok Base.ok_init (base := [(unitOut a u thread).unitName]) (Or.inl (by simp)) toks htext
    t.out _ _ [] (by rw [ht]; exact startUnit_good hok.clean hth _) hsync (by rw [hsync.stack]; simp) (by simp) evs [] hev
  have hgr : Grown (tagText (unitOut a u thread) (startMeta a u)) (unitOut a u thread).unitName (t.out.consume toks).w :=
    consume_grown toks t.out [] h.grown (by simp) evs [] hev
  have hv := tagAttrs_valid (o := unitOut a u thread) (m := startMeta a u) hok.clean hok.metadata
  have hd := tagAttrs_nodup (o := unitOut a u thread) (m := startMeta a u) hok.clean hok.metadata
  match top', htop, h2 with
  | [(n, flag)], htop, h2 =>
    have hn : n = (unitOut a u thread).unitName := by simpa using htop
    subst hn
    refine ⟨?_, hgr, h.outputting, h.depth⟩
    unfold Rel
    simp only [List.map_nil, List.nil_append]
    exact ⟨flag, h2, fun hf => ⟨trivial, rel_flag (unitName_valid hok.clean) hv hd hgr h2 hf⟩⟩

/-- The unit before parsing: its encoding and url are set. -/
def beforeParse (a : Archive) (u : UnitData) (encoding : Option Str) : UnitData :=
  { u with encoding := encoding, url := a.url }

/-- The unit with the namespaces that the parsed elements need, and the hash of the source. -/
def afterParse (a : Archive) (u : UnitData) (encoding : Option Str) (thread : ThreadState) (toks : List Tok)
    (hash : Option Str := none) : UnitData :=
  { beforeParse a u encoding with
    hash := hash.or u.hash
    namespaces := some (((unitOut a (beforeParse a u encoding) thread).startUnit (startMeta a (beforeParse a u encoding)) false).consume toks).namespaces }

theorem consume_names (ts : List Tok) : ∀ (o : Out),
    (o.consume ts).namespaces.map (·.prefix_) = o.namespaces.map (·.prefix_) ∧
    (o.consume ts).namespaces.map (·.uri) = o.namespaces.map (·.uri) := by
  induction ts with
  | nil => intro o; exact ⟨rfl, rfl⟩
  | cons t ts ih =>
    intro o
    obtain ⟨h1, h2⟩ := ih (o.outputToken t)
    have : (o.outputToken t).namespaces.map (·.prefix_) = o.namespaces.map (·.prefix_) ∧
        (o.outputToken t).namespaces.map (·.uri) = o.namespaces.map (·.uri) := by
      rw [outputToken_namespaces]
      split
      · exact ⟨rfl, rfl⟩
      · cases elementOf t.type with
        | none => exact ⟨rfl, rfl⟩
        | some e => exact ⟨markUsed_prefixes _ _, markUsed_uris _ _⟩
    exact ⟨h1.trans this.1, h2.trans this.2⟩

theorem parse_tables {a : Archive} {u : UnitData} (hok : WriteOk a u) (thread : ThreadState) (toks : List Tok) :
    let out := ((unitOut a u thread).startUnit (startMeta a u) false).consume toks
    TableOk out.namespaces ∧ out.namespaces.map (·.prefix_) = (unitOut a u thread).namespaces.map (·.prefix_) ∧
    out.namespaces.map (·.uri) = (unitOut a u thread).namespaces.map (·.uri) := by
  intro out
  have hT : TableOk (unitOut a u thread).namespaces := merge_ok default_tableOk hok.flags
  have h1 := (startUnit_usedIn (unitOut a u thread) (startMeta a u) hT CPP_NS_URI (Or.inl rfl)).1
  obtain ⟨c1, c2⟩ := consume_names toks ((unitOut a u thread).startUnit (startMeta a u) false)
  obtain ⟨_, _, f3, f4, _, _⟩ := startUnit_fields (unitOut a u thread) (startMeta a u) false
  exact ⟨(consume_table toks _ h1).1, c1.trans f3, c2.trans f4⟩

theorem afterParse_ok {a : Archive} {u : UnitData} {encoding : Option Str} (hok : WriteOk a (beforeParse a u encoding))
    (thread : ThreadState) (toks : List Tok) (hash : Option Str) (hh : ∀ h, hash = some h → ValidValue h) : WriteOk a (afterParse a u encoding thread toks hash) ∧
    ∀ th, (unitOut a (afterParse a u encoding thread toks hash) th).namespaces.map (·.prefix_) =
      (unitOut a (beforeParse a u encoding) thread).namespaces.map (·.prefix_) := by
  obtain ⟨p1, p2, p3⟩ := parse_tables hok thread toks
  obtain ⟨m1, m2⟩ := merge_default p1
  refine ⟨⟨hok.decl, ?_, ?_, ⟨?_, hok.metadata.userNames, hok.metadata.userNodup, hok.metadata.userValues⟩⟩, fun th => m2.trans p2⟩
  · exact CleanPrefixes.congr (a := (unitOut a (beforeParse a u encoding) thread).namespaces) hok.clean (m2.trans p2) (m1.trans p3)
  · intro n hn
    have := p1.flags n hn
    exact ⟨this.std.mp, this.req.mp, this.root.mp, this.reg⟩
  · intro v hv
    have hval := hok.metadata.values v
    simp only [startMeta, afterParse, beforeParse, List.mem_cons, List.not_mem_nil, or_false] at hv hval
    cases hash with
    | none => exact hval hv
    | some h =>
      simp only [Option.some_or, Option.some.injEq] at hv
      rcases hv with hv | hv | hv | hv | hv | hv | hv | hv
      · exact hval (by simp [hv])
      · exact hval (by simp [hv])
      · exact hval (by simp [hv])
      · exact hval (by simp [hv])
      · exact hval (by simp [hv])
      · exact hval (by simp [hv])
      · subst hv; exact hh _ rfl
      · exact hval (by simp [hv])

theorem escapeName_of {ns : List Namespace} (h : TableOk ns) :
    escapeNameOf ns = qname (nullIfEmpty (prefixOf ns .SRC)) "escape".toList := by
  cases ns with
  | nil => have := h.std; simp [standardUris] at this
  | cons n rest =>
    have hu : n.uri = SRC_NS_URI := by
      have := h.std
      simp only [List.map_cons, List.take_succ_cons, standardUris, List.cons.injEq] at this
      exact this.1
    unfold escapeNameOf
    have : findUri (n :: rest) SRC_NS_URI = some n := by simp [findUri, hu]
    rw [this]
    rfl

theorem extract_unit (o : Out) (hp : CleanPrefixes o.namespaces) (toks : List Tok) (s : Str) (hs : Carries toks s)
    (evs : List Ev) (hev : tokenEvents o.env [] toks = some (evs, [])) (attrs : List (Str × Str)) :
    extractEvents o.env.escapeName (.op o.unitName attrs :: evs ++ [.cl o.unitName]) = .val s := by
  have h1 := C13_events_carry o.env (fun p => hp.prefixOf_colon p) toks s hs [] [] evs hev
  have hu : o.unitName ≠ o.env.escapeName := by
    unfold Out.unitName Env.escapeName qname nullIfEmpty Out.env
    by_cases hq : prefixOf o.namespaces .SRC = []
    · simp only [hq, if_true]; decide
    · simp only [hq, if_false]
      intro e
      have := List.append_cancel_left e
      exact absurd this (by decide)
  have happ : ∀ (es : List Ev) n r, extractEvents o.env.escapeName es = .val r →
      extractEvents o.env.escapeName (es ++ [.cl n]) = .val r := by
    intro es n
    induction es with
    | nil => intro r h; exact h
    | cons e es ih =>
      intro r h
      cases e with
      | ch c =>
        simp only [List.cons_append, extractEvents] at h ⊢
        cases hx : extractEvents o.env.escapeName es with
        | ub => rw [hx] at h; cases h
        | val y => rw [ih y hx]; rw [hx] at h; exact h
      | cl m => exact ih r h
      | op m as =>
        simp only [List.cons_append, extractEvents] at h ⊢
        split
        · rename_i hm
          rw [if_pos hm] at h
          cases as with
          | nil => cases h
          | cons x xs =>
            cases hx : extractEvents o.env.escapeName es with
            | ub => rw [hx] at h; cases h
            | val y => rw [ih y hx]; rw [hx] at h; exact h
        · rename_i hm
          rw [if_neg hm] at h
          exact ih r h
  rw [List.cons_append, extractEvents_op _ _ _ _ hu]
  exact happ evs o.unitName s h1

/-- What parsing leaves in the unit. -/
theorem parsed_parts (sax : Sax) (a : Archive) (thread : ThreadState) (u : UnitObj) (encoding : Option Str)
    (toks : List Tok) (evs : List Ev) (s : Str)
    (hok : WriteOk a (beforeParse a u.data encoding)) (hth : (unitOut a (beforeParse a u.data encoding) thread).ThreadAgrees)
    (htext : ∀ x ∈ toks, x.text.all xmlChar = true)
    (hev : tokenEvents (unitOut a (beforeParse a u.data encoding) thread).env [] toks = some (evs, []))
    (hs : Carries toks s) (hread : Reads sax) (hsrc : u.data.src = none) (hash : Option Str) (hh : ∀ h, hash = some h → ValidValue h) :
    ∃ u' inner, u.parseTokens sax a thread encoding toks hash = .val (.ok, u') ∧
      Parts u'.data (unitNameOf a (beforeParse a u.data encoding) thread)
        (unitAttrsOf a (afterParse a u.data encoding thread toks hash) thread) inner ∧
      readXml u'.data.srcml = some (.op (unitNameOf a (beforeParse a u.data encoding) thread)
        (unitAttrsOf a (afterParse a u.data encoding thread toks hash) thread) :: evs ++
          [.cl (unitNameOf a (beforeParse a u.data encoding) thread)]) ∧
      u'.srcmlFragment = u.srcmlFragment ∧ u'.srcmlRaw = u.srcmlRaw ∧
      u'.data.src = some s ∧ u'.data.loc = (textLines s).length := by
  obtain ⟨bb, ee, t0, s1, s2, s3, s4⟩ := writeStartUnit_ok (u := { u with data := beforeParse a u.data encoding }) hok thread
  have hv := tagAttrs_valid (o := unitOut a (beforeParse a u.data encoding) thread)
    (m := startMeta a (beforeParse a u.data encoding)) hok.clean hok.metadata
  have hd := tagAttrs_nodup (o := unitOut a (beforeParse a u.data encoding) thread)
    (m := startMeta a (beforeParse a u.data encoding)) hok.clean hok.metadata
  have htr := trel_consume hok thread s2 s3 hth toks htext hev
  obtain ⟨hok2, hpre⟩ := afterParse_ok hok thread toks hash hh
  have hnames : ∀ th, (unitOut a (afterParse a u.data encoding thread toks hash) th).unitName =
      (unitOut a (beforeParse a u.data encoding) thread).unitName := by
    intro th
    unfold Out.unitName
    rw [prefixOf_of_prefixes (hpre th) .SRC]
  have hv2 := tagAttrs_valid (o := unitOut a (afterParse a u.data encoding thread toks hash) thread)
    (m := startMeta a (afterParse a u.data encoding thread toks hash)) hok2.clean hok2.metadata
  have hbe : ({ evs := evs } : Build).events = evs := by simp [Build.events, Build.flush]
  -- the text
  have hen : escapeNameOf (namespacesOf a (afterParse a u.data encoding thread toks hash)) =
      (unitOut a (beforeParse a u.data encoding) thread).env.escapeName := by
    obtain ⟨p1, p2, _⟩ := parse_tables hok thread toks
    rw [show namespacesOf a (afterParse a u.data encoding thread toks hash) =
      (((unitOut a (beforeParse a u.data encoding) thread).startUnit (startMeta a (beforeParse a u.data encoding)) false).consume toks).namespaces from rfl,
      escapeName_of p1, prefixOf_of_prefixes p2 .SRC]
    unfold Env.escapeName qname nullIfEmpty Out.env
    by_cases hq : prefixOf (unitOut a (beforeParse a u.data encoding) thread).namespaces .SRC = []
    · simp only [hq, if_true]
    · simp only [hq, if_false]; rfl
  obtain ⟨u', inner, f1, f2, f3, f4, f5, f6, f7, f8⟩ := end_parts sax a
    (((unitOut a (beforeParse a u.data encoding) thread).startUnit (startMeta a (beforeParse a u.data encoding)) false).consume toks).thread
    (name := (unitOut a (beforeParse a u.data encoding) thread).unitName)
    (attrs := (unitOut a (beforeParse a u.data encoding) thread).tagAttrs (startMeta a (beforeParse a u.data encoding)))
    htr (unitName_valid hok.clean) hv hd
    { u with
        data := { afterParse a u.data encoding thread toks hash with
          contentBegin := (tagText (unitOut a (beforeParse a u.data encoding) thread) (startMeta a (beforeParse a u.data encoding))).length + 1
          insertBegin := bb, insertEnd := ee }
        translator := some { t0 with first := false, out := t0.out.consume toks } } rfl
    ⟨hok2.decl, hok2.clean, hok2.flags, hok2.metadata⟩ (hnames _) rfl (src := s)
    (Or.inr ⟨hsrc, hread, by
      show extractEvents (escapeNameOf (namespacesOf a (afterParse a u.data encoding thread toks hash))) _ = _
      rw [hen]
      have := extract_unit (unitOut a (beforeParse a u.data encoding) thread) hok.clean toks s hs evs hev
        ((unitOut a (afterParse a u.data encoding thread toks hash) thread).tagAttrs (startMeta a (afterParse a u.data encoding thread toks hash)))
      rw [hbe]
      exact this⟩)
  have f3' : readXml u'.data.srcml = some (.op (unitNameOf a (beforeParse a u.data encoding) thread)
      (unitAttrsOf a (afterParse a u.data encoding thread toks hash) thread) :: evs ++
        [.cl (unitNameOf a (beforeParse a u.data encoding) thread)]) := by
    rw [hbe] at f3
    exact f3
  refine ⟨u', inner, ?_, f2, f3', f5, f6, f7, by rw [f8, unitLoc_lines]⟩
  unfold UnitObj.parseTokens
  simp only []
  rw [show ({ u with data := { u.data with encoding := encoding, url := a.url } } : UnitObj) =
    { u with data := beforeParse a u.data encoding } from rfl, s1]
  simp only [s3]
  rw [← f1]
  rw [s3]
  rfl

/-- C31 for a parsed unit: as for a written one. The start tag has the namespaces that the parsed elements need, and the text
of the unit is the source. -/
theorem C31_parsed_partial (sax : Sax) (a : Archive) (thread : ThreadState) (u : UnitObj) (encoding : Option Str)
    (toks : List Tok) (evs : List Ev) (s : Str)
    (hok : WriteOk a (beforeParse a u.data encoding)) (hth : (unitOut a (beforeParse a u.data encoding) thread).ThreadAgrees)
    (htext : ∀ x ∈ toks, x.text.all xmlChar = true)
    (hev : tokenEvents (unitOut a (beforeParse a u.data encoding) thread).env [] toks = some (evs, []))
    (hs : Carries toks s) (hread : Reads sax) (hsrc : u.data.src = none) (hash : Option Str) (hh : ∀ h, hash = some h → ValidValue h)
    (hcache : u.srcmlFragment = none ∧ u.srcmlRaw = none)
    (hout : OuterOk (unitNameOf a (beforeParse a u.data encoding) thread)
      (unitAttrsOf a (afterParse a u.data encoding thread toks hash) thread)) :
    ∃ u' inner outer, u.parseTokens sax a thread encoding toks hash = .val (.ok, u') ∧
      Accessors u' (unitNameOf a (beforeParse a u.data encoding) thread)
        (unitAttrsOf a (afterParse a u.data encoding thread toks hash) thread) evs inner outer ∧
      u'.data.src = some s ∧ u'.data.loc = (textLines s).length := by
  obtain ⟨u', inner, f1, f2, f3', f5, f6, f7, f8⟩ := parsed_parts sax a thread u encoding toks evs s hok hth htext hev hs hread hsrc hash hh
  obtain ⟨hok2, _⟩ := afterParse_ok hok thread toks hash hh
  have hv2 := tagAttrs_valid (o := unitOut a (afterParse a u.data encoding thread toks hash) thread)
    (m := startMeta a (afterParse a u.data encoding thread toks hash)) hok2.clean hok2.metadata
  obtain ⟨outer, ho⟩ := accessors_ok (u := u') (name := unitNameOf a (beforeParse a u.data encoding) thread)
    (attrs := unitAttrsOf a (afterParse a u.data encoding thread toks hash) thread) (evs := evs) f2 hout hv2
    (f5.trans hcache.1) (f6.trans hcache.2) f3'
  exact ⟨u', inner.getD [], outer, f1, ho, f7, f8⟩

/-! ### Examples and findings -/

/-- What the accessors return after a sequence of calls on the sample archive and unit. -/
def accessAfter (a : Archive) (u : UnitObj) (cs : List WriteCall) : Run (Option Str × Option Str) :=
  match runWrites sampleSax a {} u cs with
  | .ub => .ub
  | .val (_, u) => match u.getOuter with
    | .val (s, _) => .val (s, u.getInner.1)
    | .ub => .ub

theorem sample_outerOk : OuterOk (unitNameOf sampleArchive sampleUnit.data {}) (unitAttrsOf sampleArchive sampleUnit.data {}) := by
  have h1 : unitNameOf sampleArchive sampleUnit.data {} = "unit".toList := by decide +kernel
  have h2 : unitAttrsOf sampleArchive sampleUnit.data {} = [("xmlns".toList, SRC_NS_URI), ("revision".toList, "1.0.0".toList),
      ("language".toList, "C++".toList), ("filename".toList, "a&b.cpp".toList)] := by decide +kernel
  rw [h1, h2]
  refine ⟨by constructor <;> decide, by decide +kernel, ?_, by decide +kernel,
    ⟨"xmlns".toList, SRC_NS_URI, ("revision".toList, "1.0.0".toList), [("language".toList, "C++".toList), ("filename".toList, "a&b.cpp".toList)],
      rfl, ⟨[], rfl⟩, by decide⟩⟩
  intro a ha
  simp only [List.mem_cons, List.not_mem_nil, or_false] at ha
  rcases ha with rfl | rfl | rfl | rfl <;> exact ⟨by constructor <;> decide, by decide +kernel⟩

example : ∃ u' inner outer, runWrites sampleSax sampleArchive {} sampleUnit (.startUnit :: sampleCalls ++ [.endUnit]) =
      .val ([.ok, .ok, .ok, .invalidArgument, .ok, .ok, .invalidInput, .ok, .ok], u') ∧
    Accessors u' "unit".toList (unitAttrsOf sampleArchive sampleUnit.data {}) sampleBuild.events inner outer := by
  have := C31_written_partial sampleSax sampleArchive {} sampleUnit sampleCalls
    [.ok, .ok, .invalidArgument, .ok, .ok, .invalidInput, .ok] sampleBuild sample_writeOk
    (by decide +kernel) (fun _ => ⟨sampleSax_reads, by
      intro attrs h
      have : ∀ e ∈ sampleBuild.events, ∀ as, e = Ev.op (escapeNameOf (namespacesOf sampleArchive sampleUnit.data)) as → as ≠ [] := by
        intro e he as heq
        have he' : e ∈ [Ev.op "name".toList [("p:k".toList, "<".toList), ("xmlns:p".toList, "u".toList)],
            .op "x:op".toList [("xmlns:x".toList, "v".toList)], .ch 'a', .ch '"', .ch '<', .cl "x:op".toList, .cl "name".toList] := he
        simp only [List.mem_cons, List.not_mem_nil, or_false] at he'
        rcases he' with rfl | rfl | rfl | rfl | rfl | rfl | rfl <;> cases heq <;> simp
      exact this _ h attrs rfl⟩) ⟨rfl, rfl⟩ sample_outerOk
  exact this

example : accessAfter sampleArchive sampleUnit [.startUnit, .string (some "a<b".toList), .endUnit] =
    .val (some "<unit revision=\"1.0.0\" language=\"C++\" filename=\"a&amp;b.cpp\">a&lt;b</unit>".toList, some "a&lt;b".toList) := by
  decide +kernel

example : accessAfter { sampleArchive with url := some "U".toList } { sampleUnit with data := { sampleUnit.data with url := some "U".toList } }
      [.startUnit, .endUnit] =
    .val (some "<unit revision=\"1.0.0\" language=\"C++\" filename=\"a&amp;b.cpp\"/>".toList, some []) := by
  decide +kernel

/-- Tokens of the source `#a` with a directive. -/
def sampleToks : List Tok :=
  [{ type := chars! "SCPP_DIRECTIVE", category := .start }, { type := chars! "NAME", text := "#a".toList },
   { type := chars! "SCPP_DIRECTIVE", category := .end_ }]

/-- What the accessors return after parsing. -/
def parseAccess (a : Archive) (u : UnitObj) (toks : List Tok) : Run (Option Str × Option Str × Option Str) :=
  match u.parseTokens sampleSax a {} none toks with
  | .ub => .ub
  | .val (_, u) => match u.getOuter with
    | .val (s, _) => .val (s, u.getInner.1, u.data.src)
    | .ub => .ub

example : parseAccess sampleArchive sampleUnit sampleToks =
    .val (some "<unit xmlns:cpp=\"http://www.srcML.org/srcML/cpp\" revision=\"1.0.0\" language=\"C++\" filename=\"a&amp;b.cpp\"><cpp:directive>#a</cpp:directive></unit>".toList,
      some "<cpp:directive>#a</cpp:directive>".toList, some "#a".toList) := by
  decide +kernel

/-- The hypotheses of `C31_parsed_partial` hold for the sample. -/
example : ∃ u' inner outer, sampleUnit.parseTokens sampleSax sampleArchive {} none sampleToks = .val (.ok, u') ∧
    Accessors u' "unit".toList
      [("xmlns".toList, SRC_NS_URI), ("xmlns:cpp".toList, CPP_NS_URI), ("revision".toList, "1.0.0".toList),
       ("language".toList, "C++".toList), ("filename".toList, "a&b.cpp".toList)]
      [.op "cpp:directive".toList [], .ch '#', .ch 'a', .cl "cpp:directive".toList] inner outer ∧
    u'.data.src = some "#a".toList ∧ u'.data.loc = (textLines "#a".toList).length := by
  have hb : beforeParse sampleArchive sampleUnit.data none = sampleUnit.data := by decide +kernel
  have hok := sample_writeOk
  rw [← hb] at hok
  have hn : unitNameOf sampleArchive (beforeParse sampleArchive sampleUnit.data none) {} = "unit".toList := by decide +kernel
  have ha : unitAttrsOf sampleArchive (afterParse sampleArchive sampleUnit.data none {} sampleToks) {} =
      [("xmlns".toList, SRC_NS_URI), ("xmlns:cpp".toList, CPP_NS_URI), ("revision".toList, "1.0.0".toList),
       ("language".toList, "C++".toList), ("filename".toList, "a&b.cpp".toList)] := by decide +kernel
  have := C31_parsed_partial sampleSax sampleArchive {} sampleUnit none sampleToks
    [.op "cpp:directive".toList [], .ch '#', .ch 'a', .cl "cpp:directive".toList] "#a".toList hok
    ⟨Or.inl rfl, Or.inl rfl⟩ (by decide +kernel) (by decide +kernel)
    (Carries.markup _ _ _ (by decide +kernel)
      (Carries.text _ _ [] (by decide +kernel) (by decide +kernel) (Carries.markup _ _ _ (by decide +kernel) .nil)))
    sampleSax_reads rfl none (by simp) ⟨rfl, rfl⟩ (by
      rw [hn, ha]
      refine ⟨by constructor <;> decide, by decide +kernel, ?_, by decide +kernel,
        ⟨"xmlns".toList, SRC_NS_URI, ("xmlns:cpp".toList, CPP_NS_URI), [("revision".toList, "1.0.0".toList), ("language".toList, "C++".toList), ("filename".toList, "a&b.cpp".toList)],
          rfl, ⟨[], rfl⟩, by decide⟩⟩
      intro a ha
      simp only [List.mem_cons, List.not_mem_nil, or_false] at ha
      rcases ha with rfl | rfl | rfl | rfl | rfl <;> exact ⟨by constructor <;> decide, by decide +kernel⟩)
  rw [hn, ha] at this
  exact this

/-- C31 is false if another attribute contains the text ` url=`: the outer form is cut there. -/
theorem C31_finding_url_text :
    accessAfter sampleArchive { data := { filename := some "a url=b c".toList } } [.startUnit, .string (some "x".toList), .endUnit] =
      .val (some "<unit revision=\"1.0.0\" language=\"C++\" filename=\"a>x</unit>".toList, some "x".toList) := by
  decide +kernel

/-- C31 is false for a unit without any attribute: the end of the start tag is cut away with the declaration. -/
theorem C31_finding_only_declaration :
    accessAfter srcml_archive_create { data := { revision := none } } [.startUnit, .string (some "x".toList), .endUnit] =
      .val (some "<unit x</unit>".toList, some "x".toList) := by
  decide +kernel

/-- C31 is false if the url follows the declaration directly: the outer form contains the rest of the unit twice. -/
theorem C31_finding_url_first :
    accessAfter srcml_archive_create { data := { revision := none, url := some "U".toList } } [.startUnit, .string (some "x".toList), .endUnit] =
      .val (some "<unit url=\"U\">x</unit>>x</unit>".toList, some "x".toList) := by
  decide +kernel

/-- The outer form after the unit was written, asked for, and written again. -/
def outerTwice (cs : List WriteCall) : Run (Option Str × Option Str × Str) :=
  match runWrites sampleSax sampleArchive {} sampleUnit cs with
  | .ub => .ub
  | .val (_, u) => match u.getOuter with
    | .ub => .ub
    | .val (_, u) => match runWrites sampleSax sampleArchive {} u.getInner.2 [.startUnit, .string (some "c".toList), .endUnit] with
      | .ub => .ub
      | .val (_, u) => match u.getOuter with
        | .val (s, _) => .val (s, u.getInner.1, u.data.srcml)
        | .ub => .ub

/-- C31 is false for a unit that is written again: the accessors keep returning the first contents. -/
theorem C31_finding_stale :
    outerTwice [.startUnit, .string (some "a".toList), .endUnit] =
      .val (some "<unit revision=\"1.0.0\" language=\"C++\" filename=\"a&amp;b.cpp\">a</unit>".toList, some "a".toList,
        sampleTag ++ ">c</unit>".toList) := by
  decide +kernel

end Srcml
