import Verif.Proofs.DomTree
/-
C67: marking the results of a query in the unit. C68: the results of stylesheets.
-/
namespace Srcml

open Spec

set_option linter.unusedSimpArgs false

/-- The element that is put around a result: with the attribute, when there is one. -/
def XPathMark.label (t : XPathMark) : DomLabel :=
  { ns := t.elementNs, name := t.element, attrs := if t.attrName ≠ [] then [{ ns := t.attrNs, name := t.attrName, value := t.attrValue }] else [] }

theorem newElement (t : XPathMark) (d : Dom) (uri : Str) :
    (if t.attrName ≠ [] then t.appendAttribute (d.newNode t.elementNs t.element).2 d.fresh uri else (d.newNode t.elementNs t.element).2) =
      { node := fun j => if j = d.fresh then { label := t.label } else d.node j, fresh := d.fresh + 1 } := by
  by_cases h : t.attrName = []
  · simp [h, Dom.newNode, XPathMark.label]
  · rw [if_pos h]
    unfold XPathMark.appendAttribute Dom.newNsProp Dom.getNsProp Dom.newNode Dom.set
    simp only [if_true, List.find?_nil, Option.map_none, List.nil_append]
    congr 1
    funext j
    by_cases hj : j = d.fresh
    · simp [hj, XPathMark.label, h]
    · simp [hj]

theorem wrap_ids {e x : Nat} {f : Forest} (hnd : f.ids.Nodup) (hx : x ∈ f.ids) : (f.wrap e x).ids.Perm (e :: f.ids) := by
  induction f with
  | nil => simp [Forest.ids] at hx
  | cons i kids rest ih1 ih2 =>
    simp only [Forest.ids, List.nodup_cons, List.nodup_append] at hnd
    obtain ⟨_, n3, n4, n5⟩ := hnd
    simp only [Forest.ids, List.mem_cons, List.mem_append] at hx
    rw [Forest.wrap]
    by_cases hi : i = x
    · rw [if_pos hi]
      simp [Forest.ids]
    · rw [if_neg hi]
      rcases hx.resolve_left (fun h => hi h.symm) with hx | hx
      · rw [wrap_not (f := rest) (fun h => n5 x hx x h rfl)]
        simp only [Forest.ids]
        refine List.Perm.trans (List.Perm.cons i ((ih1 n3 hx).append_right _)) ?_
        rw [List.cons_append]
        exact List.Perm.swap _ _ _
      · rw [wrap_not (f := kids) (fun h => n5 x h x hx rfl)]
        simp only [Forest.ids]
        refine List.Perm.trans (List.Perm.cons i ((ih2 n4 hx).append_left _)) ?_
        refine List.Perm.trans (List.Perm.cons i List.perm_middle) ?_
        exact List.Perm.swap _ _ _

/-- One round of the loop. -/
theorem addElementAt_inMemory (t : XPathMark) {d : Dom} {root x : Nat} {f : Forest} (h : InMemory d root f) (hx : x ∈ f.ids) :
    InMemory (t.addElementAt root d x) root (f.wrap d.fresh x) ∧ (t.addElementAt root d x).fresh = d.fresh + 1 ∧
      ∀ j, ((t.addElementAt root d x).node j).label = if j = d.fresh then t.label else (d.node j).label := by
  obtain ⟨hk, ho, hold⟩ := h
  rw [List.nodup_cons] at ho
  have hroot : root ≠ x := by rintro rfl; exact ho.1 hx
  have hfr : ∀ j ∈ root :: f.ids, j ≠ d.fresh := fun j hj => Nat.ne_of_lt (hold j hj)
  have hfresh : d.fresh ∉ f.ids := fun h => hfr _ (List.mem_cons_of_mem _ h) rfl
  unfold XPathMark.addElementAt
  simp only [show (d.newNode t.elementNs t.element).1 = d.fresh from rfl]
  rw [newElement, if_pos hroot]
  generalize hd1 : ({ node := fun j => if j = d.fresh then { label := t.label } else d.node j, fresh := d.fresh + 1 } : Dom) = d1
  have n1 : ∀ j, j ≠ d.fresh → d1.node j = d.node j := by
    intro j hj
    rw [← hd1]
    simp [hj]
  have ne : d1.node d.fresh = { label := t.label } := by rw [← hd1]; simp
  have hk1 : Siblings d1 (some root) none (d1.node root).children (d1.node root).last f := by
    rw [n1 root (hfr root (by simp))]
    exact siblings_same hk (fun j hj => n1 j (hfr j (by simp [hj])))
  obtain ⟨q1, q2, q3⟩ := siblings_near hk1 hx
  have hxf : x ≠ d.fresh := hfr x (by simp [hx])
  -- the neighbours
  obtain ⟨p, hp, hpf⟩ : ∃ p, (d1.node x).parent = some p ∧ p ∈ root :: f.ids := by
    rcases q1 with q | ⟨y, q, q'⟩
    · exact ⟨root, q, by simp⟩
    · exact ⟨y, q', by simp [q]⟩
  have self : ∀ {p pr first last : Option Nat} {g : Forest}, Siblings d1 p pr first last g → g.ids.Nodup → (∀ y ∈ g.ids, p ≠ some y) → (∀ y ∈ g.ids, pr ≠ some y) →
      ∀ x ∈ g.ids, (d1.node x).parent ≠ some x ∧ (d1.node x).next ≠ some x ∧ (d1.node x).prev ≠ some x := by
    intro p pr first last g hg
    induction hg with
    | nil => intro _ _ _ x hx; simp [Forest.ids] at hx
    | cons p pr last i kids rest h1 h2 h3 h4 ih1 ih2 =>
      intro hnd hp hpr x hx
      simp only [Forest.ids, List.nodup_cons, List.mem_append, not_or, List.nodup_append] at hnd
      obtain ⟨⟨m1, m2⟩, m3, m4, m5⟩ := hnd
      simp only [Forest.ids, List.mem_cons, List.mem_append] at hx
      rcases hx with rfl | hx | hx
      · refine ⟨?_, ?_, ?_⟩
        · rw [h1]; exact hp _ (by simp [Forest.ids])
        · rcases siblings_first h4 with ⟨_, q⟩ | ⟨y, q, q2, _⟩
          · rw [q]; simp
          · rw [q]; intro h; injection h with h; subst h; exact m2 q2
        · rw [h2]; exact hpr _ (by simp [Forest.ids])
      · exact ih1 m3 (fun y hy h => by injection h with h; subst h; exact m1 hy) (fun y hy h => by cases h) x hx
      · exact ih2 m4 (fun y hy => hp y (by simp [Forest.ids, hy])) (fun y hy h => by injection h with h; subst h; exact m2 hy) x hx
  obtain ⟨s1, s2, s3⟩ := self hk1 ho.2 (fun y hy h => by injection h with h; subst h; exact ho.1 hy) (fun y hy h => by cases h) x hx
  have hn2 : (d1.node x).next ≠ some d.fresh := by
    rcases q2 with q | ⟨y, q, q'⟩
    · rw [q]; simp
    · rw [q']; intro h; injection h with h; subst h; exact hfresh q
  have hv2 : (d1.node x).prev ≠ some d.fresh := by
    rcases q3 with q | ⟨y, q, q'⟩ | ⟨q, _⟩
    · rw [q]; simp
    · rw [q']; intro h; injection h with h; subst h; exact hfresh q
    · rw [q]; simp
  rw [replace_add hp hxf (hfr p hpf) (by rintro rfl; exact s1 hp) s2 hn2 s3 hv2 (by rw [ne])]
  have hw := siblings_wrap hk1 hx ho.2 hfresh (fun y hy h => by injection h with h; subst h; exact ho.1 hy) (fun y hy h => by cases h)
    (e := d.fresh) (by intro h; injection h with h; exact hfr root (by simp) h) (by simp)
  have hperm := wrap_ids (e := d.fresh) ho.2 hx
  have hrn : wrapNode d1 x d.fresh root = { d1.node root with
      children := if (d1.node root).children = some x then some d.fresh else (d1.node root).children
      last := if (d1.node root).last = some x then some d.fresh else (d1.node root).last } := by
    unfold wrapNode
    rw [if_neg (hfr root (by simp)), if_neg hroot]
    have a1 : (d1.node x).prev ≠ some root := by
      rcases q3 with q | ⟨y, q, q'⟩ | ⟨q, _⟩
      · rw [q]; simp
      · rw [q']; intro h; injection h with h; subst h; exact ho.1 q
      · rw [q]; simp
    have a2 : (d1.node x).next ≠ some root := by
      rcases q2 with q | ⟨y, q, q'⟩
      · rw [q]; simp
      · rw [q']; intro h; injection h with h; subst h; exact ho.1 q
    have c1 : ((d1.node x).parent = some root ∧ (d1.node root).children = some x) ↔ (d1.node root).children = some x := by
      refine ⟨fun h => h.2, fun h => ⟨?_, h⟩⟩
      rcases siblings_first hk1 with ⟨_, q⟩ | ⟨y, q, _, q9, _⟩
      · rw [q] at h; cases h
      · rw [q] at h; injection h with h; rw [← h]; exact q9
    have c2 : ((d1.node x).parent = some root ∧ (d1.node root).last = some x) ↔ (d1.node root).last = some x := by
      refine ⟨fun h => h.2, fun h => ⟨?_, h⟩⟩
      rcases siblings_last hk1 with ⟨_, q⟩ | ⟨y, q, _, q9⟩
      · rw [q] at h; cases h
      · rw [q] at h; injection h with h; rw [← h]; exact q9
    simp only [a1, a2, if_false, c1, c2]
  refine ⟨⟨?_, ?_, ?_⟩, ?_, ?_⟩
  · show Siblings _ _ _ (wrapNode d1 x d.fresh root).children (wrapNode d1 x d.fresh root).last _
    rw [hrn]
    exact hw
  · rw [List.nodup_cons, hperm.mem_iff, hperm.nodup_iff, List.nodup_cons]
    refine ⟨fun h => ?_, hfresh, ho.2⟩
    rcases List.mem_cons.1 h with h | h
    · exact hfr root (by simp) h
    · exact ho.1 h
  · intro i hi
    show i < d1.fresh
    have : d1.fresh = d.fresh + 1 := by rw [← hd1]
    rw [this]
    rw [List.mem_cons, hperm.mem_iff, List.mem_cons] at hi
    rcases hi with hi | hi | hi
    · exact Nat.lt_succ_of_lt (hold i (by simp [hi]))
    · rw [hi]; exact Nat.lt_succ_self _
    · exact Nat.lt_succ_of_lt (hold i (by simp [hi]))
  · rw [← hd1]
  · intro j
    show (wrapNode d1 x d.fresh j).label = _
    unfold wrapNode
    by_cases h1 : j = d.fresh
    · rw [if_pos h1, if_pos h1, ne]
    · rw [if_neg h1, if_neg h1, n1 x hxf]
      by_cases h2 : j = x
      · rw [if_pos h2, h2]
      · rw [if_neg h2, n1 j h1]

/-- Wrapping one node more in the tree is wrapping one node more in the document. -/
theorem wrapped_wrap {label : Nat → DomLabel} {el : DomLabel} {e x : Nat} {found : List Nat} {f : Forest} (hnd : f.ids.Nodup) (he : e ∉ found) (hx : x ∉ found)
    (hl : label e = el) : (f.wrap e x).wrapped label el found = f.wrapped label el (x :: found) := by
  induction f with
  | nil => rfl
  | cons i kids rest ih1 ih2 =>
    simp only [Forest.ids, List.nodup_cons, List.mem_append, not_or, List.nodup_append] at hnd
    obtain ⟨⟨m1, m2⟩, m3, m4, m5⟩ := hnd
    have other : ∀ {g : Forest}, x ∉ g.ids → g.wrapped label el (x :: found) = g.wrapped label el found := by
      intro g
      induction g with
      | nil => intro _; rfl
      | cons j k r jh1 jh2 =>
        intro hg
        simp only [Forest.ids, List.mem_cons, List.mem_append, not_or] at hg
        simp only [Forest.wrapped, List.mem_cons, jh1 hg.2.1, jh2 hg.2.2, show ¬ j = x from fun h => hg.1 h.symm, false_or]
    rw [Forest.wrap]
    by_cases hi : i = x
    · subst hi
      rw [if_pos rfl]
      simp only [Forest.wrapped, if_neg he, if_neg hx, hl, List.mem_cons, true_or, if_true, other m1, other m2]
    · rw [if_neg hi]
      simp only [Forest.wrapped, List.mem_cons, hi, false_or, ih1 m3, ih2 m4]

theorem wrapped_label {label label' : Nat → DomLabel} {el : DomLabel} {found : List Nat} {f : Forest} (h : ∀ i ∈ f.ids, label i = label' i) :
    f.wrapped label el found = f.wrapped label' el found := by
  induction f with
  | nil => rfl
  | cons i kids rest ih1 ih2 =>
    rw [Forest.wrapped, Forest.wrapped, h i (by simp [Forest.ids]), ih1 (fun j hj => h j (by simp [Forest.ids, hj])),
      ih2 (fun j hj => h j (by simp [Forest.ids, hj]))]

theorem wrapped_nil {label : Nat → DomLabel} {el : DomLabel} {f : Forest} : f.wrapped label el [] = f.doc label := by
  induction f with
  | nil => rfl
  | cons i kids rest ih1 ih2 => simp [Forest.wrapped, Forest.doc, ih1, ih2]

theorem readDom_siblings {d : Dom} {p pr first last : Option Nat} {f : Forest} (h : Siblings d p pr first last f) :
    ∀ n, f.ids.length ≤ n → readDom d n first = f.doc (fun i => (d.node i).label) := by
  induction h with
  | nil => intro n _; cases n <;> rfl
  | cons p pr last i kids rest h1 h2 h3 h4 ih1 ih2 =>
    intro n hn
    simp only [Forest.ids, List.length_cons, List.length_append] at hn
    cases n with
    | zero => omega
    | succ n =>
      rw [readDom, ih1 n (by omega), ih2 n (by omega)]
      rfl

theorem addElements_inMemory (t : XPathMark) (root : Nat) (found : List Nat) : ∀ {d : Dom} {f : Forest}, InMemory d root f → found.Nodup →
    (∀ i ∈ found, i ∈ f.ids) → ∃ g, InMemory (t.addElements root d found) root g ∧ g.ids.length = f.ids.length + found.length ∧
      g.doc (fun i => ((t.addElements root d found).node i).label) = f.wrapped (fun i => (d.node i).label) t.label found ∧
      ((t.addElements root d found).node root).label = (d.node root).label := by
  induction found with
  | nil => intro d f h _ _; exact ⟨f, h, rfl, wrapped_nil.symm, rfl⟩
  | cons x found ih =>
    intro d f h hnd hin
    rw [List.nodup_cons] at hnd
    have hx := hin x (by simp)
    obtain ⟨q1, q2, q3⟩ := addElementAt_inMemory t h hx
    have ho := h.once
    rw [List.nodup_cons] at ho
    have hperm := wrap_ids (e := d.fresh) ho.2 hx
    obtain ⟨g, g1, g2, g3, g4⟩ := ih q1 hnd.2 (fun i hi => by rw [hperm.mem_iff]; exact List.mem_cons_of_mem _ (hin i (by simp [hi])))
    have hold := h.old
    have hfr : ∀ j ∈ root :: f.ids, j ≠ d.fresh := fun j hj => Nat.ne_of_lt (hold j hj)
    refine ⟨g, g1, ?_, ?_, ?_⟩
    · rw [g2, hperm.length_eq]
      simp
      omega
    · show g.doc (fun i => ((t.addElements root (t.addElementAt root d x) found).node i).label) = _
      rw [g3, wrapped_wrap ho.2 (fun hf => hfr _ (List.mem_cons_of_mem _ (hin _ (by simp [hf]))) rfl) hnd.1 (by rw [q3, if_pos rfl])]
      refine wrapped_label (fun i hi => ?_)
      rw [q3, if_neg (hfr i (by simp [hi]))]
    · show ((t.addElements root (t.addElementAt root d x) found).node root).label = _
      rw [g4, q3, if_neg (hfr root (by simp))]

/-- C67: when the results of a query are to be marked with an element, and the unit itself is not among them, the unit is the result, and in it the element is
around each of the results; nothing else is changed. -/
theorem C67_element_partial {D : Type} (zero : D) (pre uri element : Str) (he : element ≠ []) (d : Dom) (root : Nat) (below : Forest) (h : InMemory d root below)
    (found : List Nat) (hnd : found.Nodup) (hin : ∀ i ∈ found, i ∈ below.ids) :
    ∃ r d', (XPathMark.ofElement pre uri element).apply zero root d (some (.nodes (some found))) = (r, d') ∧
      r.nodeType = RESULT_UNITS ∧ r.nodeset = some [root] ∧ r.unitWrapped = true ∧ (d'.node root).label = (d.node root).label ∧
      ∀ n, below.ids.length + found.length ≤ n → readDom d' n (d'.node root).children =
        below.wrapped (fun i => (d.node i).label) { ns := some (pre, uri), name := element } found := by
  obtain ⟨g, g1, g2, g3, g4⟩ := addElements_inMemory (XPathMark.ofElement pre uri element) root found h hnd hin
  refine ⟨_, _, if_pos (show (XPathMark.ofElement pre uri element).element ≠ [] from he), rfl, rfl, rfl, g4, fun n hn => ?_⟩
  rw [← g2] at hn
  exact (readDom_siblings g1.kids n hn).trans g3

/-- The memory after the unit itself was marked. -/
theorem addElementAt_root (t : XPathMark) (d : Dom) (root : Nat) (hr : root ≠ d.fresh) :
    t.addElementAt root d root =
      { node := fun j => if j = root then { d.node root with children := some d.fresh, last := some d.fresh }
          else if j = d.fresh then { label := t.label, parent := some root, children := (d.node root).children, last := (d.node root).last }
          else d.node j, fresh := d.fresh + 1 } := by
  unfold XPathMark.addElementAt
  simp only [show (d.newNode t.elementNs t.element).1 = d.fresh from rfl]
  rw [newElement, if_neg (by simp)]
  simp only [Dom.set, hr, if_true, if_false]
  congr 1
  funext j
  by_cases h1 : j = root
  · simp [h1, hr]
  · by_cases h2 : j = d.fresh
    · simp [h2, show ¬ d.fresh = root from fun h => hr h.symm]
    · simp [h1, h2]

/-- The unit alone can also be the result: then the element is around all that is in it. -/
theorem C67_element_unit {D : Type} (zero : D) (pre uri element : Str) (he : element ≠ []) (d : Dom) (root : Nat) (below : Forest) (h : InMemory d root below) :
    ∃ r d', (XPathMark.ofElement pre uri element).apply zero root d (some (.nodes (some [root]))) = (r, d') ∧
      r.nodeType = RESULT_UNITS ∧ r.nodeset = some [root] ∧ r.unitWrapped = true ∧ (d'.node root).label = (d.node root).label ∧
      ∀ n, below.ids.length + 1 ≤ n → readDom d' n (d'.node root).children =
        .cons { ns := some (pre, uri), name := element } (below.doc (fun i => (d.node i).label)) .nil := by
  have hold := h.old
  have hfr : ∀ j ∈ root :: below.ids, j ≠ d.fresh := fun j hj => Nat.ne_of_lt (hold j hj)
  have hrf := hfr root (by simp)
  have e := addElementAt_root (XPathMark.ofElement pre uri element) d root hrf
  refine ⟨_, _, if_pos (show (XPathMark.ofElement pre uri element).element ≠ [] from he), rfl, rfl, rfl, ?_, fun n hn => ?_⟩
  · show (((XPathMark.ofElement pre uri element).addElementAt root d root).node root).label = _
    rw [e]
    simp
  · show readDom ((XPathMark.ofElement pre uri element).addElementAt root d root) n (((XPathMark.ofElement pre uri element).addElementAt root d root).node root).children = _
    generalize hd' : (XPathMark.ofElement pre uri element).addElementAt root d root = d' at e ⊢
    have n1 : (d'.node root).children = some d.fresh := by rw [e]; simp
    have n2 : d'.node d.fresh = { label := (XPathMark.ofElement pre uri element).label, parent := some root, children := (d.node root).children, last := (d.node root).last } := by
      rw [e]; simp [show ¬ d.fresh = root from fun h => hrf h.symm]
    have n3 : ∀ j ∈ below.ids, d'.node j = d.node j := by
      intro j hj
      have h1 := hfr j (by simp [hj])
      have h2 : j ≠ root := by
        rintro rfl
        have := h.once
        rw [List.nodup_cons] at this
        exact this.1 hj
      rw [e]
      simp [h1, h2]
    cases n with
    | zero => omega
    | succ n =>
      rw [n1, readDom, n2]
      have el : (XPathMark.ofElement pre uri element).label = { ns := some (pre, uri), name := element } := by
        simp [XPathMark.label, XPathMark.ofElement]
      rw [el]
      simp only
      rw [readDom_siblings (siblings_same h.kids n3) n (by omega)]
      congr 1
      · have : ∀ g : Forest, (∀ j ∈ g.ids, d'.node j = d.node j) → g.doc (fun i => (d'.node i).label) = g.doc (fun i => (d.node i).label) := by
          intro g
          induction g with
          | nil => intro _; rfl
          | cons i kids rest ih1 ih2 =>
            intro hg
            rw [Forest.doc, Forest.doc, hg i (by simp [Forest.ids]), ih1 (fun j hj => hg j (by simp [Forest.ids, hj])),
              ih2 (fun j hj => hg j (by simp [Forest.ids, hj]))]
        exact this below n3
      · cases n <;> rfl

theorem appendAttribute_node (t : XPathMark) (d : Dom) (i : Nat) (uri : Str)
    (h : ∀ a ∈ (d.node i).label.attrs, ¬ (a.name = t.attrName ∧ a.ns.map (·.2) = some uri)) (j : Nat) :
    (t.appendAttribute d i uri).node j =
      if j = i then { d.node j with label := marked { ns := t.attrNs, name := t.attrName, value := t.attrValue } (d.node j).label } else d.node j := by
  have hg : d.getNsProp i t.attrName uri = none := by
    unfold Dom.getNsProp
    rw [List.find?_eq_none.2 (fun a ha => by simpa using h a ha)]
    simp
  unfold XPathMark.appendAttribute
  rw [hg]
  simp only
  unfold Dom.newNsProp marked Dom.set
  by_cases hk : (d.node i).label.kind = .element
  · rw [if_pos hk]
    by_cases hj : j = i
    · subst hj
      simp [hk]
    · simp [hj]
  · rw [if_neg hk]
    by_cases hj : j = i
    · subst hj
      simp [hk]
    · simp [hj]

theorem addAttributes_node (t : XPathMark) (found : List Nat) : ∀ (d : Dom), found.Nodup →
    (∀ i ∈ found, ∀ a ∈ (d.node i).label.attrs, ¬ (a.name = t.attrName ∧ a.ns.map (·.2) = some t.attrValue)) → ∀ j,
    (t.addAttributes d found).node j =
      if j ∈ found then { d.node j with label := marked { ns := t.attrNs, name := t.attrName, value := t.attrValue } (d.node j).label } else d.node j := by
  induction found with
  | nil => intro d _ _ j; simp [XPathMark.addAttributes]
  | cons i found ih =>
    intro d hnd h j
    rw [List.nodup_cons] at hnd
    have h1 := appendAttribute_node t d i t.attrValue (h i (by simp))
    have := ih (t.appendAttribute d i t.attrValue) hnd.2 (fun k hk => by
      rw [h1, if_neg (by rintro rfl; exact hnd.1 hk)]
      exact h k (by simp [hk])) j
    show ((t.addAttributes (t.appendAttribute d i t.attrValue) found).node j) = _
    rw [this, h1]
    by_cases hj : j = i
    · subst hj
      simp [hnd.1]
    · by_cases hf : j ∈ found <;> simp [hj, hf]

theorem siblings_relabel {d d' : Dom} {p pr first last : Option Nat} {f : Forest} (h : Siblings d p pr first last f)
    (hs : ∀ j, (d'.node j).parent = (d.node j).parent ∧ (d'.node j).children = (d.node j).children ∧ (d'.node j).last = (d.node j).last ∧
      (d'.node j).next = (d.node j).next ∧ (d'.node j).prev = (d.node j).prev) : Siblings d' p pr first last f := by
  induction h with
  | nil => exact .nil _ _
  | cons p pr last i kids rest h1 h2 h3 h4 ih1 ih2 =>
    obtain ⟨q1, q2, q3, q4, q5⟩ := hs i
    refine .cons _ _ _ _ _ _ (by rw [q1, h1]) (by rw [q5, h2]) ?_ ?_
    · rw [q2, q3]
      exact ih1
    · rw [q4]
      exact ih2

/-- C67: when the results of a query are to be marked with an attribute, the unit is the result, and in it the elements among the results have the attribute, after the attributes they had; the
order and the nesting of the nodes and everything else are as before. This is for results that have no attribute with this name in a namespace
whose URI is the *value* of the attribute. -/
theorem C67_attribute_partial {D : Type} (zero : D) (pre uri name value : Str) (hn : name ≠ []) (d : Dom) (root : Nat) (below : Forest) (h : InMemory d root below)
    (found : List Nat) (hnd : found.Nodup)
    (hno : ∀ i ∈ found, ∀ a ∈ (d.node i).label.attrs, ¬ (a.name = name ∧ a.ns.map (·.2) = some value)) :
    ∃ r d', (XPathMark.ofAttribute pre uri name value).apply zero root d (some (.nodes (some found))) = (r, d') ∧
      r.nodeType = RESULT_UNITS ∧ r.nodeset = some [root] ∧ r.unitWrapped = true ∧ InMemory d' root below ∧
      ∀ j, (d'.node j).label = if j ∈ found then marked ⟨some (pre, uri), name, value⟩ (d.node j).label else (d.node j).label := by
  have hk := addAttributes_node (XPathMark.ofAttribute pre uri name value) found d hnd hno
  have hf : ∀ (t : XPathMark) (found : List Nat) (d : Dom), (t.addAttributes d found).fresh = d.fresh := by
    intro t found
    induction found with
    | nil => intro d; rfl
    | cons i found ih =>
      intro d
      show (t.addAttributes (t.appendAttribute d i t.attrValue) found).fresh = _
      rw [ih]
      unfold XPathMark.appendAttribute Dom.newNsProp
      simp only
      split <;> rfl
  have e : (XPathMark.ofAttribute pre uri name value).apply zero root d (some (.nodes (some found))) =
      ({ nodeType := RESULT_UNITS, nodeset := some [root], number := zero, unitWrapped := true },
        (XPathMark.ofAttribute pre uri name value).addAttributes d found) :=
    if_pos (show (XPathMark.ofAttribute pre uri name value).attrName ≠ [] from hn)
  refine ⟨_, _, e, rfl, rfl, rfl, ⟨?_, h.once, ?_⟩, fun j => ?_⟩
  · have hs : ∀ j, _ := fun j => show (((XPathMark.ofAttribute pre uri name value).addAttributes d found).node j).parent = (d.node j).parent ∧
        (((XPathMark.ofAttribute pre uri name value).addAttributes d found).node j).children = (d.node j).children ∧
        (((XPathMark.ofAttribute pre uri name value).addAttributes d found).node j).last = (d.node j).last ∧
        (((XPathMark.ofAttribute pre uri name value).addAttributes d found).node j).next = (d.node j).next ∧
        (((XPathMark.ofAttribute pre uri name value).addAttributes d found).node j).prev = (d.node j).prev by
      rw [hk j]; split <;> simp
    rw [(hs root).2.1, (hs root).2.2.1]
    exact siblings_relabel h.kids hs
  · intro i hi
    rw [hf]
    exact h.old i hi
  · rw [hk j]
    split <;> rfl

/-- Without a mark the results themselves are the result, in their order, and the unit is as before; no results make no result. -/
theorem C67_plain {D : Type} (zero : D) (d : Dom) (root : Nat) (found : List Nat) :
    (({} : XPathMark).apply zero root d (some (.nodes (some found)))).2 = d ∧
    (({} : XPathMark).apply zero root d (some (.nodes (some found)))).1.nodeset = (if found = [] then none else some found) ∧
    (({} : XPathMark).apply zero root d (some (.nodes (some found)))).1.nodeType = (if found = [] then RESULT_NONE else RESULT_UNITS) := by
  cases found with
  | nil => exact ⟨rfl, rfl, rfl⟩
  | cons i is => exact ⟨rfl, rfl, rfl⟩

/-- Results that are no units have to be put in one when they are written: this is so exactly when the first of them is no unit itself. -/
theorem C67_plain_wrapped {D : Type} (zero : D) (d : Dom) (root i : Nat) (is : List Nat) :
    (({} : XPathMark).apply zero root d (some (.nodes (some (i :: is))))).1.unitWrapped = true ↔ (d.node i).label.name = ['u', 'n', 'i', 't'] := by
  show decide _ = true ↔ _
  simp

/-- A query whose value is a truth value, a number or a string gives this value, with and without a mark, and the unit is as before. -/
theorem C67_value {D : Type} (zero : D) (t : XPathMark) (d : Dom) (root : Nat) :
    (∀ b, ∃ r, t.apply zero root d (some (.bool b)) = (r, d) ∧ r.nodeType = RESULT_BOOLEAN ∧ r.bool = b) ∧
    (∀ x, ∃ r, t.apply zero root d (some (.number x)) = (r, d) ∧ r.nodeType = RESULT_NUMBER ∧ r.number = x) ∧
    (∀ s, ∃ r, t.apply zero root d (some (.string s)) = (r, d) ∧ r.nodeType = RESULT_STRING ∧ r.string = s) :=
  ⟨fun _ => ⟨_, rfl, rfl, rfl⟩, fun _ => ⟨_, rfl, rfl, rfl⟩, fun _ => ⟨_, rfl, rfl, rfl⟩⟩

/-! ### Concrete units and what goes wrong -/

/-- A unit (address 0) with two elements (1 and 2) in it; in the first of them a text (3). -/
def exampleDom : Dom where
  node i := match i with
    | 0 => { label := { name := ['u'] }, children := some 1, last := some 2 }
    | 1 => { label := { name := ['a'] }, parent := some 0, children := some 3, last := some 3, next := some 2 }
    | 2 => { label := { name := ['b'] }, parent := some 0, prev := some 1 }
    | 3 => { label := { kind := .text, content := ['x'] }, parent := some 1 }
    | _ => {}
  fresh := 4

def exampleForest : Forest := .cons 1 (.cons 3 .nil .nil) (.cons 2 .nil .nil)

theorem exampleDom_inMemory : InMemory exampleDom 0 exampleForest where
  kids := .cons _ _ _ _ _ _ rfl rfl (.cons _ _ _ _ _ _ rfl rfl (.nil _ _) (.nil _ _)) (.cons _ _ _ _ _ _ rfl rfl (.nil _ _) (.nil _ _))
  once := by decide
  old := by decide

example : readDom (((XPathMark.ofElement ['p'] ['u'] ['m']).apply () 0 exampleDom (some (.nodes (some [1, 3])))).2) 9
      ((((XPathMark.ofElement ['p'] ['u'] ['m']).apply () 0 exampleDom (some (.nodes (some [1, 3])))).2.node 0).children) =
    .cons { ns := some (['p'], ['u']), name := ['m'] }
      (.cons { name := ['a'] } (.cons { ns := some (['p'], ['u']), name := ['m'] } (.cons { kind := .text, content := ['x'] } .nil .nil) .nil) .nil)
      (.cons { name := ['b'] } .nil .nil) := by decide +kernel

example : ∀ i ∈ [0, 1, 3], ∀ a ∈ (exampleDom.node i).label.attrs, ¬ (a.name = ['n'] ∧ a.ns.map (·.2) = some ['v']) := by decide

/-- Finding: when the unit and its first child are both results, the unit loses all its other children, and the element that was put in it: the first child still
names the unit as its parent, and the pointer of the unit to its first node is not the one that is looked for. -/
theorem C67_finding_unit_and_child :
    let d' := ((XPathMark.ofElement ['p'] ['u'] ['m']).apply () 0 exampleDom (some (.nodes (some [0, 1])))).2
    readDom d' 9 (d'.node 0).children =
      .cons { ns := some (['p'], ['u']), name := ['m'] } (.cons { name := ['a'] } (.cons { kind := .text, content := ['x'] } .nil .nil) .nil) .nil := by
  decide +kernel

/-- Finding: an element that has the attribute already gets it a second time (when the value is not the URI of the namespace), which is no XML. -/
theorem C67_finding_attribute_twice :
    ((((XPathMark.ofAttribute ['p'] ['u'] ['n'] ['v']).apply () 0
        { exampleDom with node := fun i => if i = 1 then { exampleDom.node 1 with label := { name := ['a'], attrs := [⟨some (['p'], ['u']), ['n'], ['w']⟩] } } else exampleDom.node i }
        (some (.nodes (some [1])))).2).node 1).label.attrs =
      [⟨some (['p'], ['u']), ['n'], ['w']⟩, ⟨some (['p'], ['u']), ['n'], ['v']⟩] := by decide +kernel

/-- Finding: an attribute that is added to the transformation before it (the same query, with an element) is written without its namespace. -/
theorem C67_finding_attribute_without_namespace (pre uri element pre' uri' name value : Str) (he : element ≠ []) (hn : name ≠ []) (d : Dom) (root x : Nat) (below : Forest)
    (h : InMemory d root below) (hx : x ∈ below.ids) :
    ((((((XPathMark.ofElement pre uri element).setAttribute pre' uri' name value).apply () root d (some (.nodes (some [x])))).2).node d.fresh).label).attrs =
      [⟨none, name, value⟩] := by
  have e : (((XPathMark.ofElement pre uri element).setAttribute pre' uri' name value).apply () root d (some (.nodes (some [x])))).2 =
      ((XPathMark.ofElement pre uri element).setAttribute pre' uri' name value).addElementAt root d x :=
    congrArg Prod.snd (if_pos (show ((XPathMark.ofElement pre uri element).setAttribute pre' uri' name value).element ≠ [] from he))
  rw [e, (addElementAt_inMemory _ h hx).2.2, if_pos rfl]
  simp [XPathMark.label, XPathMark.setAttribute, XPathMark.ofElement, hn]

/-! ### Stylesheets -/

/-- C68: when a stylesheet makes units – elements, each of them right after another or after at most one node in front of them – the result are these elements, all of them, in their order. -/
theorem C68_units_partial {D : Type} (zero : D) (top : List XsltTop) (hu : ∃ n m rest, top = n :: XsltTop.element m :: rest) :
    ∃ r, xsltApply zero (some top) = .val r ∧ r.nodeType = RESULT_UNITS ∧ r.unitWrapped = true ∧
      r.nodeset = some (top.filterMap (fun n => match n with | .element i => some i | _ => none)) := by
  obtain ⟨n, m, rest, rfl⟩ := hu
  refine ⟨_, rfl, rfl, rfl, ?_⟩
  show some _ = some _
  congr 1
  generalize (n :: XsltTop.element m :: rest) = l
  induction l with
  | nil => rfl
  | cons a l ih =>
    cases a with
    | element i => rw [List.filter_cons_of_pos (by rfl), List.map_cons, ih]; rfl
    | text i t => rw [List.filter_cons_of_neg (by simp [XsltTop.isElement]), ih]; rfl
    | other i => rw [List.filter_cons_of_neg (by simp [XsltTop.isElement]), ih]; rfl

/-- One unit, and nothing else than it and nodes that are no elements behind it. -/
theorem C68_unit {D : Type} (zero : D) (i : Nat) (rest : List XsltTop) (hr : ∀ n ∈ rest, n.isElement = false) :
    ∃ r, xsltApply zero (some (.element i :: rest)) = .val r ∧ r.nodeType = RESULT_UNITS ∧ r.unitWrapped = true ∧ r.nodeset = some [i] := by
  cases rest with
  | nil => exact ⟨_, rfl, rfl, rfl, rfl⟩
  | cons n rest =>
    have hn := hr n (by simp)
    unfold xsltApply
    simp only [List.head?_cons, Option.map_some, Option.getD_some, hn]
    exact ⟨_, rfl, rfl, rfl, rfl⟩

/-- A text: the result is a string, the text with the special characters of XML as references. -/
theorem C68_text_partial {D : Type} (zero : D) (i : Nat) (s : Str) :
    ∃ r, xsltApply zero (some [.text i s]) = .val r ∧ r.nodeType = RESULT_STRING ∧ r.string = encodeSpecial s := by
  refine ⟨_, rfl, rfl, ?_⟩
  show ([encodeSpecial s].flatMap id) = _
  simp

/-- The characters that are not special in XML are the text: then the string is the text. -/
theorem C68_text_plain {D : Type} (zero : D) (i : Nat) (s : Str) (hs : ∀ ch ∈ s, ch ≠ '<' ∧ ch ≠ '>' ∧ ch ≠ '&' ∧ ch ≠ '"' ∧ ch ≠ '\r') :
    ∃ r, xsltApply zero (some [.text i s]) = .val r ∧ r.nodeType = RESULT_STRING ∧ r.string = s := by
  obtain ⟨r, h1, h2, h3⟩ := C68_text_partial zero i s
  refine ⟨r, h1, h2, ?_⟩
  rw [h3]
  clear h1 h2 h3
  unfold encodeSpecial
  induction s with
  | nil => rfl
  | cons ch s ih =>
    obtain ⟨a, b, c, d, e⟩ := hs ch (by simp)
    rw [List.flatMap_cons, ih (fun x hx => hs x (by simp [hx]))]
    simp [a, b, c, d, e]

/-- A stylesheet that makes nothing, or fails: no result. -/
theorem C68_nothing {D : Type} (zero : D) :
    xsltApply zero (some []) = .val { number := zero } ∧ xsltApply zero none = .val { number := zero } := ⟨rfl, rfl⟩

example : ∃ n m rest, [XsltTop.text 1 ['x'], .element 2, .other 3, .element 4] = n :: XsltTop.element m :: rest := ⟨_, _, _, rfl⟩

/-- Finding: the units after the first one are lost when something else, such as a line end or a comment, is between the first and the second of them. -/
theorem C68_finding_units_lost :
    ∃ r, xsltApply () (some [.element 1, .text 2 ['\n'], .element 3]) = .val r ∧ r.nodeType = RESULT_UNITS ∧ r.nodeset = some [1] :=
  ⟨_, rfl, rfl, rfl⟩

/-- Finding: a document with two comments (or processing instructions) in front of its unit is not a result of units: a null pointer is made a string. -/
theorem C68_finding_comments : xsltApply () (some [.other 1, .other 2, .element 3]) = .ub := rfl

/-- Finding: a text is not given as it is. -/
theorem C68_finding_text_escaped :
    ∃ r, xsltApply () (some [.text 1 ['a', '<', 'b']]) = .val r ∧ r.string = ['a', '&', 'l', 't', ';', 'b'] := by
  refine ⟨_, rfl, by decide +kernel⟩

end Srcml
