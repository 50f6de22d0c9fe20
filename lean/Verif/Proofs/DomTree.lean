import Verif.Spec.XPathApply
/-
Wrapping a node of a tree with pointers.
-/
namespace Srcml

open Spec

set_option linter.unusedSimpArgs false

/-- The nodes after `x` was replaced by the new node `e` and put below it. -/
def wrapNode (d : Dom) (x e : Nat) : Nat → DomNode := fun j =>
  if j = e then { d.node e with parent := (d.node x).parent, next := (d.node x).next, prev := (d.node x).prev, children := some x, last := some x }
  else if j = x then { d.node x with parent := some e, next := none, prev := none }
  else { d.node j with
    next := if (d.node x).prev = some j then some e else (d.node j).next
    prev := if (d.node x).next = some j then some e else (d.node j).prev
    children := if (d.node x).parent = some j ∧ (d.node j).children = some x then some e else (d.node j).children
    last := if (d.node x).parent = some j ∧ (d.node j).last = some x then some e else (d.node j).last }

theorem replace_add {d : Dom} {x e p : Nat} (hp : (d.node x).parent = some p) (hxe : x ≠ e) (hpe : p ≠ e) (hpx : p ≠ x)
    (hn : (d.node x).next ≠ some x) (hn2 : (d.node x).next ≠ some e) (hv : (d.node x).prev ≠ some x) (hv2 : (d.node x).prev ≠ some e)
    (hc : (d.node e).children = none) :
    (d.replaceNode x e).addChild e x = { d with node := wrapNode d x e } := by
  have hex : e ≠ x := fun h => hxe h.symm
  have hep : e ≠ p := fun h => hpe h.symm
  have hxp : x ≠ p := fun h => hpx h.symm
  unfold Dom.replaceNode
  simp only [hp]
  generalize hN : (d.node x).next = N at *
  generalize hV : (d.node x).prev = V at *
  have en : ∀ (d : Dom) (i : Option Nat) (f : DomNode → DomNode) (j : Nat), (d.setAt i f).node j = if i = some j then f (d.node j) else d.node j := by
    intro d i f j
    cases i with
    | none => simp [Dom.setAt]
    | some i =>
      simp only [Dom.setAt, Dom.set, Option.some.injEq]
      by_cases h : j = i
      · simp [h]
      · have : i ≠ j := fun e => h e.symm
        simp [h, this]
  have es : ∀ (d : Dom) (i : Nat) (f : DomNode → DomNode) (j : Nat), (d.set i f).node j = if j = i then f (d.node j) else d.node j := fun _ _ _ _ => rfl
  have ef : ∀ (d : Dom) (i : Option Nat) (f : DomNode → DomNode), (d.setAt i f).fresh = d.fresh := by
    intro d i f; cases i <;> rfl
  have ef2 : ∀ (d : Dom) (i : Nat) (f : DomNode → DomNode), (d.set i f).fresh = d.fresh := fun _ _ _ => rfl
  have ext : ∀ a b : Dom, a.fresh = b.fresh → (∀ j, a.node j = b.node j) → a = b := by
    rintro ⟨a, fa⟩ ⟨b, fb⟩ h1 h2
    have : a = b := funext h2
    simp_all
  unfold Dom.addChild
  simp only [es, en, hex, hxe, hep, hpe, hxp, hpx, hn, hn2, hv, hv2, if_true, if_false, reduceCtorEq]
  rw [hc]
  simp only
  apply ext
  · simp only [ef, ef2]
  · intro j
    simp only [es, en]
    unfold wrapNode
    simp only [hN, hV, hp]
    by_cases h1 : j = e
    · subst h1
      simp [hex, hep, hn2, hv2]
    · by_cases h2 : j = x
      · subst h2
        simp [h1, hxp, hn, hv]
        
      · by_cases h3 : j = p
        · subst h3
          by_cases h4 : N = some j <;> by_cases h5 : V = some j <;> simp [h1, h2, h4, h5]
        · have h3' : p ≠ j := fun h => h3 h.symm
          by_cases h4 : N = some j <;> by_cases h5 : V = some j <;> simp [h1, h2, h3, h3', h4, h5]

/-! ### Places of nodes -/

theorem siblings_last {d : Dom} {p pr first last : Option Nat} {f : Forest} (h : Siblings d p pr first last f) :
    (f = .nil ∧ last = pr) ∨ ∃ y, last = some y ∧ y ∈ f.ids ∧ (d.node y).parent = p := by
  induction h with
  | nil => exact .inl ⟨rfl, rfl⟩
  | cons p pr last i kids rest h1 h2 _ h4 _ ih =>
    right
    rcases ih with ⟨_, rfl⟩ | ⟨y, h5, h6, h7⟩
    · exact ⟨i, rfl, by simp [Forest.ids], h1⟩
    · exact ⟨y, h5, by simp [Forest.ids, h6], h7⟩

theorem siblings_first {d : Dom} {p pr first last : Option Nat} {f : Forest} (h : Siblings d p pr first last f) :
    (f = .nil ∧ first = none) ∨ ∃ y, first = some y ∧ y ∈ f.ids ∧ (d.node y).parent = p ∧ (d.node y).prev = pr := by
  cases h with
  | nil => exact .inl ⟨rfl, rfl⟩
  | cons _ _ _ i kids rest h1 h2 => exact .inr ⟨i, rfl, by simp [Forest.ids], h1, h2⟩

/-- The neighbours of a node. -/
theorem siblings_near {d : Dom} {p pr first last : Option Nat} {f : Forest} (h : Siblings d p pr first last f) {x : Nat} (hx : x ∈ f.ids) :
    ((d.node x).parent = p ∨ ∃ y ∈ f.ids, (d.node x).parent = some y) ∧
    ((d.node x).next = none ∨ ∃ y ∈ f.ids, (d.node x).next = some y) ∧
    ((d.node x).prev = none ∨ (∃ y ∈ f.ids, (d.node x).prev = some y) ∨ ((d.node x).prev = pr ∧ first = some x)) := by
  induction h with
  | nil => simp [Forest.ids] at hx
  | cons p pr last i kids rest h1 h2 h3 h4 ih1 ih2 =>
    simp only [Forest.ids, List.mem_cons, List.mem_append] at hx
    rcases hx with rfl | hx | hx
    · refine ⟨.inl h1, ?_, .inr (.inr ⟨h2, rfl⟩)⟩
      rcases siblings_first h4 with ⟨_, h5⟩ | ⟨y, h5, h6, _⟩
      · exact .inl h5
      · exact .inr ⟨y, by simp [Forest.ids, h6], h5⟩
    · obtain ⟨q1, q2, q3⟩ := ih1 hx
      refine ⟨.inr ?_, ?_, ?_⟩
      · rcases q1 with q1 | ⟨y, q1, q1'⟩
        · exact ⟨i, by simp [Forest.ids], q1⟩
        · exact ⟨y, by simp [Forest.ids, q1], q1'⟩
      · rcases q2 with q2 | ⟨y, q2, q2'⟩
        · exact .inl q2
        · exact .inr ⟨y, by simp [Forest.ids, q2], q2'⟩
      · rcases q3 with q3 | ⟨y, q3, q3'⟩ | ⟨q3, _⟩
        · exact .inl q3
        · exact .inr (.inl ⟨y, by simp [Forest.ids, q3], q3'⟩)
        · exact .inl q3
    · obtain ⟨q1, q2, q3⟩ := ih2 hx
      refine ⟨?_, ?_, ?_⟩
      · rcases q1 with q1 | ⟨y, q1, q1'⟩
        · exact .inl q1
        · exact .inr ⟨y, by simp [Forest.ids, q1], q1'⟩
      · rcases q2 with q2 | ⟨y, q2, q2'⟩
        · exact .inl q2
        · exact .inr ⟨y, by simp [Forest.ids, q2], q2'⟩
      · rcases q3 with q3 | ⟨y, q3, q3'⟩ | ⟨q3, _⟩
        · exact .inl q3
        · exact .inr (.inl ⟨y, by simp [Forest.ids, q3], q3'⟩)
        · exact .inr (.inl ⟨i, by simp [Forest.ids], q3⟩)

/-- Nodes that did not change. -/
theorem siblings_same {d d' : Dom} {p pr first last : Option Nat} {f : Forest} (h : Siblings d p pr first last f) (hs : ∀ j ∈ f.ids, d'.node j = d.node j) :
    Siblings d' p pr first last f := by
  induction h with
  | nil => exact .nil _ _
  | cons p pr last i kids rest h1 h2 h3 h4 ih1 ih2 =>
    have hi := hs i (by simp [Forest.ids])
    refine .cons _ _ _ _ _ _ (by rw [hi, h1]) (by rw [hi, h2]) ?_ ?_
    · rw [hi]
      exact ih1 (fun j hj => hs j (by simp [Forest.ids, hj]))
    · rw [hi]
      exact ih2 (fun j hj => hs j (by simp [Forest.ids, hj]))

/-- The tree with `e` around `x`. -/
def Spec.Forest.wrap (e x : Nat) : Forest → Forest
  | .nil => .nil
  | .cons i kids rest => if i = x then .cons e (.cons i kids .nil) rest else .cons i (kids.wrap e x) (rest.wrap e x)

theorem wrap_not {e x : Nat} {f : Forest} (h : x ∉ f.ids) : f.wrap e x = f := by
  induction f with
  | nil => rfl
  | cons i kids rest ih1 ih2 =>
    simp only [Forest.ids, List.mem_cons, List.mem_append, not_or] at h
    rw [Forest.wrap, if_neg (fun e => h.1 e.symm), ih1 h.2.1, ih2 h.2.2]

theorem siblings_wrap {d : Dom} {x e : Nat} {p pr first last : Option Nat} {f : Forest} (h : Siblings d p pr first last f) (hx : x ∈ f.ids)
    (hnd : f.ids.Nodup) (he : e ∉ f.ids) (hp : ∀ y ∈ f.ids, p ≠ some y) (hpr : ∀ y ∈ f.ids, pr ≠ some y) (hpe : p ≠ some e) (hpre : pr ≠ some e) :
    Siblings { d with node := wrapNode d x e } p pr (if first = some x then some e else first) (if last = some x then some e else last) (f.wrap e x) := by
  generalize hd' : ({ d with node := wrapNode d x e } : Dom) = d'
  have nd : ∀ j, d'.node j = wrapNode d x e j := fun j => by rw [← hd']
  have same : ∀ j, j ≠ e → j ≠ x → (d.node x).prev ≠ some j → (d.node x).next ≠ some j → (d.node x).parent ≠ some j → d'.node j = d.node j := by
    intro j h1 h2 h3 h4 h5
    rw [nd]
    unfold wrapNode
    simp [h1, h2, h3, h4, h5]
  induction h with
  | nil => simp [Forest.ids] at hx
  | cons p pr last i kids rest h1 h2 h3 h4 ih1 ih2 =>
    simp only [Forest.ids, List.nodup_cons, List.mem_append, not_or, List.nodup_append] at hnd
    obtain ⟨⟨n1, n2⟩, n3, n4, n5⟩ := hnd
    simp only [Forest.ids, List.mem_cons, List.mem_append, not_or] at he
    obtain ⟨e1, e2, e3⟩ := he
    have hpi : p ≠ some i := hp i (by simp [Forest.ids])
    have hpk : ∀ y ∈ kids.ids, p ≠ some y := fun y hy => hp y (by simp [Forest.ids, hy])
    have hpre' : ∀ y ∈ rest.ids, p ≠ some y := fun y hy => hp y (by simp [Forest.ids, hy])
    have hpri : pr ≠ some i := hpr i (by simp [Forest.ids])
    simp only [Forest.ids, List.mem_cons, List.mem_append] at hx
    by_cases hxi : x = i
    · -- the node itself
      subst hxi
      rw [if_pos rfl, Forest.wrap, if_pos rfl]
      have hde : d'.node e = { d.node e with parent := (d.node x).parent, next := (d.node x).next, prev := (d.node x).prev, children := some x, last := some x } := by
        rw [nd]; unfold wrapNode; rw [if_pos rfl]
      have hdx : d'.node x = { d.node x with parent := some e, next := none, prev := none } := by
        rw [nd]; unfold wrapNode; rw [if_neg (fun h => e1 h.symm), if_pos rfl]
      have nextIn : ∀ y, (d.node x).next = some y → y ∈ rest.ids := by
        intro y hy
        rcases siblings_first h4 with ⟨_, h5⟩ | ⟨z, h5, h6, _⟩
        · rw [h5] at hy; cases hy
        · rw [h5] at hy; injection hy with hy; rw [← hy]; exact h6
      refine .cons _ _ _ _ _ _ (by rw [hde]; exact h1) (by rw [hde]; exact h2) ?_ ?_
      · rw [hde]
        refine .cons _ _ _ _ _ _ (by rw [hdx]) (by rw [hdx]) ?_ (by rw [hdx]; exact .nil _ _)
        rw [hdx]
        refine siblings_same h3 (fun j hj => same j (fun h => e2 (h ▸ hj)) (fun h => n1 (h ▸ hj)) ?_ ?_ ?_)
        · rw [h2]; exact hpr j (by simp [Forest.ids, hj])
        · intro h; exact n5 j hj j (nextIn j h) rfl
        · rw [h1]; exact hpk j hj
      · rw [hde]
        show Siblings d' p (some e) (d.node x).next (if last = some x then some e else last) rest
        clear ih2
        generalize hfirst : (d.node x).next = nx at h4
        cases h4 with
        | nil => rw [if_pos rfl]; exact .nil _ _
        | cons _ _ _ i2 kids2 rest2 g1 g2 g3 g4 =>
          have hl : last ≠ some x := by
            rcases siblings_last g4 with ⟨_, q⟩ | ⟨y, q, q2, _⟩
            · rw [q]; intro h; injection h with h; exact n2 (by simp [Forest.ids, h])
            · rw [q]; intro h; injection h with h; exact n2 (by simp [Forest.ids, ← h, q2])
          rw [if_neg hl]
          simp only [Forest.ids, List.nodup_cons, List.mem_append, not_or, List.nodup_append] at n4
          obtain ⟨⟨m1, m2⟩, m3, m4, m5⟩ := n4
          simp only [Forest.ids, List.mem_cons, List.mem_append, not_or] at e3 n2
          have hnx : (d.node x).next = some i2 := hfirst
          have hd2 : d'.node i2 = { d.node i2 with prev := some e } := by
            rw [nd]
            unfold wrapNode
            have a1 : i2 ≠ e := fun h => e3.1 h.symm
            have a2 : i2 ≠ x := fun h => n2.1 h.symm
            have a3 : pr ≠ some i2 := hpr i2 (by simp [Forest.ids])
            have a4 : p ≠ some i2 := hpre' i2 (by simp [Forest.ids])
            simp [a1, a2, h1, h2, a3, a4, hnx]
          have sm : ∀ j, j ∈ kids2.ids ∨ j ∈ rest2.ids → d'.node j = d.node j := by
            intro j hj
            refine same j (fun h => ?_) (fun h => ?_) ?_ ?_ ?_
            · subst h; rcases hj with hj | hj; exact e3.2.1 hj; exact e3.2.2 hj
            · subst h; rcases hj with hj | hj; exact n2.2.1 hj; exact n2.2.2 hj
            · rw [h2]; exact hpr j (by rcases hj with hj | hj <;> simp [Forest.ids, hj])
            · rw [hnx]; intro h; injection h with h; subst h
              rcases hj with hj | hj; exact m1 hj; exact m2 hj
            · rw [h1]; exact hpre' j (by rcases hj with hj | hj <;> simp [Forest.ids, hj])
          refine .cons _ _ _ _ _ _ (by rw [hd2]; exact g1) (by rw [hd2]) ?_ ?_
          · rw [hd2]; exact siblings_same g3 (fun j hj => sm j (.inl hj))
          · rw [hd2]; exact siblings_same g4 (fun j hj => sm j (.inr hj))
    · have hix : i ≠ x := fun h => hxi h.symm
      have hie : i ≠ e := fun h => e1 h.symm
      rw [if_neg (by simpa using hix), Forest.wrap, if_neg hix]
      have hx' := hx.resolve_left hxi
      have hdi : d'.node i = { d.node i with
          next := if (d.node x).prev = some i then some e else (d.node i).next
          prev := if (d.node x).next = some i then some e else (d.node i).prev
          children := if (d.node x).parent = some i ∧ (d.node i).children = some x then some e else (d.node i).children
          last := if (d.node x).parent = some i ∧ (d.node i).last = some x then some e else (d.node i).last } := by
        rw [nd]
        unfold wrapNode
        rw [if_neg hie, if_neg hix]
      rcases hx' with hx' | hx'
      · -- below the node
        have hxr : x ∉ rest.ids := fun h => n5 x hx' x h rfl
        have ih := ih1 hx' n3 e2 (fun y hy h => by injection h with h; subst h; exact n1 hy) (fun y hy h => by cases h)
          (by simpa using hie) (by simp)
        obtain ⟨q1, q2, q3⟩ := siblings_near h3 hx'
        have k1 : (d.node x).prev ≠ some i := by
          rcases q3 with q | ⟨y, q, q'⟩ | ⟨q, _⟩
          · rw [q]; simp
          · rw [q']; intro h; injection h with h; subst h; exact n1 q
          · rw [q]; simp
        have k2 : (d.node x).next ≠ some i := by
          rcases q2 with q | ⟨y, q, q'⟩
          · rw [q]; simp
          · rw [q']; intro h; injection h with h; subst h; exact n1 q
        rw [wrap_not hxr]
        have hl : last ≠ some x := by
          rcases siblings_last h4 with ⟨_, q⟩ | ⟨y, q, q2, _⟩
          · rw [q]; intro h; injection h with h; exact hix h
          · rw [q]; intro h; injection h with h; exact hxr (h ▸ q2)
        rw [if_neg hl]
        refine .cons _ _ _ _ _ _ (by rw [hdi]; exact h1) (by rw [hdi]; simp only [if_neg k2]; exact h2) ?_ ?_
        · rw [hdi]
          show Siblings d' (some i) none (if _ then _ else _) (if _ then _ else _) _
          have c1 : ((d.node x).parent = some i ∧ (d.node i).children = some x) ↔ (d.node i).children = some x := by
            refine ⟨fun h => h.2, fun h => ⟨?_, h⟩⟩
            rcases siblings_first h3 with ⟨_, q⟩ | ⟨y, q, _, q9, _⟩
            · rw [q] at h; cases h
            · rw [q] at h; injection h with h; rw [← h]; exact q9
          have c2 : ((d.node x).parent = some i ∧ (d.node i).last = some x) ↔ (d.node i).last = some x := by
            refine ⟨fun h => h.2, fun h => ⟨?_, h⟩⟩
            rcases siblings_last h3 with ⟨_, q⟩ | ⟨y, q, _, q9⟩
            · rw [q] at h; cases h
            · rw [q] at h; injection h with h; rw [← h]; exact q9
          simp only [c1, c2]
          exact ih
        · rw [hdi]
          simp only [if_neg k1]
          refine siblings_same h4 (fun j hj => same j (fun h => e3 (h ▸ hj)) (fun h => hxr (h ▸ hj)) ?_ ?_ ?_)
          · rcases q3 with q | ⟨y, q, q'⟩ | ⟨q, _⟩
            · rw [q]; simp
            · rw [q']; intro h; injection h with h; subst h; exact n5 _ q _ hj rfl
            · rw [q]; simp
          · rcases q2 with q | ⟨y, q, q'⟩
            · rw [q]; simp
            · rw [q']; intro h; injection h with h; subst h; exact n5 _ q _ hj rfl
          · rcases q1 with q | ⟨y, q, q'⟩
            · rw [q]; intro h; injection h with h; subst h; exact n2 hj
            · rw [q']; intro h; injection h with h; subst h; exact n5 _ q _ hj rfl
      · -- behind the node
        have hxk : x ∉ kids.ids := fun h => n5 x h x hx' rfl
        have ih := ih2 hx' n4 e3 hpre' (fun y hy h => by injection h with h; subst h; exact n2 hy) hpe (by simpa using hie)
        obtain ⟨q1, q2, q3⟩ := siblings_near h4 hx'
        have k2 : (d.node x).next ≠ some i := by
          rcases q2 with q | ⟨y, q, q'⟩
          · rw [q]; simp
          · rw [q']; intro h; injection h with h; subst h; exact n2 q
        have k3 : (d.node x).parent ≠ some i := by
          rcases q1 with q | ⟨y, q, q'⟩
          · rw [q]; exact hpi
          · rw [q']; intro h; injection h with h; subst h; exact n2 q
        have k1 : ((d.node x).prev = some i) ↔ (d.node i).next = some x := by
          constructor
          · intro h
            rcases q3 with q | ⟨y, q, q'⟩ | ⟨_, q⟩
            · rw [q] at h; cases h
            · rw [q'] at h; injection h with h; subst h; exact absurd q n2
            · exact q
          · intro h
            rcases siblings_first h4 with ⟨_, q⟩ | ⟨y, q, _, _, q9⟩
            · rw [q] at h; cases h
            · rw [q] at h; injection h with h; rw [← h]; exact q9
        rw [wrap_not hxk]
        refine .cons _ _ _ _ _ _ (by rw [hdi]; exact h1) (by rw [hdi]; simp only [if_neg k2]; exact h2) ?_ ?_
        · rw [hdi]
          simp only [k3, false_and, if_false]
          refine siblings_same h3 (fun j hj => same j (fun h => e2 (h ▸ hj)) (fun h => hxk (h ▸ hj)) ?_ ?_ ?_)
          · rcases q3 with q | ⟨y, q, q'⟩ | ⟨q, _⟩
            · rw [q]; simp
            · rw [q']; intro h; injection h with h; subst h; exact n5 _ hj _ q rfl
            · rw [q]; intro h; injection h with h; subst h; exact n1 hj
          · rcases q2 with q | ⟨y, q, q'⟩
            · rw [q]; simp
            · rw [q']; intro h; injection h with h; subst h; exact n5 _ hj _ q rfl
          · rcases q1 with q | ⟨y, q, q'⟩
            · rw [q]; exact hpk j hj
            · rw [q']; intro h; injection h with h; subst h; exact n5 _ hj _ q rfl
        · rw [hdi]
          simp only [k1]
          exact ih

end Srcml
