import Verif.Proofs.UnitCalls
/-
The parts of a finished unit: exchanging its start tag, and cutting declarations and the url out of it.
-/
set_option linter.unusedSimpArgs false
namespace Srcml
open Spec

/-! ### Reading does not look back -/

/-- The reader only adds events. -/
theorem step_shift {r r' : RState} {c : Char} (h : r.step c = some r') :
    ∃ d, r'.evs = r.evs ++ d ∧ ∀ X, ({ r with evs := X } : RState).step c = some { r' with evs := X ++ d } := by
  obtain ⟨pos, stack, rooted, evs⟩ := r
  have hchar : ∀ d r', (⟨pos, stack, rooted, evs⟩ : RState).char d = some r' →
      ∃ e, r'.evs = evs ++ e ∧ ∀ X, (⟨pos, stack, rooted, X⟩ : RState).char d = some { r' with evs := X ++ e } := by
    intro d r' h
    unfold RState.char at h
    by_cases hs : stack = []
    · simp only [hs, if_true] at h
      split at h
      · rename_i hd
        cases h
        exact ⟨[], by simp, fun X => by simp [RState.char, hs, hd]⟩
      · cases h
    · simp only [hs, if_false, Option.some.injEq] at h
      subst h
      exact ⟨[.ch d], rfl, fun X => by simp [RState.char, hs]⟩
  have hopen : ∀ n as r', (⟨pos, stack, rooted, evs⟩ : RState).openTag n as = some r' →
      ∃ e, r'.evs = evs ++ e ∧ ∀ X, (⟨pos, stack, rooted, X⟩ : RState).openTag n as = some { r' with evs := X ++ e } := by
    intro n as r' h
    unfold RState.openTag at h
    split at h
    · cases h
    · rename_i h1
      split at h
      · rename_i h2
        cases h
        refine ⟨[.op n as], rfl, fun X => ?_⟩
        unfold RState.openTag
        rw [if_neg h1, if_pos h2]
      · cases h
  have hclose : ∀ (q : RState) n r', q.closeTag n = some r' →
      ∃ e, r'.evs = q.evs ++ e ∧ ∀ X, ({ q with evs := X } : RState).closeTag n = some { r' with evs := X ++ e } := by
    intro q n r' h
    obtain ⟨p2, s2, r2, e2⟩ := q
    unfold RState.closeTag at h
    cases s2 with
    | nil => cases h
    | cons x xs =>
      simp only [] at h
      split at h
      · rename_i hx
        cases h
        exact ⟨[.cl n], rfl, fun X => by simp [RState.closeTag, hx]⟩
      · cases h
  cases pos <;> simp only [RState.step] at h
  case content =>
    split at h
    · rename_i h1; cases h; exact ⟨[], by simp, fun X => by simp [RState.step, h1]⟩
    · rename_i h1
      split at h
      · rename_i h2; cases h; exact ⟨[], by simp, fun X => by simp [RState.step, h1, h2]⟩
      · rename_i h2
        split at h
        · cases h
        · rename_i h3
          obtain ⟨e, e1, e2⟩ := hchar _ _ h
          refine ⟨e, e1, fun X => ?_⟩
          simp only [RState.step]
          rw [if_neg h1, if_neg h2, if_neg h3]
          exact e2 X
  case contentRef acc =>
    split at h
    · rename_i h1
      cases he : entity acc with
      | none => rw [he] at h; cases h
      | some d =>
        rw [he] at h
        obtain ⟨e, e1, e2⟩ := hchar _ _ h
        refine ⟨e, e1, fun X => ?_⟩
        simp only [RState.step, h1, he, if_true]
        exact e2 X
    · rename_i h1; cases h; exact ⟨[], by simp, fun X => by simp [RState.step, h1]⟩
  case lt =>
    split at h
    · rename_i h1; cases h; exact ⟨[], by simp, fun X => by simp [RState.step, h1]⟩
    · rename_i h1
      split at h
      · rename_i h2; cases h; exact ⟨[], by simp, fun X => by simp [RState.step, h1, h2]⟩
      · rename_i h2
        split at h
        · rename_i h3; cases h; exact ⟨[], by simp, fun X => by simp [RState.step, h1, h2, h3]⟩
        · cases h
  case openName acc =>
    split at h
    · rename_i h1; cases h; exact ⟨[], by simp, fun X => by simp [RState.step, h1]⟩
    · rename_i h1
      split at h
      · rename_i h2
        obtain ⟨e, e1, e2⟩ := hopen _ _ _ h
        refine ⟨e, e1, fun X => ?_⟩
        simp only [RState.step]
        rw [if_neg h1, if_pos h2]
        exact e2 X
      · rename_i h2
        split at h
        · rename_i h3; cases h; exact ⟨[], by simp, fun X => by simp [RState.step, h1, h2, h3]⟩
        · rename_i h3
          split at h
          · rename_i h4; cases h; exact ⟨[], by simp, fun X => by simp [RState.step, h1, h2, h3, h4]⟩
          · cases h
  case closeName acc =>
    split at h
    · rename_i h1
      obtain ⟨e, e1, e2⟩ := hclose _ _ _ h
      refine ⟨e, e1, fun X => ?_⟩
      simp only [RState.step]
      rw [if_pos h1]
      exact e2 X
    · rename_i h1
      split at h
      · rename_i h2; cases h; exact ⟨[], by simp, fun X => by simp [RState.step, h1, h2]⟩
      · cases h
  case afterTag n as =>
    split at h
    · rename_i h1; cases h; exact ⟨[], by simp, fun X => by simp [RState.step, h1]⟩
    · rename_i h1
      split at h
      · rename_i h2
        obtain ⟨e, e1, e2⟩ := hopen _ _ _ h
        refine ⟨e, e1, fun X => ?_⟩
        simp only [RState.step]
        rw [if_neg h1, if_pos h2]
        exact e2 X
      · rename_i h2
        split at h
        · rename_i h3; cases h; exact ⟨[], by simp, fun X => by simp [RState.step, h1, h2, h3]⟩
        · cases h
  case inTag n as =>
    split at h
    · rename_i h1; cases h; exact ⟨[], by simp, fun X => by simp [RState.step, h1]⟩
    · cases h
  case attrName n as acc =>
    split at h
    · rename_i h1; cases h; exact ⟨[], by simp, fun X => by simp [RState.step, h1]⟩
    · rename_i h1
      split at h
      · rename_i h2; cases h; exact ⟨[], by simp, fun X => by simp [RState.step, h1, h2]⟩
      · cases h
  case attrEq n as acc =>
    split at h
    · rename_i h1; cases h; exact ⟨[], by simp, fun X => by simp [RState.step, h1]⟩
    · cases h
  case attrVal n as an acc =>
    split at h
    · rename_i h1; cases h; exact ⟨[], by simp, fun X => by simp [RState.step, h1]⟩
    · rename_i h1
      split at h
      · rename_i h2; cases h; exact ⟨[], by simp, fun X => by simp [RState.step, h1, h2]⟩
      · rename_i h2
        split at h
        · cases h
        · rename_i h3
          split at h
          · rename_i h4
            cases h
            refine ⟨[], by simp, fun X => ?_⟩
            simp only [RState.step]
            rw [if_neg h1, if_neg h2, if_neg h3, if_pos h4]
            simp
          · rename_i h4
            cases h
            refine ⟨[], by simp, fun X => ?_⟩
            simp only [RState.step]
            rw [if_neg h1, if_neg h2, if_neg h3, if_neg h4]
            simp
  case attrRef n as an acc ref =>
    split at h
    · rename_i h1
      cases he : entity ref with
      | none => rw [he] at h; cases h
      | some d => rw [he] at h; cases h; exact ⟨[], by simp, fun X => by simp [RState.step, h1, he]⟩
    · rename_i h1; cases h; exact ⟨[], by simp, fun X => by simp [RState.step, h1]⟩
  case slash n as =>
    split at h
    · rename_i h1
      cases ho : (⟨.slash n as, stack, rooted, evs⟩ : RState).openTag n as with
      | none => rw [ho] at h; cases h
      | some q =>
        rw [ho] at h
        simp only [] at h
        obtain ⟨e, e1, e2⟩ := hopen _ _ _ ho
        obtain ⟨e', e1', e2'⟩ := hclose _ _ _ h
        refine ⟨e ++ e', by rw [e1', e1]; simp, fun X => ?_⟩
        simp only [RState.step, h1, if_true]
        rw [e2 X]
        simp only []
        rw [e2' (X ++ e)]
        simp
    · cases h
  case pi =>
    split at h
    · rename_i h1; cases h; exact ⟨[], by simp, fun X => by simp [RState.step, h1]⟩
    · rename_i h1; cases h; exact ⟨[], by simp, fun X => by simp [RState.step, h1]⟩
  case piEnd =>
    split at h
    · rename_i h1; cases h; exact ⟨[], by simp, fun X => by simp [RState.step, h1]⟩
    · rename_i h1
      split at h
      · rename_i h2; cases h; exact ⟨[], by simp, fun X => by simp [RState.step, h1, h2]⟩
      · rename_i h2; cases h; exact ⟨[], by simp, fun X => by simp [RState.step, h1, h2]⟩

theorem run_shift (s : Str) : ∀ {r r' : RState}, r.run s = some r' →
    ∃ d, r'.evs = r.evs ++ d ∧ ∀ X, ({ r with evs := X } : RState).run s = some { r' with evs := X ++ d } := by
  induction s with
  | nil => intro r r' h; simp only [RState.run, Option.some.injEq] at h; subst h; exact ⟨[], by simp, fun X => by simp [RState.run]⟩
  | cons c cs ih =>
    intro r r' h
    cases hc : r.step c with
    | none => simp [RState.run, hc] at h
    | some q =>
      simp only [RState.run, hc] at h
      obtain ⟨d1, e1, f1⟩ := step_shift hc
      obtain ⟨d2, e2, f2⟩ := ih h
      refine ⟨d1 ++ d2, by rw [e2, e1]; simp, fun X => ?_⟩
      simp only [RState.run, f1 X]
      rw [f2 (X ++ d1)]
      simp

/-- Reading a start tag, up to its end. -/
theorem run_attrs (n : Str) (l : List (Str × Str)) : ∀ (r : RState) (as : List (Str × Str)), TagPos n as r.pos →
    (∀ a ∈ l, ValidName a.1 ∧ ValidValue a.2) →
    ∃ p, r.run (attrsText l) = some { r with pos := p } ∧ TagPos n (as ++ l) p := by
  induction l with
  | nil => intro r as hp _; exact ⟨r.pos, by simp [attrsText, RState.run], by simpa using hp⟩
  | cons a l ih =>
    intro r as hp hv
    obtain ⟨v1, v2⟩ := hv a (by simp)
    have h1 := run_attr r n a.1 a.2 as hp v1 v2
    obtain ⟨p, h2, h3⟩ := ih { r with pos := .afterTag n (as ++ [(a.1, a.2)]) } (as ++ [a]) (Or.inr rfl)
      (fun x hx => hv x (by simp [hx]))
    refine ⟨p, ?_, by simpa using h3⟩
    have : attrsText (a :: l) = attrText a.1 a.2 ++ attrsText l := rfl
    rw [this, run_append_some h1, h2]

theorem run_tag {n : Str} {as : List (Str × Str)} (hn : ValidName n) (hv : ∀ a ∈ as, ValidName a.1 ∧ ValidValue a.2) :
    ∃ p, ({} : RState).run ('<' :: n ++ attrsText as) = some { pos := p } ∧ TagPos n as p := by
  obtain ⟨hne, hall⟩ := hn
  cases n with
  | nil => exact absurd rfl hne
  | cons c cs =>
    simp only [List.all_cons, Bool.and_eq_true] at hall
    obtain ⟨h1, h2, h3, h4, h5, _⟩ := nameChar_ne hall.1
    have e1 : ({} : RState).run ('<' :: c :: cs) = some { pos := .openName (c :: cs) } := by
      rw [run_cons (r' := { pos := .lt }) (by simp [RState.step])]
      rw [run_cons (r' := { pos := .openName [c] }) (by simp [RState.step, h3, h5, hall.1])]
      have := run_openName { pos := .openName [c] } [c] cs hall.2 rfl
      simpa using this
    rw [show '<' :: c :: cs ++ attrsText as = ('<' :: c :: cs) ++ attrsText as by simp, run_append_some e1]
    obtain ⟨p, e2, e3⟩ := run_attrs (c :: cs) as { pos := .openName (c :: cs) } [] (Or.inl ⟨rfl, rfl⟩) hv
    exact ⟨p, e2, by simpa using e3⟩

/-- What follows a start tag. -/
def TagEnd (tail : Str) : Prop := (∃ r, tail = '>' :: r) ∨ tail = ['/', '>']

theorem openTag_root {p : Pos} {n : Str} {as : List (Str × Str)} (h : (as.map (·.1)).Nodup) :
    ({ pos := p } : RState).openTag n as = some ⟨.content, [n], true, [.op n as]⟩ := by
  simp [RState.openTag, h]

/-- Exchanging the start tag of a document exchanges the attributes, and nothing else. -/
theorem retag {n tail : Str} {as as' : List (Str × Str)} {evs : List Ev} (hn : ValidName n)
    (hv : ∀ a ∈ as, ValidName a.1 ∧ ValidValue a.2) (hv' : ∀ a ∈ as', ValidName a.1 ∧ ValidValue a.2)
    (hd : (as.map (·.1)).Nodup) (hd' : (as'.map (·.1)).Nodup) (ht : TagEnd tail)
    (h : readXml ('<' :: n ++ attrsText as ++ tail) = some (.op n as :: evs)) :
    readXml ('<' :: n ++ attrsText as' ++ tail) = some (.op n as' :: evs) := by
  obtain ⟨p, e1, e2⟩ := run_tag hn hv
  obtain ⟨p', e1', e2'⟩ := run_tag hn hv'
  unfold readXml at h ⊢
  rw [run_append_some e1] at h
  rw [run_append_some e1']
  rcases ht with ⟨r, rfl⟩ | rfl
  · have o1 := run_closeOpen { pos := p } n as e2 hd (fun _ => rfl)
    have o1' := run_closeOpen { pos := p' } n as' e2' hd' (fun _ => rfl)
    rw [show '>' :: r = ['>'] ++ r from rfl, run_append_some o1] at h
    rw [show '>' :: r = ['>'] ++ r from rfl, run_append_some o1']
    simp only [List.nil_append] at h ⊢
    cases hr : (⟨.content, [n], true, [.op n as]⟩ : RState).run r with
    | none => rw [hr] at h; cases h
    | some q =>
      obtain ⟨d, d1, d2⟩ := run_shift r hr
      rw [hr] at h
      rw [d2 [.op n as']]
      simp only [] at h ⊢
      split at h
      · rename_i hq
        rw [if_pos hq]
        simp only [Option.some.injEq] at h
        rw [d1] at h
        simp only [List.cons_append, List.nil_append, List.cons.injEq, true_and] at h
        simp [h]
      · cases h
  · have s1 : ∀ {x : Pos} {l : List (Str × Str)}, TagPos n l x → (l.map (·.1)).Nodup →
        ({ pos := x } : RState).run ['/', '>'] = some ⟨.content, [], true, [.op n l, .cl n]⟩ := by
      intro x l hx hl
      have h1 : ({ pos := x } : RState).step '/' = some { pos := .slash n l } := by
        rcases hx with ⟨h, h'⟩ | h
        · subst h'; simp [RState.step, h]
        · simp [RState.step, h]
      rw [run_cons h1]
      simp [RState.run, RState.step, openTag_root hl, RState.closeTag]
    rw [s1 e2 hd] at h
    rw [s1 e2' hd']
    simp only [and_self, if_true, Option.some.injEq, List.cons.injEq, true_and] at h ⊢
    exact h

/-! ### Searching -/

/-- A stretch in which the needle does not start is passed over. -/
theorem findSub_skip (needle seg rest : Str)
    (h : ∀ a b, seg = a ++ b → b ≠ [] → needle.isPrefixOf (b ++ rest) = false) :
    findSub needle (seg ++ rest) = (findSub needle rest).map (· + seg.length) := by
  induction seg with
  | nil => simp
  | cons c cs ih =>
    rw [List.cons_append, findSub, if_neg (by rw [← List.cons_append, h [] (c :: cs) rfl (by simp)]; simp)]
    rw [ih (fun a b e hb => h (c :: a) b (by rw [e]; rfl) hb)]
    simp only [Option.map_map, List.length_cons]
    congr 1

theorem isPrefixOf_head {c d : Char} {x y : Str} (h : c ≠ d) : (c :: x).isPrefixOf (d :: y) = false := by
  simp [List.isPrefixOf, h]

/-- The text ` url=`. -/
def urlText : Str := ' ' :: "url=".toList

/-- In a value nothing looks like the url attribute. -/
def NoUrl (v : Str) : Prop := findSub urlText (v.flatMap attrEscapeChar) = none

instance (v : Str) : Decidable (NoUrl v) := inferInstanceAs (Decidable (_ = _))

theorem noBlank_skip (seg rest : Str) (h : ' ' ∉ seg) :
    findSub urlText (seg ++ rest) = (findSub urlText rest).map (· + seg.length) := by
  apply findSub_skip
  intro a b e hb
  cases b with
  | nil => exact absurd rfl hb
  | cons c cs =>
    refine isPrefixOf_head (c := ' ') ?_
    intro ec
    exact h (by rw [e, ← ec]; simp)

theorem value_skip (v rest : Str) (h : NoUrl v) :
    findSub urlText (v.flatMap attrEscapeChar ++ '"' :: rest) =
      (findSub urlText ('"' :: rest)).map (· + (v.flatMap attrEscapeChar).length) := by
  apply findSub_skip
  intro a b e hb
  cases hp : urlText.isPrefixOf (b ++ '"' :: rest) with
  | false => rfl
  | true =>
    exfalso
    obtain ⟨post, hpost⟩ := List.isPrefixOf_iff_prefix.mp hp
    rw [List.append_eq_append_iff] at hpost
    rcases hpost with ⟨w, h1, h2⟩ | ⟨w, h1, h2⟩
    · exact findSub_none h ⟨a, w, by rw [e, h1]; simp⟩
    · cases w with
      | nil => exact findSub_none h ⟨a, [], by rw [e]; simp at h1; simp [h1]⟩
      | cons x xs =>
        simp only [List.cons_append, List.cons.injEq] at h2
        have : '"' ∈ urlText := by rw [h1, h2.1]; simp
        exact absurd this (by decide)

theorem name_not_eq {s : Str} (h : s.all nameChar = true) : '=' ∉ s ∧ ' ' ∉ s ∧ '"' ∉ s ∧ '>' ∉ s := by
  have : ∀ c ∈ s, nameChar c = true := List.all_eq_true.mp h
  refine ⟨?_, ?_, ?_, ?_⟩ <;> (intro hc; have := nameChar_ne (this _ hc); simp at this)

/-- An attribute that is not the url is passed over. -/
theorem attr_skip {n v rest : Str} (hn : ValidName n) (hne : n ≠ "url".toList) (hv : NoUrl v) :
    findSub urlText (attrText n v ++ rest) = (findSub urlText rest).map (· + (attrText n v).length) := by
  obtain ⟨n1, n2, n3, n4⟩ := name_not_eq hn.2
  have hstart : urlText.isPrefixOf (attrText n v ++ rest) = false := by
    cases hp : urlText.isPrefixOf (attrText n v ++ rest) with
    | false => rfl
    | true =>
      exfalso
      obtain ⟨post, hpost⟩ := List.isPrefixOf_iff_prefix.mp hp
      simp only [urlText, attrText, List.cons_append, List.append_assoc] at hpost
      have h2 : "url".toList ++ '=' :: post = n ++ '=' :: ('"' :: (v.flatMap attrEscapeChar ++ ('"' :: rest))) := by
        simpa using hpost
      have key : ∀ (x y a b : Str), '=' ∉ x → '=' ∉ y → x ++ '=' :: a = y ++ '=' :: b → x = y := by
        intro x
        induction x with
        | nil =>
          intro y a b _ hy e
          cases y with
          | nil => rfl
          | cons c cs => simp at e; exact absurd (by rw [e.1]; simp) hy
        | cons c cs ih =>
          intro y a b hx hy e
          cases y with
          | nil => simp at e; exact absurd (by rw [← e.1]; simp) hx
          | cons d ds =>
            simp only [List.cons_append, List.cons.injEq] at e
            rw [e.1, ih ds a b (fun h => hx (by simp [h])) (fun h => hy (by simp [h])) e.2]
      exact hne (key _ _ _ _ (by decide) n1 h2).symm
  have e1 : attrText n v ++ rest = ' ' :: ((n ++ ['=', '"']) ++ (v.flatMap attrEscapeChar ++ '"' :: rest)) := by
    simp [attrText]
  have hlen : (attrText n v).length = 1 + ((n ++ ['=', '"']).length + ((v.flatMap attrEscapeChar).length + 1)) := by
    simp [attrText]; omega
  have e2 : findSub urlText (attrText n v ++ rest) =
      (findSub urlText ((n ++ ['=', '"']) ++ (v.flatMap attrEscapeChar ++ '"' :: rest))).map (· + 1) := by
    rw [e1, findSub, if_neg]
    rw [← e1, hstart]; simp
  rw [e2, noBlank_skip _ _ (by simp [n2]), value_skip v rest hv]
  have e3 : findSub urlText ('"' :: rest) = (findSub urlText rest).map (· + 1) := by
    have hq : urlText.isPrefixOf ('"' :: rest) = false := isPrefixOf_head (c := ' ') (by decide)
    rw [findSub, if_neg (by rw [hq]; simp)]
  rw [e3, hlen]
  simp only [Option.map_map]
  congr 1
  funext x
  simp only [Function.comp]
  omega

theorem attrs_skip (l : List (Str × Str)) (rest : Str) (h : ∀ a ∈ l, ValidName a.1 ∧ a.1 ≠ "url".toList ∧ NoUrl a.2) :
    findSub urlText (attrsText l ++ rest) = (findSub urlText rest).map (· + (attrsText l).length) := by
  induction l with
  | nil => simp [attrsText]
  | cons a l ih =>
    obtain ⟨h1, h2, h3⟩ := h a (by simp)
    have : attrsText (a :: l) = attrText a.1 a.2 ++ attrsText l := rfl
    rw [this, List.append_assoc, attr_skip h1 h2 h3, ih (fun x hx => h x (by simp [hx]))]
    simp only [Option.map_map, List.length_append]
    congr 1
    funext x
    simp only [Function.comp]
    omega

theorem escaped_clean (v : Str) : '"' ∉ v.flatMap attrEscapeChar ∧ '>' ∉ v.flatMap attrEscapeChar := by
  have : ∀ c, '"' ∉ attrEscapeChar c ∧ '>' ∉ attrEscapeChar c := by
    intro c
    unfold attrEscapeChar
    repeat' split
    all_goals first
      | decide
      | (rename_i h1 h2 h3 h4 h5 h6 h7
         refine ⟨?_, ?_⟩
         · simp only [List.mem_singleton]; exact fun e => h1 e.symm
         · simp only [List.mem_singleton]; exact fun e => h6 e.symm)
  constructor
  · intro h
    obtain ⟨c, _, hc⟩ := List.mem_flatMap.mp h
    exact (this c).1 hc
  · intro h
    obtain ⟨c, _, hc⟩ := List.mem_flatMap.mp h
    exact (this c).2 hc

theorem attrs_no_gt (l : List (Str × Str)) (h : ∀ a ∈ l, ValidName a.1) : '>' ∉ attrsText l := by
  intro hm
  obtain ⟨a, ha, hc⟩ := List.mem_flatMap.mp hm
  obtain ⟨_, _, _, n4⟩ := name_not_eq (h a ha).2
  simp only [attrText, List.mem_cons, List.mem_append, List.mem_singleton, List.not_mem_nil, or_false] at hc
  have := (escaped_clean a.2).2
  rcases hc with ((hc | hc) | hc | hc | hc) | hc
  all_goals first | exact n4 hc | exact this hc | exact absurd hc (by decide)

/-! ### The end of the start tag -/

theorem step_rooted {r r' : RState} {c : Char} (h : r.step c = some r') (hr : r.rooted = true) : r'.rooted = true := by
  obtain ⟨pos, stack, rooted, evs⟩ := r
  simp only at hr
  subst hr
  have hchar : ∀ d r', (⟨pos, stack, true, evs⟩ : RState).char d = some r' → r'.rooted = true := by
    intro d r' h
    unfold RState.char at h
    split at h
    · split at h
      · cases h; rfl
      · cases h
    · cases h; rfl
  have hopen : ∀ n as r', (⟨pos, stack, true, evs⟩ : RState).openTag n as = some r' → r'.rooted = true := by
    intro n as r' h
    unfold RState.openTag at h
    split at h
    · cases h
    · split at h
      · cases h; rfl
      · cases h
  have hclose : ∀ (q : RState) n r', q.rooted = true → q.closeTag n = some r' → r'.rooted = true := by
    intro q n r' hq h
    unfold RState.closeTag at h
    split at h
    · split at h
      · cases h; exact hq
      · cases h
    · cases h
  cases pos <;> simp only [RState.step] at h
  case slash n as =>
    split at h
    · split at h
      · rename_i q hq
        exact hclose _ _ _ (hopen _ _ _ hq) h
      · cases h
    · cases h
  all_goals
    repeat' split at h
    all_goals first
      | (cases h; done)
      | (cases h; rfl)
      | exact hchar _ _ h
      | exact hopen _ _ _ h
      | exact hclose _ _ _ rfl h

theorem run_rooted (s : Str) : ∀ {r r' : RState}, r.run s = some r' → r.rooted = true → r'.rooted = true := by
  induction s with
  | nil => intro r r' h hr; simp only [RState.run, Option.some.injEq] at h; rw [← h]; exact hr
  | cons c cs ih =>
    intro r r' h hr
    cases hc : r.step c with
    | none => simp [RState.run, hc] at h
    | some q =>
      simp only [RState.run, hc] at h
      exact ih h (step_rooted hc hr)

/-- The tail of a unit: its contents and its end. -/
def tailOf (name : Str) : Option Str → Str
  | some inner => '>' :: inner ++ ('<' :: '/' :: name ++ ['>'])
  | none => ['/', '>']

theorem tailOf_end (name : Str) (inner : Option Str) : TagEnd (tailOf name inner) := by
  cases inner with
  | none => exact Or.inr rfl
  | some i => exact Or.inl ⟨_, rfl⟩

/-- Ending the unit itself, with the text that it adds. -/
theorem addEndUnit_tail {name : Str} {attrs : List (Str × Str)} {b : Build} {t : Translator}
    (h : TRel ('<' :: name ++ attrsText attrs) name [.op name attrs] b t) (hn : ValidName name)
    (hv : ∀ a ∈ attrs, ValidName a.1 ∧ ValidValue a.2) (hd : (attrs.map (·.1)).Nodup)
    (hst : b.stack = []) (hc : b.cur = none) :
    t.addEndUnit.2 = true ∧
      ∃ inner, t.addEndUnit.1.out.w.out = '<' :: name ++ attrsText attrs ++ tailOf name inner ∧
        t.out.w.out = '<' :: name ++ attrsText attrs ++ (match inner with | none => [] | some i => '>' :: i) ∧
        readXml ('<' :: name ++ attrsText attrs ++ tailOf name inner) = some (.op name attrs :: b.evs ++ [.cl name]) := by
  obtain ⟨x1, x2, x3⟩ := addEndUnit_ok h hst hc (by simp)
  have hdep : t.depth.toNat = 0 := by rw [h.depth, hst]; rfl
  have e1 : t.addEndUnit = ({ t with outputting := false, out := { t.out with w := t.out.w.endElement.1 } }, t.out.w.endElement.2) := by
    unfold Translator.addEndUnit
    rw [if_neg (by rw [h.outputting]; simp), hdep]
    rfl
  refine ⟨x1, ?_⟩
  rcases x3 with ⟨y1, y2⟩ | ⟨r, r', y1, y2⟩
  · exact ⟨none, by rw [y2]; rfl, by rw [y1]; simp, by rw [y2] at x2; exact x2⟩
  · have hr := h.rel
    unfold Rel at hr
    rw [hc] at hr
    obtain ⟨flag, h1, h2⟩ := hr
    rw [hst] at h1
    have hflag : flag = false := by
      cases flag with
      | false => rfl
      | true =>
        exfalso
        obtain ⟨s, k1, k2, k3, k4, k5⟩ := h1
        simp only [List.map_nil, List.nil_append] at k5
        obtain ⟨_, pos, as, rooted, evs0, k6, _, _, k7, _⟩ := k5
        have k7 := k7 (by simp)
        subst k7
        have ks : s = '<' :: name ++ attrsText attrs ++ '>' :: r := by
          have : t.out.w.out = [] ++ s := k2
          rw [y1] at this
          simpa using this.symm
        obtain ⟨p, e1, e2⟩ := run_tag hn hv
        have o1 := run_closeOpen { pos := p } name attrs e2 hd (fun _ => rfl)
        have k6' : ({} : RState).run s = some ⟨pos, [], false, evs0⟩ := by simpa using k6
        rw [ks, run_append_some e1, show '>' :: r = ['>'] ++ r from rfl, run_append_some o1] at k6'
        have := run_rooted r k6' rfl
        cases this
    subst hflag
    have hstk : t.out.w.stack = [(name, false)] := by
      have := h1.stack
      simpa using this
    have e3 : t.addEndUnit.1.out.w.out = t.out.w.out ++ ('<' :: '/' :: name ++ ['>']) := by
      rw [e1]
      simp [Writer.endElement, hstk]
    refine ⟨some r, by rw [e3, y1]; simp [tailOf], by rw [y1], ?_⟩
    rw [← show t.addEndUnit.1.out.w.out = '<' :: name ++ attrsText attrs ++ tailOf name (some r) by
      rw [e3, y1]; simp [tailOf]]
    rw [x2]; simp

end Srcml
