import Verif.Proofs.ArchiveText
import Verif.Props.Output
/-
The text of an archive, read back as XML.
-/
set_option linter.unusedSimpArgs false
namespace Srcml
open Spec

/-- The piece of text reads as the given events wherever an element is open, and leaves that element open. -/
def ReadsAs (s : Str) (evs : List Ev) : Prop :=
  ∀ r : RState, r.pos = .content → r.stack ≠ [] → r.rooted = true → r.run s = some { r with evs := r.evs ++ evs }

theorem ReadsAs.nil : ReadsAs [] [] := by
  intro r h _ _; simp [RState.run]

theorem ReadsAs.append {s t : Str} {a b : List Ev} (h1 : ReadsAs s a) (h2 : ReadsAs t b) : ReadsAs (s ++ t) (a ++ b) := by
  intro r p q k
  rw [run_append_some (h1 r p q k), h2 { r with evs := r.evs ++ a } p q k]
  simp

theorem ReadsAs.newline : ReadsAs ['\n'] [.ch '\n'] := by
  intro r p q k
  obtain ⟨pos, st, ro, evs⟩ := r
  simp only at p q k
  subst p
  simp [RState.run, RState.step, RState.char, q, xmlChar]

theorem run_attrsText (as : List (Str × Str)) : ∀ (r : RState) (n : Str) (old : List (Str × Str)), TagPos n old r.pos →
    (∀ a ∈ as, ValidName a.1 ∧ ValidValue a.2) →
    ∃ p, r.run (attrsText as) = some { r with pos := p } ∧ TagPos n (old ++ as) p := by
  induction as with
  | nil => intro r n old h _; exact ⟨r.pos, by simp [attrsText, RState.run], by simpa using h⟩
  | cons a as ih =>
    intro r n old h hv
    have ha := hv a (by simp)
    have h1 := run_attr r n a.1 a.2 old h ha.1 ha.2
    obtain ⟨p, h2, h3⟩ := ih { r with pos := .afterTag n (old ++ [(a.1, a.2)]) } n (old ++ [(a.1, a.2)]) (Or.inr rfl)
      (fun x hx => hv x (by simp [hx]))
    refine ⟨p, ?_, by simpa using h3⟩
    show r.run (attrText a.1 a.2 ++ attrsText as) = _
    rw [run_append_some h1, h2]

/-- A start tag up to its end. -/
theorem run_startTag (r : RState) (n : Str) (as : List (Str × Str)) (hp : r.pos = .content) (hn : ValidName n)
    (hv : ∀ a ∈ as, ValidName a.1 ∧ ValidValue a.2) :
    ∃ p, r.run ('<' :: n ++ attrsText as) = some { r with pos := p } ∧ TagPos n as p := by
  obtain ⟨hne, hall⟩ := hn
  cases n with
  | nil => exact absurd rfl hne
  | cons c cs =>
    simp only [List.all_cons, Bool.and_eq_true] at hall
    have hc := nameChar_ne hall.1
    have e1 : r.step '<' = some { r with pos := .lt } := by
      obtain ⟨pos, st, ro, evs⟩ := r
      simp only at hp
      subst hp
      rfl
    have e2 : RState.step { r with pos := .lt } c = some { r with pos := .openName [c] } := by
      simp [RState.step, hc, hall.1]
    have e3 := run_openName { r with pos := .openName [c] } [c] cs hall.2 rfl
    obtain ⟨p, e4, e5⟩ := run_attrsText as { r with pos := .openName (c :: cs) } (c :: cs) [] (Or.inl ⟨rfl, rfl⟩) hv
    refine ⟨p, ?_, by simpa using e5⟩
    show r.run ('<' :: (c :: (cs ++ attrsText as))) = _
    rw [run_cons e1, run_cons e2, run_append_some e3]
    exact e4

/-- The end of an empty element. -/
theorem run_emptyEnd (r : RState) (n : Str) (as : List (Str × Str)) (hp : TagPos n as r.pos)
    (hn : (as.map (·.1)).Nodup) (hr : r.stack = [] → r.rooted = false) :
    r.run ['/', '>'] = some ⟨.content, r.stack, true, r.evs ++ [.op n as, .cl n]⟩ := by
  obtain ⟨pos, st, ro, evs⟩ := r
  simp only at hp hr
  have e1 : RState.step ⟨pos, st, ro, evs⟩ '/' = some ⟨.slash n as, st, ro, evs⟩ := by
    rcases hp with ⟨rfl, rfl⟩ | rfl <;> rfl
  have hopen : (⟨.slash n as, st, ro, evs⟩ : RState).openTag n as = some ⟨.content, n :: st, true, evs ++ [.op n as]⟩ := by
    unfold RState.openTag
    rw [if_neg, if_pos hn]
    rintro ⟨h1, h2⟩
    simp [hr h1] at h2
  have e2 : RState.step ⟨.slash n as, st, ro, evs⟩ '>' = some ⟨.content, st, true, evs ++ [.op n as, .cl n]⟩ := by
    simp [RState.step, hopen, RState.closeTag]
  rw [run_cons e1, run_cons e2]
  rfl

/-- An end tag. -/
theorem run_endTag (r : RState) (n : Str) (rest : List Str) (hp : r.pos = .content) (hn : ValidName n) (hs : r.stack = n :: rest) :
    r.run ('<' :: '/' :: n ++ ['>']) = some { r with stack := rest, evs := r.evs ++ [.cl n] } := by
  obtain ⟨pos, st, ro, evs⟩ := r
  simp only at hp hs
  subst hp; subst hs
  have e1 : RState.step ⟨.content, n :: rest, ro, evs⟩ '<' = some ⟨.lt, n :: rest, ro, evs⟩ := rfl
  have e2 : RState.step ⟨.lt, n :: rest, ro, evs⟩ '/' = some ⟨.closeName [], n :: rest, ro, evs⟩ := rfl
  have e3 := run_closeName ⟨.closeName [], n :: rest, ro, evs⟩ [] n hn.2 rfl
  show RState.run _ ('<' :: ('/' :: (n ++ ['>']))) = _
  rw [run_cons e1, run_cons e2, run_append_some e3]
  simp [RState.run, RState.step, RState.closeTag]

/-- A unit, read. -/
theorem run_unit (r : RState) (o : Out) (m : UnitMeta) (c : Option Str) (evs : List Ev) (hp : r.pos = .content)
    (hr : r.stack = [] → r.rooted = false) (hN : CleanPrefixes o.namespaces) (hM : CleanMeta m)
    (hc : match c with
      | some s => ReadsAs s evs
      | none => evs = []) :
    r.run (unitText o m c) = some { r with rooted := true, evs := r.evs ++ (.op o.unitName (o.tagAttrs m) :: evs ++ [.cl o.unitName]) } := by
  obtain ⟨p, h1, h2⟩ := run_startTag r o.unitName (o.tagAttrs m) hp (unitName_valid hN) (tagAttrs_valid hN hM)
  unfold unitText tagText
  cases c with
  | none =>
    simp only at hc ⊢
    rw [run_append_some h1, run_emptyEnd { r with pos := p } o.unitName (o.tagAttrs m) h2 (tagAttrs_nodup hN hM) hr, hc]
    simp [hp]
  | some s =>
    simp only at hc ⊢
    rw [run_append_some h1]
    have h3 := run_closeOpen { r with pos := p } o.unitName (o.tagAttrs m) h2 (tagAttrs_nodup hN hM) hr
    have e : '>' :: s ++ '<' :: '/' :: o.unitName ++ ['>'] = ['>'] ++ (s ++ ('<' :: '/' :: o.unitName ++ ['>'])) := by simp
    rw [e, run_append_some h3]
    have h4 := hc ⟨.content, o.unitName :: r.stack, true, r.evs ++ [.op o.unitName (o.tagAttrs m)]⟩ rfl (by simp) rfl
    rw [run_append_some h4]
    rw [run_endTag _ o.unitName r.stack rfl (unitName_valid hN) rfl]
    simp [hp]

/-- The same, inside an element. -/
theorem unit_readsAs (o : Out) (m : UnitMeta) (c : Option Str) (evs : List Ev) (hN : CleanPrefixes o.namespaces)
    (hM : CleanMeta m)
    (hc : match c with
      | some s => ReadsAs s evs
      | none => evs = []) :
    ReadsAs (unitText o m c) (.op o.unitName (o.tagAttrs m) :: evs ++ [.cl o.unitName]) := by
  intro r h1 h2 h3
  rw [run_unit r o m c evs h1 (fun h => absurd h h2) hN hM hc, ← h3]

/-! ### Macro list -/

/-- The elements of the macro list, read. -/
def macroEvents : List Str → List Ev
  | t :: ty :: rest => .op "macro-list".toList [("token".toList, t), ("type".toList, ty)] :: .cl "macro-list".toList :: macroEvents rest
  | _ => []

theorem macros_readsAs (l : List Str) (hv : ∀ x ∈ l, ValidValue x) : ReadsAs (macrosText l) (macroEvents l) := by
  match l with
  | [] => exact ReadsAs.nil
  | [_] => exact ReadsAs.nil
  | t :: ty :: rest =>
    rw [macrosText, macroEvents]
    refine ReadsAs.append (a := [.op "macro-list".toList [("token".toList, t), ("type".toList, ty)], .cl "macro-list".toList]) ?_
      (macros_readsAs rest (fun x hx => hv x (by simp [hx])))
    intro r h1 h2 h3
    obtain ⟨p, e1, e2⟩ := run_startTag r "macro-list".toList [("token".toList, t), ("type".toList, ty)] h1 (by decide) (by
      intro a ha
      simp only [List.mem_cons, List.not_mem_nil, or_false] at ha
      rcases ha with rfl | rfl
      · exact ⟨show ValidName "token".toList by decide, hv t (by simp)⟩
      · exact ⟨show ValidName "type".toList by decide, hv ty (by simp)⟩)
    have e : macroText t ty = ('<' :: "macro-list".toList ++ attrsText [("token".toList, t), ("type".toList, ty)]) ++ ['/', '>'] := by
      have h : ∀ p q : Str × Str, attrsText [p, q] = attrText p.1 p.2 ++ attrText q.1 q.2 := by
        intro p q
        simp [attrsText]
      rw [h, ← List.append_assoc]
      rfl
    rw [e, run_append_some e1, run_emptyEnd { r with pos := p } _ _ e2 (show ["token".toList, "type".toList].Nodup by decide) (fun h => absurd h h2), ← h1, ← h3]

/-! ### Prolog -/

/-- The declaration and the processing instruction can be read: no question mark in what the user gave. -/
structure CleanProlog (o : Out) : Prop where
  encoding : '?' ∉ o.xmlEncoding
  pi : ∀ t d, o.processingInstruction = some (t, d) → '?' ∉ t ∧ '?' ∉ d

theorem run_pi (s : Str) : ∀ r : RState, r.pos = .pi → '?' ∉ s → r.run s = some r := by
  induction s with
  | nil => intro r _ _; rfl
  | cons c cs ih =>
    intro r h hc
    simp only [List.mem_cons, not_or] at hc
    have : r.step c = some r := by
      simp only [RState.step, h]
      rw [if_neg (fun e => hc.1 e.symm)]
    rw [run_cons this]
    exact ih r h hc.2

theorem run_instruction (s : Str) (h : '?' ∉ s) : ({} : RState).run ("<?".toList ++ s ++ "?>\n".toList) = some {} := by
  have h1 : ({} : RState).run "<?".toList = some { pos := .pi } := by decide
  rw [List.append_assoc, run_append_some h1, run_append_some (run_pi s _ rfl h)]
  decide

theorem run_prolog {o : Out} (h : CleanProlog o) : ({} : RState).run (prologText o) = some {} := by
  have h1 : ({} : RState).run (if isoption o.options OPTION_NO_XML_DECL = true then [] else
    "<?xml version=\"1.0\" encoding=\"".toList ++ o.xmlEncoding ++ "\" standalone=\"yes\"?>\n".toList) = some {} := by
    split
    · rfl
    · have e : "<?xml version=\"1.0\" encoding=\"".toList ++ o.xmlEncoding ++ "\" standalone=\"yes\"?>\n".toList =
          "<?".toList ++ ("xml version=\"1.0\" encoding=\"".toList ++ o.xmlEncoding ++ "\" standalone=\"yes\"".toList) ++
            "?>\n".toList := by simp
      rw [e]
      apply run_instruction
      simp [h.encoding]
  unfold prologText
  rw [run_append_some h1]
  cases hp : o.processingInstruction with
  | none => rfl
  | some p =>
    obtain ⟨t, d⟩ := p
    obtain ⟨h2, h3⟩ := h.pi t d hp
    have e : "<?".toList ++ t ++ ' ' :: d ++ "?>\n".toList = "<?".toList ++ (t ++ ' ' :: d) ++ "?>\n".toList := by simp
    show ({} : RState).run ("<?".toList ++ t ++ ' ' :: d ++ "?>\n".toList) = _
    rw [e]
    apply run_instruction
    simp [h2, h3]

end Srcml
