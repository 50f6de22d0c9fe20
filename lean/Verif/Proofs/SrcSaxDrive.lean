import Verif.Proofs.SrcSax
/-
What libxml2 delivers for tags, text between them, and the contents of a unit.
-/
set_option linter.unusedSimpArgs false
namespace Srcml
open Spec

theorem drive_cons {d d1 d2 : Drive} {c : Char} {cs : Str} {f g : List Feed} (h1 : d.step c = some (d1, f))
    (h2 : d1.run cs = some (d2, g)) : d.run (c :: cs) = some (d2, f ++ g) := by
  rw [Drive.run, h1]; simp only [h2]

theorem drive_then {d d1 d2 : Drive} {s t : Str} {f g : List Feed} (h1 : d.run s = some (d1, f))
    (h2 : d1.run t = some (d2, g)) : d.run (s ++ t) = some (d2, f ++ g) := by
  rw [drive_append s t h1, h2]; rfl

/-! ### Events only grow -/

theorem char_mono {r r' : RState} {c : Char} (h : r.char c = some r') : ∃ m, r'.evs = r.evs ++ m := by
  unfold RState.char at h
  repeat' split at h
  all_goals first | (cases h; exact ⟨_, (List.append_nil _).symm⟩) | (cases h; exact ⟨_, rfl⟩) | cases h

theorem openTag_mono {r r' : RState} {n : Str} {as : List (Str × Str)} (h : r.openTag n as = some r') :
    r'.evs = r.evs ++ [.op n as] := by
  unfold RState.openTag at h
  repeat' split at h
  all_goals first | (cases h; rfl) | cases h

theorem closeTag_mono {r r' : RState} {n : Str} (h : r.closeTag n = some r') : r'.evs = r.evs ++ [.cl n] := by
  unfold RState.closeTag at h
  repeat' split at h
  all_goals first | (cases h; rfl) | cases h

theorem step_mono {r r' : RState} {c : Char} (h : r.step c = some r') : ∃ m, r'.evs = r.evs ++ m := by
  have same : ∀ p, some { r with pos := p } = some r' → ∃ m, r'.evs = r.evs ++ m := by
    intro p hp; cases hp; exact ⟨[], by simp⟩
  unfold RState.step at h
  repeat' split at h
  all_goals
    first
    | exact same _ h
    | (cases h; exact ⟨[], by simp⟩)
    | exact char_mono h
    | exact ⟨_, openTag_mono h⟩
    | exact ⟨_, closeTag_mono h⟩
    | (rename_i heq; exact ⟨_, (closeTag_mono h).trans (by rw [openTag_mono heq, List.append_assoc])⟩)
    | cases h

theorem run_mono (s : Str) : ∀ {r r' : RState}, r.run s = some r' → ∃ m, r'.evs = r.evs ++ m := by
  induction s with
  | nil => intro r r' h; cases h; exact ⟨[], by simp⟩
  | cons c cs ih =>
    intro r r' h
    rw [RState.run] at h
    split at h
    · rename_i heq
      obtain ⟨m1, e1⟩ := step_mono heq
      obtain ⟨m2, e2⟩ := ih h
      exact ⟨m1 ++ m2, by rw [e2, e1, List.append_assoc]⟩
    · cases h

/-! ### Tags -/

/-- Positions inside a start tag. -/
def inStart : Pos → Bool
  | .openName _ | .afterTag .. | .inTag .. | .attrName .. | .attrEq .. | .attrVal .. | .attrRef .. => true
  | _ => false

/-- One character of a start tag: still in it, or at the `/`, or the tag is complete. -/
theorem step_inStart {r r' : RState} {c : Char} (hp : inStart r.pos = true) (h : r.step c = some r') :
    inStart r'.pos = true ∨ (∃ n as, r'.pos = .slash n as) ∨ ∃ e m, r'.evs = r.evs ++ e :: m := by
  obtain ⟨pos, st, ro, evs⟩ := r
  cases pos <;> simp only [inStart] at hp <;> first | cases hp | skip
  all_goals
    simp only [RState.step] at h
    repeat' split at h
    all_goals
      first
      | (cases h; exact Or.inl rfl)
      | (cases h; exact Or.inr (Or.inl ⟨_, _, rfl⟩))
      | exact Or.inr (Or.inr ⟨_, [], openTag_mono h⟩)
      | cases h

theorem step_slash {r r' : RState} {c : Char} {n : Str} {as : List (Str × Str)} (hp : r.pos = .slash n as) (h : r.step c = some r') :
    ∃ e m, r'.evs = r.evs ++ e :: m := by
  unfold RState.step at h
  simp only [hp] at h
  repeat' split at h
  all_goals first | (rename_i heq; exact ⟨_, _, (closeTag_mono h).trans (by rw [openTag_mono heq, List.append_assoc]; rfl)⟩) | cases h

/-- While libxml2 is in a start tag, nothing is delivered. -/
theorem drive_inStart (s : Str) : ∀ {d : Drive} {r' : RState}, inStart d.r.pos = true → d.r.run s = some r' → r'.evs = d.r.evs →
    inStart r'.pos = true → d.run s = some (⟨r', d.acc ++ s⟩, []) := by
  induction s with
  | nil => intro d r' _ h _ _; cases h; simp [Drive.run]
  | cons c cs ih =>
    intro d r' hp h he hp'
    rw [RState.run] at h
    split at h
    · rename_i r1 heq
      obtain ⟨m, e2⟩ := run_mono cs h
      have hgrow : ¬ ∃ e m, r1.evs = d.r.evs ++ e :: m := by
        rintro ⟨e, m2, e1⟩
        rw [he, e1] at e2
        have := congrArg List.length e2
        simp only [List.length_append, List.length_cons] at this
        omega
      rcases step_inStart hp heq with k | ⟨n, as, k⟩ | k
      · have hd : d.step c = some (⟨r1, d.acc ++ [c]⟩, []) := by
          obtain ⟨r, acc⟩ := d
          obtain ⟨pos, st, ro, evs⟩ := r
          simp only at heq hp hgrow
          unfold Drive.step
          simp only [heq]
          cases pos with
          | openName n =>
            simp only
            by_cases hc : c = '>'
            · subst hc
              exact absurd ⟨_, [], openTag_mono (by simpa [RState.step] using heq)⟩ hgrow
            · rw [if_neg hc]
          | afterTag n as =>
            simp only
            by_cases hc : c = '>'
            · subst hc
              exact absurd ⟨_, [], openTag_mono (by simpa [RState.step] using heq)⟩ hgrow
            · rw [if_neg hc]
          | inTag => rfl
          | attrName => rfl
          | attrEq => rfl
          | attrVal => rfl
          | attrRef => rfl
          | _ => cases hp
        have h2 := ih (d := ⟨r1, d.acc ++ [c]⟩) k h (by
          have hm : m = [] := by
            obtain ⟨m1, e1⟩ := step_mono heq
            rw [he, e1] at e2
            have := congrArg List.length e2
            simp only [List.length_append, List.length_cons] at this
            exact List.eq_nil_of_length_eq_zero (by omega)
          rw [e2, hm]; simp) hp'
        rw [drive_cons hd h2]
        simp
      · exfalso
        cases cs with
        | nil => cases h; rw [k] at hp'; cases hp'
        | cons c2 cs2 =>
          rw [RState.run] at h
          split at h
          · rename_i r2 heq2
            obtain ⟨e, m2, e3⟩ := step_slash k heq2
            obtain ⟨m3, e4⟩ := run_mono cs2 h
            obtain ⟨m1, e1⟩ := step_mono heq
            rw [he, e3, e1] at e4
            have := congrArg List.length e4
            simp only [List.length_append, List.length_cons] at this
            omega
          · cases h
      · exact absurd k hgrow
    · cases h

theorem TagPos.inStart {n : Str} {as : List (Str × Str)} {p : Pos} (h : TagPos n as p) : inStart p = true := by
  rcases h with ⟨rfl, _⟩ | rfl <;> rfl

/-- A start tag up to its end. -/
theorem drive_tag (r : RState) (n : Str) (as : List (Str × Str)) (hp : r.pos = .content) (hn : ValidName n)
    (hv : ∀ a ∈ as, ValidName a.1 ∧ ValidValue a.2) :
    ∃ p, (⟨r, []⟩ : Drive).run ('<' :: n ++ attrsText as) = some (⟨{ r with pos := p }, '<' :: n ++ attrsText as⟩, []) ∧
      TagPos n as p := by
  obtain ⟨p, h1, h2⟩ := run_startTag r n as hp hn hv
  refine ⟨p, ?_, h2⟩
  obtain ⟨hne, hall⟩ := hn
  cases n with
  | nil => exact absurd rfl hne
  | cons c cs =>
    simp only [List.all_cons, Bool.and_eq_true] at hall
    have hc := nameChar_ne hall.1
    have e1 : r.step '<' = some { r with pos := .lt } := by
      obtain ⟨pos, st, ro, evs⟩ := r
      simp only at hp
      subst hp
      rfl
    have e2 : RState.step { r with pos := .lt } c = some { r with pos := .openName [c] } := by
      simp [RState.step, hc, hall.1]
    have h3 : r.run ('<' :: (c :: (cs ++ attrsText as))) = some { r with pos := p } := h1
    rw [run_cons e1, run_cons e2] at h3
    have d1 : (⟨r, []⟩ : Drive).step '<' = some (⟨{ r with pos := .lt }, ['<']⟩, []) := by
      unfold Drive.step
      rw [e1]
      simp [hp]
    have d2 : (⟨{ r with pos := .lt }, ['<']⟩ : Drive).step c = some (⟨{ r with pos := .openName [c] }, ['<', c]⟩, []) := by
      unfold Drive.step
      rw [e2]
      simp
    have d3 := drive_inStart (cs ++ attrsText as) (d := ⟨{ r with pos := .openName [c] }, ['<', c]⟩) rfl h3 rfl h2.inStart
    have := drive_cons d1 (drive_cons d2 d3)
    simpa using this

/-- A complete start tag. -/
theorem drive_open (r : RState) (n : Str) (as : List (Str × Str)) (hp : r.pos = .content) (hn : ValidName n)
    (hv : ∀ a ∈ as, ValidName a.1 ∧ ValidValue a.2) (hd : (as.map (·.1)).Nodup) (hr : r.stack = [] → r.rooted = false) :
    (⟨r, []⟩ : Drive).run ('<' :: n ++ attrsText as ++ ['>']) =
      some (⟨⟨.content, n :: r.stack, true, r.evs ++ [.op n as]⟩, []⟩, [.startTag ('<' :: n ++ attrsText as) n as]) := by
  obtain ⟨p, h1, h2⟩ := drive_tag r n as hp hn hv
  have h3 := run_closeOpen { r with pos := p } n as h2 hd hr
  have h4 : RState.step { r with pos := p } '>' = some ⟨.content, n :: r.stack, true, r.evs ++ [.op n as]⟩ := by
    rw [RState.run] at h3
    split at h3
    · rename_i heq; rw [RState.run] at h3; rw [heq, h3]
    · cases h3
  refine drive_then (f := []) h1 ?_
  rw [Drive.run]
  unfold Drive.step
  rw [h4]
  rcases h2 with ⟨rfl, rfl⟩ | rfl <;> simp [Drive.run]

/-- An empty element. -/
theorem drive_empty (r : RState) (n : Str) (as : List (Str × Str)) (hp : r.pos = .content) (hn : ValidName n)
    (hv : ∀ a ∈ as, ValidName a.1 ∧ ValidValue a.2) (hd : (as.map (·.1)).Nodup) (hr : r.stack = [] → r.rooted = false) :
    (⟨r, []⟩ : Drive).run ('<' :: n ++ attrsText as ++ ['/', '>']) =
      some (⟨⟨.content, r.stack, true, r.evs ++ [.op n as, .cl n]⟩, []⟩, [.emptyTag ('<' :: n ++ attrsText as) n as]) := by
  obtain ⟨p, h1, h2⟩ := drive_tag r n as hp hn hv
  have h3 := run_emptyEnd { r with pos := p } n as h2 hd hr
  have e1 : RState.step { r with pos := p } '/' = some { r with pos := .slash n as } := by
    rcases h2 with ⟨rfl, rfl⟩ | rfl <;> rfl
  rw [run_cons e1] at h3
  have h4 : RState.step { r with pos := .slash n as } '>' = some ⟨.content, r.stack, true, r.evs ++ [.op n as, .cl n]⟩ := by
    rw [RState.run] at h3
    split at h3
    · rename_i heq; rw [RState.run] at h3; rw [heq, h3]
    · cases h3
  refine drive_then (f := []) h1 ?_
  have d1 : (⟨{ r with pos := p }, '<' :: n ++ attrsText as⟩ : Drive).step '/' =
      some (⟨{ r with pos := .slash n as }, '<' :: n ++ attrsText as ++ ['/']⟩, []) := by
    unfold Drive.step
    rw [e1]
    rcases h2 with ⟨rfl, rfl⟩ | rfl <;> simp
  refine drive_cons (f := []) d1 ?_
  rw [Drive.run]
  unfold Drive.step
  rw [h4]
  simp only [Drive.run, List.append_nil, List.dropLast_concat]

/-- An end tag. -/
theorem drive_close (r : RState) (n : Str) (rest : List Str) (hp : r.pos = .content) (hn : ValidName n) (hs : r.stack = n :: rest) :
    (⟨r, []⟩ : Drive).run ('<' :: '/' :: n ++ ['>']) =
      some (⟨{ r with stack := rest, evs := r.evs ++ [.cl n] }, []⟩, [.endTag ('<' :: '/' :: n ++ ['>']) n]) := by
  obtain ⟨pos, st, ro, evs⟩ := r
  simp only at hp hs
  subst hp; subst hs
  have name : ∀ (m : Str), m.all nameChar = true → ∀ done, (⟨⟨.closeName done, n :: rest, ro, evs⟩, '<' :: '/' :: done⟩ : Drive).run m =
      some (⟨⟨.closeName (done ++ m), n :: rest, ro, evs⟩, '<' :: '/' :: (done ++ m)⟩, []) := by
    intro m
    induction m with
    | nil => intro _ done; simp [Drive.run]
    | cons c cs ih =>
      intro h done
      simp only [List.all_cons, Bool.and_eq_true] at h
      have hc := nameChar_ne h.1
      have d : (⟨⟨.closeName done, n :: rest, ro, evs⟩, '<' :: '/' :: done⟩ : Drive).step c =
          some (⟨⟨.closeName (done ++ [c]), n :: rest, ro, evs⟩, '<' :: '/' :: (done ++ [c])⟩, []) := by
        simp [Drive.step, RState.step, hc, h.1]
      have := drive_cons d (ih h.2 (done ++ [c]))
      simpa using this
  have d1 : (⟨⟨.content, n :: rest, ro, evs⟩, []⟩ : Drive).step '<' = some (⟨⟨.lt, n :: rest, ro, evs⟩, ['<']⟩, []) := rfl
  have d2 : (⟨⟨.lt, n :: rest, ro, evs⟩, ['<']⟩ : Drive).step '/' = some (⟨⟨.closeName [], n :: rest, ro, evs⟩, ['<', '/']⟩, []) := rfl
  have d3 := name n hn.2 []
  have d4 : (⟨⟨.closeName n, n :: rest, ro, evs⟩, '<' :: '/' :: n⟩ : Drive).run ['>'] =
      some (⟨⟨.content, rest, ro, evs ++ [.cl n]⟩, []⟩, [.endTag ('<' :: '/' :: n ++ ['>']) n]) := by
    simp [Drive.run, Drive.step, RState.step, RState.closeTag]
  have := drive_cons d1 (drive_cons d2 (drive_then d3 d4))
  simpa using this

/-- New lines between elements. -/
theorem drive_newline (r : RState) (hp : r.pos = .content) (hs : r.stack ≠ []) :
    (⟨r, []⟩ : Drive).run ['\n'] = some (⟨{ r with evs := r.evs ++ [.ch '\n'] }, []⟩, [.text ['\n'] true]) := by
  obtain ⟨pos, st, ro, evs⟩ := r
  simp only at hp hs
  subst hp
  simp [Drive.run, Drive.step, RState.step, RState.char, hs, xmlChar]

/-- White space outside of the root. -/
theorem drive_outside (r : RState) (hp : r.pos = .content) (hs : r.stack = []) :
    (⟨r, []⟩ : Drive).run ['\n'] = some (⟨r, []⟩, [.blank ['\n']]) := by
  obtain ⟨pos, st, ro, evs⟩ := r
  simp only at hp hs
  subst hp; subst hs
  simp [Drive.run, Drive.step, RState.step, RState.char, xmlChar]

end Srcml
