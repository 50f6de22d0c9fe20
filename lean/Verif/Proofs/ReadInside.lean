import Verif.Proofs.ArchiveRead
import Verif.Proofs.UnitParts
/-
What is between the tags of a document reads the same inside any element.
-/
set_option linter.unusedSimpArgs false
namespace Srcml
open Spec

/-- Two readers at the same place, with different elements around them. -/
def SameInside (n : Str) (B : List Str) (E1 E2 : List Ev) (r1 r2 : RState) : Prop :=
  ∃ pos st ev, r1 = ⟨pos, st ++ [n], true, E1 ++ ev⟩ ∧ r2 = ⟨pos, st ++ B, true, E2 ++ ev⟩

theorem SameInside.mk' {n : Str} {B : List Str} {E1 E2 ev : List Ev} {pos : Pos} {st : List Str} :
    SameInside n B E1 E2 ⟨pos, st ++ [n], true, E1 ++ ev⟩ ⟨pos, st ++ B, true, E2 ++ ev⟩ := ⟨pos, st, ev, rfl, rfl⟩

section
variable {n : Str} {B : List Str} {E1 E2 ev : List Ev} {pos : Pos} {st : List Str}

theorem same_char (hB : B ≠ []) (d : Char) :
    ∃ r1 r2, (⟨pos, st ++ [n], true, E1 ++ ev⟩ : RState).char d = some r1 ∧
      (⟨pos, st ++ B, true, E2 ++ ev⟩ : RState).char d = some r2 ∧ SameInside n B E1 E2 r1 r2 := by
  refine ⟨⟨.content, st ++ [n], true, E1 ++ ev ++ [.ch d]⟩, ⟨.content, st ++ B, true, E2 ++ ev ++ [.ch d]⟩, ?_, ?_,
    .content, st, ev ++ [.ch d], by simp, by simp⟩
  · simp [RState.char]
  · simp [RState.char, hB]

theorem same_open (hB : B ≠ []) (m : Str) (as : List (Str × Str)) (r1 : RState)
    (h : (⟨pos, st ++ [n], true, E1 ++ ev⟩ : RState).openTag m as = some r1) :
    r1 = ⟨.content, (m :: st) ++ [n], true, E1 ++ (ev ++ [.op m as])⟩ ∧
      (⟨pos, st ++ B, true, E2 ++ ev⟩ : RState).openTag m as =
        some ⟨.content, (m :: st) ++ B, true, E2 ++ (ev ++ [.op m as])⟩ := by
  unfold RState.openTag at h ⊢
  rw [if_neg (by simp)] at h
  rw [if_neg (by simp [hB])]
  by_cases hn : (as.map (·.1)).Nodup
  · rw [if_pos hn] at h ⊢
    cases h
    simp
  · rw [if_neg hn] at h; cases h

theorem same_close (m : Str) (r1 : RState)
    (h : (⟨pos, st ++ [n], true, E1 ++ ev⟩ : RState).closeTag m = some r1) :
    r1.stack = [] ∨ ∃ r2, (⟨pos, st ++ B, true, E2 ++ ev⟩ : RState).closeTag m = some r2 ∧ SameInside n B E1 E2 r1 r2 := by
  unfold RState.closeTag at h ⊢
  cases st with
  | nil =>
    simp only [List.nil_append] at h
    split at h
    · cases h; exact Or.inl rfl
    · cases h
  | cons x xs =>
    right
    simp only [List.cons_append] at h ⊢
    by_cases hx : x = m
    · rw [if_pos hx] at h ⊢
      cases h
      exact ⟨_, rfl, .content, xs, ev ++ [.cl m], by simp, by simp⟩
    · rw [if_neg hx] at h; cases h

theorem same_step (hB : B ≠ []) (c : Char) (r1 : RState)
    (h : (⟨pos, st ++ [n], true, E1 ++ ev⟩ : RState).step c = some r1) :
    r1.stack = [] ∨ ∃ r2, (⟨pos, st ++ B, true, E2 ++ ev⟩ : RState).step c = some r2 ∧ SameInside n B E1 E2 r1 r2 := by
  have hpos : ∀ q, some (⟨q, st ++ [n], true, E1 ++ ev⟩ : RState) = some r1 →
      r1.stack = [] ∨ ∃ r2, some (⟨q, st ++ B, true, E2 ++ ev⟩ : RState) = some r2 ∧ SameInside n B E1 E2 r1 r2 := by
    intro q hq
    cases hq
    exact Or.inr ⟨_, rfl, SameInside.mk'⟩
  have hchar : ∀ p d, (⟨p, st ++ [n], true, E1 ++ ev⟩ : RState).char d = some r1 →
      r1.stack = [] ∨ ∃ r2, (⟨p, st ++ B, true, E2 ++ ev⟩ : RState).char d = some r2 ∧ SameInside n B E1 E2 r1 r2 := by
    intro p d hd
    obtain ⟨s1, s2, k1, k2, k3⟩ := same_char (n := n) (E1 := E1) (E2 := E2) (ev := ev) (pos := p) (st := st) hB d
    rw [k1] at hd
    cases hd
    exact Or.inr ⟨s2, k2, k3⟩
  have hopen : ∀ p m as, (⟨p, st ++ [n], true, E1 ++ ev⟩ : RState).openTag m as = some r1 →
      r1.stack = [] ∨ ∃ r2, (⟨p, st ++ B, true, E2 ++ ev⟩ : RState).openTag m as = some r2 ∧ SameInside n B E1 E2 r1 r2 := by
    intro p m as hd
    obtain ⟨k1, k2⟩ := same_open (E2 := E2) hB m as r1 hd
    exact Or.inr ⟨_, k2, _, _, _, k1, rfl⟩
  cases pos with
  | content =>
    simp only [RState.step] at h ⊢
    split at h
    · rename_i h1; rw [if_pos h1]; exact hpos _ h
    rename_i h1; rw [if_neg h1]
    split at h
    · rename_i h2; rw [if_pos h2]; exact hpos _ h
    rename_i h2; rw [if_neg h2]
    split at h
    · cases h
    rename_i h3; rw [if_neg h3]
    exact hchar _ _ h
  | contentRef acc =>
    simp only [RState.step] at h ⊢
    split at h
    · rename_i h1; rw [if_pos h1]
      cases he : entity acc with
      | none => rw [he] at h; cases h
      | some d => rw [he] at h; exact hchar _ _ h
    · rename_i h1; rw [if_neg h1]; exact hpos _ h
  | lt =>
    simp only [RState.step] at h ⊢
    split at h
    · rename_i h1; rw [if_pos h1]; exact hpos _ h
    rename_i h1; rw [if_neg h1]
    split at h
    · rename_i h2; rw [if_pos h2]; exact hpos _ h
    rename_i h2; rw [if_neg h2]
    split at h
    · rename_i h3; rw [if_pos h3]; exact hpos _ h
    · cases h
  | openName acc =>
    simp only [RState.step] at h ⊢
    split at h
    · rename_i h1; rw [if_pos h1]; exact hpos _ h
    rename_i h1; rw [if_neg h1]
    split at h
    · rename_i h2; rw [if_pos h2]; exact hopen _ _ _ h
    rename_i h2; rw [if_neg h2]
    split at h
    · rename_i h3; rw [if_pos h3]; exact hpos _ h
    rename_i h3; rw [if_neg h3]
    split at h
    · rename_i h4; rw [if_pos h4]; exact hpos _ h
    · cases h
  | closeName acc =>
    simp only [RState.step] at h ⊢
    split at h
    · rename_i h1; rw [if_pos h1]; exact same_close _ _ h
    rename_i h1; rw [if_neg h1]
    split at h
    · rename_i h2; rw [if_pos h2]; exact hpos _ h
    · cases h
  | afterTag name attrs =>
    simp only [RState.step] at h ⊢
    split at h
    · rename_i h1; rw [if_pos h1]; exact hpos _ h
    rename_i h1; rw [if_neg h1]
    split at h
    · rename_i h2; rw [if_pos h2]; exact hopen _ _ _ h
    rename_i h2; rw [if_neg h2]
    split at h
    · rename_i h3; rw [if_pos h3]; exact hpos _ h
    · cases h
  | inTag name attrs =>
    simp only [RState.step] at h ⊢
    split at h
    · rename_i h1; rw [if_pos h1]; exact hpos _ h
    · cases h
  | attrName name attrs acc =>
    simp only [RState.step] at h ⊢
    split at h
    · rename_i h1; rw [if_pos h1]; exact hpos _ h
    rename_i h1; rw [if_neg h1]
    split at h
    · rename_i h2; rw [if_pos h2]; exact hpos _ h
    · cases h
  | attrEq name attrs acc =>
    simp only [RState.step] at h ⊢
    split at h
    · rename_i h1; rw [if_pos h1]; exact hpos _ h
    · cases h
  | attrVal name attrs an acc =>
    simp only [RState.step] at h ⊢
    split at h
    · rename_i h1; rw [if_pos h1]; exact hpos _ h
    rename_i h1; rw [if_neg h1]
    split at h
    · rename_i h2; rw [if_pos h2]; exact hpos _ h
    rename_i h2; rw [if_neg h2]
    split at h
    · cases h
    rename_i h3; rw [if_neg h3]
    split at h
    · rename_i h4; rw [if_pos h4]; exact hpos _ h
    · rename_i h4; rw [if_neg h4]; exact hpos _ h
  | attrRef name attrs an acc ref =>
    simp only [RState.step] at h ⊢
    split at h
    · rename_i h1; rw [if_pos h1]
      cases he : entity ref with
      | none => rw [he] at h; cases h
      | some d => rw [he] at h; exact hpos _ h
    · rename_i h1; rw [if_neg h1]; exact hpos _ h
  | slash name attrs =>
    simp only [RState.step] at h ⊢
    split at h
    · rename_i h1; rw [if_pos h1]
      cases ho : (⟨.slash name attrs, st ++ [n], true, E1 ++ ev⟩ : RState).openTag name attrs with
      | none => rw [ho] at h; cases h
      | some s1 =>
        rw [ho] at h
        obtain ⟨k1, k2⟩ := same_open (E2 := E2) hB name attrs s1 ho
        rw [k2]
        rw [k1] at h
        exact same_close (st := name :: st) name r1 h
    · cases h
  | pi =>
    simp only [RState.step] at h ⊢
    split at h
    · rename_i h1; rw [if_pos h1]; exact hpos _ h
    · rename_i h1; rw [if_neg h1]; exact hpos _ h
  | piEnd =>
    simp only [RState.step] at h ⊢
    split at h
    · rename_i h1; rw [if_pos h1]; exact hpos _ h
    rename_i h1; rw [if_neg h1]
    split at h
    · rename_i h2; rw [if_pos h2]; exact hpos _ h
    · rename_i h2; rw [if_neg h2]; exact hpos _ h

end

/-- After the root is closed nothing can be opened. -/
theorem step_dead {r r' : RState} {c : Char} (h : r.step c = some r') (hs : r.stack = []) (hr : r.rooted = true) :
    r'.stack = [] ∧ r'.rooted = true := by
  obtain ⟨pos, st, ro, evs⟩ := r
  simp only at hs hr
  subst hs; subst hr
  have hpos : ∀ q, some (⟨q, [], true, evs⟩ : RState) = some r' → r'.stack = [] ∧ r'.rooted = true := by
    intro q hq; cases hq; exact ⟨rfl, rfl⟩
  have hchar : ∀ p d, (⟨p, [], true, evs⟩ : RState).char d = some r' → r'.stack = [] ∧ r'.rooted = true := by
    intro p d hd
    unfold RState.char at hd
    rw [if_pos rfl] at hd
    split at hd
    · exact hpos _ hd
    · cases hd
  have hopen : ∀ p m as, (⟨p, [], true, evs⟩ : RState).openTag m as = none := by
    intro p m as
    simp [RState.openTag]
  have hclose : ∀ p m, (⟨p, [], true, evs⟩ : RState).closeTag m = none := fun _ _ => rfl
  cases pos <;> simp only [RState.step, hopen, hclose] at h <;> (repeat' split at h) <;>
    first
    | exact hpos _ h
    | exact hchar _ _ h
    | cases h

theorem run_dead (s : Str) : ∀ {r r' : RState}, r.run s = some r' → r.stack = [] → r.rooted = true →
    r'.stack = [] ∧ r'.rooted = true := by
  induction s with
  | nil => intro r r' h h1 h2; cases h; exact ⟨h1, h2⟩
  | cons c cs ih =>
    intro r r' h h1 h2
    rw [RState.run] at h
    split at h
    · rename_i heq
      obtain ⟨k1, k2⟩ := step_dead heq h1 h2
      exact ih h k1 k2
    · cases h

theorem same_run {n : Str} {B : List Str} {E1 E2 : List Ev} (hB : B ≠ []) (s : Str) : ∀ {r1 r2 r1' : RState},
    SameInside n B E1 E2 r1 r2 → r1.run s = some r1' → r1'.stack ≠ [] →
    ∃ r2', r2.run s = some r2' ∧ SameInside n B E1 E2 r1' r2' := by
  induction s with
  | nil => intro r1 r2 r1' h h1 _; cases h1; exact ⟨r2, rfl, h⟩
  | cons c cs ih =>
    intro r1 r2 r1' h h1 hne
    obtain ⟨pos, st, ev, rfl, rfl⟩ := h
    rw [RState.run] at h1 ⊢
    split at h1
    · rename_i r heq
      rcases same_step (E2 := E2) hB c r heq with hd | ⟨r2, h2, h3⟩
      · exfalso
        have hro : r.rooted = true := by
          have : ∀ {r r' : RState} {c : Char}, r.step c = some r' → r.rooted = true → r'.rooted = true := by
            intro r r' c h hr
            by_cases hs : r.stack = []
            · exact (step_dead h hs hr).2
            · obtain ⟨pos, st, ro, evs⟩ := r
              simp only at hs hr
              subst hr
              have e : st = st.dropLast ++ [st.getLast hs] := (List.dropLast_concat_getLast hs).symm
              rw [e] at h
              have h' : (⟨pos, st.dropLast ++ [st.getLast hs], true, evs ++ []⟩ : RState).step c = some r' := by simpa using h
              rcases same_step (B := [st.getLast hs]) (E2 := evs) (by simp) c r' h' with hd | ⟨_, _, _, _, _, e1, _⟩
              · -- the stack became empty by a close tag
                revert h' hd
                generalize st.dropLast ++ [st.getLast hs] = st'
                intro h' hd
                simp only [List.append_nil] at h'
                have hch : ∀ p d, (⟨p, st', true, evs⟩ : RState).char d = some r' → r'.rooted = true := by
                  intro p d hh
                  unfold RState.char at hh
                  repeat' split at hh
                  all_goals first | (cases hh; rfl) | cases hh
                have hop : ∀ p m as x, (⟨p, st', true, evs⟩ : RState).openTag m as = some x → x.rooted = true := by
                  intro p m as x hh
                  unfold RState.openTag at hh
                  repeat' split at hh
                  all_goals first | (cases hh; rfl) | cases hh
                have hcl : ∀ (x : RState) m y, x.closeTag m = some y → x.rooted = true → y.rooted = true := by
                  intro x m y hh hx
                  unfold RState.closeTag at hh
                  repeat' split at hh
                  all_goals first | (cases hh; exact hx) | cases hh
                cases pos <;> simp only [RState.step] at h' <;> (repeat' split at h') <;>
                  first
                  | (cases h'; rfl)
                  | exact hch _ _ h'
                  | exact hop _ _ _ _ h'
                  | exact hcl _ _ _ h' rfl
                  | (rename_i heq; exact hcl _ _ _ h' (hop _ _ _ _ heq))
                  | cases h'
              · rw [e1]
          exact this heq rfl
        exact hne (run_dead cs h1 hd hro).1
      · rw [h2]
        exact ih h3 h1 hne
    · cases h1

theorem entity_lt {acc : Str} (h : '<' ∈ acc) : entity acc = none := by
  unfold entity
  rw [if_neg (by rintro rfl; revert h; decide), if_neg (by rintro rfl; revert h; decide),
    if_neg (by rintro rfl; revert h; decide), if_neg (by rintro rfl; revert h; decide)]
  split
  · rename_i ds
    have hd : '<' ∈ ds := by simpa using h
    have : decimal ds = none := by
      unfold decimal
      rw [if_neg]
      rintro ⟨_, h2⟩
      have := List.all_eq_true.mp h2 _ hd
      revert this; decide
    rw [this]; rfl
  · rfl

/-- Places from which the reader does not come back to contents by an end tag. -/
def Lost (r : RState) : Prop :=
  (∃ acc, r.pos = .contentRef acc ∧ '<' ∈ acc) ∨ (∃ a b c d acc, r.pos = .attrRef a b c d acc ∧ '<' ∈ acc) ∨ r.pos = .pi

theorem step_lost {r r' : RState} {c : Char} (hl : Lost r) (hc : c ≠ '?') (h : r.step c = some r') : Lost r' := by
  obtain ⟨pos, st, ro, evs⟩ := r
  rcases hl with ⟨acc, hp, hm⟩ | ⟨a, b, d, e, acc, hp, hm⟩ | hp
  · simp only at hp; subst hp
    simp only [RState.step] at h
    split at h
    · rw [entity_lt hm] at h; cases h
    · cases h; exact Or.inl ⟨_, rfl, by simp [hm]⟩
  · simp only at hp; subst hp
    simp only [RState.step] at h
    split at h
    · rw [entity_lt hm] at h; cases h
    · cases h; exact Or.inr (Or.inl ⟨_, _, _, _, _, rfl, by simp [hm]⟩)
  · simp only at hp; subst hp
    simp only [RState.step] at h
    rw [if_neg hc] at h
    cases h
    exact Or.inr (Or.inr rfl)

theorem run_lost (s : Str) : ∀ {r r' : RState}, Lost r → '?' ∉ s → r.run s = some r' → Lost r' := by
  induction s with
  | nil => intro r r' h _ h2; cases h2; exact h
  | cons c cs ih =>
    intro r r' h hc h2
    simp only [List.mem_cons, not_or] at hc
    rw [RState.run] at h2
    split at h2
    · rename_i heq
      exact ih (step_lost h (fun e => hc.1 e.symm) heq) hc.2 h2
    · cases h2

theorem name_no_q {n : Str} (h : n.all nameChar = true) : '?' ∉ n := by
  intro hm
  have := List.all_eq_true.mp h _ hm
  revert this; decide

/-- An end tag leads to contents only from contents. -/
theorem endTag_content {r r' : RState} {n : Str} (hn : ValidName n) (h : r.run ('<' :: '/' :: n ++ ['>']) = some r')
    (hp : r'.pos = .content) : r.pos = .content := by
  have lost : ∀ {s}, Lost s → s.run ('/' :: n ++ ['>']) = some r' → False := by
    intro s hs hr
    have hq : '?' ∉ '/' :: n ++ ['>'] := by simp [name_no_q hn.2]
    rcases run_lost _ hs hq hr with ⟨_, e, _⟩ | ⟨_, _, _, _, _, e, _⟩ | e <;> (rw [hp] at e; cases e)
  have h : r.run ('<' :: ('/' :: n ++ ['>'])) = some r' := h
  rw [RState.run] at h
  split at h
  · rename_i r1 heq
    obtain ⟨pos, st, ro, evs⟩ := r
    cases pos with
    | content => rfl
    | contentRef acc =>
      exfalso
      simp only [RState.step] at heq
      rw [if_neg (by decide)] at heq
      cases heq
      exact lost (Or.inl ⟨_, rfl, by simp⟩) h
    | attrRef a b c d acc =>
      exfalso
      simp only [RState.step] at heq
      rw [if_neg (by decide)] at heq
      cases heq
      exact lost (Or.inr (Or.inl ⟨_, _, _, _, _, rfl, by simp⟩)) h
    | pi =>
      exfalso
      simp only [RState.step] at heq
      rw [if_neg (by decide)] at heq
      cases heq
      exact lost (Or.inr (Or.inr rfl)) h
    | piEnd =>
      exfalso
      simp only [RState.step] at heq
      rw [if_neg (by decide), if_neg (by decide)] at heq
      cases heq
      exact lost (Or.inr (Or.inr rfl)) h
    | _ =>
      exfalso
      simp [RState.step, nameChar] at heq
  · cases h

/-- What stands between the tags of a document reads the same inside any element. -/
theorem reads_inside {name inner : Str} {attrs : List (Str × Str)} {evs : List Ev} (hn : ValidName name)
    (hv : ∀ a ∈ attrs, ValidName a.1 ∧ ValidValue a.2) (hd : (attrs.map (·.1)).Nodup)
    (h : readXml ('<' :: name ++ attrsText attrs ++ ('>' :: inner ++ ('<' :: '/' :: name ++ ['>']))) =
      some (.op name attrs :: evs ++ [.cl name])) : ReadsAs inner evs := by
  obtain ⟨p, e1, e2⟩ := run_startTag ({} : RState) name attrs rfl hn hv
  have e3 := run_closeOpen ({ pos := p } : RState) name attrs e2 hd (fun _ => rfl)
  unfold readXml at h
  rw [run_append_some e1, show '>' :: inner ++ ('<' :: '/' :: name ++ ['>']) = ['>'] ++ (inner ++ ('<' :: '/' :: name ++ ['>'])) by simp,
    run_append_some e3] at h
  simp only [List.nil_append] at h
  rw [run_append] at h
  cases hi : (⟨.content, [name], true, [.op name attrs]⟩ : RState).run inner with
  | none => rw [hi] at h; simp at h
  | some r1 =>
    rw [hi] at h
    simp only [Option.bind_some] at h
    cases hr : r1.run ('<' :: '/' :: name ++ ['>']) with
    | none => rw [hr] at h; simp at h
    | some rf =>
      rw [hr] at h
      simp only at h
      split at h
      · rename_i hc
        obtain ⟨hc1, hc2, hc3⟩ := hc
        have hpos := endTag_content hn hr hc1
        have hne : r1.stack ≠ [] := by
          intro hs
          have e5 : r1.run ('<' :: '/' :: name ++ ['>']) = none := by
            obtain ⟨pos, st, ro, ev⟩ := r1
            simp only at hpos hs
            subst hpos; subst hs
            have k1 : RState.step ⟨.content, [], ro, ev⟩ '<' = some ⟨.lt, [], ro, ev⟩ := rfl
            have k2 : RState.step ⟨.lt, [], ro, ev⟩ '/' = some ⟨.closeName [], [], ro, ev⟩ := rfl
            have k3 := run_closeName ⟨.closeName [], [], ro, ev⟩ [] name hn.2 rfl
            show RState.run _ ('<' :: ('/' :: (name ++ ['>']))) = _
            rw [run_cons k1, run_cons k2, run_append_some k3]
            simp [RState.run, RState.step, RState.closeTag]
          rw [e5] at hr; cases hr
        have hstart : ∀ B E2, SameInside name B [.op name attrs] E2 ⟨.content, [name], true, [.op name attrs]⟩ ⟨.content, B, true, E2⟩ :=
          fun B E2 => ⟨.content, [], [], by simp, by simp⟩
        obtain ⟨r2, _, pos, st, ev, he1, _⟩ := same_run (by simp) inner (hstart [name] []) hi hne
        -- the contents leave exactly the element itself open
        have hpos' : pos = .content := by rw [he1] at hpos; exact hpos
        subst hpos'
        have hst : st = [] ∧ ev = evs := by
          cases st with
          | nil =>
            rw [he1] at hr
            rw [run_endTag _ name [] rfl hn rfl] at hr
            cases hr
            simp at h
            exact ⟨rfl, h⟩
          | cons x xs =>
            exfalso
            rw [he1] at hr
            have k1 : RState.step ⟨.content, x :: xs ++ [name], true, [.op name attrs] ++ ev⟩ '<' =
              some ⟨.lt, x :: xs ++ [name], true, [.op name attrs] ++ ev⟩ := rfl
            have k2 : RState.step ⟨.lt, x :: xs ++ [name], true, [.op name attrs] ++ ev⟩ '/' =
              some ⟨.closeName [], x :: xs ++ [name], true, [.op name attrs] ++ ev⟩ := rfl
            have k3 := run_closeName ⟨.closeName [], x :: xs ++ [name], true, [.op name attrs] ++ ev⟩ [] name hn.2 rfl
            have hr' : RState.run ⟨.content, x :: xs ++ [name], true, [.op name attrs] ++ ev⟩ ('<' :: ('/' :: (name ++ ['>']))) = some rf := hr
            rw [run_cons k1, run_cons k2, run_append_some k3] at hr'
            simp only [RState.run, RState.step, RState.closeTag, List.cons_append] at hr'
            split at hr'
            · rename_i heq
              cases hr'
              simp only [if_true] at heq
              split at heq
              · cases heq; simp at hc2
              · cases heq
            · cases hr'
        obtain ⟨rfl, rfl⟩ := hst
        intro r q1 q2 q3
        obtain ⟨rp, rs, rr, re⟩ := r
        simp only at q1 q2 q3
        subst q1; subst q3
        obtain ⟨r2, h2, pos, st, ev', he2, he3⟩ := same_run q2 inner (hstart rs re) hi hne
        rw [he1] at he2
        simp only [RState.mk.injEq, List.nil_append, true_and] at he2
        obtain ⟨f1, f2, f3⟩ := he2
        have fst : st = [] := by
          have := congrArg List.length f2
          simp at this
          exact this
        subst fst
        have fev : ev' = ev := (List.append_cancel_left f3).symm
        subst fev
        rw [h2, he3, ← f1]
        rfl
      · cases h

end Srcml
