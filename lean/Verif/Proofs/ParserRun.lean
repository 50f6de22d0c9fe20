import Verif.Model.Parser
/-
Concrete runs of the parser: a script of what the grammar does is interpreted, and the interpretation is a run.
Used only to exhibit runs (examples and findings).
-/
namespace Srcml

/-- What grammar code does, and what the loop over skipped tokens does. -/
inductive Script where
  | done
  | act (a : Act) (k : Script)
  | eat (skips k : Script)
  | guess (body k : Script)
  | escape (body k : Script)
  | stop
  | skip (k : Script)
  | special (body k : Script)
  | abort (body : Script)

instance (a : Act) : Decidable a.Valid := by
  cases a <;> simp only [Act.Valid, isElementType] <;> infer_instance

/-- A decidable part of regularity. -/
def Act.regularB (b : Nat) (s : PState) : Act → Bool
  | .startElement _ | .startNoSkipElement _ | .endTop => s.guessing = 0 ∧ b < s.st.length
  | .emptyElement _ => s.guessing = 0
  | .newMode m => m &&& MODE_ISSUE_EMPTY_AT_POP = 0
  | .setMode m => m &&& MODE_ISSUE_EMPTY_AT_POP = 0 ∧ b < s.st.length
  | .clearMode _ => b < s.st.length
  | .endMode | .endLastMode => b < s.st.length ∧ (s.guessing = 0 ∨ s.topSize = 0)
  | .flushSkip | .completeSkip => s.guessing = 0
  | .resume => true
  | _ => false

theorem Act.regularB_sound (b : Nat) (s : PState) (a : Act) (h : a.regularB b s = true) : a.Regular b s := by
  cases a with
  | startElement id => exact of_decide_eq_true (p := s.guessing = 0 ∧ b < s.st.length) h
  | startNoSkipElement id => exact of_decide_eq_true (p := s.guessing = 0 ∧ b < s.st.length) h
  | endTop => exact of_decide_eq_true (p := s.guessing = 0 ∧ b < s.st.length) h
  | emptyElement id => exact of_decide_eq_true (p := s.guessing = 0) h
  | newMode m => exact of_decide_eq_true (p := m &&& MODE_ISSUE_EMPTY_AT_POP = 0) h
  | setMode m => exact of_decide_eq_true (p := m &&& MODE_ISSUE_EMPTY_AT_POP = 0 ∧ b < s.st.length) h
  | clearMode m => exact of_decide_eq_true (p := b < s.st.length) h
  | endMode => exact of_decide_eq_true (p := b < s.st.length ∧ (s.guessing = 0 ∨ s.topSize = 0)) h
  | endLastMode => exact of_decide_eq_true (p := b < s.st.length ∧ (s.guessing = 0 ∨ s.topSize = 0)) h
  | flushSkip => exact of_decide_eq_true (p := s.guessing = 0) h
  | completeSkip => exact of_decide_eq_true (p := s.guessing = 0) h
  | resume => exact True.intro
  | addElement id => exact absurd h (by show ¬ (false = true); decide)
  | retype u id => exact absurd h (by show ¬ (false = true); decide)
  | pause => exact absurd h (by show ¬ (false = true); decide)
  | nop => exact absurd h (by show ¬ (false = true); decide)

/-- Interpretation of a script, in code (`sk = false`) or in the loop over skipped tokens. -/
def Script.run (c : PConf) (strict : Bool) : Script → Bool → Nat → PState → Option PState
  | .done, false, _, s => some s
  | .act a k, false, b, s =>
    if a.Valid ∧ (strict = true → a.regularB b s = true) then k.run c strict false b (a.run c s) else none
  | .eat skips k, false, b, s =>
    if strict = true → isSkipType s.inskip (s.lt c).type = false then
      (skips.run c strict true 0 (s.consumeHead c)).bind (k.run c strict false b)
    else none
  | .guess body k, false, b, s =>
    (body.run c strict false b s.beginGuess).bind (fun s1 => k.run c strict false b (s1.endGuess s.pos))
  | .escape body k, false, b, s =>
    if strict = false then (body.run c strict false b s.beginGuess).bind (fun s1 => k.run c strict false b s1)
    else none
  | .stop, true, _, s =>
    if isSkipType s.inskip (s.lt c).type = false ∧ s.entersSkip c = false then some s else none
  | .skip k, true, b, s =>
    if isSkipType s.inskip (s.lt c).type = true then k.run c strict true b (s.skipToken c) else none
  | .special body k, true, b, s =>
    if isSkipType s.inskip (s.lt c).type = false ∧ s.entersSkip c = true then
      (body.run c strict false s.st.length s.enterSkip).bind (fun s1 =>
        if strict = true → s1.st.length = s.st.length then k.run c strict true b s1.leaveSkip else none)
    else none
  | .abort body, true, _, s =>
    if strict = false ∧ (s.lt c).type = chars! "MACRO_NAME" ∧ s.inskip = false then
      body.run c strict false s.st.length s.enterSkip
    else none
  | _, _, _, _ => none

theorem Script.run_sound (c : PConf) (strict : Bool) (x : Script) : ∀ (sk : Bool) (b : Nat) (s s' : PState),
    x.run c strict sk b s = some s' → Exec c strict (if sk then .skips else .code b) s s' := by
  induction x with
  | done =>
    intro sk b s s' h
    cases sk with
    | false => simp only [Script.run, Option.some.injEq] at h; subst h; exact .done
    | true => simp [Script.run] at h
  | act a k ih =>
    intro sk b s s' h
    cases sk with
    | false =>
      simp only [Script.run] at h
      split at h
      · rename_i hc
        exact .act a hc.1 (fun e => Act.regularB_sound _ _ _ (hc.2 e)) (ih false b _ _ h)
      · cases h
    | true => simp [Script.run] at h
  | eat x k ih1 ih2 =>
    intro sk b s s' h
    cases sk with
    | false =>
      simp only [Script.run] at h
      split at h
      · rename_i hc
        cases hx : x.run c strict true 0 (s.consumeHead c) with
        | none => rw [hx] at h; cases h
        | some s1 =>
          rw [hx] at h
          exact .consume (.eat hc (ih1 true 0 _ _ hx)) (ih2 false b _ _ h)
      · cases h
    | true => simp [Script.run] at h
  | guess x k ih1 ih2 =>
    intro sk b s s' h
    cases sk with
    | false =>
      simp only [Script.run] at h
      cases hx : x.run c strict false b s.beginGuess with
      | none => rw [hx] at h; cases h
      | some s1 =>
        rw [hx] at h
        exact .guess (ih1 false b _ _ hx) (ih2 false b _ _ h)
    | true => simp [Script.run] at h
  | escape x k ih1 ih2 =>
    intro sk b s s' h
    cases sk with
    | false =>
      simp only [Script.run] at h
      split at h
      · rename_i hc
        cases hx : x.run c strict false b s.beginGuess with
        | none => rw [hx] at h; cases h
        | some s1 =>
          rw [hx] at h
          exact .escape hc (ih1 false b _ _ hx) (ih2 false b _ _ h)
      · cases h
    | true => simp [Script.run] at h
  | stop =>
    intro sk b s s' h
    cases sk with
    | true =>
      simp only [Script.run] at h
      split at h
      · rename_i hc
        simp only [Option.some.injEq] at h; subst h
        exact .stop hc.1 hc.2
      · cases h
    | false => simp [Script.run] at h
  | skip k ih =>
    intro sk b s s' h
    cases sk with
    | true =>
      simp only [Script.run] at h
      split at h
      · rename_i hc
        exact .more (.token hc) (ih true b _ _ h)
      · cases h
    | false => simp [Script.run] at h
  | special x k ih1 ih2 =>
    intro sk b s s' h
    cases sk with
    | true =>
      simp only [Script.run] at h
      split at h
      · rename_i hc
        cases hx : x.run c strict false s.st.length s.enterSkip with
        | none => rw [hx] at h; cases h
        | some s1 =>
          rw [hx] at h
          simp only [Option.bind_some] at h
          split at h
          · rename_i hl
            exact .more (.special hc.1 hc.2 hl (ih1 false _ _ _ hx)) (ih2 true b _ _ h)
          · cases h
      · cases h
    | false => simp [Script.run] at h
  | abort x ih =>
    intro sk b s s' h
    cases sk with
    | true =>
      simp only [Script.run] at h
      split at h
      · rename_i hc
        exact .abort hc.1 hc.2.1 hc.2.2 (ih false _ _ _ h)
      · cases h
    | false => simp [Script.run] at h

/-- One call of `nextToken` whose work is one fill by the given script (or none). -/
def Script.next (c : PConf) (strict : Bool) (x : Option Script) (s : PState) : Option PState :=
  match s.tb with
  | [] => none
  | t :: rest =>
    let s0 : PState := { s with out := s.out ++ [t], tb := rest }
    let r := match x with
      | none => some s0
      | some x =>
        if isSkipType s0.inskip (s0.lt c).type = false ∧ s0.entersSkip c = false then x.run c strict false 0 s0
        else none
    match r with
    | none => none
    | some s' =>
      if s'.tb ≠ [] ∧ s'.paused = false ∧ (c.position = true → s'.ends.length ≤ 1) then some s' else none

theorem Script.next_sound (c : PConf) (strict : Bool) (x : Option Script) (s s' : PState)
    (h : Script.next c strict x s = some s') : Exec c strict .next s s' := by
  unfold Script.next at h
  split at h
  · cases h
  · rename_i t rest ht
    dsimp only at h
    generalize hr : (match x with
      | none => some ({ s with out := s.out ++ [t], tb := rest } : PState)
      | some x =>
        if isSkipType s.inskip ((({ s with out := s.out ++ [t], tb := rest } : PState)).lt c).type = false ∧
          (({ s with out := s.out ++ [t], tb := rest } : PState)).entersSkip c = false then
            x.run c strict false 0 { s with out := s.out ++ [t], tb := rest } else none) = r at h
    cases r with
    | none => cases h
    | some s1 =>
      dsimp only at h
      split at h
      · rename_i hc
        simp only [Option.some.injEq] at h
        subst h
        refine .next ht hc.1 hc.2.1 hc.2.2 ?_
        cases x with
        | none =>
          simp only [Option.some.injEq] at hr
          subst hr
          exact .idle
        | some x =>
          dsimp only at hr
          split at hr
          · rename_i hk
            exact .workFill (.fillStart hk.1 hk.2 (Script.run_sound c strict x false 0 _ _ hr)) .idle
          · cases hr
      · cases h

/-- A run of the parser: calls of `nextToken`. -/
def Script.drive (c : PConf) (strict : Bool) : List (Option Script) → PState → Option PState
  | [], s => some s
  | x :: xs, s => (Script.next c strict x s).bind (Script.drive c strict xs)

theorem Script.drive_sound (c : PConf) (strict : Bool) (xs : List (Option Script)) : ∀ s s',
    Script.drive c strict xs s = some s' → Exec c strict .driver s s' := by
  induction xs with
  | nil => intro s s' h; simp only [Script.drive, Option.some.injEq] at h; subst h; exact .finish
  | cons x xs ih =>
    intro s s' h
    simp only [Script.drive] at h
    cases hx : Script.next c strict x s with
    | none => rw [hx] at h; cases h
    | some s1 =>
      rw [hx] at h
      exact .again (Script.next_sound c strict x s s1 hx) (ih _ _ h)

end Srcml
