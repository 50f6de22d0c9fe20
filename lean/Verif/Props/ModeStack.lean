import Verif.Spec.ModeStack
/-
C53: queries of the mode stack, and ending modes.
-/
set_option linter.unusedSimpArgs false
namespace Srcml
open Srcml.Spec

/-- One operation of the grammar on the stack; an operation that throws leaves the stack unchanged. -/
def modeStep (st : ModeStack) : ModeOp → ModeStack
  | .start m => ModeStack.startNewMode st m
  | .set m => (ModeStack.setMode st m).getD st
  | .clear m => (ModeStack.clearMode st m).getD st
  | .end_ => ((ModeStack.endMode st).map (·.2)).getD st
  | .push e => (ModeStack.push st e).getD st
  | .pop => (ModeStack.pop st).getD st

/-- A level of the stack and everything below it agree with the history. -/
def Matches : ModeStack → List (List ModeWrite) → Prop
  | [], [] => True
  | s :: st, l :: ls =>
    (∀ i, i < 128 → s.flags.getLsbD i = levelHas i l) ∧ (∀ i, i < 128 → s.all.getLsbD i = visible i (l :: ls)) ∧
      Matches st ls
  | _, _ => False

theorem lastWrite_append (i : Nat) (a b : List ModeWrite) :
    lastWrite i (a ++ b) = if a.any (fun w => w.mask.getLsbD i) then lastWrite i a else lastWrite i b := by
  induction a with
  | nil => simp
  | cons w ws ih =>
    simp only [List.cons_append, lastWrite, List.any_cons, ih]
    by_cases h : w.mask.getLsbD i = true <;> simp [h]

theorem matches_step {st : ModeStack} {ls : List (List ModeWrite)} (h : Matches st ls) (op : ModeOp) :
    Matches (modeStep st op) (levelsStep ls op) := by
  cases op with
  | start m =>
    cases st with
    | nil =>
      cases ls with
      | nil =>
        simp only [modeStep, ModeStack.startNewMode, levelsStep, Matches, and_true]
        refine ⟨fun i hi => ?_, fun i hi => ?_⟩
        · cases hm : m.getLsbD i <;> simp [levelHas, lastWrite, hm]
        · cases hm : m.getLsbD i <;>
            simp [visible, lastWrite, hm, ModeStack.getTransparentMode]
      | cons l ls => simp [Matches] at h
    | cons s st =>
      cases ls with
      | nil => simp [Matches] at h
      | cons l ls =>
        refine ⟨fun i hi => ?_, fun i hi => ?_, h⟩
        · cases hm : m.getLsbD i <;> simp [levelHas, lastWrite, hm]
        · have h2 := h.2.1 i hi
          cases hm : m.getLsbD i
          · simp [ModeStack.getTransparentMode, visible, lastWrite, hm, h2]
          · simp [ModeStack.getTransparentMode, visible, lastWrite, hm]
  | set m =>
    cases st with
    | nil => cases ls <;> simp_all [Matches, modeStep, ModeStack.setMode, levelsStep]
    | cons s st =>
      cases ls with
      | nil => simp [Matches] at h
      | cons l ls =>
        refine ⟨fun i hi => ?_, fun i hi => ?_, h.2.2⟩
        · have h1 := h.1 i hi
          cases hm : m.getLsbD i <;> simp_all [levelHas, lastWrite]
        · have h2 := h.2.1 i hi
          cases hm : m.getLsbD i <;> simp_all [visible, lastWrite]
  | clear m =>
    cases st with
    | nil => cases ls <;> simp_all [Matches, modeStep, ModeStack.clearMode, levelsStep]
    | cons s st =>
      cases ls with
      | nil => simp [Matches] at h
      | cons l ls =>
        refine ⟨fun i hi => ?_, fun i hi => ?_, h.2.2⟩
        · have h1 := h.1 i hi
          cases hm : m.getLsbD i <;> simp_all [levelHas, lastWrite]
        · have h2 := h.2.1 i hi
          cases hm : m.getLsbD i <;> simp_all [visible, lastWrite]
  | end_ =>
    match st, ls, h with
    | [], [], _ => simp [modeStep, ModeStack.endMode, ModeStack.popMode, levelsStep, Matches]
    | [s], [l], h => simpa [modeStep, ModeStack.endMode, levelsStep] using h
    | [s], l :: l2 :: ls, h => simp [Matches] at h
    | s :: s2 :: st, [l], h => simp [Matches] at h
    | s :: s2 :: st, l :: l2 :: ls, h =>
      simpa [modeStep, ModeStack.endMode, ModeStack.popMode, levelsStep] using h.2.2
  | push e =>
    match st, ls, h with
    | [], [], _ => simp [modeStep, ModeStack.push, levelsStep, Matches]
    | s :: st, l :: ls, h => exact h
  | pop =>
    match st, ls, h with
    | [], [], _ => simp [modeStep, ModeStack.pop, levelsStep, Matches]
    | s :: st, l :: ls, h =>
      simp only [modeStep, ModeStack.pop, levelsStep]
      split
      · exact h
      · exact h

theorem matches_run (ops : List ModeOp) :
    Matches (ops.foldl modeStep []) (ops.foldl levelsStep []) := by
  suffices H : ∀ st ls, Matches st ls → Matches (ops.foldl modeStep st) (ops.foldl levelsStep ls) from
    H [] [] trivial
  induction ops with
  | nil => exact fun _ _ h => h
  | cons op ops ih => exact fun st ls h => ih _ _ (matches_step h op)

theorem hasMode_iff (f m : Mode) :
    hasMode f m = true ↔ ∀ i, i < 128 → m.getLsbD i = true → f.getLsbD i = true := by
  simp only [hasMode, decide_eq_true_eq]
  constructor
  · intro h i hi hm
    have := congrArg (fun b => b.getLsbD i) h
    simp only [BitVec.getLsbD_and, hm, Bool.and_true] at this
    exact this
  · intro h
    apply BitVec.eq_of_getLsbD_eq
    intro i hi
    simp only [BitVec.getLsbD_and]
    cases hm : m.getLsbD i
    · simp
    · simp [h i hi hm]

/-- C53: after any history of mode changes, a mode query on the stack answers by the history. `inMode` asks for the
modes the top level has; `inTransparentMode` asks for the modes visible from it, that is those whose last
write, at any level still on the stack, set them. A clearing at the top therefore hides a mode of the levels below
until that top level is ended. -/
theorem C53_queries (ops : List ModeOp) (m : Mode) :
    (ModeStack.inMode (ops.foldl modeStep []) m = true ↔
      ∃ l ls, ops.foldl levelsStep [] = l :: ls ∧
        ∀ i, i < 128 → m.getLsbD i = true → levelHas i l = true) ∧
    (ModeStack.inTransparentMode (ops.foldl modeStep []) m = true ↔
      ops.foldl levelsStep [] ≠ [] ∧
        ∀ i, i < 128 → m.getLsbD i = true → visible i (ops.foldl levelsStep []) = true) := by
  have h := matches_run ops
  generalize ops.foldl modeStep [] = st at h ⊢
  generalize ops.foldl levelsStep [] = ls at h ⊢
  match st, ls, h with
  | [], [], _ => simp [ModeStack.inMode, ModeStack.inTransparentMode]
  | s :: st, l :: ls, h =>
    simp only [ModeStack.inMode, ModeStack.inTransparentMode, hasMode_iff]
    constructor
    · constructor
      · exact fun hh => ⟨l, ls, rfl, fun i hi hm => by rw [← h.1 i hi]; exact hh i hi hm⟩
      · rintro ⟨l', ls', e, hh⟩ i hi hm
        injection e with e1 e2
        subst e1
        rw [h.1 i hi]
        exact hh i hi hm
    · simp only [ne_eq, reduceCtorEq, not_false_eq_true, true_and]
      constructor
      · exact fun hh i hi hm => by rw [← h.2.1 i hi]; exact hh i hi hm
      · exact fun hh i hi hm => by rw [h.2.1 i hi]; exact hh i hi hm

/-- Not vacuous: `MODE_TOP` of the level below is visible from a new level, and hidden by clearing it there. -/
example :
    let ops := [ModeOp.start MODE_TOP, .start MODE_LIST]
    ModeStack.inMode (ops.foldl modeStep []) MODE_TOP = false ∧
    ModeStack.inTransparentMode (ops.foldl modeStep []) MODE_TOP = true ∧
    ModeStack.inTransparentMode ((ops ++ [ModeOp.clear MODE_TOP]).foldl modeStep []) MODE_TOP = false ∧
    ModeStack.inTransparentMode ((ops ++ [ModeOp.clear MODE_TOP, ModeOp.end_]).foldl modeStep []) MODE_TOP = true := by
  decide +kernel

/-! ### Ending modes -/

theorem mem_takeWhile_imp {α : Type} {p : α → Bool} {l : List α} {a : α} (h : a ∈ l.takeWhile p) : p a = true := by
  have := List.all_takeWhile (l := l) (p := p)
  exact List.all_eq_true.1 this a h

theorem endWhile_spec (c : ModeStack → Bool) (p : ModeState → Bool) (hc : ∀ s st, c (s :: st) = p s) :
    ∀ st : ModeStack, st.any (fun s => !p s) = true →
      ModeStack.endWhile c st = ((st.takeWhile p).flatMap (·.opens), st.dropWhile p)
  | [], h => by simp at h
  | [s], h => by
    have : p s = false := by simpa using h
    simp [ModeStack.endWhile, this]
  | s :: s2 :: st, h => by
    unfold ModeStack.endWhile
    rw [hc]
    cases hp : p s
    · simp [List.takeWhile, List.dropWhile, hp]
    · have ih := endWhile_spec c p hc (s2 :: st) (by simpa [hp] using h)
      rw [ih]
      simp only [if_true, Prod.mk.injEq]
      constructor
      · simp [List.takeWhile_cons (a := s), hp]
      · simp [List.dropWhile_cons (x := s), hp]

/-- The loop without a level to stop at goes down to the last level. -/
theorem endWhile_all (c : ModeStack → Bool) (p : ModeState → Bool) (hc : ∀ s st, c (s :: st) = p s) :
    ∀ (pre : ModeStack) (last : ModeState), pre.all p = true →
      ModeStack.endWhile c (pre ++ [last]) = (pre.flatMap (·.opens), [last])
  | [], _, _ => by simp [ModeStack.endWhile]
  | [s], last, h => by
    simp only [List.all_cons, List.all_nil, Bool.and_true] at h
    simp [ModeStack.endWhile, hc, h]
  | s :: s2 :: st, last, h => by
    simp only [List.all_cons, Bool.and_eq_true] at h
    have ih := endWhile_all c p hc (s2 :: st) last (by simpa using h.2)
    simp only [List.cons_append] at ih ⊢
    unfold ModeStack.endWhile
    rw [hc, h.1, ih]
    simp

/-- A single mode. -/
def bit (i : Nat) : Mode := 1#128 <<< i

theorem bit_getLsbD (i j : Nat) (hj : j < 128) : (bit i).getLsbD j = decide (j = i) := by
  simp only [bit, BitVec.getLsbD_shiftLeft, BitVec.getLsbD_one]
  by_cases h : j = i
  · subst h; simp [hj]
  · by_cases h2 : j < i
    · simp [h2, h]
    · have : j - i ≠ 0 := by omega
      simp [h, h2, this, hj]

theorem hasMode_bit (f : Mode) {i : Nat} (hi : i < 128) : hasMode f (bit i) = f.getLsbD i := by
  have h := hasMode_iff f (bit i)
  by_cases hf : f.getLsbD i = true
  · rw [hf, h]
    intro j hj hb
    rw [bit_getLsbD i j hj, decide_eq_true_eq] at hb
    rw [hb]; exact hf
  · cases hh : hasMode f (bit i)
    · simp_all
    · have := h.1 hh i hi (by rw [bit_getLsbD i i hi]; simp)
      exact absurd this hf

/-- A mode visible from the top is a mode of some level. -/
theorem visible_has (i : Nat) : ∀ ls : List (List ModeWrite), visible i ls = true →
    ls.any (levelHas i) = true
  | [], h => by simp [visible, lastWrite] at h
  | l :: ls, h => by
    simp only [visible, List.flatten_cons, lastWrite_append] at h
    by_cases hl : l.any (fun w => w.mask.getLsbD i) = true
    · rw [if_pos hl] at h
      simp [levelHas, h]
    · rw [if_neg hl] at h
      have := visible_has i ls h
      simp only [List.any_cons, this, Bool.or_true]

theorem matches_any {st : ModeStack} {ls : List (List ModeWrite)} (h : Matches st ls) {i : Nat} (hi : i < 128) :
    st.any (fun s => s.flags.getLsbD i) = ls.any (levelHas i) := by
  induction st generalizing ls with
  | nil => cases ls with
    | nil => rfl
    | cons l ls => simp [Matches] at h
  | cons s st ih => cases ls with
    | nil => simp [Matches] at h
    | cons l ls => simp only [List.any_cons, h.1 i hi, ih h.2.2]

/-- C53: after any history, ending the modes down to a visible mode removes exactly the levels above the nearest one
that has the mode, and ends exactly their open elements, innermost first; if the mode is not visible
nothing happens. Nothing is thrown. -/
theorem C53_end_down_to (ops : List ModeOp) {i : Nat} (hi : i < 128) :
    let st := ops.foldl modeStep []
    ModeStack.endDownToMode st (bit i) =
      if ModeStack.inTransparentMode st (bit i) then
        ((st.takeWhile (fun s => !s.flags.getLsbD i)).flatMap (·.opens),
          st.dropWhile (fun s => !s.flags.getLsbD i))
      else ([], st) := by
  intro st
  have h : Matches st _ := matches_run ops
  simp only [ModeStack.endDownToMode]
  by_cases hv : ModeStack.inTransparentMode st (bit i) = true
  · rw [if_pos hv, if_pos hv]
    apply endWhile_spec
    · intro s st; simp only [ModeStack.inMode, hasMode_bit _ hi]
    · simp only [Bool.not_not]
      rw [matches_any h hi]
      apply visible_has
      have := ((C53_queries ops (bit i)).2.1 hv).2 i hi (by rw [bit_getLsbD i i hi]; simp)
      exact this
  · rw [if_neg hv, if_neg hv]

/-- What remains after ending down to a visible mode: a level that has it is on top. -/
theorem C53_end_down_to_reaches (ops : List ModeOp) {i : Nat} (hi : i < 128)
    (hv : ModeStack.inTransparentMode (ops.foldl modeStep []) (bit i) = true) :
    ∃ s rest above, ops.foldl modeStep [] = above ++ s :: rest ∧
      (∀ a ∈ above, a.flags.getLsbD i = false) ∧ s.flags.getLsbD i = true ∧
      ModeStack.endDownToMode (ops.foldl modeStep []) (bit i) = (above.flatMap (·.opens), s :: rest) := by
  have hd := C53_end_down_to ops hi
  have h : Matches (ops.foldl modeStep []) _ := matches_run ops
  have hx : (ops.foldl modeStep []).any (fun s => s.flags.getLsbD i) = true := by
    rw [matches_any h hi]
    exact visible_has i _ (((C53_queries ops (bit i)).2.1 hv).2 i hi (by rw [bit_getLsbD i i hi]; simp))
  simp only [hv, if_true] at hd
  generalize hst : ops.foldl modeStep [] = st at *
  have hsplit := List.takeWhile_append_dropWhile (p := fun s : ModeState => !s.flags.getLsbD i) (l := st)
  cases hdw : st.dropWhile (fun s => !s.flags.getLsbD i) with
  | nil =>
    rw [hdw, List.append_nil] at hsplit
    obtain ⟨s, hs, hsb⟩ := List.any_eq_true.1 hx
    rw [← hsplit] at hs
    have := mem_takeWhile_imp hs
    simp [hsb] at this
  | cons s rest =>
    refine ⟨s, rest, st.takeWhile (fun s => !s.flags.getLsbD i), ?_, ?_, ?_, ?_⟩
    · rw [← hdw]; exact hsplit.symm
    · intro a ha
      simpa using mem_takeWhile_imp ha
    · have := List.head?_dropWhile_not (p := fun s : ModeState => !s.flags.getLsbD i) (l := st)
      rw [hdw] at this
      simpa using this
    · rw [hd, hdw]

/-- C53, `endDownOverMode`: the level that has the mode is ended too, unless it is the last one; then an exception
is thrown after the levels above were ended. -/
theorem C53_end_down_over (ops : List ModeOp) {i : Nat} (hi : i < 128)
    (hv : ModeStack.inTransparentMode (ops.foldl modeStep []) (bit i) = true) :
    ∃ s rest above, ops.foldl modeStep [] = above ++ s :: rest ∧
      (∀ a ∈ above, a.flags.getLsbD i = false) ∧ s.flags.getLsbD i = true ∧
      ModeStack.endDownOverMode (ops.foldl modeStep []) (bit i) =
        if rest = [] then (above.flatMap (·.opens), [s], true)
        else (above.flatMap (·.opens) ++ s.opens, rest, false) := by
  obtain ⟨s, rest, above, h1, h2, h3, h4⟩ := C53_end_down_to_reaches ops hi hv
  refine ⟨s, rest, above, h1, h2, h3, ?_⟩
  simp only [ModeStack.endDownToMode, hv, if_true] at h4
  simp only [ModeStack.endDownOverMode, hv, if_true, h4]
  cases rest with
  | nil => simp [ModeStack.endMode]
  | cons r rs => simp [ModeStack.endMode, ModeStack.popMode]

/-- C53, `endDownToModeSet`: the levels above the nearest one that has any of the modes are ended, all but the last
if there is none. -/
theorem C53_end_down_to_set (st : ModeStack) (m : Mode) :
    (st.any (fun s => decide (s.flags &&& m ≠ 0)) = true →
      ModeStack.endDownToModeSet st m =
        ((st.takeWhile (fun s => decide (s.flags &&& m = 0))).flatMap (·.opens),
          st.dropWhile (fun s => decide (s.flags &&& m = 0)))) ∧
    (∀ above last, st = above ++ [last] → st.all (fun s => decide (s.flags &&& m = 0)) = true →
      ModeStack.endDownToModeSet st m = (above.flatMap (·.opens), [last])) := by
  constructor
  · intro h
    apply endWhile_spec (p := fun s => decide (s.flags &&& m = 0))
    · intro s st; rfl
    · simpa using h
  · intro above last hs h
    subst hs
    apply endWhile_all (p := fun s => decide (s.flags &&& m = 0))
    · intro s st; rfl
    · simp only [List.all_append, Bool.and_eq_true] at h
      exact h.1

/-- C53, `endWhileMode`: the levels on top that have all the modes are ended, but never the last level. -/
theorem C53_end_while (st : ModeStack) (m : Mode) :
    (st.any (fun s => !hasMode s.flags m) = true →
      ModeStack.endWhileMode st m =
        ((st.takeWhile (fun s => hasMode s.flags m)).flatMap (·.opens),
          st.dropWhile (fun s => hasMode s.flags m))) ∧
    (∀ above last, st = above ++ [last] → above.all (fun s => hasMode s.flags m) = true →
      ModeStack.endWhileMode st m = (above.flatMap (·.opens), [last])) := by
  constructor
  · exact fun h => endWhile_spec _ (fun s => hasMode s.flags m) (fun _ _ => rfl) _ h
  · intro above last hs h
    subst hs
    exact endWhile_all _ (fun s => hasMode s.flags m) (fun _ _ => rfl) _ _ h

/-- Finding (C53): with a mask of two modes the nearest level that has both need not exist although both are visible,
one from each of two levels. `endDownToMode` then ends every mode but the last. -/
theorem C53_finding_split_mask :
    let ops := [ModeOp.start 1, .start MODE_TOP, .push (chars! "SBLOCK", 1), .start MODE_LIST,
      .push (chars! "SARGUMENT_LIST", 2), .start 4]
    let st := ops.foldl modeStep []
    ModeStack.inTransparentMode st (MODE_LIST ||| MODE_TOP) = true ∧
    ModeStack.endDownToMode st (MODE_LIST ||| MODE_TOP) =
      ([(chars! "SARGUMENT_LIST", 2), (chars! "SBLOCK", 1)], st.drop 3) ∧ st.length = 4 := by
  decide +kernel

/-- Not vacuous: ending down to `MODE_TOP` closes the two elements above it and keeps the block. -/
example :
    let ops := [ModeOp.start 1, .start MODE_TOP, .push (chars! "SBLOCK", 1), .start MODE_LIST,
      .push (chars! "SCALL", 2), .push (chars! "SARGUMENT_LIST", 3), .start 4]
    (ModeStack.endDownToMode (ops.foldl modeStep []) (bit 11)).1 =
      [(chars! "SARGUMENT_LIST", 3), (chars! "SCALL", 2)] := by
  decide +kernel

end Srcml
