import Verif.Proofs.CppZero
set_option linter.unusedSimpArgs false
/-
C51: the text in `#if 0` is left without markup.
-/
namespace Srcml
open Spec

/-- The states the parser can be in when it has read some directives, with or without guessing, any number of times: a token is consumed together with all
directives and skipped text behind it (src/parser/StreamMLParser.hpp:328-329), so reading stops only where no text is skipped. -/
inductive CppReached (o : CppOptions) : CppState → Prop where
  | start : CppReached o {}
  | read (s : CppState) (g : Bool) (ls : List CppLine) : CppReached o s → cppSkips o g (cppRun o g ls s).2 = false → CppReached o (cppRun o g ls s).2

theorem step_plain (o : CppOptions) (ht : o.textElse = false) (g : Bool) (n : Nat) (d : CppDirective) (s : CppState) (hp : s.Plain) :
    (cppDirective o g n d s).Plain := by
  rcases directive_cases d with h | h | rfl
  · exact (step_opens o ht g n h s hp).1
  · rcases h with h | rfl
    · exact (step_branch o ht g n h s hp).1
    · exact (step_endif o ht g n s hp).1
  · exact hp

theorem run_plain (o : CppOptions) (ht : o.textElse = false) (g : Bool) (ls : List CppLine) (s : CppState) (hp : s.Plain) :
    (cppRun o g ls s).2.Plain := by
  induction ls generalizing s with
  | nil => exact hp
  | cons l ls ih => exact ih _ (step_plain o ht g l.size l.directive s hp)

theorem reached_plain (o : CppOptions) (ht : o.textElse = false) (hm : o.markupIf0 = false) {s : CppState} (h : CppReached o s) :
    s.Plain ∧ s.zeromode = false := by
  induction h with
  | start => exact ⟨fun m h => (by cases h), rfl⟩
  | read s g ls _ hs ih =>
    have := run_plain o ht g ls s ih.1
    exact ⟨this, by rw [← skips_plain o ht hm g _ this]; exact hs⟩

/-- C51: with the usual options, whatever was read before and in whatever mode: for the directives of a file, or of the part of it up to some
directive, the text behind a directive is left without markup exactly when it is between an `#if 0` and the next directive that belongs to it, for every
nesting. (A condition that starts with 0 is to be just this 0.) -/
theorem C51_if_zero_partial (o : CppOptions) (ht : o.textElse = false) (hm : o.markupIf0 = false) (s : CppState) (hr : CppReached o s) (g : Bool)
    (ls : List CppLine) (l : List (CppDirective × Bool)) (hl : Grouped l) (hz : ∀ x ∈ l, ZeroAlone x.1)
    (e : ls.map (·.directive) <+: l.map (·.1)) :
    (cppRun o g ls s).1 = (l.map (·.2)).take ls.length := by
  obtain ⟨t, ht'⟩ := e
  obtain ⟨hp, hs⟩ := reached_plain o ht hm hr
  have := (grouped_run o ht hm g hl hz (ls ++ t.map (fun d => ⟨d, 0⟩)) (by rw [← ht']; simp [Function.comp_def]) s hp hs).1
  rw [cppRun_append] at this
  rw [← this]
  simp only
  rw [List.take_append_of_le_length (by rw [cppRun_length]; exact Nat.le_refl _), List.take_of_length_le (by rw [cppRun_length]; exact Nat.le_refl _)]

/-- C51: and every sequence of directives is one of these, so the theorem says for each of them which text has no markup. -/
theorem C51_every_sequence_partial (o : CppOptions) (ht : o.textElse = false) (hm : o.markupIf0 = false) (s : CppState) (hr : CppReached o s)
    (g : Bool) (ls : List CppLine) (hz : ∀ l ∈ ls, ZeroAlone l.directive) :
    ∃ l, Grouped l ∧ ls.map (·.directive) <+: l.map (·.1) ∧ (cppRun o g ls s).1 = (l.map (·.2)).take ls.length := by
  obtain ⟨l, t, h1, h2, h3⟩ := grouped_total (ls.map (·.directive))
  refine ⟨l, h1, ⟨t, h2⟩, C51_if_zero_partial o ht hm s hr g ls l h1 ?_ ⟨t, h2⟩⟩
  intro x hx
  have : x.1 ∈ l.map (·.1) := List.mem_map_of_mem hx
  rw [← h2] at this
  rcases List.mem_append.mp this with h | h
  · obtain ⟨y, hy, e⟩ := List.mem_map.mp h
    rw [← e]
    exact hz y hy
  · rw [h3 _ h]
    intro c h
    cases h

/-- C51: with the option to mark it up, no text is left out. -/
theorem C51_markup_option (o : CppOptions) (ht : o.textElse = false) (hm : o.markupIf0 = true) (s : CppState) (hp : s.Plain) (g : Bool)
    (ls : List CppLine) : ∀ b ∈ (cppRun o g ls s).1, b = false := by
  induction ls generalizing s with
  | nil => intro b h; cases h
  | cons l ls ih =>
    have hp' := step_plain o ht g l.size l.directive s hp
    intro b hb
    simp only [cppRun, List.mem_cons] at hb
    rcases hb with rfl | hb
    · unfold cppSkips
      cases hq : (cppDirective o g l.size l.directive s).cppmode with
      | nil => simp [ht, hm]
      | cons m ms => simp [ht, hm, hp' m (by simp [hq])]
    · exact ih _ hp' b hb

/-- The theorem applies: `#if 0`, in it `#if A`, `#else`, `#endif`, then `#else` with an `#if 0` and `#endif` in it, and `#endif`. -/
theorem C51_if_zero_applies :
    Grouped [(.ifDir [['0']], true), (.ifDir [['A']], true), (.elseDir, true), (.endif, true), (.elseDir, false), (.ifDir [['0']], true),
      (.endif, false), (.endif, false)] := by
  refine .group _ (.zero false _ [(.ifDir [['A']], true), (.elseDir, true), (.endif, true)] [(.elseDir, false), (.ifDir [['0']], true),
    (.endif, false), (.endif, false)] rfl ?_ ?_)
  · exact .cond true _ [] [(.elseDir, true), (.endif, true)] trivial (by intro h; cases h) (.nil _) (.branch true _ [] [(.endif, true)] trivial (.nil _) (.endif _ _ (.nil _)))
  · refine .branch false _ [(.ifDir [['0']], true), (.endif, false)] [(.endif, false)] trivial ?_ (.endif _ _ (.nil _))
    exact .zero false _ [] [(.endif, false)] rfl (.nil _) (.endif _ _ (.nil _))

/-- Finding: a condition that only starts with 0 counts as 0: the text behind `#if 0 || X` is left without markup. src/parser/srcMLParser.g:9605. -/
theorem C51_finding_starts_with_zero :
    (cppRun {} false [⟨.ifDir [['0'], ['|', '|'], ['X']], 0⟩, ⟨.endif, 0⟩] {}).1 = [true, false] := by decide

/-- Finding: with usual options a `cppmodeitem` stays on the stack for each `#if` until the parser is deleted: it is pushed without the option for
`#else` and removed only with it. src/parser/srcMLParser.g:9495, 9540. -/
theorem C51_finding_stack_grows (n : Nat) (s : CppState) :
    (cppRun {} false ((List.replicate n [(⟨.ifdef, 0⟩ : CppLine), ⟨.endif, 0⟩]).flatten) s).2.cppmode.length = s.cppmode.length + n := by
  induction n generalizing s with
  | zero => rfl
  | succ n ih =>
    rw [List.replicate_succ, List.flatten_cons, cppRun_append]
    simp only
    rw [ih]
    simp only [cppRun, cppDirective, cppIf, cppEndif, cppEndifFlags, markblockzero]
    simp [apply_ite CppState.cppmode]
    omega

end Srcml
