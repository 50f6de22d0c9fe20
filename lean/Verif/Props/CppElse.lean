import Verif.Proofs.CppElse
import Verif.Props.CppZero
set_option linter.unusedSimpArgs false
/-
C60: with the option for text in `#else`, only one part of a conditional gets markup.
-/
namespace Srcml
open Spec

/-- C60: with the option and no directives read before, for directives that are all at the same depth: the text behind a directive is left without markup exactly
when it is not in the one part of its conditional that gets markup. The full statement has `ElseLeftOut l` in place of `OnePart Flat l`: any nesting in the
parts that are left out; the code does not satisfy it (see below). -/
theorem C60_else_left_out_partial (o : CppOptions) (ht : o.textElse = true) (hm : o.markupIf0 = false) (g : Bool) (n : Nat) (ls : List CppLine)
    (hn : ∀ x ∈ ls, x.size = n) (l : List (CppDirective × Bool)) (hl : OnePart Flat l) (hz : ∀ x ∈ l, ZeroAlone x.1)
    (e : ls.map (·.directive) = l.map (·.1)) :
    (cppRun o g ls {}).1 = l.map (·.2) :=
  (onePart_run ht hm g hl hz ls hn e {} ⟨rfl, rfl, by intro m h; cases h⟩).1

/-- The same for the part of a file up to some directive. -/
theorem C60_else_left_out_start_partial (o : CppOptions) (ht : o.textElse = true) (hm : o.markupIf0 = false) (g : Bool) (n : Nat) (ls : List CppLine)
    (hn : ∀ x ∈ ls, x.size = n) (l : List (CppDirective × Bool)) (hl : OnePart Flat l) (hz : ∀ x ∈ l, ZeroAlone x.1)
    (e : ls.map (·.directive) <+: l.map (·.1)) :
    (cppRun o g ls {}).1 = (l.map (·.2)).take ls.length := by
  obtain ⟨t, ht'⟩ := e
  have := C60_else_left_out_partial o ht hm g n (ls ++ t.map (fun d => ⟨d, n⟩)) (by
    intro x hx
    rcases List.mem_append.mp hx with hx | hx
    · exact hn x hx
    · obtain ⟨d, -, rfl⟩ := List.mem_map.mp hx
      rfl) l hl hz (by rw [← ht']; simp [Function.comp_def])
  rw [cppRun_append] at this
  rw [← this]
  simp only
  rw [List.take_append_of_le_length (by rw [cppRun_length]; exact Nat.le_refl _), List.take_of_length_le (by rw [cppRun_length]; exact Nat.le_refl _)]

theorem flat_group {l : List (CppDirective × Bool)} (h : Flat l) : Group true l := by
  induction h with
  | nil => exact .nil _
  | other r _ ih => exact .other true r ih
  | cond d body r h1 h2 _ _ ih1 ih2 => exact .cond true d body _ h1 h2 ih1 (.endif true r ih2)

/-- The theorem applies: `#if A`, `#else`, in it `#ifdef` and `#endif`, then `#endif`; `#if 0`, `#else`, `#endif`. -/
theorem C60_applies :
    OnePart Flat [(.ifDir [['A']], false), (.elseDir, true), (.ifdef, true), (.endif, true), (.endif, false), (.ifDir [['0']], true), (.elseDir, false),
      (.endif, false)] := by
  refine .cond _ [] _ trivial (by intro h; cases h) .nil (.branch _ [(.ifdef, true), (.endif, true)] _ trivial ?_ (.endif _ ?_))
  · exact .cond _ [] [] trivial (by intro h; cases h) .nil .nil
  · exact .zero _ [] _ rfl (.nil _) (.branch _ [] _ trivial .nil (.endif _ .nil))

/-- Finding: an `#else` inside of an `#else` that is left out ends that at the inner `#endif`: the count starts again with 1 there. In `#if A`, `#else`, `#if B`, `#else`,
`#endif` the text that follows is in the `#else` of A and is marked up. src/parser/srcMLParser.g:9508-9511. -/
theorem C60_finding_nested_else :
    ElseLeftOut [(.ifDir [['A']], false), (.elseDir, true), (.ifDir [['B']], true), (.elseDir, true), (.endif, true), (.endif, false)] ∧
      (cppRun { textElse := true } false [⟨.ifDir [['A']], 0⟩, ⟨.elseDir, 0⟩, ⟨.ifDir [['B']], 0⟩, ⟨.elseDir, 0⟩, ⟨.endif, 0⟩, ⟨.endif, 0⟩] {}).1 =
        [false, true, true, true, false, false] := by
  refine ⟨.cond _ [] _ trivial (by intro h; cases h) .nil (.branch _ [(.ifDir [['B']], true), (.elseDir, true), (.endif, true)] _ trivial ?_ (.endif _ .nil)), by decide⟩
  exact .cond true _ [] _ trivial (by intro h; cases h) (.nil _) (.branch true _ [] _ trivial (.nil _) (.endif _ _ (.nil _)))

/-- Finding: so does an `#if 0` inside of it. src/parser/srcMLParser.g:9481-9489, 9536-9538. -/
theorem C60_finding_nested_zero :
    ElseLeftOut [(.ifDir [['A']], false), (.elseDir, true), (.ifDir [['0']], true), (.endif, true), (.endif, false)] ∧
      (cppRun { textElse := true } false [⟨.ifDir [['A']], 0⟩, ⟨.elseDir, 0⟩, ⟨.ifDir [['0']], 0⟩, ⟨.endif, 0⟩, ⟨.endif, 0⟩] {}).1 =
        [false, true, true, false, false] := by
  refine ⟨.cond _ [] _ trivial (by intro h; cases h) .nil (.branch _ [(.ifDir [['0']], true), (.endif, true)] _ trivial ?_ (.endif _ .nil)), by decide⟩
  exact .zero true _ [] _ rfl (.nil _) (.endif _ _ (.nil _))

/-- Finding: the depth matters: in the `#else` of an `#if 0`, which gets markup, the `#else` of another `#if 0` that is at a smaller depth is left out, though it is the
part with the markup. src/parser/srcMLParser.g:9520-9523. -/
theorem C60_finding_depth :
    ElseLeftOut [(.ifDir [['0']], true), (.elseDir, false), (.ifDir [['0']], true), (.elseDir, false), (.endif, false), (.endif, false)] ∧
      (cppRun { textElse := true } false [⟨.ifDir [['0']], 5⟩, ⟨.elseDir, 5⟩, ⟨.ifDir [['0']], 4⟩, ⟨.elseDir, 4⟩, ⟨.endif, 4⟩, ⟨.endif, 4⟩] {}).1 =
        [true, false, true, true, false, false] := by
  refine ⟨.zero _ [] _ rfl (.nil _) (.branch _ [(.ifDir [['0']], true), (.elseDir, false), (.endif, false)] _ trivial ?_ (.endif _ .nil)), by decide⟩
  exact .zero _ [] _ rfl (.nil _) (.branch _ [] _ trivial .nil (.endif _ .nil))

end Srcml
