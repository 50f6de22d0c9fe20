import Verif.Spec.CppZero
/-
Conditional directives with the option for text in `#else`.
-/
namespace Srcml.Spec

/-- The text in an `#else` part where only conditionals of one part are nested, none of them `#if 0`. All of it is left out. -/
inductive Flat : List (CppDirective × Bool) → Prop where
  | nil : Flat []
  | other (r) : Flat r → Flat ((.other, true) :: r)
  | cond (d) (body r) : Opens d → ¬ IsZero d → Flat body → Flat r → Flat ((d, true) :: body ++ (.endif, true) :: r)

mutual

/-- Directives where only one part of a conditional has markup: the first one, or the second one when the first is that of `#if 0`. In the other parts of
`#else` and `#elif`, the directives are as `P` says. -/
inductive OnePart (P : List (CppDirective × Bool) → Prop) : List (CppDirective × Bool) → Prop where
  | nil : OnePart P []
  | other (r) : OnePart P r → OnePart P ((.other, false) :: r)
  | zero (d) (body r) : IsZero d → Group true body → AfterZero P r → OnePart P ((d, true) :: body ++ r)
  | cond (d) (body r) : Opens d → ¬ IsZero d → OnePart P body → AfterPart P r → OnePart P ((d, false) :: body ++ r)

/-- Behind the part of `#if 0`. -/
inductive AfterZero (P : List (CppDirective × Bool) → Prop) : List (CppDirective × Bool) → Prop where
  | branch (d) (body r) : Branches d → OnePart P body → AfterPart P r → AfterZero P ((d, false) :: body ++ r)
  | endif (r) : OnePart P r → AfterZero P ((.endif, false) :: r)

/-- Behind a part that has markup. -/
inductive AfterPart (P : List (CppDirective × Bool) → Prop) : List (CppDirective × Bool) → Prop where
  | branch (d) (body r) : Branches d → P body → AfterPart P r → AfterPart P ((d, true) :: body ++ r)
  | endif (r) : OnePart P r → AfterPart P ((.endif, false) :: r)

end

/-- The full property allows any nesting in the parts that are left out. -/
def ElseLeftOut : List (CppDirective × Bool) → Prop := OnePart (Group true)

end Srcml.Spec
