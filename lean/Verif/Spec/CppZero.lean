import Verif.Model.CppZero
/-
Conditional directives and the text behind them, by the grammar of the preprocessor.
-/
namespace Srcml.Spec

/-- `#if`, `#ifdef`, `#ifndef`. -/
def Opens : CppDirective → Prop
  | .ifDir _ | .ifdef | .ifndef => True
  | _ => False

/-- `#else`, `#elif`. -/
def Branches : CppDirective → Prop
  | .elseDir | .elifDir _ => True
  | _ => False

/-- `#if 0`. -/
def IsZero (d : CppDirective) : Prop := d = .ifDir [['0']]

mutual

/-- A sequence of directives where each `#if` has its `#endif`. With each directive, whether the text behind it is dead; `dead` is whether the
text around is. Text is dead between `#if 0` and the next directive that belongs to it. -/
inductive Group : Bool → List (CppDirective × Bool) → Prop where
  | nil (dead : Bool) : Group dead []
  | other (dead : Bool) (r) : Group dead r → Group dead ((.other, dead) :: r)
  | zero (dead : Bool) (d) (body r) : IsZero d → Group true body → Rest dead r → Group dead ((d, true) :: body ++ r)
  | cond (dead : Bool) (d) (body r) : Opens d → ¬ IsZero d → Group dead body → Rest dead r → Group dead ((d, dead) :: body ++ r)

/-- What follows on the first part of a conditional. -/
inductive Rest : Bool → List (CppDirective × Bool) → Prop where
  | branch (dead : Bool) (d) (body r) : Branches d → Group dead body → Rest dead r → Rest dead ((d, dead) :: body ++ r)
  | endif (dead : Bool) (r) : Group dead r → Rest dead ((.endif, dead) :: r)

end

/-- A file, up to some place in it: groups, with directives between them that belong to no `#if`. -/
inductive Grouped : List (CppDirective × Bool) → Prop where
  | group (l) : Group false l → Grouped l
  | stray (a d r) : Group false a → (Branches d ∨ d = .endif) → Grouped r → Grouped (a ++ (d, false) :: r)

end Srcml.Spec
