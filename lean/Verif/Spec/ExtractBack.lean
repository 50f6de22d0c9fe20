import Verif.Spec.ExtractDisk
/-
A tree of files, and the same files in another directory (C93).
-/
namespace Srcml.Spec

/-- The disk is a tree: what is a file is no directory, and has nothing below it. -/
def IsTree (d : Disk) : Prop := ∀ p, d.file p ≠ none → d.dirs p = false ∧ ∀ q r, p = q ++ r → r ≠ [] → d.file q = none

/-- The directory is not there yet, or it is empty: no file is on the way to it, and nothing is in it. -/
structure EmptyDir (dir : Str) (d : Disk) : Prop where
  way : ∀ p q, pathNames dir = p ++ q → d.file p = none
  inside : ∀ q, q ≠ [] → d.file (pathNames dir ++ q) = none ∧ d.dirs (pathNames dir ++ q) = false

/-- The disk `after` has under the directory just the files with these names and texts, and is as `before` at all other places. -/
def TreeIn (dir : Str) (files : List (Str × Str)) (before after : Disk) : Prop :=
  (∀ f ∈ files, after.file (pathNames dir ++ pathNames f.1) = some f.2) ∧ ∀ p, (∀ f ∈ files, p ≠ pathNames dir ++ pathNames f.1) → after.file p = before.file p

end Srcml.Spec
