import Verif.Spec.UnitSelect
import Verif.Model.ExtractDisk
/-
What extraction leaves on the disk (C92).
-/
namespace Srcml.Spec

/-- Where the file of a unit with the file name `f` is, in the directory `dir`. -/
def placeOf (dir f : Str) : List Str := pathNames dir ++ pathNames f

/-- A name for a file: it does not end in a slash, nor in `.` as its last part, and has no `..` in it. -/
def FileNamed (f : Str) : Prop := "..".toList ∉ pathNames f ∧ ∃ l, (splitSlash f).getLast? = some l ∧ l ≠ [] ∧ l ≠ ['.']

/-- The names can all be put under the directory: no file would have to be a directory for another one, and the disk has no file where a directory is needed, nor a directory where a file is. -/
structure Placeable (dir : Str) (names : List Str) (d : Disk) : Prop where
  named : ∀ f ∈ names, FileNamed f
  apart : ∀ f ∈ names, ∀ g ∈ names, ∀ more, pathNames g = pathNames f ++ more → more = []
  noFile : ∀ f ∈ names, ∀ p q, placeOf dir f = p ++ q → q ≠ [] → d.file p = none
  noDir : ∀ f ∈ names, d.dirs (placeOf dir f) = false

/-- What is on the disk afterwards: every file of a unit with the source text of the last unit with that place, and everything else as it was, but for the directories that these files are in. -/
structure Extracted (dir : Str) (us : List UnitData) (before after : Disk) : Prop where
  written : ∀ us1 u us2 f, us = us1 ++ u :: us2 → u.filename = some f → (∀ v ∈ us2, ∀ g, v.filename = some g → pathNames g ≠ pathNames f) → ∃ t, SourceText none u t ∧ after.file (placeOf dir f) = some t
  kept : ∀ p, (∀ u ∈ us, ∀ f, u.filename = some f → p ≠ placeOf dir f) → after.file p = before.file p
  dirs : ∀ p, after.dirs p = true ↔ before.dirs p = true ∨ ∃ u ∈ us, ∃ f, u.filename = some f ∧ ∃ q, q ≠ [] ∧ placeOf dir f = p ++ q

end Srcml.Spec
