import Verif.Spec.UnitApi
import Verif.Model.UnitSelect
/-
What it means to select a unit of an archive.
-/
namespace Srcml.Spec

/-- `t` is the source text of the unit `u`, with the requested line ending or with that of the unit. -/
def SourceText (eol : Option Nat) (u : UnitData) (t : Str) : Prop :=
  ∃ x, u.src = some x ∧
    match endingOf (eol.getD u.eol) with
    | none => t = x
    | some ending => Converted ending x t

/-- An archive that was opened for reading, from which the units `us` have still to be read. -/
structure Holds (s : ArchiveIO) (us : List UnitData) : Prop where
  mode : s.mode = .read
  units : s.reader = us
  read : ∀ u ∈ us, u.readBody = true ∧ u.src.isSome

/-- The texts one after the other, with a NUL between two of them. -/
def nulSeparated (ts : List Str) : Str := List.intercalate [Char.ofNat 0] ts

/-- The command failed: nothing was written, there is one message, and the exit status is 1. -/
def Refused (r : Run SrcRun) : Prop := r = .val { errors := 1, exited := true }

/-- A format: texts without `%`, and places of arguments between them, each written as `%` with the character given here. -/
abbrev Format := Str × List (Char × Str)

/-- The format as it is written. -/
def Format.text (f : Format) : Str := f.1 ++ f.2.flatMap (fun p => '%' :: p.1 :: p.2)

/-- The format with the arguments in their places. -/
def Format.fill (f : Format) (args : List Str) : Str := f.1 ++ (f.2.zip args).flatMap (fun p => p.2 ++ p.1.2)

/-- No text of the format has a `%`, and no place of an argument is written `%%`. -/
structure Format.Plain (f : Format) : Prop where
  first : '%' ∉ f.1
  rest : ∀ p ∈ f.2, p.1 ≠ '%' ∧ '%' ∉ p.2

/-- The name of the file of the unit with the file name `f` in the directory `dir`. -/
def inDirectory (dir f : Str) : Str := dir ++ '/' :: f

end Srcml.Spec
