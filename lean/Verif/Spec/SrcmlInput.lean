import Verif.Spec.CopyUnits
import Verif.Spec.UnitSelect
import Verif.Model.SrcmlInput
/-
What it means that the command copies a srcML document (C80).
-/
namespace Srcml.Spec

/-- The units of `vs` that are asked for: all of them, or the one with that number, starting with 1. -/
def Asked (unit : Nat) (vs us : List UnitData) : Prop := (unit = 0 ∧ us = vs) ∨ ∃ n, ∃ h : n < vs.length, unit = n + 1 ∧ us = [vs[n]]

/-- The input is a srcML document, `b` are its settings, and `vs` its units; it can be reached. -/
structure SrcmlDoc {D : Type} (other : Handlers D) (docs : InputSrc → Option ArchiveIO) (i : InputSrc) (b : Archive) (vs : List UnitData) : Prop where
  state : i.state = .srcml
  reached : other.curl i = false ∨ i.protocol = "file".toList ∨ other.opened i = true
  opened : ∃ s, docs i = some s ∧ s.mode = .read ∧ s.settings = b ∧ s.reader = vs

/-- The output archive for the input `i`, an archive with the settings `b`: as the command line asks for, an archive if the input is one and no unit of it is asked for, and with the namespaces
of the input. -/
def OutputFor (req : CreateReq) (i : InputSrc) (unit : Nat) (b a : Archive) : Prop :=
  ∃ a0 a1, createArchive req [i] = .val (some a0) ∧
    runCalls a0 (if srcml_archive_is_solitary_unit (some b) = .val false ∧ unit = 0 then [.disableSolitary] else []) = .val a1 ∧
    runCalls a1 (b.namespaces.map (fun n => .registerNamespace (some n.prefix_) (some n.uri))) = .val a

end Srcml.Spec
