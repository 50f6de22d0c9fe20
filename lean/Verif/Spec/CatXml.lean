import Verif.Model.CatXml
/-
What C95 says about the output of `srcml --cat`.
-/
namespace Srcml.Spec

/-- The settings of the archive from which the start tag is taken: those of the output archive, for a single unit and without hash. -/
def soloOf (a : Archive) : Archive := { cloneOf a with options := (a.options &&& ~~~OPTION_ARCHIVE) &&& ~~~OPTION_HASH }

/-- The document that the library makes in memory of the unit `u` alone, with these settings. -/
def SoloDocument (a : Archive) (th : ThreadState) (ua : Archive) (u : UnitData) (doc : Str) : Prop :=
  ∃ s, ({ settings := soloOf a, thread := th } : ArchiveIO).calls [.openWrite true .memory, .writeUnit ua (some u) none, .close] = .val s ∧ s.delivered = some doc

/-- A text as a line: with a newline at the end unless it is empty or has one. -/
def withNewline (x : Str) : Str := if x = [] ∨ x.getLast? = some '\n' then x else x ++ ['\n']

/-- The output for the inner texts `xs` and the document `doc`: the document without its last 51 characters, the end of a start tag, the texts, each as a line, and an end tag `unit`. -/
def Concatenated (doc : Str) (xs : List Str) (out : Str) : Prop :=
  ∃ head tail, doc = head ++ tail ∧ tail.length = 51 ∧ out = head ++ ['>'] ++ xs.flatMap withNewline ++ "</unit>\n".toList

end Srcml.Spec
