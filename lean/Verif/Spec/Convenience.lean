import Verif.Model.Convenience
import Verif.Spec.SrcSax
/-
What C75 says about the convenience function `srcml(input, output)`, in terms of the names, the settings and the files.
-/
namespace Srcml.Spec

/-- The name ends in `.xml`, with something before it, or in `.srcml`, in any case of the letters. -/
def XmlName (name : Str) : Prop :=
  (∃ base e, base ≠ [] ∧ name = base ++ '.' :: e ∧ e.map Char.toLower = ['x', 'm', 'l']) ∨
  ∃ base e, name = base ++ '.' :: e ∧ e.map Char.toLower = ['s', 'r', 'c', 'm', 'l']

/-- A history of calls of the setters `srcml_set_…`, `srcml_register_…`, `srcml_enable_option` and `srcml_disable_option` from the start of the program. -/
def convAfter : List ConvSet → Run Conv
  | [] => .val {}
  | c :: cs => (convAfter cs).bind (fun g => (c.run g).bind (fun r => .val r.2))

/-- The settings of the document that is written: those that were made, and solitary. -/
def solitarySettings (g : Conv) : Archive := { cloneOf g.archive with options := g.archive.options &&& ~~~OPTION_ARCHIVE }

/-- The unit into which the file is parsed: it has the language, version, timestamp and file name that were set, and without one the name of the input. -/
def inputUnit (g : Conv) (input : Str) : UnitData :=
  { language := g.archive.language, version := g.archive.version, timestamp := g.unit.timestamp, filename := some (g.unit.filename.getD input) }

/-- The name has an extension of source code. -/
def SourceName (g : Conv) (input : Str) : Prop := srcml_archive_check_extension g.archive.registeredLanguages (some input) ≠ none

/-- The input is taken for srcML: it has no extension of source code, but that of XML, or the language was set to `xml`. -/
def SrcmlName (g : Conv) (input : Str) : Prop := ¬ SourceName g input ∧ (XmlName input ∨ g.archive.language = some "xml".toList)

/-- What a reader that is asked for units only, one after the other, gives for a document. -/
def UnitsRead (doc : Str) (us : List UnitData) : Prop :=
  ∃ fs wants h fin r, Delivers doc fs ∧ ({ wants := wants } : Sax2).feeds fs = .val h ∧
    Reach { todo := h.log.filterMap saxCall, finish := fin } Reader.Step r ∧ r.log ≠ [] ∧
    (∀ i (hi : i < r.log.length), (r.log[i]).1 = .read ∧ (wants[i]?).getD false = true) ∧ us = r.log.filterMap (fun x => gets h.log x.2)

end Srcml.Spec
