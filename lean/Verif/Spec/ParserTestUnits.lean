import Verif.Spec.SameSource
import Verif.Spec.UnitSelect
import Verif.Model.ParserTestUnits
/-
What the parser test tests (C90).
-/
namespace Srcml.Spec
open CharBuffer

/-- The text is one that can be handed over in memory as UTF-8: it is not empty, its bytes are legal UTF-8 as far as `iconv` says, without a byte order mark, carriage returns, NUL and DEL. -/
structure HandedOver (lib : ParseLib) (text : Str) (bytes : Bytes) : Prop where
  text : text = bytesText bytes
  nonempty : bytes ≠ []
  utf8 : ∃ conv, lib.iconv.convert "UTF-8".toList = some conv ∧ blockText (lib.iconv.trivialp "UTF-8".toList) conv [] bytes = some bytes
  mark : bomLength bytes = 0
  plain : (13 : UInt8) ∉ bytes ∧ (0 : UInt8) ∉ bytes ∧ (127 : UInt8) ∉ bytes

/-- A unit of an archive that was opened for reading: the unit has its text, no line ending was chosen for it, and it has a language. -/
structure TestUnit (a : Archive) (w : UnitObj) (text language : Str) : Prop where
  mode : a.type = .read ∨ a.type = .rw
  body : w.data.readBody = true
  src : w.data.src = some text
  eol : w.data.eol = EOL_AUTO
  language : languageSpec w.data.language a.language none = some language

/-- The unit that is made for the test: it has the metadata of the unit that is tested. -/
def testCopy (w : UnitData) : UnitData :=
  { filename := w.filename, hash := w.hash, timestamp := w.timestamp, version := w.version, url := w.url, language := w.language, revision := w.revision,
    encoding := some "UTF-8".toList, attributes := w.attributes, eol := w.eol, derivedLanguage := w.derivedLanguage, namespaces := w.namespaces }

/-- The units that are to be tested: with a language, those before the first one of another language. -/
def testedUnits (asked : Option Str) (us : List UnitData) : List UnitData :=
  match asked with
  | none => us
  | some l => us.takeWhile (fun u => u.language.getD [] = l)

end Srcml.Spec
