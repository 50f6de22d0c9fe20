import Verif.Model.ParserTest
import Verif.Model.UnitSelect
import Verif.Model.UnitParse
/-
`srcml --parser-test`: which units of an archive are tested, and how the markup that is compared is made.
-/
namespace Srcml

/-- `while (unit = srcml_archive_read_unit(...))` in the mode of the parser test, src/client/srcml_input_srcml.cpp:94-131: with a language on the command line (`asked`) it ends at the first unit of another
language; `language` is the language of the output archive, and `unit` the number of the requested unit, 0 for all. -/
def testUnits (asked language : Option Str) (unit : Int) (s : ArchiveIO) : List UnitData :=
  match h : s.readUnit with
  | (none, _) => []
  | (some u, s') =>
    if asked.isSome ∧ asked ≠ some (u.language.getD []) then []
    else withLanguage language u :: (if unit ≠ 0 then [] else testUnits asked language unit s')
termination_by s.reader.length
decreasing_by exact readUnit_lt h

/-- `srcml_input_srcml` in the mode of the parser test, src/client/srcml_input_srcml.cpp:82-138: a unit was found if one could be read, also if it is not tested. The message of line 85 passes a number
for a `%s`; what that prints is not modelled. -/
def parserTestInput (asked language : Option Str) (unit : Int) (s : ArchiveIO) : Scheduled :=
  match s.skipUnits (unit - 1).toNat with
  | none => { errors := 1, exited := true }
  | some s =>
    if s.readUnit.1 = none then { errors := 1, exited := true }
    else { units := testUnits asked language unit s }

/-- A text as the bytes that are handed over, `char*` in src/client/ParserTest.cpp:72-87. -/
def textBytes (s : Str) : Bytes := s.map (fun c => UInt8.ofNat c.toNat)

/-- The part of `ParserTest::entry` that makes what is compared, src/client/ParserTest.cpp:72-90: the unit is unparsed to memory in UTF-8, and what was written is parsed into a copy of the unit that has its
language. `a` is the archive that the unit belongs to, with which the copy is made; `body` reads the body of the unit. When nothing was unparsed the buffer is null and its size 0. -/
noncomputable def parserTestCase (lib : ParseLib) (a : Archive) (th : ThreadState) (body : UnitObj → Option UnitObj) (filename : Str) (url : Option Str) (unit : UnitObj) : Run ParserTestCase :=
  let unit := { unit with data := (UnitSet.run unit.data (.encoding (some "UTF-8".toList))).2 }
  (srcml_unit_unparse lib.sax a body true (.memory true true) (some unit)).bind fun r =>
    let unit := r.2.1.getD unit
    let size := (r.2.2.map (fun t => (memoryResult t).2)).getD 0
    let expected := unit.getInner.1.getD []
    let outunit : UnitObj := { data := (UnitSet.run ((srcml_unit_clone (some unit.data)).getD {}) (.language unit.data.language)).2 }
    (srcml_unit_parse lib a th (.memory (r.2.2.map textBytes) size) (some outunit)).bind fun p =>
      .val { filename := filename, url := url, language := unit.data.language, expected := expected, actual := ((p.2.getD outunit).getInner.1).getD [] }

end Srcml
