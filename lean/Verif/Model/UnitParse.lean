import Verif.Model.UnitApi
import Verif.Model.CharBuffer
import Verif.Model.Language
import Verif.Model.Lexer
/-
Parsing source code into a unit: `srcml_unit_parse_*`, from the arguments over the bytes, the characters and the tokens to the unit.
-/
namespace Srcml

/-- Where the source is, src/libsrcml/srcml_unit.cpp:559-660; `none` and `false` are null pointers. What a file, a descriptor or a callback gives
is a list of reads; `buffer` is what the pointer points to, of which `size` bytes are used. -/
inductive ParseFrom where
  | filename (name : Option Str)
  | memory (buffer : Option Bytes) (size : Nat)
  | FILE (file : Option (List ReadResult))
  | fd (n : Int) (reads : List ReadResult)
  | io (context : Bool) (read : Option (List ReadResult))

/-- The checks of the arguments other than the unit, src/libsrcml/srcml_unit.cpp:561, 590, 612, 634, 658. -/
def ParseFrom.valid : ParseFrom → Bool
  | .filename name => name.isSome
  | .memory buffer size => !(size ≠ 0 && buffer.isNone)
  | .FILE file => file.isSome
  | .fd n _ => decide (0 ≤ n)
  | .io context read => context && read.isSome

/-- What the parse functions use: `iconv`, SHA-1, the file system, libxml2, and the parser. `file` gives the reads of a file, `none` if it cannot be opened
(src/libsrcml/srcml_unit.cpp:565-568). `parser` gives the tokens before the end of file that the parser returns for the characters of a source
(src/libsrcml/srcml_translator.cpp:123-145): the rules of the grammar are those of Model/Parser.lean. Exceptions of the parser are not modelled. -/
structure ParseLib where
  iconv : Iconv
  sha1 : Bytes → Bytes
  file : Str → Option (List ReadResult)
  sax : Sax
  parser : LexConf → Bool → Bool → Str → List Tok

/-- The reading of all characters, as the lexer does, up to the end of file, src/parser/UTF8CharBuffer.cpp:425-465; undefined if it never comes to that. -/
noncomputable def CharBuffer.drain (io : Iconv) (b : CharBuffer) : Run (Bytes × CharBuffer) :=
  open Classical in
  if h : ∃ p : Bytes × CharBuffer, CharBuffer.Drains io b p.1 p.2 then .val (Classical.choose h) else .ub

/-- Bytes as characters below 256, as `getChar` gives them to the lexer, src/parser/UTF8CharBuffer.cpp:418-443. -/
def bytesText (b : Bytes) : Str := b.map (fun x => Char.ofNat x.toNat)

/-- The settings of the lexer for a unit, src/libsrcml/srcml_translator.cpp:130-132 and src/libsrcml/srcml_unit.cpp:889-922. -/
def unitLexConf (a : Archive) (language : Nat) : LexConf :=
  { language := language, tabsize := a.tabstop, lineOption := isoption (unitOptions a) OPTION_LINE, userMacros := a.userMacroList }

/-- The languages for which the preprocessor is turned on, src/libsrcml/srcml_translator.cpp:118-121. -/
def usesPreprocessor (language : Nat) : Bool :=
  language == LANGUAGE_C || language == LANGUAGE_CXX || language == LANGUAGE_CSHARP || decide (language &&& LANGUAGE_OBJECTIVE_C ≠ 0)

/-- The tokens of a source for a unit, src/libsrcml/srcml_translator.cpp:114-145. -/
def ParseLib.tokens (lib : ParseLib) (a : Archive) (language : Nat) (text : Str) : List Tok :=
  lib.parser (unitLexConf a language) (isoption (unitOptions a) OPTION_POSITION)
    (isoption (unitOptions a) OPTION_CPP || usesPreprocessor language) text

/-- The encoding that is asked for: that of the unit, or else that of the archive, src/libsrcml/srcml_unit.cpp:502. -/
def askedEncoding (a : Archive) (u : UnitData) : Option Str := u.encoding.or a.srcEncoding

/-- Is a hash to be made? src/libsrcml/srcml_unit.cpp:516. -/
def hashWanted (a : Archive) (u : UnitData) : Bool := u.hash.isNone && isoption a.options OPTION_HASH

/-- The encoding is known to `iconv_open`, src/libsrcml/srcml_unit.cpp:505-514: the name is tested as it was given. Errors other than `EINVAL` are not modelled. -/
def ParseLib.encodingOk (lib : ParseLib) (e : Option Str) : Bool :=
  match e with
  | none => true
  | some e => (lib.iconv.convert e).isSome

/-- `srcml_unit_parse_internal`, src/libsrcml/srcml_unit.cpp:487-546. `input` makes the input from the encoding and whether a hash is needed. The hash is stored in the
unit when the input is closed, which is at the end of the translation (src/libsrcml/srcml_translator.cpp:130). -/
noncomputable def UnitObj.parseInternal (lib : ParseLib) (a : Archive) (thread : ThreadState) (filename : Option Str) (input : Option Str → Bool → CharBuffer)
    (u : UnitObj) : Run (Status × UnitObj) :=
  match parseLanguage u.data.language a.language a.registeredLanguages filename with
  | none => .val (.unsetLanguage, u)
  | some lang =>
    let u := { u with data := { u.data with derivedLanguage := lang } }
    if lib.encodingOk (askedEncoding a u.data) = false then .val (.invalidArgument, u)
    else
      let b := input (askedEncoding a u.data) (hashWanted a u.data)
      (b.drain lib.iconv).bind (fun r =>
        u.parseTokens lib.sax a thread (some b.encoding) (lib.tokens a lang (bytesText r.1)) (r.2.hashOnClose lib.sha1))

/-- The input that each of the functions makes, src/libsrcml/srcml_unit.cpp:570-574, 593-596, 615-618, 637-640, 661-664. A file is read by its descriptor. -/
def ParseFrom.input (lib : ParseLib) : ParseFrom → Option Str → Bool → CharBuffer
  | .filename name, e, h => .ofReads e h ((name.bind lib.file).getD [])
  | .memory buffer size, e, h => .ofMemory lib.iconv e h ((buffer.getD []).take size)
  | .FILE file, e, h => .ofReads e h (file.getD [])
  | .fd _ reads, e, h => .ofReads e h reads
  | .io _ read, e, h => .ofReads e h (read.getD [])

/-- The name by which the language can be found, src/libsrcml/srcml_unit.cpp:570, 593, 615, 637, 661. -/
def ParseFrom.name : ParseFrom → Option Str
  | .filename name => name
  | _ => none

/-- Can the source be opened? src/libsrcml/srcml_unit.cpp:565-568. -/
def ParseFrom.opens (lib : ParseLib) : ParseFrom → Bool
  | .filename (some name) => (lib.file name).isSome
  | _ => true

/-- `srcml_unit_parse_filename`, `_memory`, `_FILE`, `_fd` and `_io`, src/libsrcml/srcml_unit.cpp:559-665. -/
noncomputable def srcml_unit_parse (lib : ParseLib) (a : Archive) (thread : ThreadState) (from_ : ParseFrom) (u : Option UnitObj) : Run (Status × Option UnitObj) :=
  match u with
  | none => .val (.invalidArgument, none)
  | some u =>
    if from_.valid = false then .val (.invalidArgument, some u)
    else if from_.opens lib = false then .val (.ioError, some u)
    else (u.parseInternal lib a thread from_.name (from_.input lib)).bind (fun r => .val (r.1, some r.2))

/-- The descriptors that a call leaves open: the one that `srcml_unit_parse_filename` opens (src/libsrcml/srcml_unit.cpp:565) is handed to the input, which does not
close it (src/parser/UTF8CharBuffer.cpp:231-234), and nothing else does. -/
def ParseFrom.leftOpen (lib : ParseLib) : ParseFrom → Nat
  | .filename (some name) => if (lib.file name).isSome then 1 else 0
  | _ => 0

end Srcml
