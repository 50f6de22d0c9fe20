import Verif.Model.UnitParse
import Verif.Model.ArchiveIO
/-
The convenience function `srcml()` and the settings it uses, src/libsrcml/libsrcml.cpp.
-/
namespace Srcml

/-- The static objects behind the convenience functions, src/libsrcml/libsrcml.cpp:80-87: the archive is not made by `srcml_archive_create`, and so
has the standard extensions only once (src/libsrcml/srcml_types.hpp:108-171). -/
structure Conv where
  archive : Archive := {}
  unit : UnitData := {}

/-- The setters, src/libsrcml/libsrcml.cpp:269-483, each of which is that of the archive or of the unit. -/
inductive ConvSet where
  | src_encoding (v : Option Str)
  | xml_encoding (v : Option Str)
  | language (v : Option Str)
  | filename (v : Option Str)
  | url (v : Option Str)
  | version (v : Option Str)
  | timestamp (v : Option Str)
  | options (o : Opts)
  | enable_option (o : Opts)
  | disable_option (o : Opts)
  | tabstop (n : Nat)
  | register_file_extension (ext lang : Option Str)
  | register_namespace (pre uri : Option Str)
  | processing_instruction (target data : Option Str)
  | eol (n : Nat)
  | srcdiff_revision (n : Nat)
  deriving DecidableEq, Repr

/-- A setter of the archive, src/libsrcml/libsrcml.cpp:269-483. -/
def Conv.setArchive (g : Conv) (c : SetCall) : Run (Status × Conv) := (c.run g.archive).bind (fun r => .val (r.1, { g with archive := r.2 }))

/-- A setter of the unit, src/libsrcml/libsrcml.cpp:308, 347, 455. -/
def Conv.setUnit (g : Conv) (c : UnitSet) : Run (Status × Conv) := .val ((c.run g.unit).1, { g with unit := (c.run g.unit).2 })

/-- The setters, src/libsrcml/libsrcml.cpp:269-483. -/
def ConvSet.run (g : Conv) : ConvSet → Run (Status × Conv)
  | .src_encoding v => g.setArchive (.setSrcEncoding v)
  | .xml_encoding v => g.setArchive (.setXmlEncoding v)
  | .language v => g.setArchive (.setLanguage v)
  | .filename v => g.setUnit (.filename v)
  | .url v => g.setArchive (.setUrl v)
  | .version v => g.setArchive (.setVersion v)
  | .timestamp v => g.setUnit (.timestamp v)
  | .options o => g.setArchive (.setOptions o)
  | .enable_option o => g.setArchive (.enableOption o)
  | .disable_option o => g.setArchive (.disableOption o)
  | .tabstop n => g.setArchive (.setTabstop n)
  | .register_file_extension e l => g.setArchive (.registerExtension e l)
  | .register_namespace p u => g.setArchive (.registerNamespace p u)
  | .processing_instruction t d => g.setArchive (.setProcessingInstruction t d)
  | .eol n => g.setUnit (.eol n)
  | .srcdiff_revision n => g.setArchive (.setSrcdiffRevision n)

/-- `srcml_error_string`, src/libsrcml/libsrcml.cpp:843. -/
def Conv.errorString (g : Conv) : Str := g.archive.errorString

/-- The test for a name that ends in `.xml` or `.srcml`, src/libsrcml/libsrcml.cpp:217-220; the characters are taken from the end, `tolower` is that of the C locale. The name has more than four characters, and for `srcml` the
sixth from the end is looked at, which is in front of the name if it has five. -/
def xmlName (name : Str) : Run Bool :=
  match name.reverse with
  | c1 :: c2 :: c3 :: c4 :: c5 :: rest =>
    if c1.toLower = 'l' ∧ c2.toLower = 'm' then
      if c3.toLower = 'x' ∧ c4 = '.' then .val true
      else if c3.toLower = 'c' ∧ c4.toLower = 'r' ∧ c5.toLower = 's' then
        match rest with
        | [] => .ub
        | c6 :: _ => .val (decide (c6.toLower = '.'))
      else .val false
    else .val false
  | _ => .val false

/-- The file system and the libraries. `writable`: libxml2 can open the file for writing. `units`: the units that the reader gives for a srcML file, `none` if libxml2 cannot open it
(src/libsrcml/srcml_archive.cpp:1067-1075). -/
structure ConvLib extends ParseLib where
  writable : Str → Bool
  units : Str → Option (List UnitData)

/-- What a call of `srcml` leaves: its status, the settings, and what the output file holds if the call opened it, src/libsrcml/libsrcml.cpp:151-253. -/
structure ConvResult where
  status : Status
  state : Conv
  output : Option Str

/-- A return with an error message, src/libsrcml/libsrcml.cpp:153-157, 223-230. -/
def Conv.refuse (g : Conv) (st : Status) (message : Str) : Run ConvResult :=
  .val { status := st, state := { g with archive := { g.archive with errorString := message } }, output := none }

/-- The metadata of the unit, src/libsrcml/libsrcml.cpp:183-202. The setters return OK always. -/
def Conv.newUnit (g : Conv) (a : Archive) (input : Str) : UnitData :=
  let u := ((UnitSet.language a.language).run srcml_unit_create).2
  let u := if g.unit.filename ≠ none then ((UnitSet.filename g.unit.filename).run u).2 else ((UnitSet.filename (some input)).run u).2
  let u := ((UnitSet.version a.version).run u).2
  ((UnitSet.timestamp g.unit.timestamp).run u).2

/-- The archive goes out of scope: it is closed and freed, src/libsrcml/srcml_types.hpp:265-271. -/
def convEnd (lib : ConvLib) (g : Conv) (output : Str) (st : Status) (s : ArchiveIO) : Run ConvResult :=
  s.close.bind (fun s => .val { status := st, state := g, output := if lib.writable output then some s.kept else none })

/-- The parsed unit is written, src/libsrcml/libsrcml.cpp:209-212. -/
def convWrite (lib : ConvLib) (g : Conv) (output : Str) (a : Archive) (s : ArchiveIO) (r : Status × Option UnitObj) : Run ConvResult :=
  match r with
  | (.ok, some v) => (s.writeUnit a (some v.data) none).bind (fun w => convEnd lib g output w.1 w.2)
  | (st, _) => convEnd lib g output st s

/-- The archive after it was opened and made solitary, src/libsrcml/libsrcml.cpp:162-181; `srcml_archive_write_open_filename` always returns OK. Failures of allocation are not modelled. -/
def convOpened (lib : ConvLib) (th : ThreadState) (g : Conv) (output : Str) : Run ArchiveIO :=
  let s := (({ settings := cloneOf g.archive, thread := th } : ArchiveIO).openWrite true (.other (lib.writable output))).2
  (SetCall.enableSolitary.run s.settings).bind (fun r => .val { s with settings := r.2 })

/-- Source to srcML, src/libsrcml/libsrcml.cpp:161-212. -/
noncomputable def convSource (lib : ConvLib) (th : ThreadState) (g : Conv) (input output : Str) : Run ConvResult :=
  (convOpened lib th g output).bind (fun s =>
    (srcml_unit_parse lib.toParseLib s.settings th (.filename (some input)) (some { data := g.newUnit s.settings input })).bind (convWrite lib g output s.settings s))

/-- srcML to source, src/libsrcml/libsrcml.cpp:233-249: only the first unit is read; the reader of the archive is a parameter. -/
def convBack (lib : ConvLib) (th : ThreadState) (g : Conv) (input output : Str) : Run ConvResult :=
  match ({ settings := cloneOf g.archive, thread := th } : ArchiveIO).openRead true (lib.units input) with
  | (.ok, s) =>
    match s.readUnit with
    | (none, _) => .val { status := .ok, state := g, output := none }
    | (some u, s) =>
      (srcml_unit_unparse lib.sax { s.settings with type := .read } some (lib.writable output) (.filename (some output)) (some { data := u })).bind (fun r =>
        .val { status := r.1, state := g, output := r.2.2 })
  | (st, _) => .val { status := st, state := g, output := none }

/-- `srcml`, src/libsrcml/libsrcml.cpp:151-253. -/
noncomputable def srcml (lib : ConvLib) (th : ThreadState) (g : Conv) (input output : Option Str) : Run ConvResult :=
  match input, output with
  | some input, some output =>
    if (srcml_archive_check_extension g.archive.registeredLanguages (some input)).isSome then convSource lib th g input output
    else
      (xmlName input).bind (fun b =>
        if b || g.archive.language = some "xml".toList then convBack lib th g input output
        else g.refuse .invalidInput (match g.archive.language with
          | some l => "Language '".toList ++ l ++ "' is not supported.".toList
          | none => "No language provided.".toList))
  | _, _ => g.refuse .invalidArgument "No input file provided".toList

end Srcml
