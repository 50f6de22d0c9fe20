import Verif.Model.ArchiveIO
import Verif.Model.UnitApi
/-
The command that turns an archive into source files, the selection of a unit, and the texts of its messages.
-/
namespace Srcml

/-! ### Messages -/

/-- The loop of `SRCMLstatus` that looks for the place of the first argument, src/client/SRCMLStatus.hpp:123-133: the text up to that place,
the argument, and the rest of the format. After a `%` at the end of the format the rest is read behind its end. -/
def statusFill (value : Str) : Str → Run Str
  | [] => .val []
  | ['%'] => .ub
  | '%' :: c :: rest =>
    if c ≠ '%' then .val (value ++ rest)
    else match statusFill value rest with
      | .ub => .ub
      | .val r => .val ('%' :: r)
  | c :: rest =>
    match statusFill value rest with
    | .ub => .ub
    | .val r => .val (c :: r)

/-- `SRCMLstatus` with a format and arguments, src/client/SRCMLStatus.hpp:112-137: the message that is logged. The arguments are given as
they are written to a stream. -/
def statusText (format : Str) : List Str → Run Str
  | [] => .val format
  | v :: vs =>
    match statusFill v format with
    | .ub => .ub
    | .val f => statusText f vs

/-! ### Source from an archive -/

/-- The parts of `srcml_request_t` used here, src/client/srcml_cli.hpp:130-158. -/
structure SrcRequest where
  unit : Int := 0
  srcEncoding : Option Str := none
  eol : Option Nat := none
  deriving DecidableEq, Repr

/-- What the command has done: the text on the standard output, the files that it wrote, the number of error messages, and whether it left
with `exit(1)`, src/client/create_src.cpp:89-229. -/
structure SrcRun where
  stdout : Str := []
  files : List (Str × Str) := []
  errors : Nat := 0
  exited : Bool := false
  deriving DecidableEq, Repr

/-- The archive of the units that are read, with the mode in which it is open, src/libsrcml/srcml_types.hpp:108-116. -/
def ArchiveIO.archive (s : ArchiveIO) : Archive :=
  { s.settings with type := match s.mode with
      | .read => .read
      | .write => .write
      | .invalid => .invalid }

/-- `for (int i = 1; i < unit; ++i) if (!srcml_archive_skip_unit(arch)) ...`, src/client/create_src.cpp:113-118, 162-167 and
src/client/srcml_input_srcml.cpp:83-88: `n` units are skipped; `none` when one of them is not there. -/
def ArchiveIO.skipUnits (s : ArchiveIO) : Nat → Option ArchiveIO
  | 0 => some s
  | n + 1 => if s.skipUnit.1 then s.skipUnit.2.skipUnits n else none

/-- `srcml_unit_set_eol` when an end of line is requested, src/client/create_src.cpp:136-137, 181-182. -/
def SrcRequest.setEol (r : SrcRequest) (u : UnitData) : UnitData :=
  match r.eol with
  | none => u
  | some e => (UnitSet.run u (.eol e)).2

/-- `srcml_archive_set_src_encoding` when an encoding is requested, src/client/create_src.cpp:132-133, 177-178. -/
def SrcRequest.setEncoding (r : SrcRequest) (s : ArchiveIO) : ArchiveIO :=
  match r.srcEncoding with
  | none => s
  | some e => { s with settings := { s.settings with srcEncoding := some e } }

theorem readUnit_lt {s s' : ArchiveIO} {u : UnitData} (h : s.readUnit = (some u, s')) : s'.reader.length < s.reader.length := by
  unfold ArchiveIO.readUnit at h
  split at h
  · cases h
  · cases hr : s.reader with
    | nil => rw [hr] at h; cases h
    | cons x xs => rw [hr] at h; cases h; simp

theorem setEncoding_reader (r : SrcRequest) (s : ArchiveIO) : (r.setEncoding s).reader = s.reader := by
  unfold SrcRequest.setEncoding; split <;> rfl

/-- The loop of `create_src` that writes units to the standard output, src/client/create_src.cpp:120-155; `sep`: this is not the first one.
A unit that was read has its body, so that `read_body` is not called again. Writing to the standard output does not fail. -/
def srcToStdout (sax : Sax) (r : SrcRequest) (s : ArchiveIO) (sep : Bool) : Run SrcRun :=
  match h : s.readUnit with
  | (none, _) => .val (if r.unit ≠ 0 then { errors := 1, exited := true } else {})
  | (some u, s') =>
    let t := r.setEncoding s'
    match srcml_unit_unparse sax t.archive some true (.fd 1) (some { data := r.setEol u }) with
    | .ub => .ub
    | .val (_, _, x) =>
      let here := (if sep then [Char.ofNat 0] else []) ++ x.getD []
      if r.unit ≠ 0 then .val { stdout := here }
      else
        match srcToStdout sax r t true with
        | .ub => .ub
        | .val rest => .val { rest with stdout := here ++ rest.stdout }
termination_by s.reader.length
decreasing_by
  rw [setEncoding_reader]
  exact readUnit_lt h

/-- One unit to a file, src/client/create_src.cpp:169-188; `opened`: the file could be opened. -/
def srcToFile (sax : Sax) (r : SrcRequest) (s : ArchiveIO) (name : Str) (opened : Bool) : Run SrcRun :=
  match s.readUnit with
  | (none, _) => .val { errors := 1, exited := true }
  | (some u, s') =>
    let t := r.setEncoding s'
    match srcml_unit_unparse sax t.archive some opened (.filename (some name)) (some { data := r.setEol u }) with
    | .ub => .ub
    | .val (.ok, _, x) => .val { files := [(name, x.getD [])] }
    | .val _ => .val { errors := 1, exited := true }

/-- Where `create_src` puts the source text, src/client/create_src.cpp:93, 104-105, 157, 190. -/
inductive SrcTarget where
  | stdout
  | file (name : Str) (opened : Bool)
  deriving DecidableEq, Repr

/-- `create_src` for one input that is not stored in an archive of another kind, src/client/create_src.cpp:104-188. `s` is the opened input; an
input that cannot be opened is an archive in the mode `invalid` here, for the calls on a null pointer have the same results
(src/libsrcml/srcml_archive.cpp:1270-1274, 1301-1305). -/
def createSrc (sax : Sax) (r : SrcRequest) (s : ArchiveIO) (to : SrcTarget) : Run SrcRun :=
  match s.skipUnits (r.unit - 1).toNat with
  | none => .val { errors := 1, exited := true }
  | some s =>
    match to with
    | .stdout => srcToStdout sax r s false
    | .file name opened => srcToFile sax r s name opened

/-! ### An archive as input of a new archive -/

/-- What `srcml_input_srcml` does with the units of its input: those that it hands to the queue, in this order, and how it ends,
src/client/srcml_input_srcml.cpp:34-139. -/
structure Scheduled where
  units : List UnitData := []
  errors : Nat := 0
  exited : Bool := false
  deriving DecidableEq, Repr

/-- The language of the output archive, src/client/srcml_input_srcml.cpp:122-123. -/
def withLanguage (language : Option Str) (u : UnitData) : UnitData :=
  match language with
  | none => u
  | some l => { u with language := some l }

/-- `while (unit = srcml_archive_read_unit(...))`, src/client/srcml_input_srcml.cpp:94-131, not in the mode of the parser test. -/
def scheduleUnits (language : Option Str) (unit : Int) (s : ArchiveIO) : List UnitData :=
  match h : s.readUnit with
  | (none, _) => []
  | (some u, s') =>
    withLanguage language u :: (if unit ≠ 0 then [] else scheduleUnits language unit s')
termination_by s.reader.length
decreasing_by exact readUnit_lt h

/-- `srcml_input_srcml` after the input was opened, src/client/srcml_input_srcml.cpp:82-138, not in the mode of the parser test. -/
def srcmlInput (language : Option Str) (unit : Int) (s : ArchiveIO) : Scheduled :=
  match s.skipUnits (unit - 1).toNat with
  | none => { errors := 1, exited := true }
  | some s =>
    if (scheduleUnits language unit s).isEmpty then { errors := 1, exited := true }
    else { units := scheduleUnits language unit s }

/-- `for a single file request, copy the unit number to that input source`, src/client/srcml.cpp:81-83; the number with which an input starts is 0,
src/client/srcml_input_src.cpp:52, 109, 117. -/
def inputUnit (inputs : Nat) (unit : Int) : Int :=
  if inputs = 1 ∧ unit ≠ 0 then unit else 0

/-! ### Files and archives of other kinds -/

/-- The name of a file in the output directory, src/client/src_output_filesystem.cpp:31-34, 55-57. -/
def outputFileName (dir filename : Str) : Str :=
  (if dir ≠ ".".toList ∧ dir ≠ "./".toList then dir else []) ++ '/' :: filename

/-- `src_output_filesystem`, src/client/src_output_filesystem.cpp:29-67: the files that are written, in order, with their texts. Creating directories
and the log are not modelled; `opened` says which files can be opened. -/
def srcToDirectory (sax : Sax) (s : ArchiveIO) (dir : Str) (opened : Str → Bool) : Run (List (Str × Str)) :=
  match h : s.readUnit with
  | (none, _) => .val []
  | (some u, s') =>
    match u.filename with
    | none => srcToDirectory sax s' dir opened
    | some f =>
      match srcml_unit_unparse sax s'.archive some (opened (outputFileName dir f)) (.filename (some (outputFileName dir f))) (some { data := u }) with
      | .ub => .ub
      | .val (_, _, x) =>
        match srcToDirectory sax s' dir opened with
        | .ub => .ub
        | .val rest => .val ((match x with
            | none => []
            | some x => [(outputFileName dir f, x)]) ++ rest)
termination_by s.reader.length
decreasing_by all_goals exact readUnit_lt h

/-- `lang2ext`, src/client/src_archive.cpp:69-75, and `language_to_std_extension`, src/client/src_archive.cpp:99-106; a null pointer cannot be
made a string. -/
def stdExtension : Option Str → Run Str
  | none => .ub
  | some l => .val ((([
    ("C", ".c"), ("C++", ".cpp"), ("C#", ".cs"), ("Java", ".java")].find? (fun p => p.1.toList = l)).map (·.2.toList)).getD [])

/-- The name of the entry of a unit in an archive of another kind, src/client/src_output_libarchive.cpp:43-51. -/
def entryName (n : Nat) (u : UnitData) : Run Str :=
  if u.filename.getD [] = [] then
    match stdExtension u.language with
    | .ub => .ub
    | .val e => .val ("srcml_unit_".toList ++ (toString n).toList ++ e)
  else .val (u.filename.getD [])

/-- `src_output_libarchive`, src/client/src_output_libarchive.cpp:35-85: the entries that are written, with the texts up to the reported size; `n`
units have been read already. Failures of libarchive are not modelled. -/
def srcToEntries (sax : Sax) (s : ArchiveIO) (n : Nat) : Run (List (Str × Str)) :=
  match h : s.readUnit with
  | (none, _) => .val []
  | (some u, s') =>
    match entryName (n + 1) u with
    | .ub => .ub
    | .val name =>
      match srcml_unit_unparse sax s'.archive some true (.memory true true) (some { data := u }) with
      | .ub => .ub
      | .val (.ok, _, some x) =>
        match srcToEntries sax s' (n + 1) with
        | .ub => .ub
        | .val rest => .val ((name, x.take (memoryResult x).2) :: rest)
      | .val _ => .ub
termination_by s.reader.length
decreasing_by exact readUnit_lt h

/-- All inputs to one archive of another kind, src/client/create_src.cpp:218-227. -/
def inputsToEntries (sax : Sax) : List ArchiveIO → Run (List (Str × Str))
  | [] => .val []
  | s :: ss =>
    match srcToEntries sax s 0 with
    | .ub => .ub
    | .val es =>
      match inputsToEntries sax ss with
      | .ub => .ub
      | .val rest => .val (es ++ rest)

end Srcml
