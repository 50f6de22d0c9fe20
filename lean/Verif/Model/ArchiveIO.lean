import Verif.Model.Translator
/-
Opening, writing, reading and closing of an archive.  The two threads of the reader are in Model/Reader.lean; here a reader
is the sequence of the units that it still has to give (justified by `C26_kth_call` and `C28_every_schedule`).
-/
namespace Srcml

/-- `SRCML_ARCHIVE_TYPE`, src/libsrcml/srcml_types.hpp:101. `SRCML_ARCHIVE_RW` is never assigned. -/
inductive IoMode where
  | invalid | read | write
  deriving DecidableEq, Repr

/-- The pointer `output_buffer` of an archive, src/libsrcml/srcml_types.hpp:158: null, a buffer, or a buffer that was freed
together with the text writer of the translator. -/
inductive BufferPtr where
  | null | valid | freed
  deriving DecidableEq, Repr

/-- The part of `srcml_archive` that is about input and output, src/libsrcml/srcml_types.hpp:108-171. `attached` says that the
translator has its text writer and that this writes to the buffer of the archive; `kept` is what was written to
that buffer while this is not so. `delivered` is what the user got at the last close of a memory buffer. -/
structure ArchiveIO where
  settings : Archive
  thread : ThreadState := {}
  mode : IoMode := .invalid
  buffer : BufferPtr := .null
  kept : Str := []
  translator : Option Translator := none
  attached : Bool := false
  rawwrites : Bool := false
  memory : Bool := false
  detached : Bool := false
  delivered : Option Str := none
  reader : List UnitData := []
  deriving DecidableEq, Repr

/-- What was written to the buffer of the archive since it was opened, src/libsrcml/srcml_types.hpp:158-159: the translator
writes to this buffer when it is attached. -/
def ArchiveIO.written (s : ArchiveIO) : Str :=
  if s.attached then (s.translator.map (·.out.w.out)).getD s.kept else s.kept

/-- `srcml_archive_write_create_translator_xml_buffer`, src/libsrcml/srcml_archive.cpp:876-903. Without a buffer the text writer
writes nowhere. Failures of allocation are not modelled. -/
def ArchiveIO.createTranslator (s : ArchiveIO) : ArchiveIO :=
  let t := archiveTranslator s.settings s.thread
  { s with translator := some { t with out := { t.out with w := { t.out.w with out := s.kept } } }
           attached := s.buffer = .valid }

/-- Where an archive is opened to, src/libsrcml/srcml_archive.cpp:915-1022. -/
inductive WriteTarget where
  /-- a buffer in memory -/
  | memory
  /-- a file name, `FILE*`, descriptor or callback; `opened`: libxml2 could open it -/
  | other (opened : Bool)
  deriving DecidableEq, Repr

/-- `srcml_archive_write_open_*`, src/libsrcml/srcml_archive.cpp:915-1022; `argsOk`: no null pointer and no negative descriptor. A
translator that is there stays, with the buffer it has. After a buffer in memory, opening something else leaves the pointers
to the user's variables; the case without a close between the two is not modelled. -/
def ArchiveIO.openWrite (s : ArchiveIO) (argsOk : Bool) (target : WriteTarget) : Status × ArchiveIO :=
  if argsOk = false then (.invalidArgument, s)
  else
    match target with
    | .memory => (.ok, { s with mode := .write, memory := true, detached := false, buffer := .valid, kept := [], attached := false })
    | .other opened =>
      (.ok, { s with mode := .write, buffer := if opened then .valid else .null, kept := [], attached := false,
                     detached := true })

/-- `srcml_archive_read_open_*`, src/libsrcml/srcml_archive.cpp:1037-1180; `argsOk`: no null pointer, no negative descriptor, no
empty memory; `input`: the units of the document, or `none` if libxml2 could not open it. -/
def ArchiveIO.openRead (s : ArchiveIO) (argsOk : Bool) (input : Option (List UnitData)) : Status × ArchiveIO :=
  if argsOk = false then (.invalidArgument, s)
  else
    match input with
    | none => (.ioError, s)
    | some us => (.ok, { s with reader := us, mode := .read })

/-- The translator adds a unit, src/libsrcml/srcml_translator.cpp:194-255. When it has no text writer any more, or none
to this buffer, nothing reaches the buffer. -/
def ArchiveIO.addUnit (s : ArchiveIO) (ua : Archive) (u : UnitData) : Run ArchiveIO :=
  match s.translator with
  | none => .val s
  | some t =>
    match t.addUnit ua u with
    | .ub => .ub
    | .val (t', _) => .val { s with translator := some t' }

/-- `srcml_archive_write_unit`, src/libsrcml/srcml_archive.cpp:1201-1230. `ua` is the archive of the unit. `late`: the unit as it is
after its body is read from its own archive, if that is open for reading. -/
def ArchiveIO.writeUnit (s : ArchiveIO) (ua : Archive) (unit : Option UnitData) (late : Option UnitData) :
    Run (Status × ArchiveIO) :=
  match unit with
  | none => .val (.invalidArgument, s)
  | some u =>
    if u.readBody = false ∧ u.readHeader = false then .val (.uninitializedUnit, s)
    else
      let u := if u.readBody = false then late.getD u else u
      if u.readBody = false then .val (.uninitializedUnit, s)
      else if s.mode ≠ .write then .val (.invalidIoOperation, s)
      else
        let s := if s.translator = none then s.createTranslator else s
        match s.addUnit ua u with
        | .ub => .ub
        | .val s => .val (.ok, s)

/-- `srcml_archive_write_string`, src/libsrcml/srcml_archive.cpp:1244-1255: the mode of the archive is not tested. `text`: none for
a null pointer or a negative length. -/
def ArchiveIO.writeString (s : ArchiveIO) (text : Option Str) : Run (Status × ArchiveIO) :=
  match text with
  | none => .val (.invalidArgument, s)
  | some x =>
    match s.buffer with
    | .freed => .ub
    | .null => .val (.ok, { s with rawwrites := true })
    | .valid =>
      if s.attached then
        .val (.ok, { s with
          rawwrites := true
          translator := s.translator.map (fun t => { t with out := { t.out with w := t.out.w.bufferWrite x } }) })
      else .val (.ok, { s with rawwrites := true, kept := s.kept ++ x })

/-- `srcml_archive_read_unit`, src/libsrcml/srcml_archive.cpp:1268-1288. -/
def ArchiveIO.readUnit (s : ArchiveIO) : Option UnitData × ArchiveIO :=
  if s.mode ≠ .read then (none, s)
  else
    match s.reader with
    | [] => (none, s)
    | u :: us => (some u, { s with reader := us })

/-- `srcml_archive_skip_unit`, src/libsrcml/srcml_archive.cpp:1299-1317. -/
def ArchiveIO.skipUnit (s : ArchiveIO) : Bool × ArchiveIO :=
  if s.mode ≠ .read then (false, s)
  else
    match s.reader with
    | [] => (false, s)
    | _ :: us => (true, { s with reader := us })

/-- `archive->translator->close()`, src/libsrcml/srcml_archive.cpp:1342-1344: the text writer is freed, and the buffer with it. -/
def ArchiveIO.closeTranslator (s : ArchiveIO) : ArchiveIO :=
  match s.translator with
  | none => s
  | some t =>
    if s.attached then
      { s with translator := some t.close, attached := false, buffer := .freed, kept := t.close.out.w.out }
    else { s with translator := some t.close }

/-- `srcml_archive_close`, src/libsrcml/srcml_archive.cpp:1332-1360. The buffer in memory is handed out; once it has been handed out
its size is 0. -/
def ArchiveIO.close (s : ArchiveIO) : Run ArchiveIO :=
  let s := if s.mode = .write ∧ s.rawwrites = false ∧ s.translator = none then s.createTranslator else s
  let s := s.closeTranslator
  if s.rawwrites = true ∧ s.buffer = .freed then .ub
  else
    let s := if s.rawwrites = true ∧ s.buffer = .valid then { s with buffer := .null } else s
    let s := if s.memory then
        { s with delivered := some (if s.detached then [] else s.kept), detached := true } else s
    .val { s with mode := .invalid }

/-- The calls on an archive, src/libsrcml/srcml_archive.cpp:915-1360. -/
inductive IoCall where
  | openWrite (argsOk : Bool) (target : WriteTarget)
  | openRead (argsOk : Bool) (input : Option (List UnitData))
  | writeUnit (ua : Archive) (unit late : Option UnitData)
  | writeString (text : Option Str)
  | readUnit
  | skipUnit
  | close
  deriving DecidableEq, Repr

/-- The results of the calls, src/libsrcml/srcml_archive.cpp:915-1360. -/
inductive IoResult where
  | status (s : Status) | unit (u : Option UnitData) | skipped (b : Bool) | nothing
  deriving DecidableEq, Repr

/-- One call, src/libsrcml/srcml_archive.cpp:915-1360. -/
def ArchiveIO.call (s : ArchiveIO) : IoCall → Run (IoResult × ArchiveIO)
  | .openWrite ok t => .val (.status (s.openWrite ok t).1, (s.openWrite ok t).2)
  | .openRead ok i => .val (.status (s.openRead ok i).1, (s.openRead ok i).2)
  | .writeUnit ua u l =>
    match s.writeUnit ua u l with
    | .ub => .ub
    | .val (r, s) => .val (.status r, s)
  | .writeString x =>
    match s.writeString x with
    | .ub => .ub
    | .val (r, s) => .val (.status r, s)
  | .readUnit => .val (.unit s.readUnit.1, s.readUnit.2)
  | .skipUnit => .val (.skipped s.skipUnit.1, s.skipUnit.2)
  | .close =>
    match s.close with
    | .ub => .ub
    | .val s => .val (.nothing, s)

/-- A sequence of calls, src/libsrcml/srcml_archive.cpp:915-1360. -/
def ArchiveIO.calls (s : ArchiveIO) : List IoCall → Run ArchiveIO
  | [] => .val s
  | c :: cs =>
    match s.call c with
    | .ub => .ub
    | .val (_, s) => s.calls cs

end Srcml
