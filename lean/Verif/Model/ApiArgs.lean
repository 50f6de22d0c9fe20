import Verif.Model.ArchiveIO
import Verif.Model.Transform
import Verif.Model.CharBuffer
/-
The checks of arguments at the entry of the API: the functions of the archive that read and write, and those of the transformations,
with their raw arguments. A null pointer is `none` or `false`.
-/
namespace Srcml

/-- The arguments of `srcml_archive_write_open_*` besides the archive, src/libsrcml/srcml_archive.cpp:915-1021. -/
inductive OpenTo where
  | filename (name : Option Str)
  | memory (buffer size : Bool)
  | FILE (file : Bool)
  | fd (n : Int)
  | io (context write close : Bool)
  deriving DecidableEq, Repr

/-- `srcml_archive_write_open_filename`, `_memory`, `_FILE`, `_fd` and `_io`, src/libsrcml/srcml_archive.cpp:915-1021.
`opens`: libxml2 can open the target. -/
def srcml_archive_write_open (opens : OpenTo → Bool) (s : Option ArchiveIO) (to : OpenTo) : Status × Option ArchiveIO :=
  match s with
  | none => (.invalidArgument, none)
  | some s =>
    match to with
    | .filename name => ((s.openWrite name.isSome (.other (opens to))).1, some (s.openWrite name.isSome (.other (opens to))).2)
    | .memory buffer size => ((s.openWrite (buffer && size) .memory).1, some (s.openWrite (buffer && size) .memory).2)
    | .FILE file => ((s.openWrite file (.other (opens to))).1, some (s.openWrite file (.other (opens to))).2)
    | .fd n => ((s.openWrite (decide (0 ≤ n)) (.other (opens to))).1, some (s.openWrite (decide (0 ≤ n)) (.other (opens to))).2)
    | .io context write _ =>
      ((s.openWrite (context && write) (.other (opens to))).1, some (s.openWrite (context && write) (.other (opens to))).2)

/-- The arguments of `srcml_archive_read_open_*` besides the archive, src/libsrcml/srcml_archive.cpp:1037-1180, and of the functions that read an
XSLT program or a RelaxNG schema, src/libsrcml/srcml_transform.cpp:209-398 (these have no `io`). -/
inductive OpenFrom where
  | filename (name : Option Str)
  | memory (buffer : Option Bytes) (size : Nat)
  | FILE (file : Bool)
  | fd (n : Int)
  | io (context read close : Bool)
  deriving DecidableEq, Repr

/-- The checks of the arguments besides the archive, src/libsrcml/srcml_archive.cpp:1068, 1089, 1132, 1152, 1174 and
src/libsrcml/srcml_transform.cpp:211, 234, 256, 279, 322, 345, 367, 390. -/
def OpenFrom.valid : OpenFrom → Bool
  | .filename name => name.isSome
  | .memory buffer size => buffer.isSome && decide (size ≠ 0)
  | .FILE file => file
  | .fd n => decide (0 ≤ n)
  | .io context read _ => context && read

/-- `srcml_archive_read_open_filename`, `_memory`, `_FILE`, `_fd` and `_io`, src/libsrcml/srcml_archive.cpp:1066-1180. `units`: the units of the document
that libxml2 opens, `none` if it cannot. -/
def srcml_archive_read_open (units : OpenFrom → Option (List UnitData)) (s : Option ArchiveIO) (from_ : OpenFrom) : Status × Option ArchiveIO :=
  match s with
  | none => (.invalidArgument, none)
  | some s => ((s.openRead from_.valid (units from_)).1, some (s.openRead from_.valid (units from_)).2)

/-- `srcml_archive_write_unit`, src/libsrcml/srcml_archive.cpp:1201-1230. -/
def srcml_archive_write_unit (ua : Archive) (late : Option UnitData) (s : Option ArchiveIO) (u : Option UnitData) : Run (Status × Option ArchiveIO) :=
  match s with
  | none => .val (.invalidArgument, none)
  | some s => (s.writeUnit ua u late).bind (fun r => .val (r.1, some r.2))

/-- `srcml_archive_write_string`, src/libsrcml/srcml_archive.cpp:1244-1255. Of the text, `len` characters are written; reading past its end is undefined. -/
def srcml_archive_write_string (s : Option ArchiveIO) (text : Option Str) (len : Int) : Run (Status × Option ArchiveIO) :=
  match s with
  | none => .val (.invalidArgument, none)
  | some s =>
    match text with
    | none => .val (.invalidArgument, some s)
    | some x =>
      if len < 0 then .val (.invalidArgument, some s)
      else if x.length < len.toNat then .ub
      else (s.writeString (some (x.take len.toNat))).bind (fun r => .val (r.1, some r.2))

/-- `srcml_archive_read_unit`, src/libsrcml/srcml_archive.cpp:1268-1288. -/
def srcml_archive_read_unit (s : Option ArchiveIO) : Option UnitData × Option ArchiveIO :=
  match s with
  | none => (none, none)
  | some s => (s.readUnit.1, some s.readUnit.2)

/-- `srcml_archive_skip_unit`, src/libsrcml/srcml_archive.cpp:1299-1317: 0 or 1. -/
def srcml_archive_skip_unit (s : Option ArchiveIO) : Nat × Option ArchiveIO :=
  match s with
  | none => (0, none)
  | some s => (if s.skipUnit.1 then 1 else 0, some s.skipUnit.2)

/-- `srcml_archive_close`, src/libsrcml/srcml_archive.cpp:1332-1360. -/
def srcml_archive_close (s : Option ArchiveIO) : Run (Option ArchiveIO) :=
  match s with
  | none => .val none
  | some s => s.close.bind (fun s => .val (some s))

/-- `srcml_archive_free`, src/libsrcml/srcml_archive.cpp:108-133: the archive is used before the check for null (line 129). What is freed is not modelled. -/
def srcml_archive_free (s : Option ArchiveIO) : Run Unit :=
  match s with
  | none => .ub
  | some _ => .val ()

/-- What libxml2 and libxslt say of an XSLT program or a RelaxNG schema: `read` is the document (`none`: it cannot be read, src/libsrcml/srcml_transform.cpp:214),
`program` says that it is one (src/libsrcml/xsltTransformation.cpp:113, src/libsrcml/relaxngTransformation.cpp:38). -/
structure DocLib where
  read : OpenFrom → Option Str
  program : Bool → Str → Bool

/-- `srcml_append_transform_xslt_*` and `srcml_append_transform_relaxng_*`, src/libsrcml/srcml_transform.cpp:209-398. The constructor of the transformation
throws without an exception when the document is not a program or schema (src/libsrcml/xsltTransformation.cpp:114, src/libsrcml/relaxngTransformation.cpp:36,40):
the process is terminated, here `ub`. -/
def srcml_append_transform_document (lib : DocLib) (w : World) (i : Option Addr) (xslt : Bool) (from_ : OpenFrom) : Run (Status × World) :=
  match i with
  | none => .val (.invalidArgument, w)
  | some i =>
    if from_.valid = false then .val (.invalidArgument, w)
    else
      match lib.read from_ with
      | none => .val (.invalidArgument, w)
      | some d => if lib.program xslt d then .val (w.appendDoc i xslt (some d)) else .ub

/-- The functions of the transformations with the check of the archive, src/libsrcml/srcml_transform.cpp:104, 130, 170, 191, 302, 412, 436, 461. -/
def TCall.runPtr (w : World) (i : Option Addr) (c : TCall) : Status × World :=
  match i with
  | none => (.invalidArgument, w)
  | some i => c.run w i

/-- `srcml_unit_apply_transforms` with the checks of archive and unit, src/libsrcml/srcml_transform.cpp:507-517; `fs` are the transformations of the archive. -/
def srcml_unit_apply_transforms {N D : Type} [DecidableEq N] (zero : D) (parse : Str → Option N) (view : N → NodeView)
    (attrsOf : Str → List (Str × Str)) (archive : Option (List (N → TResult N D))) (unit : Option UnitData) (want : Bool) :
    Run (Status × Option (TransformResult D)) :=
  match archive, unit with
  | some fs, some u => applyTransforms zero parse view attrsOf fs u want
  | _, _ => .val (.invalidArgument, none)

/-- `srcml_transform_free`, src/libsrcml/srcml_transform.cpp:770-779. -/
def srcml_transform_free {D : Type} : Option (TransformResult D) → Run Status
  | none => .ub
  | some _ => .val .ok

end Srcml
