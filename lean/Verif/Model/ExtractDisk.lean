import Verif.Model.UnitSelect
/-
Extraction to a directory, with the directories and files on the disk.
-/
namespace Srcml

/-- The parts of a path between slashes, as the system and `rfind('/')` see it, src/client/src_output_filesystem.cpp:49-53. -/
def splitSlash : Str → List Str
  | [] => [[]]
  | c :: cs =>
    if c = '/' then [] :: splitSlash cs
    else match splitSlash cs with
      | [] => [[c]]
      | x :: xs => (c :: x) :: xs

/-- The directories and the file that a path leads through, src/client/src_output_filesystem.cpp:48-65: empty parts and `.` stay where they are. Simplified: `..` and links are names like others here; the properties leave out `..`. -/
def pathNames (s : Str) : List Str := (splitSlash s).filter (fun x => decide (x ≠ [] ∧ x ≠ ['.']))

/-- The disk, from the place where relative paths begin, or its root when the output directory is an absolute path: which directories are there (the place itself is), and which files with which text;
src/client/mkDir.cpp:34-41, src/client/src_output_filesystem.cpp:65. -/
structure Disk where
  dirs : List Str → Bool
  file : List Str → Option Str

/-- `archive_write_header` for a directory, src/client/mkDir.cpp:37-38: libarchive makes it and the directories it is in, as far as there is no file in the way. Simplified: a file at the last place of the path is not replaced; rights and full
disks are left out. -/
def Disk.mkdirs (d : Disk) (p : List Str) : Disk :=
  { d with dirs := fun q => d.dirs q || (q.isPrefixOf p && (List.range (q.length + 1)).all (fun n => (d.file (q.take n)).isNone)) }

/-- Whether a file can be opened for writing, src/libsrcml/srcml_unit.cpp:745-753: its directory is there, and it is itself no directory; the path does not end in a slash or a dot. -/
def Disk.opens (d : Disk) (s : Str) : Bool :=
  let p := pathNames s
  decide (p ≠ []) && ((splitSlash s).getLast?.any (fun x => decide (x ≠ [] ∧ x ≠ ['.']))) && (decide (p.dropLast = []) || d.dirs p.dropLast) && !d.dirs p

/-- The file is written, src/libsrcml/srcml_unit.cpp:745-753. -/
def Disk.write (d : Disk) (s text : Str) : Disk := { d with file := fun q => if q = pathNames s then some text else d.file q }

/-- The text in front of the last slash, or the empty one, src/client/src_output_filesystem.cpp:51-53. -/
def beforeLastSlash (f : Str) : Str := ((f.reverse.dropWhile (fun c => c ≠ '/')).drop 1).reverse

/-- The directory that is made for a file, src/client/src_output_filesystem.cpp:32-34, 49-53. -/
def outputPath (dir f : Str) : Str := outputFileName dir (beforeLastSlash f)

/-- `mkDir::mkdir`, src/client/mkDir.cpp:34-42: nothing is done when the path is that of the last call. -/
def Disk.mkdir (d : Disk) (last path : Str) : Disk := if last ≠ path then d.mkdirs (pathNames path) else d

/-- `src_output_filesystem` on a disk, src/client/src_output_filesystem.cpp:29-67; `last` is the path of the last call of `mkDir::mkdir`, empty at first. The log is not modelled. -/
def extractToDisk (sax : Sax) (s : ArchiveIO) (dir : Str) (d : Disk) (last : Str) : Run Disk :=
  match h : s.readUnit with
  | (none, _) => .val d
  | (some u, s') =>
    match u.filename with
    | none => extractToDisk sax s' dir d last
    | some f =>
      let d := d.mkdir last (outputPath dir f)
      match srcml_unit_unparse sax s'.archive some (d.opens (outputFileName dir f)) (.filename (some (outputFileName dir f))) (some { data := u }) with
      | .ub => .ub
      | .val (_, _, none) => extractToDisk sax s' dir d (outputPath dir f)
      | .val (_, _, some x) => extractToDisk sax s' dir (d.write (outputFileName dir f) x) (outputPath dir f)
termination_by s.reader.length
decreasing_by all_goals exact readUnit_lt h

end Srcml
