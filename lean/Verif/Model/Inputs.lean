import Verif.Model.InputName
import Verif.Model.Language
/-
From the inputs of the command to requests for parsing: single files, entries of archives of other kinds, directories.
-/
namespace Srcml

/-- The options of the command that are looked at here, src/client/srcml_options.hpp and src/client/srcml_cli.hpp:36-80 (`option(...)`). -/
structure CmdOptions where
  verbose : Bool := false
  quiet : Bool := false
  noarchive : Bool := false
  toDirectory : Bool := false
  timestamp : Bool := false
  xmlFragment : Bool := false
  xmlRaw : Bool := false
  deriving DecidableEq, Repr

/-- The parts of `srcml_request_t` used here, src/client/srcml_cli.hpp:115-136. -/
structure CmdRequest where
  attLanguage : Option Str := none
  attFilename : Option Str := none
  attUrl : Option Str := none
  attVersion : Option Str := none
  outputFilename : Str := []
  deriving DecidableEq, Repr

/-- `ParseRequest`, src/client/ParseRequest.hpp:33-56, without the unit, the results and the archives. The position is that in the list of the requests. -/
structure ParseReq where
  language : Str := []
  filename : Option Str := none
  url : Option Str := none
  version : Option Str := none
  buffer : Str := []
  diskFilename : Option Str := none
  diskDir : Option Str := none
  timeStamp : Option Str := none
  status : Status := .ok
  deriving DecidableEq, Repr

/-- Removing `./` at the start of a name, src/client/src_input_libarchive.cpp:112-117, 185-190 and src/client/srcml_consume.cpp:75-79. The iterator of an empty string is
dereferenced: undefined behaviour. -/
def stripDots : Str → Run Str
  | [] => .ub
  | '.' :: '/' :: rest => stripDots rest
  | s => .val s

/-- The formats of libarchive that are told apart, src/client/src_input_libarchive.cpp:154, 168. -/
inductive ArchFormat where
  | raw | empty | archive
  deriving DecidableEq, Repr

/-- An entry of an archive: `archive_entry` with its data blocks (libarchive), src/client/src_input_libarchive.cpp:160-164, 245, 255-270. The data are what `archive_read_data_block` gives before
it gives anything but `ARCHIVE_OK`; the offsets of the blocks are not looked at. -/
structure ArchEntry where
  path : Str
  dir : Bool := false
  blocks : List Str := []
  mtime : Str := []
  deriving DecidableEq, Repr

/-- An open archive of libarchive: its format, the entries, and whether after them the end of the archive was reached or an error,
src/client/src_input_libarchive.cpp:134-147. -/
structure ArchIn where
  format : ArchFormat
  entries : List ArchEntry
  eof : Bool := true
  deriving DecidableEq, Repr

/-- What stays the same in the loop over the entries, src/client/src_input_libarchive.cpp:97-100. `reg`: the registered extensions of the output archive; `pre`: the prefix
of the input (src/client/srcml_input_src.hpp:76). -/
structure LibConf where
  opts : CmdOptions := {}
  req : CmdRequest := {}
  reg : Registry
  input : InputSrc
  pre : Str := []
  format : ArchFormat

/-- The name for a request, src/client/src_input_libarchive.cpp:164-199; `path`: none for the end of the archive. `solitary`: the output archive is one unit. -/
def LibConf.name (c : LibConf) (solitary : Bool) (path : Option Str) : Run Str :=
  let f := path.getD []
  let f := if c.format = .raw then "data".toList else f
  let f := if f ≠ "data".toList ∧ f ≠ [] ∧ c.pre ≠ [] then c.pre ++ '/' :: f else f
  let f := if f = [] ∨ f = "data".toList then
      (stripDots c.input.resource).bind (fun f => .val (c.input.compressions.foldl (fun f x => f.take (f.length - x.length)) f))
    else .val f
  f.bind (fun f => .val (match c.req.attFilename with
    | some n => if solitary then n else f
    | none => f))

/-- The language for a request, src/client/src_input_libarchive.cpp:202-219; empty: none. -/
def LibConf.language (c : LibConf) (filename : Str) : Str :=
  let l := match c.req.attLanguage with
    | some l => if c.input.protocol = "text".toList ∨ c.input.protocol = "stdin".toList ∨ (srcml_archive_check_extension c.reg (some filename)).isSome then l else []
    | none => []
  let l := if l = [] then (srcml_archive_check_extension c.reg (some filename)).getD [] else l
  if l = [] then (srcml_archive_check_extension c.reg (some c.input.extension)).getD [] else l

/-- What one round of the loop does: leave the program, go on, or schedule a request, src/client/src_input_libarchive.cpp:149-275. -/
inductive LibStep where
  | exit
  | skip
  | request (r : ParseReq)
  deriving DecidableEq, Repr

/-- One round of the loop after directories are skipped, src/client/src_input_libarchive.cpp:163-273; `none`: the end of the archive. The time of an entry that was
never read is that of an uninitialised pointer. -/
def LibConf.round (c : LibConf) (solitary : Bool) (e : Option ArchEntry) : Run LibStep :=
  if (if c.format = .raw then "data".toList else (e.map (·.path)).getD []) = "data".toList ∧ c.req.attLanguage = none ∧ c.input.filename = "stdin://-".toList then .val .exit
  else
    (c.name solitary (e.map (·.path))).bind (fun f =>
      if c.language f = [] ∧ c.opts.verbose = false then .val .skip
      else if c.opts.timestamp = true ∧ e = none then .ub
      else .val (.request {
        diskDir := if c.opts.noarchive then some c.req.outputFilename else none
        filename := if c.req.attFilename.isSome ∨ f ≠ "-".toList then some f else none
        url := c.req.attUrl
        version := c.req.attVersion
        language := c.language f
        status := if c.language f ≠ [] then .ok else .unsetLanguage
        timeStamp := if c.opts.timestamp then e.map (·.mtime) else none
        buffer := if c.language f ≠ [] then ((e.map (·.blocks)).getD []).flatten else [] }))

/-- What an input gives: the requests in order, the number that is returned, whether the output archive is still one unit (`solitary`), warnings, and whether the program was left
with `exit(1)`, src/client/src_input_libarchive.cpp:97-279. -/
structure InputRun where
  requests : List ParseReq := []
  handled : Int := 0
  solitary : Bool := true
  warnings : Nat := 0
  exited : Bool := false
  deriving DecidableEq, Repr

/-- The loop over the entries, src/client/src_input_libarchive.cpp:141-278, with `count` requests counted before. Errors of libcurl are not modelled. -/
def LibConf.loop (c : LibConf) (eof : Bool) (solitary : Bool) (count : Nat) : List ArchEntry → Run InputRun
  | [] =>
    if eof = true ∧ count = 0 then
      let solitary := if c.format ≠ .raw ∧ c.format ≠ .empty then false else solitary
      (c.round solitary none).bind (fun s => .val (match s with
        | .exit => { solitary := solitary, exited := true }
        | .skip => { handled := 1, solitary := solitary }
        | .request r => { requests := [r], handled := 1, solitary := solitary }))
    else .val { handled := count, solitary := solitary }
  | e :: es =>
    let solitary := if count = 0 ∧ c.format ≠ .raw ∧ c.format ≠ .empty then false else solitary
    if e.dir then c.loop eof solitary count es
    else
      (c.round solitary (some e)).bind (fun s => match s with
        | .exit => .val { solitary := solitary, exited := true }
        | .skip => c.loop eof solitary (count + 1) es
        | .request r => (c.loop eof solitary (count + 1) es).bind (fun rest => .val { rest with requests := r :: rest.requests }))

/-- The extensions known to the library without an archive: `srcml_check_extension` with `global_archive`, src/libsrcml/libsrcml.cpp:770-773. -/
def srcml_check_extension (filename : Str) : Option Str := srcml_archive_check_extension Registry.create (some filename)

/-- `src_input_libarchive`, src/client/src_input_libarchive.cpp:97-279. `arch`: what libarchive makes of the input (`none`: it cannot be opened, with a warning); `skip`, `pre`: the members of the input
that the input of directories sets. Inputs with a `FILE*` do not occur here. -/
def src_input_libarchive (opts : CmdOptions) (req : CmdRequest) (reg : Registry) (solitary : Bool) (input : InputSrc) (skip : Bool) (pre : Str) (arch : Option ArchIn) : Run InputRun :=
  if (input.fd = none ∧ input.compressions = [] ∧ input.archives = [] ∧ srcml_check_extension input.plainfile = none) ∨ skip = true then
    if opts.verbose = false then .val { solitary := solitary }
    else (stripDots input.resource).bind (fun f => .val { solitary := solitary, handled := 1, requests :=
      [{ filename := some f, url := req.attUrl, version := req.attVersion, status := .unsetLanguage }] })
  else
    match arch with
    | none => .val { solitary := solitary, warnings := 1 }
    | some a => LibConf.loop { opts := opts, req := req, reg := reg, input := input, pre := pre, format := a.format } a.eof solitary 0 a.entries

/-- `src_input_file`, src/client/src_input_file.cpp:28-64. The name of a request without one is dereferenced when there is no language. -/
def src_input_file (opts : CmdOptions) (req : CmdRequest) (reg : Registry) (solitary : Bool) (input : InputSrc) (arch : Option ArchIn) : Run InputRun :=
  if opts.verbose then src_input_libarchive opts req reg solitary input false [] arch
  else
    let filename := match req.attFilename with
      | some n => some n
      | none => if input.resource ≠ "_".toList then some input.resource else none
    let language := req.attLanguage.getD []
    let done (l : Str) : Run InputRun := .val { solitary := solitary, handled := 1, requests := [{
      diskDir := if opts.noarchive then some req.outputFilename else none
      filename := filename, url := req.attUrl, version := req.attVersion, language := l, diskFilename := some input.resource }] }
    if language = [] then
      match filename with
      | none => .ub
      | some f => done ((srcml_archive_check_extension reg (some f)).getD [])
    else done language

/-! ### Directories -/

/-- What is in a directory: the nodes with their names, as the disk reader of libarchive finds them (src/client/src_input_filesystem.cpp:61-99). -/
inductive FsTree where
  | nil
  | file (name : Str) (rest : FsTree)
  | other (name : Str) (rest : FsTree)
  | dir (name : Str) (kids rest : FsTree)
  deriving DecidableEq, Repr

/-- The path of a node in a directory (libarchive; src/client/src_input_filesystem.cpp:77). -/
def fsJoin (dir name : Str) : Str := if dir.getLast? = some '/' then dir ++ name else dir ++ '/' :: name

/-- `filename[filename.find_last_of("/") + 1] == '.'`, src/client/src_input_filesystem.cpp:80. -/
def fsHidden (path : Str) : Bool :=
  match findLast '/' path with
  | none => path.head? = some '.'
  | some p => path[p + 1]? = some '.'

/-- The regular files that the loop collects below a directory, src/client/src_input_filesystem.cpp:75-99: nodes with a dot in front are not looked at, and directories among them not entered. -/
def FsTree.collect (path : Str) : FsTree → List Str
  | .nil => []
  | .file name rest => (if fsHidden (fsJoin path name) then [] else [fsJoin path name]) ++ rest.collect path
  | .other _ rest => rest.collect path
  | .dir name kids rest => (if fsHidden (fsJoin path name) then [] else kids.collect (fsJoin path name)) ++ rest.collect path

/-- The order of strings, `std::string::operator<` as used by `std::sort`, src/client/src_input_filesystem.cpp:103. -/
def strLe : Str → Str → Bool
  | [], _ => true
  | _ :: _, [] => false
  | a :: as, b :: bs => if a = b then strLe as bs else decide (a.toNat < b.toNat)

/-- The files of a directory in the order in which they are handled, src/client/src_input_filesystem.cpp:50-103. The first node that is seen is the directory itself. `cwd`: the working directory. -/
def directoryFiles (cwd : Str) (raw : Str) (tree : FsTree) : List Str :=
  let input := if raw = ".".toList then cwd else raw
  (if fsHidden input then [] else tree.collect input).mergeSort strLe

/-- The loop over the files, src/client/src_input_filesystem.cpp:105-120, not in the mode of the parser test. `arch`: what libarchive makes of a file. -/
def filesLoop (opts : CmdOptions) (req : CmdRequest) (reg : Registry) (stat : Str → FileKind) (arch : Str → Option ArchIn) (solitary : Bool) : List Str → Run InputRun
  | [] => .val { solitary := solitary, handled := 1 }
  | f :: fs =>
    (inputSrc stat f).bind (fun input =>
      (src_input_libarchive opts req reg solitary input (!input.archives.isEmpty) (f.take ((findLast '/' f).getD f.length)) (arch input.resource)).bind (fun r =>
        if r.exited then .val r
        else (filesLoop opts req reg stat arch r.solitary fs).bind (fun rest => .val { rest with requests := r.requests ++ rest.requests, warnings := r.warnings + rest.warnings })))

/-- `src_input_filesystem`, src/client/src_input_filesystem.cpp:45-123. -/
def src_input_filesystem (opts : CmdOptions) (req : CmdRequest) (reg : Registry) (stat : Str → FileKind) (arch : Str → Option ArchIn) (solitary : Bool) (cwd raw : Str) (tree : FsTree) :
    Run InputRun :=
  filesLoop opts req reg stat arch solitary (directoryFiles cwd raw tree)

end Srcml
