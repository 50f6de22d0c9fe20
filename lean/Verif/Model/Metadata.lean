import Verif.Model.Pretty
import Verif.Model.UnitSelect
import Verif.Model.ArchiveSettings
/-
The metadata that the command shows of srcML documents.
-/
namespace Srcml

/-- The part of the request that is about metadata, src/client/srcml_cli.hpp:36-59, 144, 161; each flag is an option of the command line (src/client/srcml_cli.cpp:336-380, 598). -/
structure ShowReq where
  encoding : Bool := false
  url : Bool := false
  filename : Bool := false
  language : Bool := false
  version : Bool := false
  hash : Bool := false
  timestamp : Bool := false
  prefixOf : Option Str := none
  units : Bool := false
  info : Bool := false
  longinfo : Bool := false
  list : Bool := false
  pretty : Option Str := none
  unit : Int := 0
  xml : Bool := false
  deriving DecidableEq, Repr

/-- `(display_commands & srcml_request.command) == ...` for an option that is given: it is the only one, src/client/srcml_display_metadata.cpp:143-149, 181. -/
def ShowReq.only (r : ShowReq) : Bool :=
  decide ([r.encoding, r.url, r.filename, r.language, r.version, r.hash, r.timestamp].countP id = 1)

/-- The format of one value, src/client/srcml_display_metadata.cpp:180-228. -/
def showFormat (only asked : Bool) (name : Str) (letter : Char) : Str :=
  if asked then (if only then ['%', letter, '\n'] else name ++ ['=', '"', '%', letter, '"', '\n']) else []

/-- `pretty_meta_header`, src/client/srcml_display_metadata.cpp:179-192. -/
def ShowReq.header (r : ShowReq) : Str :=
  showFormat r.only r.encoding "encoding".toList 'X' ++ showFormat r.only r.url "url".toList 'U'

/-- `pretty_meta_body`, src/client/srcml_display_metadata.cpp:194-228. -/
def ShowReq.body (r : ShowReq) : Str :=
  showFormat r.only r.filename "filename".toList 'f' ++ showFormat r.only r.language "language".toList 'l' ++ showFormat r.only r.version "version".toList 'v' ++
    showFormat r.only r.hash "hash".toList 'h' ++ showFormat r.only r.timestamp "timestamp".toList 't'

/-- `std::setw(n)` with fill to the left, src/client/srcml_display_metadata.cpp:55-57. -/
def padLeft (n : Nat) (s : Str) : Str := List.replicate (n - s.length) ' ' ++ s

/-- The line of one unit, src/client/srcml_display_metadata.cpp:54-60; `n`: its number from 1. -/
def listLine (n : Nat) (u : UnitData) : Str :=
  padLeft 5 (toString n).toList ++ padLeft 5 ((srcml_unit_get_language (some u)).getD []) ++ ' ' :: padLeft 5 (toString (srcml_unit_get_loc (some u))).toList ++
    ' ' :: (srcml_unit_get_hash (some u)).getD [] ++ ' ' :: (srcml_unit_get_filename (some u)).getD [] ++ ['\n']

/-- The loop of `srcml_list`, src/client/srcml_display_metadata.cpp:48-64: the text, the number of units and the lines of code. -/
def listUnits (s : ArchiveIO) (n : Nat) (loc : Int) : Str × Nat × Int :=
  match _h : s.readUnit with
  | (none, _) => ([], n, loc)
  | (some u, s') =>
    let r := listUnits s' (n + 1) (loc + srcml_unit_get_loc (some u))
    (listLine (n + 1) u ++ r.1, r.2)
termination_by s.reader.length
decreasing_by exact readUnit_lt (by assumption)

/-- `srcml_list`, src/client/srcml_display_metadata.cpp:41-67. -/
def srcml_list (s : ArchiveIO) : Str :=
  let r := listUnits s 0 0
  "XML encoding: ".toList ++ s.settings.encoding.getD "(null)".toList ++ '\n' :: r.1 ++ "units: ".toList ++ (toString r.2.1).toList ++ "\nLOC: ".toList ++ (toString r.2.2).toList ++ ['\n']

/-- `name="value"` in a line of its own, if there is a value, src/client/srcml_display_metadata.cpp:86-110. -/
def infoLine (name : Str) (value : Option Str) : Str :=
  match value with
  | none => []
  | some v => name ++ ['=', '"'] ++ v ++ ['"', '\n']

/-- The line of a namespace, src/client/srcml_display_metadata.cpp:74-84. -/
def infoNamespace (n : Namespace) : Str :=
  "xmlns".toList ++ (if n.prefix_ ≠ [] then ':' :: n.prefix_ else []) ++ ['=', '"'] ++ n.uri ++ ['"', '\n']

/-- `while (srcml_archive_skip_unit(srcml_arch)) ++unit_count`, src/client/srcml_display_metadata.cpp:116-119. -/
def skipCount (s : ArchiveIO) : Nat → Nat × ArchiveIO
  | 0 => (0, s)
  | fuel + 1 => if s.skipUnit.1 then let r := skipCount s.skipUnit.2 fuel; (r.1 + 1, r.2) else (0, s)

/-- `srcml_display_info`, src/client/srcml_display_metadata.cpp:69-123: the text, and the archive after it. There cannot be more units than are left. -/
def srcml_display_info (s : ArchiveIO) (long : Bool) : Str × ArchiveIO :=
  let one := !isoption s.settings.options OPTION_ARCHIVE
  let (unit, s1) := s.readUnit
  let text := s.settings.namespaces.flatMap infoNamespace ++ infoLine "encoding".toList s.settings.encoding ++
    infoLine "language".toList (if one then unit.bind (·.language) else none) ++ infoLine "url".toList s.settings.url ++
    infoLine "filename".toList (if one then unit.bind (·.filename) else none)
  if long then
    let r := skipCount s1 s1.reader.length
    (text ++ "units=\"".toList ++ (toString (1 + r.1)).toList ++ ['"', '\n'], r.2)
  else (text, s1)

/-- `srcml_unit_count`, src/client/srcml_display_metadata.cpp:125-139: the number, and the archive after it. -/
def srcml_unit_count (s : ArchiveIO) : Nat × ArchiveIO :=
  match _h : s.readUnit with
  | (none, s') => (0, s')
  | (some u, s') =>
    let r := srcml_unit_count s'
    ((if (srcml_unit_get_language (some u)).isSome then 1 else 0) + r.1, r.2)
termination_by s.reader.length
decreasing_by exact readUnit_lt (by assumption)

/-- What `srcml_pretty` leaves to be read if the format has a part for the units, src/client/srcml_pretty.cpp:236-301. -/
def prettyLeft (unit : Int) (xml : Bool) (us : List UnitData) : List UnitData :=
  if unit > 0 ∧ xml = false then us.drop unit.toNat else []

/-- One input of `srcml_display_metadata` without `--pretty`, src/client/srcml_display_metadata.cpp:176-253. -/
def displayOne (stray : Run Char) (r : ShowReq) (s : ArchiveIO) : Run Str :=
  let p := match r.prefixOf with
    | none => []
    | some u => match srcml_archive_get_prefix_from_uri s.settings (some u) with
      | none => []
      | some p => p ++ ['\n']
  (if r.header = [] ∧ r.body = [] then .val ([], s)
   else (srcml_pretty stray s.settings (r.header ++ " { ".toList ++ r.body ++ " } ".toList) r.unit r.xml s.reader).bind (fun o =>
     .val (o.1, { s with reader := prettyLeft r.unit r.xml s.reader }))).bind (fun shown =>
  let count := if r.units then let c := srcml_unit_count shown.2; ((toString c.1).toList ++ ['\n'], c.2) else ([], shown.2)
  let info := if r.info then srcml_display_info count.2 false else ([], count.2)
  let long := if r.longinfo then srcml_display_info info.2 true else ([], info.2)
  let list := if r.list then srcml_list long.2 else []
  .val (p ++ shown.1 ++ count.1 ++ info.1 ++ long.1 ++ list))

/-- `srcml_display_metadata`, src/client/srcml_display_metadata.cpp:141-255: the text on the standard output, and the number of messages that an input cannot be opened (`none`). With `--pretty` only the first input is shown. -/
def srcml_display_metadata (stray : Run Char) (r : ShowReq) : List (Option ArchiveIO) → Run (Str × Nat)
  | [] => .val ([], 0)
  | none :: _ => .val ([], 1)
  | some s :: rest =>
    match r.pretty with
    | some f => (srcml_pretty stray s.settings f r.unit r.xml s.reader).bind (fun o => .val (o.1, 0))
    | none => (displayOne stray r s).bind (fun t => (srcml_display_metadata stray r rest).bind (fun x => .val (t ++ x.1, x.2)))

end Srcml
