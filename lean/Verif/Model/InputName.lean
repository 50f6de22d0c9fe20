import Verif.Model.Basic
/-
Names of inputs and outputs of the command: protocol prefixes, compression and archive extensions.
-/
namespace Srcml

/-- `PROTOCOL_SEPARATOR`, src/client/src_prefix.cpp:28. -/
def PROTOCOL_SEPARATOR : Str := "://".toList

/-- `src_prefix_add_uri(protocol, resource)`, src/client/src_prefix.cpp:30-32. -/
def src_prefix_add_uri2 (protocol resource : Str) : Str := protocol ++ PROTOCOL_SEPARATOR ++ resource

/-- `src_prefix_add_uri(input_file)`, src/client/src_prefix.cpp:34-50. -/
def src_prefix_add_uri (input : Str) : Str :=
  match findSub PROTOCOL_SEPARATOR input with
  | some _ => input
  | none =>
    if input = "/dev/stdin".toList ∨ input = "-".toList then src_prefix_add_uri2 "stdin".toList "-".toList
    else if findSub "http:".toList input = none ∨ findSub "https:".toList input = none then
      src_prefix_add_uri2 "file".toList input
    else input

/-- `src_prefix_split_uri`, src/client/src_prefix.cpp:52-61. -/
def src_prefix_split_uri (input : Str) : Str × Str :=
  match findSub PROTOCOL_SEPARATOR input with
  | none => ([], input)
  | some p => (input.take p, input.drop (p + PROTOCOL_SEPARATOR.length))

/-- `src_prefix_resource`, src/client/src_prefix.cpp:63-71. -/
def src_prefix_resource (input : Str) : Str :=
  match findSub PROTOCOL_SEPARATOR input with
  | none => input
  | some p => input.drop (p + PROTOCOL_SEPARATOR.length)

/-- `src_prefix_protocol`, src/client/src_prefix.cpp:73-81. -/
def src_prefix_protocol (input : Str) : Str :=
  match findSub PROTOCOL_SEPARATOR input with
  | none => []
  | some p => input.take p

/-- Keys of `format_callsmap`, src/client/src_archive.cpp:31-49. -/
def archiveExtensions : List Str :=
  [".7z".toList, ".ar".toList, ".cpio".toList, ".iso".toList, ".mtree".toList, ".pax".toList, ".shar".toList,
   ".tar".toList, ".taz".toList, ".tb2".toList, ".tbz".toList, ".tbz2".toList, ".tgz".toList, ".tlz".toList,
   ".txz".toList, ".xar".toList, ".zip".toList]

/-- Keys of `compression_callsmap`, src/client/src_archive.cpp:52-67. -/
def compressionExtensions : List Str :=
  [".bz2".toList, ".gz".toList, ".lz".toList, ".lzma".toList, ".taz".toList, ".tb2".toList, ".tbz2".toList,
   ".tgz".toList, ".tlz".toList, ".txz".toList, ".xar".toList, ".xz".toList, ".z".toList]

/-- `is_archive`, src/client/src_archive.cpp:108-111. -/
def is_archive (extension : Str) : Bool := decide (extension ∈ archiveExtensions)

/-- `is_compressed`, src/client/src_archive.cpp:113-116. -/
def is_compressed (extension : Str) : Bool := decide (extension ∈ compressionExtensions)

/-- `cur_extension`, src/client/srcml_input_src.cpp:33-40. -/
def cur_extension (filename : Str) : Str :=
  match findLast '.' filename with
  | none => []
  | some p => filename.drop p

/-- `pop_extension`, src/client/srcml_input_src.cpp:42-49. -/
def pop_extension (filename : Str) : Str :=
  match findLast '.' filename with
  | none => filename
  | some p => filename.take p

theorem pop_extension_length (f : Str) (h : cur_extension f ≠ []) : (pop_extension f).length < f.length := by
  unfold cur_extension at h
  unfold pop_extension
  split
  · next e => simp [e] at h
  · next p e =>
    simp only [e] at h
    have : p < f.length := by
      apply Classical.byContradiction; intro hp
      exact h (List.drop_eq_nil_of_le (by omega))
    simp; omega

/-- The loop of the constructor, src/client/srcml_input_src.cpp:82-92: what is left of the name, its extension, and
the collected compressions and archives. -/
def stripExtensions (plainfile : Str) (compressions archives : List Str) : Str × Str × List Str × List Str :=
  if _h : cur_extension plainfile ≠ [] ∧ (is_compressed (cur_extension plainfile) = true ∨
      is_archive (cur_extension plainfile) = true) then
    stripExtensions (pop_extension plainfile)
      (if is_compressed (cur_extension plainfile) then compressions ++ [cur_extension plainfile] else compressions)
      (if is_archive (cur_extension plainfile) then archives ++ [cur_extension plainfile] else archives)
  else (plainfile, cur_extension plainfile, compressions, archives)
termination_by plainfile.length
decreasing_by exact pop_extension_length _ _h.1

/-- `STATES`, src/client/srcml_input_src.hpp:51. -/
inductive InputState where
  | indeterminate | src | srcml
  deriving DecidableEq, Repr

/-- `stat()` of a local file: missing, a directory, or something else (src/client/srcml_input_src.cpp:70-75). -/
inductive FileKind where
  | missing | directory | other
  deriving DecidableEq, Repr

/-- `srcml_input_src`, src/client/srcml_input_src.hpp:53-103; the libarchive handle, the prefix and the unit number are
left out. -/
structure InputSrc where
  filename : Str := []
  protocol : Str := []
  resource : Str := []
  plainfile : Str := []
  extension : Str := []
  fd : Option Nat := none
  state : InputState := .indeterminate
  compressions : List Str := []
  archives : List Str := []
  isdirectory : Bool := false
  exists_ : Bool := false
  isdirectoryform : Bool := false
  deriving DecidableEq, Repr

/-- Protocol and resource of a name, without the query string, src/client/srcml_input_src.cpp:56-67. -/
def inputResource (filename : Str) : Str × Str :=
  let protocol := (src_prefix_split_uri filename).1
  let resource := (src_prefix_split_uri filename).2
  if protocol ≠ "text".toList ∧ protocol ≠ "filelist".toList ∧ protocol ≠ "stdin".toList then
    match findFirst '?' resource with
    | some p => (protocol, resource.take p)
    | none => (protocol, resource)
  else (protocol, resource)

/-- The fields the constructor sets once protocol, resource, kind of file and last character are known,
src/client/srcml_input_src.cpp:76-105. -/
def inputFields (filename protocol resource : Str) (kind : FileKind) (last : Char) : InputSrc :=
  let isdirectory := decide (kind = .directory)
  let parts := if isdirectory = false ∧ protocol ≠ "text".toList then stripExtensions resource [] [] else ([], [], [], [])
  let state := if resource ≠ "-".toList ∧ protocol ≠ "text".toList then
      (if parts.2.1 = ".xml".toList ∨ parts.2.1 = ".srcml".toList then InputState.srcml else .src)
    else .indeterminate
  { filename := filename, protocol := protocol, resource := resource, plainfile := parts.1, extension := parts.2.1,
    compressions := parts.2.2.1, archives := parts.2.2.2, isdirectory := isdirectory,
    exists_ := decide (kind ≠ .missing), isdirectoryform := decide (last = '/'),
    state := if protocol = "text".toList then .src else state,
    fd := if protocol = "stdout".toList then some 1 else if protocol = "stdin".toList then some 0 else none }

/-- The constructor `srcml_input_src(name)`, src/client/srcml_input_src.cpp:52-106; `stat` is the file system.
`back()` of an empty resource is undefined. -/
def inputSrc (stat : Str → FileKind) (other : Str) : Run InputSrc :=
  let filename := src_prefix_add_uri other
  let protocol := (inputResource filename).1
  let resource := (inputResource filename).2
  match resource.getLast? with
  | none => .ub
  | some c =>
    .val (inputFields filename protocol resource (if protocol = "file".toList then stat resource else .missing) c)

end Srcml
