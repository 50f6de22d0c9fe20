import Verif.Model.Basic
/-
Languages, the file extension registry and the choice of the language of a parse.
-/
namespace Srcml

/-- `Language::Languages`, the internal numbers, src/parser/Language.hpp:82-116. -/
def LANGUAGE_NONE : Nat := 0
/-- src/parser/Language.hpp:88 -/
def LANGUAGE_C : Nat := 1
/-- src/parser/Language.hpp:91 -/
def LANGUAGE_CXX : Nat := 2
/-- src/parser/Language.hpp:94 -/
def LANGUAGE_JAVA : Nat := 4
/-- src/parser/Language.hpp:97 -/
def LANGUAGE_CSHARP : Nat := 8
/-- src/parser/Language.hpp:100 -/
def LANGUAGE_OBJECTIVE_C : Nat := 16

/-- `Language::lang2int`, src/parser/Language.cpp:30-37 (`lang2intcount` = 6 covers all). -/
def lang2int : List (Str × Nat) :=
  [("C".toList, LANGUAGE_C), ("C++".toList, LANGUAGE_CXX), ("Java".toList, LANGUAGE_JAVA),
   ("C#".toList, LANGUAGE_CSHARP), ("Objective-C".toList, LANGUAGE_OBJECTIVE_C ||| LANGUAGE_C),
   ([], LANGUAGE_NONE)]

/-- `Language::getLanguage(const char*)`: first entry with that name, src/parser/Language.hpp:159-166. -/
def getLanguage (s : Str) : Nat :=
  match lang2int.find? (fun p => p.1 = s) with
  | some p => p.2
  | none => 0

/-- `Language::getLanguageString()`: first entry with that number, src/parser/Language.hpp:175-182. -/
def getLanguageString (n : Nat) : Str :=
  match lang2int.find? (fun p => p.2 = n) with
  | some p => p.1
  | none => []

/-- `langs[]`, the public language list, src/libsrcml/libsrcml.cpp:710. -/
def langs : List Str :=
  ["C".toList, "C++".toList, "C#".toList, "Java".toList, "Objective-C".toList]

/-- `srcml_get_language_list_size`, src/libsrcml/libsrcml.cpp:741-744. -/
def srcml_get_language_list_size : Nat := langs.length

/-- `srcml_get_language_list`, src/libsrcml/libsrcml.cpp:755-760 (`none` is NULL). -/
def srcml_get_language_list (pos : Nat) : Option Str :=
  if pos ≥ srcml_get_language_list_size then none else langs[pos]?

/-- `srcml_check_language`, src/libsrcml/libsrcml.cpp:721-732. -/
def srcml_check_language : Option Str → Nat
  | none => 0
  | some l => if langs.any (fun x => decide (l = x)) then getLanguage l else 0

/-- `get_language_extension`, src/libsrcml/language_extension_registry.cpp:72-89:
the found extension, or `none` when the function returns false. -/
def get_language_extension (inpath : Str) : Option Str :=
  let path :=
    if inpath.length > 3 ∧ inpath.drop (inpath.length - 3) = ".gz".toList
    then inpath.take (inpath.length - 3) else inpath
  match findLast '.' path with
  | some pos => some (path.drop (pos + 1))
  | none => none

/-- `language_extension_registry`, src/libsrcml/language_extension_registry.hpp:51-83. -/
structure Registry where
  /-- `registered_languages`, oldest entry first -/
  registered : List (Str × Nat)
  /-- `use_cpp_for_c` -/
  useCppForC : Bool
  deriving DecidableEq, Repr

/-- The initial entries, src/libsrcml/language_extension_registry.cpp:31-53 (the same twenty
pairs that `register_standard_file_extensions`, lines 162-187, appends). -/
def standardExtensions : List (Str × Nat) :=
  [("c".toList, LANGUAGE_C), ("h".toList, LANGUAGE_C), ("i".toList, LANGUAGE_C),
   ("cpp".toList, LANGUAGE_CXX), ("CPP".toList, LANGUAGE_CXX), ("cp".toList, LANGUAGE_CXX),
   ("hpp".toList, LANGUAGE_CXX), ("cxx".toList, LANGUAGE_CXX), ("hxx".toList, LANGUAGE_CXX),
   ("cc".toList, LANGUAGE_CXX), ("hh".toList, LANGUAGE_CXX), ("c++".toList, LANGUAGE_CXX),
   ("h++".toList, LANGUAGE_CXX), ("C".toList, LANGUAGE_CXX), ("H".toList, LANGUAGE_CXX),
   ("tcc".toList, LANGUAGE_CXX), ("ii".toList, LANGUAGE_CXX), ("java".toList, LANGUAGE_JAVA),
   ("aj".toList, LANGUAGE_JAVA), ("cs".toList, LANGUAGE_CSHARP)]

/-- Constructor of `language_extension_registry`, language_extension_registry.cpp:31-54. -/
def Registry.create : Registry := { registered := standardExtensions, useCppForC := false }

/-- `register_user_ext(const char*, int)`, language_extension_registry.cpp:100-109. -/
def Registry.registerNum (r : Registry) (ext : Str) (language : Nat) : Bool × Registry :=
  if language = 0 then (false, r)
  else (true, { r with registered := r.registered ++ [(ext, language)] })

/-- `register_user_ext(const char*, const char*)`, language_extension_registry.cpp:120-129. -/
def Registry.register (r : Registry) (ext language : Str) : Bool × Registry :=
  let n := getLanguage language
  if n = 0 then (false, r) else (true, (r.registerNum ext n).2)

/-- `register_standard_file_extensions`, language_extension_registry.cpp:162-187. -/
def Registry.registerStandard (r : Registry) : Registry :=
  standardExtensions.foldl (fun r p => (r.registerNum p.1 p.2).2) r

/-- `c_is_cpp`, language_extension_registry.cpp:195-198. -/
def Registry.cIsCpp (r : Registry) (b : Bool) : Registry := { r with useCppForC := b }

/-- The loop of `get_language_from_filename` over the entries from the back,
language_extension_registry.cpp:148-154; `i` counts the entries still to be looked at. -/
def Registry.scanBack (r : Registry) (ext : Str) : Nat → Nat
  | 0 => 0
  | i + 1 =>
    match r.registered[i]? with
    | none => 0
    | some p =>
      if p.1 = ext then
        (if p.2 = LANGUAGE_NONE then 0
         else if p.2 = LANGUAGE_C ∧ r.useCppForC then LANGUAGE_CXX else p.2)
      else r.scanBack ext i

/-- `get_language_from_filename`, language_extension_registry.cpp:139-155. -/
def Registry.fromFilename (r : Registry) (path : Str) : Nat :=
  match get_language_extension path with
  | none => 0
  | some ext => r.scanBack ext r.registered.length

/-- `append`, language_extension_registry.cpp:248-252. -/
def Registry.append (r s : Registry) : Registry :=
  { r with registered := r.registered ++ s.registered }

/-- The registry of an archive made by `srcml_archive_create`, src/libsrcml/srcml_archive.cpp:62-74. -/
def Registry.ofNewArchive : Registry := Registry.create.registerStandard

/-- `srcml_archive_register_file_extension` on a non-null archive,
src/libsrcml/srcml_archive.cpp:444-453; `none` arguments are null pointers. -/
def srcml_archive_register_file_extension (r : Registry) (ext language : Option Str) :
    Status × Registry :=
  match ext, language with
  | some e, some l =>
    match r.register e l with
    | (true, r') => (.ok, r')
    | (false, r') => (.invalidInput, r')
  | _, _ => (.invalidArgument, r)

/-- `srcml_archive_check_extension` on a non-null archive, src/libsrcml/srcml_archive.cpp:38-46. -/
def srcml_archive_check_extension (r : Registry) : Option Str → Option Str
  | none => none
  | some filename =>
    let s := getLanguageString (r.fromFilename filename)
    if s = [] then none else some s

/-- The language set explicitly, src/libsrcml/srcml_unit.cpp:491-493: that of the unit, or else
that of the archive, or else none. -/
def explicitLanguage (unitLanguage archiveLanguage : Option Str) : Nat :=
  match unitLanguage with
  | some l => srcml_check_language (some l)
  | none => match archiveLanguage with
    | some l => srcml_check_language (some l)
    | none => LANGUAGE_NONE

/-- Falling back on the file name, src/libsrcml/srcml_unit.cpp:494-500. `filename` is null for all
parse functions but `srcml_unit_parse_filename` (lines 556-659). -/
def languageOrFilename (lang : Nat) (r : Registry) (filename : Option Str) : Nat :=
  if lang = LANGUAGE_NONE then
    (match filename with
     | some f => r.fromFilename f
     | none => lang)
  else lang

/-- The choice of the language in `srcml_unit_parse_internal`, src/libsrcml/srcml_unit.cpp:491-500:
`none` is the early return with SRCML_STATUS_UNSET_LANGUAGE, otherwise `derived_language`. -/
def parseLanguage (unitLanguage archiveLanguage : Option Str) (r : Registry)
    (filename : Option Str) : Option Nat :=
  let lang := languageOrFilename (explicitLanguage unitLanguage archiveLanguage) r filename
  if lang = LANGUAGE_NONE then none else some lang

end Srcml
