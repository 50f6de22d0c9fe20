import Verif.Model.ArchiveSettings
import Verif.Model.ReadRoot
/-
What the user finds in an archive that was opened for reading (C78), in terms of the getters of the library.
-/
namespace Srcml.Spec

/-- The text after the first place of `p`. -/
def afterFirst (p : Str) : Str → Option Str
  | [] => none
  | c :: cs => if p.isPrefixOf (c :: cs) then some ((c :: cs).drop p.length) else afterFirst p cs

/-- The encoding in the XML declaration of a document: what libxml2 knows about it. -/
def declaredEncoding (doc : Str) : Option Str :=
  if "<?xml ".toList.isPrefixOf doc then
    (afterFirst "encoding=\"".toList (doc.takeWhile (· ≠ '>'))).map (fun s => s.takeWhile (· ≠ '"'))
  else none

/-- The options that are in the root of an archive. -/
def rootOptions : Opts := OPTION_CPP_TEXT_ELSE ||| OPTION_CPP_MARKUP_IF0 ||| OPTION_LINE ||| OPTION_DEBUG ||| OPTION_POSITION

/-- The archive `b`, which was created and opened for reading, has the settings of the archive `a` that was written. -/
structure SettingsBack (a b : Archive) : Prop where
  revision : srcml_archive_get_revision (some b) = srcml_archive_get_revision (some a)
  url : srcml_archive_get_url (some b) = srcml_archive_get_url (some a)
  version : srcml_archive_get_version (some b) = srcml_archive_get_version (some a)
  encoding : srcml_archive_get_xml_encoding (some b) =
    some (if isoption a.options OPTION_NO_XML_DECL then "UTF-8".toList else (srcml_archive_get_xml_encoding (some a)).getD "UTF-8".toList)
  /-- The tab stop is that of `a` if positions were written, and otherwise the default. -/
  tabstop : srcml_archive_get_tabstop (some b) = if isoption a.options OPTION_POSITION then srcml_archive_get_tabstop (some a) else 8
  /-- It is an archive. -/
  kind : srcml_archive_is_solitary_unit (some b) = .val false
  /-- The options are those of a new archive and those in the root. -/
  options : b.options = srcml_archive_create.options ||| (a.options &&& rootOptions)
  /-- The srcML namespace and all namespaces that srcML does not know itself have the same prefixes. -/
  prefixes : ∀ u, u = SRC_NS_URI ∨ u ∉ [SRC_NS_URI, CPP_NS_URI, ERROR_NS_URI, POSITION_NS_URI, OPENMP_NS_URI] →
    srcml_archive_get_prefix_from_uri b (some u) = srcml_archive_get_prefix_from_uri a (some u)
  /-- The position namespace has the prefix with which positions were written. -/
  positions : isoption a.options OPTION_POSITION = true →
    srcml_archive_get_prefix_from_uri b (some POSITION_NS_URI) = some ((srcml_archive_get_prefix_from_uri a (some POSITION_NS_URI)).getD "pos".toList)
  errors : isoption a.options OPTION_DEBUG = true →
    srcml_archive_get_prefix_from_uri b (some ERROR_NS_URI) = some ((srcml_archive_get_prefix_from_uri a (some ERROR_NS_URI)).getD "err".toList)
  /-- There are no others. -/
  absent : srcml_archive_get_prefix_from_uri b (some CPP_NS_URI) = none ∧ srcml_archive_get_prefix_from_uri b (some OPENMP_NS_URI) = none ∧
    (isoption a.options OPTION_POSITION = false → srcml_archive_get_prefix_from_uri b (some POSITION_NS_URI) = none) ∧
    (isoption a.options OPTION_DEBUG = false → srcml_archive_get_prefix_from_uri b (some ERROR_NS_URI) = none)
  /-- Each namespace is there once. -/
  once : (b.namespaces.map (·.uri)).Nodup
  /-- It is no revision of a srcDiff archive. -/
  srcdiff : b.revisionNumber = none
  macroSize : srcml_archive_get_macro_list_size b = srcml_archive_get_macro_list_size a
  macroToken : ∀ i, srcml_archive_get_macro_token b i = srcml_archive_get_macro_token a i
  macroType : ∀ i, srcml_archive_get_macro_type b i = srcml_archive_get_macro_type a i
  /-- The other attributes of the root; a stored source encoding is one of them. -/
  attributes : b.attributes = (if isoption a.options OPTION_STORE_ENCODING then ["src-encoding".toList, "UTF-8".toList] else []) ++ a.attributes

/-- The options that namespaces stand for. -/
def namespaceOptions (uris : List Str) : Opts :=
  (if CPP_NS_URI ∈ uris then OPTION_CPP ||| OPTION_CPP_DECLARED else 0) ||| (if ERROR_NS_URI ∈ uris then OPTION_DEBUG else 0) |||
    (if POSITION_NS_URI ∈ uris then OPTION_POSITION else 0)

/-- The archive `b`, which was created and opened for reading, was made from the document of a single unit, `v`, that was written to the archive `a`; `attrs` are the attributes of the start tag of the
document. -/
structure SoloSettings (a : Archive) (attrs : List (Str × Str)) (v : UnitData) (b : Archive) : Prop where
  kind : srcml_archive_is_solitary_unit (some b) = .val true
  /-- The revision is that of the archive. -/
  revision : srcml_archive_get_revision (some b) = srcml_archive_get_revision (some a)
  /-- The url and the version are those of the unit. -/
  url : srcml_archive_get_url (some b) = v.url
  version : srcml_archive_get_version (some b) = v.version
  encoding : srcml_archive_get_xml_encoding (some b) =
    some (if isoption a.options OPTION_NO_XML_DECL then "UTF-8".toList else (srcml_archive_get_xml_encoding (some a)).getD "UTF-8".toList)
  tabstop : srcml_archive_get_tabstop (some b) = if isoption a.options OPTION_POSITION then srcml_archive_get_tabstop (some a) else 8
  options : b.options = (srcml_archive_create.options &&& ~~~OPTION_ARCHIVE) |||
    (a.options &&& (OPTION_CPP_TEXT_ELSE ||| OPTION_CPP_MARKUP_IF0 ||| OPTION_LINE)) ||| namespaceOptions (declaredUris attrs)
  /-- Each namespace that the start tag declares has the prefix of the declaration. -/
  noPrefix : ∀ u, ("xmlns".toList, u) ∈ attrs → srcml_archive_get_prefix_from_uri b (some u) = some []
  prefixes : ∀ p u, p ≠ [] → ("xmlns:".toList ++ p, u) ∈ attrs → srcml_archive_get_prefix_from_uri b (some u) = some p
  macros : srcml_archive_get_macro_list_size b = 0
  attributes : b.attributes = v.attributes

end Srcml.Spec
