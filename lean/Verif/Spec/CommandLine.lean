import Verif.Spec.CliOptions
import Verif.Spec.Command
import Verif.Props.CliOptions
/-
What C85 says: the options of a command line that makes srcML of source files.
-/
namespace Srcml.Spec

/-- The options ask for srcML of the inputs and for nothing else: no other output, nothing in a directory, no messages about the progress, no queries and no namespaces; url, version and encoding can stand in XML; and every
extension is registered for a language. -/
structure OnlySrcml (stat : Str → FileKind) (opts : List CliOpt) : Prop where
  flags : ∀ f ∈ [CliFlag.version, .verbose, .outputSrcmlOuter, .outputSrcmlInner, .outputSrc, .parserTest, .cat] ++ showing, .flag f ∉ opts
  shows : ∀ v, .showPrefix v ∉ opts ∧ .pretty v ∉ opts
  directory : ∀ o ∈ opts, ¬ IntoDirectory stat o
  queries : Queries stat opts []
  namespaces : ∀ v, .xmlns v ∉ opts
  values : ∀ u, (.url u ∈ opts ∨ .srcVersion u ∈ opts) → ValidValue u
  encoding : ∀ u, .xmlEncoding u ∈ opts → '?' ∉ u ∧ '>' ∉ u
  extensions : ∀ v, .registerExt v ∈ opts → ∃ e l, '=' ∉ e ∧ v = e ++ '=' :: l ∧ IsLanguage l

/-- The input `i` of the command is a file of this machine whose contents are described by `x`. The unit into which it is parsed has the name of `--filename`, or else that of the file, without `./` in front, the language of
`--language`, or else that of the extension of this name, and the version of `--src-version`. -/
structure GivenFile (lib : ParseLib) (a : Archive) (th : ThreadState) (opts : List CliOpt) (i : InputSrc) (x : SourceFile) : Prop where
  name : i.resource ≠ "_".toList
  from_ : x.from_ = .filename (some i.resource)
  unit : ∃ name lang, WithoutDots ((lastOf filenameOf opts).getD i.resource) name ∧ name ≠ [] ∧
    (lastOf languageOf opts = some lang ∨ (lastOf languageOf opts = none ∧ srcml_archive_check_extension a.registeredLanguages (some ((lastOf filenameOf opts).getD i.resource)) = some lang)) ∧
    x.unit = { data := { language := some lang, filename := some name, version := lastOf versionOf opts } }
  ok : x.Ok lib a th

/-- The settings of the output are those that the options ask for, and else those of a new archive; `one`: it is one unit, not an archive. -/
structure AsAsked (opts : List CliOpt) (one : Bool) (a : Archive) : Prop where
  solitary : srcml_archive_is_solitary_unit (some a) = .val one
  hash : srcml_archive_has_hash (some a) = .val (!one || given opts .hash)
  encoding : a.encoding = some ((lastOf xmlEncodingOf opts).getD "UTF-8".toList)
  srcEncoding : a.srcEncoding = lastOf srcEncodingOf opts
  version : a.version = lastOf versionOf opts
  language : a.language = lastOf languageOf opts
  tabs : a.tabstop = (lastOf tabsOf opts).getD 8
  url : a.url = (lastOf urlOf opts).map src_prefix_resource
  options : ∀ i, (srcml_archive_get_options a).getLsbD i = true ↔
    (i = 1 ∧ .flag .noXmlDeclaration ∈ opts) ∨ (i = 2 ∧ (.flag .position ∈ opts ∨ ∃ n, .tabs n ∈ opts)) ∨ (i = 3 ∧ .flag .cpp ∈ opts) ∨ (i = 4 ∧ .flag .cppNomarkupElse ∈ opts) ∨ (i = 5 ∧ .flag .cppMarkupIf0 ∈ opts)
  extensions : ∀ ps, Pairs (opts.filterMap extensionOf) ps → ∀ f e, HasExtension f e → srcml_archive_check_extension a.registeredLanguages (some f) = lookupSpec e ps

end Srcml.Spec
