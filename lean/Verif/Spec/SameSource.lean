import Verif.Props.ParseCalls
/-
What C89 says about two units into which the same source text is parsed.
-/
namespace Srcml.Spec
open CharBuffer

/-- The source, parsed into the unit `u`, is the text `text`, and the encoding that the unit reports is `enc`: from memory, from a file, a `FILE`, a descriptor or a callback in pieces, or empty. -/
inductive SourceIs (lib : ParseLib) (a : Archive) (u : UnitData) : ParseFrom → Str → Str → Prop where
  | memory (buffer : Bytes) (size : Nat) (asked : Option Str) (enc : Str) (conv : Bytes → Bytes → IconvResult) (decoded : Bytes) :
      Asks a u asked → (∀ x, asked = some x → lib.iconv.convert x ≠ none) → UsesEncoding (requestedName asked) (buffer.take size) enc → lib.iconv.convert enc = some conv →
      buffer.take size ≠ [] → blockText (lib.iconv.trivialp enc) conv [] (buffer.take size) = some decoded → decoded ≠ [] → (127 : UInt8) ∉ decoded →
      SourceIs lib a u (.memory (some buffer) size) enc (bytesText (unifyNewlines (decoded.drop (bomLength (buffer.take size)))))
  | reads (from_ : ParseFrom) (reads : List ReadResult) (asked : Option Str) (enc : Str) (conv : Bytes → Bytes → IconvResult) (c d : Bytes) (cs ds : List Bytes) :
      ReadFrom lib from_ reads → Asks a u asked → (∀ x, asked = some x → lib.iconv.convert x ≠ none) → UsesEncoding (requestedName asked) c enc → lib.iconv.convert enc = some conv →
      Decodes (blockText (lib.iconv.trivialp enc) conv) [] (c :: cs) (d :: ds) → Yields reads (c :: cs) [] → bomLength c < d.length → (127 : UInt8) ∉ (d :: ds).flatten →
      SourceIs lib a u from_ (requestedName asked) (bytesText (unifyNewlines ((d :: ds).flatten.drop (bomLength c))))
  | nothing (from_ : ParseFrom) (asked : Option Str) : ReadFrom lib from_ [] ∨ (∃ b, from_ = .memory b 0) → Asks a u asked →
      (∀ x, asked = some x → lib.iconv.convert x ≠ none) → SourceIs lib a u from_ (requestedName asked) []

/-- The options that the parser looks at, or that decide what is written for a token. -/
def markupOptions : List Opts := [OPTION_POSITION, OPTION_CPP, OPTION_LINE, OPTION_CPP_TEXT_ELSE, OPTION_CPP_MARKUP_IF0, OPTION_DEBUG]

/-- The settings that the markup depends on are the same: the tab stop, the macros, the options of the markup, and the prefixes of the five namespaces of srcML. Everything else - the metadata of the units,
the other options, other namespaces - may differ. -/
structure SameSettings (a1 a2 : Archive) (u1 u2 : UnitData) : Prop where
  tabstop : a2.tabstop = a1.tabstop
  macros : a2.userMacroList = a1.userMacroList
  options : ∀ o ∈ markupOptions, isoption a2.options o = isoption a1.options o
  prefixes : ∀ uri ∈ standardUris, prefixAt (mergeNamespaces defaultNamespaces (namespacesOf a2 u2)) uri = prefixAt (mergeNamespaces defaultNamespaces (namespacesOf a1 u1)) uri

end Srcml.Spec
