import Verif.Model.SrcSax
import Verif.Model.Archive
/-
What the reader of an archive does to the archive that is opened: the settings that are in the start tag of the root, and the macros.
-/
namespace Srcml

/-- `atoi` (C library): the number in decimal after white space and a sign; a number that is no `int` is undefined behaviour. Used in
src/libsrcml/srcml_reader_handler.hpp:280. -/
def atoi (s : Str) : Run Int :=
  let n : Int := match s.dropWhile isSpaceC with
    | '-' :: rest => -(readDigits 10 0 rest : Int)
    | '+' :: rest => readDigits 10 0 rest
    | s' => readDigits 10 0 s'
  if n < 2 ^ 31 ∧ -(2 ^ 31) ≤ n then .val n else .ub

/-- The names in a text with commas, the loop of src/libsrcml/srcml_reader_handler.hpp:283-291. -/
def commaNames : Str → List Str
  | [] => [[]]
  | ',' :: cs => [] :: commaNames cs
  | c :: cs =>
    match commaNames cs with
    | n :: ns => (c :: n) :: ns
    | [] => [[c]]

/-- One name of an option, src/libsrcml/srcml_reader_handler.hpp:293-302. -/
def readOption (o : Opts) (name : Str) : Opts :=
  if name = "XMLDECL".toList then o ||| OPTION_NO_XML_DECL
  else if name = "NAMESPACEDECL".toList then o ||| OPTION_NAMESPACE_DECL
  else if name = "CPP_TEXT_ELSE".toList then o ||| OPTION_CPP_TEXT_ELSE
  else if name = "CPP_MARKUP_IF0".toList then o ||| OPTION_CPP_MARKUP_IF0
  else if name = "LINE".toList then o ||| OPTION_LINE
  else o

/-- One attribute of the root, src/libsrcml/srcml_reader_handler.hpp:258-311; the names are local names. The tab stop is a `size_t`: a negative number wraps. -/
def rootAttribute (a : Archive) (p : Str × Str) : Run Archive :=
  if p.1 = "timestamp".toList ∨ p.1 = "language".toList ∨ p.1 = "filename".toList ∨ p.1 = "hash".toList then .val a
  else if p.1 = "revision".toList then .val { a with revision := some p.2 }
  else if p.1 = "url".toList then .val { a with url := some p.2 }
  else if p.1 = "version".toList then .val { a with version := some p.2 }
  else if p.1 = "tabs".toList then (atoi p.2).bind (fun n => .val { a with tabstop := (n % 2 ^ 64).toNat })
  else if p.1 = "options".toList then .val { a with options := (commaNames p.2).foldl readOption a.options }
  else .val { a with attributes := a.attributes ++ [p.1, p.2] }

/-- The loop over the attributes, src/libsrcml/srcml_reader_handler.hpp:257-311. -/
def rootAttributes (a : Archive) : List (Str × Str) → Run Archive
  | [] => .val a
  | p :: ps => (rootAttribute a p).bind (fun a => rootAttributes a ps)

/-- The prefix that an attribute for a namespace declares, as libxml2 gives it; none for `xmlns`. src/libsrcml/srcml_reader_handler.hpp:316. -/
def xmlnsPrefix (name : Str) : Str := if name = "xmlns".toList then [] else Spec.localName name

/-- One namespace of the root, src/libsrcml/srcml_reader_handler.hpp:313-321, with `srcml_archive_register_namespace` (src/libsrcml/srcml_archive.cpp:463-493). `xmlns` declares the empty prefix. -/
def rootNamespace (a : Archive) (p : Str × Str) : Archive :=
  let uri := srcmlUriNormalize p.2
  { a with namespaces := registerNs a.namespaces (xmlnsPrefix p.1) uri, options := registerNsOptions a.options uri }

/-- `startRoot`, src/libsrcml/srcml_reader_handler.hpp:246-325; `isArchive` is `is_archive`. -/
def readRoot (isArchive : Bool) (a : Archive) (attrs : List (Str × Str)) : Run Archive :=
  let a := if isArchive then a else { a with options := a.options &&& ~~~OPTION_ARCHIVE }
  (rootAttributes a (Spec.plainAttrs attrs)).bind (fun a => .val ((attrs.filter (fun p => Spec.isNsDecl p.1)).foldl rootNamespace a))

/-- The value that `metaTag` collects for a name, src/libsrcml/srcml_reader_handler.hpp:514-526. -/
def macroValue (attrs : List (Str × Str)) (name : Str) : Str := ((Spec.plainAttrs attrs).filter (fun p => p.1 = name)).flatMap (·.2)

/-- `metaTag`, src/libsrcml/srcml_reader_handler.hpp:508-532: the token and the type, if there are both. -/
def readMacro (a : Archive) (attrs : List (Str × Str)) : Archive :=
  if macroValue attrs "token".toList ≠ [] ∧ macroValue attrs "type".toList ≠ [] then
    { a with userMacroList := a.userMacroList ++ [macroValue attrs "token".toList, macroValue attrs "type".toList] }
  else a

/-- One call to the upper level, src/libsrcml/srcml_reader_handler.hpp:246-325, 508-532. The starts and the ends of units do not change the archive (340-490). -/
def readUpper (isArchive : Bool) (a : Archive) : Upper → Run Archive
  | .startRoot attrs => readRoot isArchive a attrs
  | .metaTag attrs => .val (readMacro a attrs)
  | _ => .val a

/-- The calls one after the other, src/libsrcml/srcml_reader_handler.hpp:246-532. -/
def readUppers (isArchive : Bool) (a : Archive) : List Upper → Run Archive
  | [] => .val a
  | c :: cs => (readUpper isArchive a c).bind (fun a => readUppers isArchive a cs)

/-- Is it the start of a unit? There the parser waits for the user, and the call that opens the archive returns, src/libsrcml/srcml_reader_handler.hpp:349-367. -/
def Upper.isUnit : Upper → Bool
  | .startUnit _ => true
  | _ => false

/-- The archive `r` after it was opened for reading: `startDocument` has set the encoding of the document (src/libsrcml/srcml_reader_handler.hpp:229-232), and the calls up to the first unit were made
(src/libsrcml/srcml_sax2_reader.cpp:64-74, src/libsrcml/srcml_archive.cpp:1037-1054). `encoding` is that of the document, as libxml2 gives it (src/libsrcml/sax2_srcsax_handler.cpp:198-203); `h` is what the
lower level has done for the document. `context->is_archive` is set before `start_root` is called and not after (src/libsrcml/sax2_srcsax_handler.cpp:319-330, 371-387). -/
def openedArchive (r : Archive) (encoding : Option Str) (h : Sax2) : Run Archive :=
  (readUppers h.isArchive { r with encoding := some (encoding.getD "UTF-8".toList) } (h.log.takeWhile (fun c => !c.isUnit))).bind (fun a => .val { a with type := .read })

end Srcml
