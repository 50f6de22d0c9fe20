import Verif.Model.Archive
import Verif.Model.Elements
import Verif.Model.XmlWriter
/-
Output of srcML: class `srcMLOutput`, which turns the tokens of the parser into XML.
-/
namespace Srcml

/-- Category of a token, src/parser/srcMLToken.hpp:34 and 47 (`text` is the default -1). -/
inductive Category where
  | text | start | end_ | empty
  deriving DecidableEq, Repr

/-- `srcMLToken`, src/parser/srcMLToken.hpp:41-165. Lines and columns are natural numbers here; they are
`int` in the code and never negative. -/
structure Tok where
  type : TokType
  category : Category := .text
  text : Str := []
  line : Nat := 0
  column : Nat := 0
  endline : Nat := 0
  endcolumn : Nat := 0
  deriving DecidableEq, Repr

/-- `isstart`, src/parser/srcMLToken.hpp:201-205. -/
def Tok.isStart (t : Tok) : Bool := t.category = .start || t.category = .empty

/-- `isempty`, src/parser/srcMLToken.hpp:219-222. -/
def Tok.isEmpty (t : Tok) : Bool := t.category = .empty

/-- src/libsrcml/srcml_types.hpp:44 -/
def OPTION_LINE : Opts := 1#64 <<< 10

/-- `isoption`, src/libsrcml/srcml_macros.hpp:17. -/
def isoption (o flag : Opts) : Bool := decide (o &&& flag ≠ 0)

/-- The `thread_local` variables of the output code, src/parser/srcMLOutput.cpp:504-506 and 538: each is
initialised when the thread first reaches it, and never again. -/
structure ThreadState where
  isposition : Option Bool := none
  posAttrs : Option (Str × Str) := none
  deriving DecidableEq, Repr

/-- `srcMLOutput`, src/parser/srcMLOutput.hpp:66-170, with the text writer it owns and the variables of
the thread it runs in. -/
structure Out where
  w : Writer := {}
  namespaces : List Namespace := []
  options : Opts := 0
  depth : Nat := 0
  didwrite : Bool := false
  openelementcount : Int := 0
  tabsize : Nat := 8
  userMacroList : List Str := []
  xmlEncoding : Str := "UTF-8".toList
  processingInstruction : Option (Str × Str) := none
  thread : ThreadState := {}
  deriving DecidableEq, Repr

/-- `initNamespaces`, src/parser/srcMLOutput.cpp:100-107. -/
def Out.initNamespaces (o : Out) (otherns : List Namespace) : Out :=
  { o with namespaces := mergeNamespaces defaultNamespaces otherns }

/-- Position of a prefix in the namespace table, src/parser/srcMLOutput.hpp:42-47. -/
def Prefixes.index : Prefixes → Nat
  | .SRC => 0 | .CPP => 1 | .ERR => 2 | .POS => 3 | .OMP => 4

/-- Prefix of an entry of the table, without marking it; empty if there is no entry (the table always
has the five standard entries, `output_table_standard`). src/parser/srcMLOutput.cpp:246-290 and 540-546. -/
def prefixOf (ns : List Namespace) (p : Prefixes) : Str :=
  ((ns[p.index]?).map (·.prefix_)).getD []

/-- `namespaces[p].getPrefix()`: the prefix, and the entry is marked as used,
src/libsrcml/srcmlns.hpp:50. -/
def markUsed (ns : List Namespace) (p : Prefixes) : List Namespace :=
  ns.modify p.index (fun n => { n with flags := n.flags ||| NS_USED })

/-- An empty prefix is passed as a null pointer, src/parser/srcMLOutput.cpp:321 and 543-544. -/
def nullIfEmpty (p : Str) : Option Str := if p = [] then none else some p

/-- `srcMLTextWriterWriteNamespace`, src/parser/srcMLOutput.cpp:37-46. -/
def writeNamespace (w : Writer) (ns : Namespace) : Writer :=
  (w.writeAttribute (xmlnsName (nullIfEmpty ns.prefix_)) ns.uri).1

/-- `view.find(uri)->flags |= NS_USED` (the uri is always in the table), src/parser/srcMLOutput.cpp:252-259. -/
def markUriUsed (ns : List Namespace) (uri : Str) : List Namespace :=
  modifyUri ns uri (fun n => { n with flags := n.flags ||| NS_USED })

/-- The marks set by options, src/parser/srcMLOutput.cpp:248-259. -/
def markByOptions (ns : List Namespace) (options : Opts) : List Namespace :=
  let ns := if isoption options OPTION_CPP_DECLARED then markUriUsed ns CPP_NS_URI else ns
  let ns := if isoption options OPTION_POSITION then markUriUsed ns POSITION_NS_URI else ns
  if isoption options OPTION_DEBUG then markUriUsed ns ERROR_NS_URI else ns

/-- Is the flag set? As in src/parser/srcMLOutput.cpp:261-288. -/
def hasFlag (flags f : Nat) : Bool := flags &&& f ≠ 0

/-- Whether the loop of `outputNamespaces` writes an entry, src/parser/srcMLOutput.cpp:261-288. -/
def declares (options : Opts) (depth : Nat) (ns : Namespace) : Bool :=
  let std := hasFlag ns.flags NS_STANDARD
  let req := hasFlag ns.flags NS_REQUIRED
  let root := hasFlag ns.flags NS_ROOT
  let used := hasFlag ns.flags NS_USED
  let reg := hasFlag ns.flags NS_REGISTERED
  let solitary := !(isoption options OPTION_ARCHIVE)
  ((depth = 0 || solitary) && ((std && (req || (root && used))) || (reg && !std)))
    || ((depth = 1 || solitary) && (std && !root && !req && used))

/-- `outputNamespaces`, src/parser/srcMLOutput.cpp:246-289. -/
def Out.outputNamespaces (o : Out) : Out :=
  let ns := markByOptions o.namespaces o.options
  { o with namespaces := ns, w := (ns.filter (declares o.options o.depth)).foldl writeNamespace o.w }

/-- Attributes with a value are written in order, src/parser/srcMLOutput.cpp:386-391. -/
def writeAttrs (w : Writer) (attrs : List (Str × Option Str)) : Writer :=
  attrs.foldl (fun w a => match a.2 with
    | none => w
    | some v => (w.writeAttribute a.1 v).1) w

/-- The value of the `options` attribute, src/parser/srcMLOutput.cpp:339-352. -/
def soptions (options : Opts) : Str :=
  ([(OPTION_CPP_TEXT_ELSE, "CPP_TEXT_ELSE".toList), (OPTION_CPP_MARKUP_IF0, "CPP_MARKUP_IF0".toList),
    (OPTION_LINE, "LINE".toList)] : List (Opts × Str)).foldl
    (fun s p => if isoption options p.1 then (if s = [] then p.2 else s ++ ',' :: p.2) else s) []

/-- Decimal digits of a number, `std::to_string` and `positoa` (src/parser/srcMLOutput.cpp:49-64; the
do-while writes at least one digit). -/
def decDigits (n : Nat) : Str :=
  if n < 10 then [Char.ofNat (48 + n)] else decDigits (n / 10) ++ [Char.ofNat (48 + n % 10)]
termination_by n

/-- The flat name/value vector as pairs; a name without value would be read past the end of the vector,
which does not occur (the vector is only filled in pairs), src/parser/srcMLOutput.cpp:393-395. -/
def attrPairs : List Str → List (Str × Option Str)
  | n :: v :: rest => (n, some v) :: attrPairs rest
  | _ => []

/-- `outputMacroList`, src/parser/srcMLOutput.cpp:422-431. -/
def macroListOut (w : Writer) : List Str → Writer
  | t :: ty :: rest =>
    let w := (w.startElement none "macro-list".toList none).1
    let w := (w.writeAttribute "token".toList t).1
    let w := (w.writeAttribute "type".toList ty).1
    macroListOut w.endElement.1 rest
  | _ => w

/-- Metadata written on a unit start tag; `none` is a null pointer. The arguments of `startUnit`, src/parser/srcMLOutput.cpp:300-400. -/
structure UnitMeta where
  language : Option Str := none
  revision : Option Str := none
  url : Option Str := none
  filename : Option Str := none
  version : Option Str := none
  timestamp : Option Str := none
  hash : Option Str := none
  encoding : Option Str := none
  attributes : List Str := []
  deriving DecidableEq, Repr

/-- The encoding written when none is given, src/parser/srcMLOutput.cpp:313-316. -/
def defaultEncoding (e : Option Str) : Str :=
  match e with
  | none => "UTF-8".toList
  | some [] => "UTF-8".toList
  | some e => e

/-- Name of the tab stop attribute, src/parser/srcMLOutput.cpp:330-336. -/
def tabsName (pre : Str) : Str := if pre = [] then "tabs".toList else pre ++ ":tabs".toList

/-- The attributes of a unit start tag in order, src/parser/srcMLOutput.cpp:354-395. The pointer to the
tab stop text in line 374 outlives its temporary string; the value it had is taken here. -/
def unitAttrs (o : Out) (m : UnitMeta) : List (Str × Option Str) :=
  [ ("revision".toList, m.revision),
    ("language".toList, m.language),
    ("url".toList, m.url),
    ("filename".toList, m.filename),
    ("version".toList, m.version),
    (tabsName (prefixOf o.namespaces .POS),
      if isoption o.options OPTION_POSITION then some (decDigits o.tabsize) else none),
    ("timestamp".toList, m.timestamp),
    ("hash".toList, m.hash),
    ("src-encoding".toList,
      if isoption o.options OPTION_STORE_ENCODING then some (defaultEncoding m.encoding) else none),
    ("options".toList, if o.depth = 0 ∧ soptions o.options ≠ [] then some (soptions o.options) else none) ]
  ++ attrPairs m.attributes

/-- The start of the element, src/parser/srcMLOutput.cpp:305-323. -/
def Out.openUnit (o : Out) : Out :=
  { o with
    didwrite := true
    namespaces := markUsed o.namespaces .SRC
    w := (o.w.startElement (nullIfEmpty (prefixOf o.namespaces .SRC)) "unit".toList none).1
    openelementcount := o.openelementcount + 1 }

/-- The namespaces, if they are wanted, src/parser/srcMLOutput.cpp:325-328. -/
def Out.declareNamespaces (o : Out) : Out :=
  if isoption o.options OPTION_NAMESPACE_DECL then o.outputNamespaces else o

/-- The mark on the position namespace, src/parser/srcMLOutput.cpp:330-336. -/
def Out.markPosition (o : Out) : Out :=
  if isoption o.options OPTION_POSITION then { o with namespaces := markUsed o.namespaces .POS } else o

/-- The attributes, src/parser/srcMLOutput.cpp:354-395. -/
def Out.writeUnitAttrs (o : Out) (m : UnitMeta) : Out := { o with w := writeAttrs o.w (unitAttrs o m) }

/-- The macro list, src/parser/srcMLOutput.cpp:397-399. -/
def Out.writeMacroList (o : Out) (outputMacroList : Bool) : Out :=
  if outputMacroList then { o with w := macroListOut o.w o.userMacroList } else o

/-- Counting the first unit, src/parser/srcMLOutput.cpp:401-403. -/
def Out.enter (o : Out) : Out := if o.depth = 0 then { o with depth := 1 } else o

/-- `startUnit`, src/parser/srcMLOutput.cpp:305-404. -/
def Out.startUnit (o : Out) (m : UnitMeta) (outputMacroList : Bool) : Out :=
  (((o.openUnit.declareNamespaces.markPosition).writeUnitAttrs m).writeMacroList outputMacroList).enter

/-- `strpbrk(str.c_str(), "<>&") != nullptr`: the search stops at a NUL, src/parser/srcMLOutput.cpp:441. -/
def hasMarkup (s : Str) : Bool :=
  (s.takeWhile (fun c => c ≠ '\x00')).any (fun c => c = '<' || c = '>' || c = '&')

/-- Escaping of one character of source text, src/parser/srcMLOutput.cpp:449-459. -/
def srcEscapeChar (c : Char) : Str :=
  if c = '<' then "&lt;".toList
  else if c = '>' then "&gt;".toList
  else if c = '&' then "&amp;".toList
  else [c]

/-- The characters that `processText` writes, src/parser/srcMLOutput.cpp:439-465. -/
def processedText (s : Str) : Str := if hasMarkup s then s.flatMap srcEscapeChar else s

/-- `processText(const std::string&)`, src/parser/srcMLOutput.cpp:439-465. -/
def Out.processText (o : Out) (s : Str) : Out := { o with w := o.w.writeRaw (processedText s) }

/-- `outputUnitSeparator`, src/parser/srcMLOutput.cpp:141-144. -/
def Out.outputUnitSeparator (o : Out) : Out := { o with w := o.w.writeRaw ['\n', '\n'] }

/-- The two position attribute openings, src/parser/srcMLOutput.cpp:504-506. -/
def posAttrOpenings (ns : List Namespace) : Str × Str :=
  let p := prefixOf ns .POS
  let c : Str := if p = [] then [] else [':']
  (' ' :: p ++ c ++ "start=\"".toList, ' ' :: p ++ c ++ "end=\"".toList)

/-- Does the token have a range of positions? src/parser/srcMLOutput.cpp:501-502 (negated). -/
def Tok.hasRange (t : Tok) : Bool :=
  !(t.endline < t.line || (t.endline = t.line && t.endcolumn < t.column))

/-- `addPosition`, src/parser/srcMLOutput.cpp:496-529. The INVALID_POS branches (lines 519-524) cannot be
taken: line 501 returned already. -/
def Out.addPosition (o : Out) (t : Tok) : Out :=
  if t.hasRange = false then o
  else
    let ps := o.thread.posAttrs.getD (posAttrOpenings o.namespaces)
    { o with
      thread := { o.thread with posAttrs := some ps }
      w := o.w.bufferWrite (ps.1 ++ decDigits t.line ++ ':' :: decDigits t.column ++ '"' ::
             ps.2 ++ decDigits t.endline ++ ':' :: decDigits t.endcolumn ++ ['"']) }

/-- Writing an attribute whose name may be null, src/parser/srcMLOutput.cpp:549-553; a null value is
refused by the writer. -/
def writeOptAttr (w : Writer) (name value : Option Str) : Writer :=
  match name, value with
  | some n, some v => (w.writeAttribute n v).1
  | _, _ => w

/-- The start tag part of `processToken`, src/parser/srcMLOutput.cpp:540-557. -/
def Out.startTag (o : Out) (t : Tok) (isposition : Bool) (name pre : Str) (a1 v1 a2 v2 : Option Str) : Out :=
  let o := { o with w := writeOptAttr (writeOptAttr (o.w.startElement (nullIfEmpty pre) name none).1 a1 v1) a2 v2,
                    openelementcount := o.openelementcount + 1 }
  if isposition && !t.isEmpty then o.addPosition t else o

/-- The end tag part of `processToken`, src/parser/srcMLOutput.cpp:560-564. -/
def Out.endTag (o : Out) : Out :=
  { o with openelementcount := o.openelementcount - 1, w := o.w.endElement.1 }

/-- `isposition` of `processToken`: initialised once per thread, src/parser/srcMLOutput.cpp:538. -/
def Out.threadPosition (o : Out) : Bool := o.thread.isposition.getD (isoption o.options OPTION_POSITION)

/-- The initialisation itself, src/parser/srcMLOutput.cpp:538. -/
def Out.initThread (o : Out) : Out :=
  { o with thread := { o.thread with isposition := some o.threadPosition } }

/-- `processToken`, src/parser/srcMLOutput.cpp:531-565. -/
def Out.processToken (o : Out) (t : Tok) (name pre : Str) (a1 v1 a2 v2 : Option Str) : Out :=
  if name = [] then o
  else
    let isposition := o.threadPosition
    let o := o.initThread
    let o := if t.isStart || t.isEmpty then o.startTag t isposition name pre a1 v1 a2 v2 else o
    if !t.isStart || t.isEmpty then o.endTag else o

/-- `outputToken`, src/parser/srcMLOutput.cpp:573-599. -/
def Out.outputToken (o : Out) (t : Tok) : Out :=
  if t.type = chars! "SUNIT" then o
  else match processFind t.type with
    | some e =>
      let pre := prefixOf o.namespaces e.pre
      let o := { o with namespaces := markUsed o.namespaces e.pre }
      let v1 := if e.attrName.isSome && e.attrValue.isSome then e.attrValue else some t.text
      o.processToken t e.name pre e.attrName v1 e.attr2Name e.attr2Value
    | none => o.processText t.text

/-- The loop of `consume` over the tokens before the end of file, src/parser/srcMLOutput.cpp:182-188. -/
def Out.consume (o : Out) (ts : List Tok) : Out := ts.foldl Out.outputToken o

/-- The XML declaration, `xmlTextWriterStartDocument` (libxml2) and src/parser/srcMLOutput.cpp:212-217. -/
def Out.outputXMLDecl (o : Out) : Out :=
  if o.depth = 0 ∧ isoption o.options OPTION_NO_XML_DECL = false then
    { o with w := { o.w with out := o.w.out ++ "<?xml version=\"1.0\" encoding=\"".toList ++ o.xmlEncoding
                      ++ "\" standalone=\"yes\"?>\n".toList } }
  else o

/-- `outputProcessingInstruction`, src/parser/srcMLOutput.cpp:224-235; the data is written as it is. -/
def Out.outputProcessingInstruction (o : Out) : Out :=
  match o.processingInstruction with
  | some (target, data) =>
    if o.depth = 0 then
      { o with didwrite := true
               w := { o.w with out := o.w.out ++ "<?".toList ++ target ++ ' ' :: data ++ "?>\n".toList } }
    else o
  | none => o

/-- `close`, src/parser/srcMLOutput.cpp:124-139: the document is ended if something was written. -/
def Out.close (o : Out) : Out := if o.didwrite then { o with w := o.w.endDocument } else o

end Srcml
