import Verif.Model.ReadAttrs
import Verif.Model.Escape
import Verif.Model.UnitWriter
import Verif.Spec.Output
/-
The SAX layer of the reader: how the callbacks of libxml2 are turned into the start of the root, the units with their text, and the
end of the root.  The text of a unit is taken from the buffer of libxml2: `base` points to what has not been taken yet, `cur` to
where libxml2 is.  The model keeps the text between the two, `pend`.  That the buffer of libxml2 may move (`update_ctx`) is in
Model/MovingBuffer.
-/
namespace Srcml

/-- What libxml2 does with a piece of the document: it reads it and calls back the functions of
src/libsrcml/sax2_srcsax_handler.cpp:60-83. This is the contract of libxml2 that is assumed. -/
inductive Feed where
  /-- a start tag: `text` is read up to the `>`, then `startElementNs` is called, then the `>` is read -/
  | startTag (text name : Str) (attrs : List (Str × Str))
  /-- an empty element: `text` is read up to the `/`, then `startElementNs` is called, the `/>` is read, and `endElementNs` is called -/
  | emptyTag (text name : Str) (attrs : List (Str × Str))
  /-- an end tag is read, then `endElementNs` is called -/
  | endTag (text name : Str)
  /-- text; `after`: it is read before `characters` is called (white space before a tag, text that is not ASCII), otherwise `characters`
  is called first and the text is read then -/
  | text (s : Str) (after : Bool)
  /-- a reference is read, then `characters` is called with the character -/
  | ref (text : Str) (c : Char)
  /-- a processing instruction is read, then the callback is called; same for comments and CDATA sections -/
  | pi (text : Str)
  | comment (text value : Str)
  | cdata (text value : Str)
  /-- white space outside of the root is read without a callback -/
  | blank (s : Str)
  deriving DecidableEq, Repr

/-- The functions that `sax->startElementNs` is set to, src/libsrcml/sax2_srcsax_handler.cpp:72, 343, 387, 499, 510, 548. -/
inductive StartCb where
  | root | first | element | unit | none
  deriving DecidableEq, Repr

/-- The functions that `sax->characters` is set to, src/libsrcml/sax2_srcsax_handler.cpp:75, 500, 511, 551. -/
inductive CharsCb where
  | unit | root | none
  deriving DecidableEq, Repr

/-- What a unit gets at its end, src/libsrcml/srcml_reader_handler.hpp:448-478; `cpp`: its cpp namespace is marked as used. -/
structure Collected where
  srcml : Str
  src : Str
  contentBegin : Nat
  contentEnd : Nat
  insertBegin : Nat
  insertEnd : Nat
  loc : Nat
  cpp : Bool
  deriving DecidableEq, Repr

/-- The calls to the upper level, src/libsrcml/sax2_srcsax_handler.cpp:143-151, 322-328, 374-376, 489-494, 545, 582-590. `endUnit`: the
contents of the unit, if they are collected. -/
inductive Upper where
  | startRoot (attrs : List (Str × Str))
  | metaTag (attrs : List (Str × Str))
  | startUnit (attrs : List (Str × Str))
  | endUnit (content : Option Collected)
  | endRoot
  deriving DecidableEq, Repr

/-- `sax2_srcsax_handler`, src/libsrcml/sax2_srcsax_handler.hpp:61-100, the callbacks that are set, `ctxt->nameNr` (`depth`),
`context->is_archive`, and what the upper level does: `wants` says for each unit that starts whether the user reads it
(`collect_unit_body` of src/libsrcml/srcml_reader_handler.hpp:104, here `want`) or skips it; `log` the calls to it. -/
structure Sax2 where
  pend : Str := []
  start : StartCb := .root
  chars : CharsCb := .unit
  others : Bool := true
  collect : Bool := true
  depth : Nat := 0
  isArchive : Bool := false
  rootCalled : Bool := false
  rootAttrs : List (Str × Str) := []
  rootNs : Str := []
  srcml : Str := []
  src : Str := []
  contentBegin : Nat := 0
  contentEnd : Nat := 0
  insertBegin : Nat := 0
  insertEnd : Nat := 0
  loc : Nat := 0
  cpp : Bool := false
  want : Bool := false
  wants : List Bool := []
  log : List Upper := []
  deriving DecidableEq, Repr

/-- The text `xmlns…="…" ` of the namespaces of the root, src/libsrcml/sax2_srcsax_handler.cpp:299-309: the URI is not escaped. -/
def rootNsText (attrs : List (Str × Str)) : Str :=
  (attrs.filter (fun a => Spec.isNsDecl a.1)).flatMap (fun a => a.1 ++ '=' :: '"' :: a.2 ++ ['"', ' '])

/-- The upper level starts a unit: src/libsrcml/srcml_reader_handler.hpp:369-390; here the user decides whether to read or to skip. -/
def Sax2.upperStartUnit (s : Sax2) (attrs : List (Str × Str)) : Sax2 :=
  { s with
    want := s.wants.headD false
    collect := s.wants.headD false
    wants := s.wants.tail
    loc := 0
    log := s.log ++ [.startUnit attrs] }

/-- What the unit gets, src/libsrcml/srcml_reader_handler.hpp:450-478. -/
def Sax2.collected (s : Sax2) : Collected where
  srcml := s.srcml
  src := s.src
  contentBegin := s.contentBegin
  contentEnd := s.contentEnd
  insertBegin := s.insertBegin
  insertEnd := s.insertEnd
  loc := s.loc + (if s.src ≠ [] ∧ s.src.getLast? ≠ some '\n' then 1 else 0)
  cpp := s.cpp

/-- The upper level ends a unit: src/libsrcml/srcml_reader_handler.hpp:440-487. The strings are moved out of the handler. -/
def Sax2.upperEndUnit (s : Sax2) : Sax2 :=
  if s.want then
    { s with
      log := s.log ++ [.endUnit (some s.collected)]
      srcml := []
      src := []
      want := false }
  else { s with log := s.log ++ [.endUnit none] }

/-- `reparse_root`, src/libsrcml/sax2_srcsax_handler.cpp:104-162: the start tag of the root, read again. -/
def Sax2.reparseRoot (s : Sax2) : Sax2 :=
  let s := { s with rootCalled := true, log := s.log ++ [.startRoot s.rootAttrs] }
  if s.isArchive then s else s.upperStartUnit s.rootAttrs

/-- Place of a character from a position on, `std::string::find`; `none` is `npos`. Used in
src/libsrcml/sax2_srcsax_handler.cpp:476-478. -/
def findFrom (c : Char) (s : Str) (n : Nat) : Option Nat := (findFirst c (s.drop n)).map (· + n)

/-- End of the first namespace in the start tag of a solitary unit, src/libsrcml/sax2_srcsax_handler.cpp:474-480; `npos + 1` is 0,
and `npos + 2` is 1. -/
def soloInsertEnd (s : Str) : Nat :=
  let pos := (findSub "xmlns".toList s).elim 0 (· + 1)
  let q1 := (findFrom '"' s pos).elim 0 (· + 1)
  (findFrom '"' s q1).elim 1 (· + 2)

/-- `start_unit`, src/libsrcml/sax2_srcsax_handler.cpp:426-513; `next` is the character at `cur`, and is read after the callback. Lines
441-447 give the cpp namespace an empty prefix if it has one; without a prefix a string is made of a null pointer. -/
def Sax2.startUnit (s : Sax2) (name : Str) (attrs : List (Str × Str)) (next : Char) (callUpper : Bool) : Run Sax2 :=
  if ("xmlns".toList, CPP_NS_URI) ∈ attrs then .ub
  else
    let full := s.pend ++ [next]
    let pos := 1 + name.length + 1
    let head := full.take pos
    let ns := if s.isArchive then s.rootNs else []
    let srcml := head ++ ns ++ full.drop pos
    let s := { s with
      cpp := s.cpp || decide (CPP_NS_URI ∈ Spec.declaredUris attrs)
      srcml := srcml
      insertBegin := head.length
      insertEnd := if s.isArchive then (head ++ ns).length else soloInsertEnd srcml
      contentBegin := srcml.length
      pend := [] }
    let s := if callUpper then s.upperStartUnit attrs else s
    if s.collect then .val { s with start := .element, chars := .unit, others := true, src := [] }
    else .val { s with start := .none, chars := .none, others := false }

/-- `start_root`, src/libsrcml/sax2_srcsax_handler.cpp:252-345. -/
def Sax2.startRoot (s : Sax2) (name : Str) (attrs : List (Str × Str)) (next : Char) : Run Sax2 :=
  let s := { s with
    rootAttrs := attrs
    rootNs := if s.collect then s.rootNs ++ rootNsText attrs else s.rootNs }
  let isempty := next = '/'
  let s := if isempty then { s with isArchive := false, rootCalled := true, log := s.log ++ [.startRoot attrs] } else s
  match s.startUnit name attrs next false with
  | .ub => .ub
  | .val s =>
    let s := if isempty ∧ s.isArchive = false then s.upperStartUnit attrs else s
    .val { s with start := .first }

/-- `start_element`, src/libsrcml/sax2_srcsax_handler.cpp:606-661. The character of an `escape` element is in its first
attribute; without one this is an access out of bounds. -/
def Sax2.startElement (s : Sax2) (name : Str) (attrs : List (Str × Str)) (next : Char) : Run Sax2 :=
  if s.collect then
    let s := { s with srcml := s.srcml ++ s.pend, pend := [next] }
    if Spec.localName name = "escape".toList then
      match attrs.filter (fun a => !Spec.isNsDecl a.1) with
      | [] => .ub
      | a :: _ => .val { s with src := s.src ++ [lowByte (strtol0 a.2)] }
    else .val s
  else .val { s with pend := [next] }

/-- `first_start_element`, src/libsrcml/sax2_srcsax_handler.cpp:362-410. -/
def Sax2.firstStartElement (s : Sax2) (name : Str) (attrs : List (Str × Str)) (next : Char) : Run Sax2 :=
  if Spec.localName name = "macro-list".toList then
    .val { s with log := s.log ++ [.metaTag attrs], pend := s.pend ++ [next] }
  else
    let s := { s with isArchive := decide (Spec.localName name = "unit".toList), start := .element }
    let s := s.reparseRoot
    if s.isArchive then ({ s with loc := 0 }).startUnit name attrs next true
    else s.startElement name attrs next

/-- `end_unit`, src/libsrcml/sax2_srcsax_handler.cpp:525-554. -/
def Sax2.endUnit (s : Sax2) : Sax2 :=
  { s.upperEndUnit with start := .unit, chars := .root }

/-- `end_root`, src/libsrcml/sax2_srcsax_handler.cpp:566-594. -/
def Sax2.endRoot (s : Sax2) : Sax2 :=
  let s := if s.rootCalled then s else s.reparseRoot.upperEndUnit
  { s with log := s.log ++ [.endRoot] }

/-- `end_element`, src/libsrcml/sax2_srcsax_handler.cpp:667-716; libxml2 then takes the name off its stack. -/
def Sax2.endElement (s : Sax2) (name : Str) : Sax2 :=
  let s := if s.collect then { s with contentEnd := s.srcml.length + 1, srcml := s.srcml ++ s.pend } else s
  let s := { s with pend := [] }
  let s :=
    if Spec.localName name = "unit".toList then
      let s := if s.depth = 2 ∨ s.isArchive = false then s.endUnit else s
      if s.depth = 1 then s.endRoot else s
    else s
  { s with depth := s.depth - 1 }

/-- `characters_unit` for a character data `ch`, src/libsrcml/sax2_srcsax_handler.cpp:763-822; `ahead` is the text at `cur`. If the text
at `base` starts with `>` although no start tag ended there, `base` moves past `cur`, and a string is made of a negative number
of characters. A single `>` that libxml2 has read already is taken twice, and `base` is then past `cur` as well: `.ub` here too. -/
def Sax2.charactersUnit (s : Sax2) (ch ahead : Str) : Run Sax2 :=
  if s.collect = false then .val { s with pend := s.pend ++ ahead }
  else
    let s := { s with src := s.src ++ ch, loc := s.loc + ch.count '\n' }
    match s.pend ++ ahead with
    | '>' :: _ =>
      match s.pend with
      | [] => .ub
      | _ :: rest =>
        if rest = [] then
          if ahead = [] then .ub else .val { s with srcml := s.srcml ++ '>' :: ch, pend := ahead.drop ch.length }
        else .val { s with srcml := s.srcml ++ '>' :: rest, pend := ahead }
    | _ =>
      if s.pend = [] then .val { s with srcml := s.srcml ++ ch, pend := ahead.drop ch.length }
      else .val { s with srcml := s.srcml ++ s.pend, pend := ahead }

/-- The `characters` callback, src/libsrcml/sax2_srcsax_handler.cpp:732-822. `characters_root` leaves the text that libxml2 has not read
yet. -/
def Sax2.characters (s : Sax2) (ch ahead : Str) : Run Sax2 :=
  match s.chars with
  | .unit => s.charactersUnit ch ahead
  | .root => .val { s with pend := ahead }
  | .none => .val { s with pend := s.pend ++ ahead }

/-- The `startElementNs` callback that is set; `next` is the character at `cur`, src/libsrcml/sax2_srcsax_handler.cpp:252-661. libxml2 then
puts the name on its stack. -/
def Sax2.startTag (s : Sax2) (name : Str) (attrs : List (Str × Str)) (next : Char) : Run Sax2 :=
  let r := match s.start with
    | .root => s.startRoot name attrs next
    | .first => s.firstStartElement name attrs next
    | .element => s.startElement name attrs next
    | .unit => s.startUnit name attrs next true
    | .none => .val { s with pend := s.pend ++ [next] }
  match r with
  | .ub => .ub
  | .val s => .val { s with depth := s.depth + 1 }

/-- One piece of the document, src/libsrcml/sax2_srcsax_handler.cpp:252-916. Comments are lines 824-848, CDATA sections 860-889,
processing instructions 901-916: the upper level is not told about them. -/
def Sax2.feed (s : Sax2) : Feed → Run Sax2
  | .startTag text name attrs => ({ s with pend := s.pend ++ text }).startTag name attrs '>'
  | .emptyTag text name attrs =>
    match ({ s with pend := s.pend ++ text }).startTag name attrs '/' with
    | .ub => .ub
    | .val s => .val (({ s with pend := s.pend ++ ['>'] }).endElement name)
  | .endTag text name => .val (({ s with pend := s.pend ++ text }).endElement name)
  | .text ch after =>
    if after then ({ s with pend := s.pend ++ ch }).characters ch [] else s.characters ch ch
  | .ref text c => ({ s with pend := s.pend ++ text }).characters [c] []
  | .pi text =>
    let s := { s with pend := s.pend ++ text }
    if s.others ∧ s.collect then .val { s with srcml := s.srcml ++ s.pend, pend := [] } else .val s
  | .comment text value =>
    let s := { s with pend := s.pend ++ text }
    if s.others then
      if s.collect then .val { s with srcml := s.srcml ++ "<!--".toList ++ value ++ "-->".toList, pend := [] }
      else .val { s with pend := [] }
    else .val s
  | .cdata text value =>
    let s := { s with pend := s.pend ++ text }
    if s.others ∧ s.collect then .val { s with srcml := s.srcml ++ s.pend, src := s.src ++ value, pend := [] } else .val s
  | .blank ch => .val { s with pend := s.pend ++ ch }

/-- A document, src/libsrcml/sax2_srcsax_handler.cpp:252-916. -/
def Sax2.feeds (s : Sax2) : List Feed → Run Sax2
  | [] => .val s
  | f :: fs =>
    match s.feed f with
    | .ub => .ub
    | .val s => s.feeds fs

/-- The unit that a read gives, from the attributes of the start tag and from what was collected: `srcml_unit_create`, then
src/libsrcml/srcml_reader_handler.hpp:369-370 and 450-478, src/libsrcml/srcml_archive.cpp:1268-1288 and
src/libsrcml/srcml_sax2_reader.cpp:105-128, 176-192. A new unit has no namespace table; it gets the default one if the cpp namespace was
declared, which has an entry for it. -/
def readUnitData (attrs : List (Str × Str)) (c : Collected) : UnitData :=
  { unit_update_attributes {} (Spec.plainAttrs attrs) with
    namespaces := if c.cpp then some (markUriUsed defaultNamespaces CPP_NS_URI) else none
    readHeader := true
    readBody := true
    srcml := c.srcml
    src := some c.src
    contentBegin := c.contentBegin
    contentEnd := c.contentEnd
    insertBegin := c.insertBegin
    insertEnd := c.insertEnd
    loc := c.loc }

end Srcml
