import Verif.Model.Translator
import Verif.Model.Escape
/-
A unit object and the functions that fill it: element by element (`srcml_write_*`) or by parsing, and the
accessors of its srcML. Strings are sequences of bytes, so lengths are counted in characters of the model.
-/
namespace Srcml

/-- `srcml_unit`, src/libsrcml/srcml_types.hpp:178-249, with its translator and the cached fragments. -/
structure UnitObj where
  data : UnitData := {}
  translator : Option Translator := none
  srcmlFragment : Option Str := none
  srcmlRaw : Option Str := none
  deriving DecidableEq, Repr

/-- The XML library reading a document: the events it delivers, up to the first error (libxml2). As called in src/libsrcml/unit_utilities.cpp:120-190. -/
abbrev Sax := Str → List Spec.Ev

/-- The options of the translator of a unit, src/libsrcml/srcml_unit.cpp:889-890. -/
def unitOptions (a : Archive) : Opts := a.options &&& ~~~OPTION_ARCHIVE

/-- The translator of a unit, src/libsrcml/srcml_unit.cpp:902-919, and the constructors,
src/libsrcml/srcml_translator.cpp:56-77 and src/parser/srcMLOutput.cpp:78-94. -/
def unitTranslator (a : Archive) (u : UnitData) (thread : ThreadState) : Translator :=
  { out := ({ options := unitOptions a, tabsize := a.tabstop, userMacroList := a.userMacroList,
              xmlEncoding := a.encoding.getD "UTF-8".toList,
              processingInstruction := none, thread := thread } : Out).initNamespaces (u.namespaces.getD a.namespaces)
    revision := u.revision
    url := u.url
    filename := u.filename
    version := u.version
    attributes := u.attributes }

/-- Positions of the first namespace declaration in the start tag, src/libsrcml/srcml_unit.cpp:937-942:
where `xmlns` begins, and two after its closing quote; `none` if `strstr` or `strchr` finds nothing, in which case
the difference of the null pointer is used. -/
def tagMarks (s : Str) : Option (Nat × Nat) :=
  match findSub "xmlns".toList s with
  | none => none
  | some pos =>
    match findFirst '"' (s.drop (pos + 1)) with
    | none => none
    | some q1 =>
      match findFirst '"' (s.drop (pos + 1 + q1 + 1)) with
      | none => none
      | some q2 => some (pos, pos + 1 + q1 + 1 + q2 + 2)

/-- `srcml_write_start_unit` on a non-null unit, src/libsrcml/srcml_unit.cpp:873-945: a translator that is there is
discarded. Failures of allocation are not modelled. `thread` are the thread-local variables of the output. -/
def UnitObj.writeStartUnit (a : Archive) (thread : ThreadState) (u : UnitObj) : Run (Status × UnitObj) :=
  let d := { u.data with namespaces := some (u.data.namespaces.getD a.namespaces) }
  let t := ((unitTranslator a d thread).addStartUnit a d).1
  match tagMarks t.out.w.out with
  | none => .ub
  | some (b, e) =>
    .val (.ok, { u with
      data := { d with contentBegin := t.out.w.out.length + 1, insertBegin := b, insertEnd := e }
      translator := some t })

/-- Name of the `escape` element in a document with these namespaces: the text extraction compares the local name
and the uri, src/libsrcml/unit_utilities.cpp:158-170. -/
def escapeNameOf (ns : List Namespace) : Str :=
  qname (((findUri ns SRC_NS_URI).map (·.prefix_)).bind nullIfEmpty) "escape".toList

/-- Number of lines of a text, src/libsrcml/srcml_unit.cpp:1014-1016. -/
def unitLoc (s : Str) : Nat :=
  s.count '\n' + (match s.getLast? with
    | none => 0
    | some c => if c = '\n' then 0 else 1)

/-- The text of a unit, kept if it is there already, src/libsrcml/srcml_unit.cpp:1009-1012. -/
def textOf (sax : Sax) (ns : List Namespace) (src : Option Str) (srcml : Str) : Run Str :=
  match src with
  | some s => .val s
  | none => extractEvents (escapeNameOf ns) (sax srcml)

/-- The srcML of the unit, put together from the new start tag and the contents, src/libsrcml/srcml_unit.cpp:994-1003. -/
def assembled (startTag srcml : Str) (contentBegin contentEnd : Nat) : Str :=
  if contentBegin ≠ contentEnd then startTag ++ '>' :: srcml.drop contentBegin else startTag ++ ['/', '>']

/-- `srcml_write_end_unit` on a non-null unit, src/libsrcml/srcml_unit.cpp:956-1028. The loop in lines 965-966 ends
only if the depth is not negative. -/
def UnitObj.writeEndUnit (sax : Sax) (a : Archive) (thread : ThreadState) (u : UnitObj) : Run (Status × UnitObj) :=
  match u.translator with
  | none => .val (.invalidInput, u)
  | some t0 =>
    if t0.depth < 0 ∨ (t0.outputting = false ∧ t0.depth ≠ 0) then .ub
    else
      let t1 := t0.endElements t0.depth.toNat
      let contentEnd := t1.out.w.out.length + 1
      let (t2, ok) := t1.addEndUnit
      let u1 := { u with data := { u.data with contentEnd := contentEnd }, translator := some t2 }
      if ok = false then .val (.invalidInput, u1)
      else
        match u1.writeStartUnit a thread with
        | .ub => .ub
        | .val (_, u2) =>
          match u2.translator with
          | none => .ub
          | some t3 =>
            let srcml := assembled t3.out.w.out t2.out.w.out u.data.contentBegin contentEnd
            match textOf sax (u2.data.namespaces.getD []) u2.data.src srcml with
            | .ub => .ub
            | .val src =>
              .val (.ok, { u2 with
                translator := none
                data := { u2.data with
                  srcml := srcml
                  contentEnd := contentEnd + u2.data.contentBegin - u.data.contentBegin
                  src := some src
                  loc := unitLoc src
                  readBody := true } })

/-- The calls that write a unit element by element; `none` is a null pointer. src/libsrcml/srcml_unit.cpp:873-1149. -/
inductive WriteCall where
  | startUnit
  | endUnit
  | startElement (pre name uri : Option Str)
  | endElement
  | namespace (pre uri : Option Str)
  | attribute (pre name uri content : Option Str)
  | string (content : Option Str)
  deriving DecidableEq, Repr

/-- A call that only passes on to the translator: INVALID_INPUT if there is none or it fails. src/libsrcml/srcml_unit.cpp:1042-1149. -/
def UnitObj.viaTranslator (u : UnitObj) (f : Translator → Translator × Bool) : Status × UnitObj :=
  match u.translator with
  | none => (.invalidInput, u)
  | some t => (if (f t).2 then .ok else .invalidInput, { u with translator := some (f t).1 })

/-- The element-wise functions on a non-null unit, src/libsrcml/srcml_unit.cpp:873-1149. -/
def WriteCall.run (sax : Sax) (a : Archive) (thread : ThreadState) (u : UnitObj) : WriteCall → Run (Status × UnitObj)
  | .startUnit => u.writeStartUnit a thread
  | .endUnit => u.writeEndUnit sax a thread
  | .startElement _ none _ => .val (.invalidArgument, u)
  | .startElement pre (some name) uri => .val (u.viaTranslator (fun t => t.addStartElement pre (some name) uri))
  | .endElement => .val (u.viaTranslator (fun t => t.addEndElement))
  | .namespace _ none => .val (.invalidArgument, u)
  | .namespace pre (some uri) => .val (u.viaTranslator (fun t => t.addNamespace pre (some uri)))
  | .attribute _ none _ _ => .val (.invalidArgument, u)
  | .attribute pre (some name) uri content =>
    .val (u.viaTranslator (fun t => t.addAttribute pre (some name) uri content))
  | .string none => .val (.invalidArgument, u)
  | .string (some s) => .val (u.viaTranslator (fun t => t.addString (some s)))

/-- The element-wise functions with the null check of the unit: lines 875, 958, 1045, 1065, 1094, 1119, 1141 of
src/libsrcml/srcml_unit.cpp. src/libsrcml/srcml_unit.cpp:873-1149. -/
def WriteCall.runPtr (sax : Sax) (a : Archive) (thread : ThreadState) (u : Option UnitObj) (c : WriteCall) :
    Run (Status × Option UnitObj) :=
  match u with
  | none => .val (.invalidArgument, none)
  | some u =>
    match c.run sax a thread u with
    | .val (st, u') => .val (st, some u')
    | .ub => .ub

/-- A history of calls: the statuses and the unit at the end. src/libsrcml/srcml_unit.cpp:873-1149. -/
def runWrites (sax : Sax) (a : Archive) (thread : ThreadState) (u : UnitObj) :
    List WriteCall → Run (List Status × UnitObj)
  | [] => .val ([], u)
  | c :: cs =>
    match c.run sax a thread u with
    | .ub => .ub
    | .val (st, u') =>
      match runWrites sax a thread u' cs with
      | .ub => .ub
      | .val (sts, u'') => .val (st :: sts, u'')

/-- `srcml_unit_parse_internal` after the language and encoding are chosen, src/libsrcml/srcml_unit.cpp:526-546:
`toks` are the tokens that the parser produces before the end of file; `hash` is the hash that the input stores in the unit
when it is closed, at the end of the translation (src/parser/UTF8CharBuffer.cpp:485-508), `none` if it has no hash to make. -/
def UnitObj.parseTokens (sax : Sax) (a : Archive) (thread : ThreadState) (u : UnitObj) (encoding : Option Str)
    (toks : List Tok) (hash : Option Str := none) : Run (Status × UnitObj) :=
  let u := { u with data := { u.data with encoding := encoding, url := a.url } }
  match u.writeStartUnit a thread with
  | .ub => .ub
  | .val (st, u1) =>
    match u1.translator with
    | none => .val (st, u1)
    | some t =>
      let out := t.out.consume toks
      let u2 := { u1 with
        translator := some { t with first := false, out := out }
        data := { u1.data with namespaces := some out.namespaces, hash := hash.or u1.data.hash } }
      u2.writeEndUnit sax a out.thread

/-! ### Accessors -/

/-- Has the archive a revision to be extracted? src/libsrcml/srcml_unit.cpp:349, 416, 453. -/
def revisionWanted (a : Archive) : Option Nat := if issrcdiff a.namespaces then a.revisionNumber else none

/-- `srcml_unit_get_srcml` on a unit whose body was read or parsed, src/libsrcml/srcml_unit.cpp:341-356
(`currevision` is never set, so a revision is always extracted anew). -/
def UnitObj.getSrcml (a : Archive) (u : UnitObj) : Run (Option Str) :=
  if u.data.readBody = false ∧ u.data.readHeader = false then .val none
  else match revisionWanted a with
    | some r => match extract_revision u.data.srcml r false with
      | .val s => .val (some s)
      | .ub => .ub
    | none => .val (some u.data.srcml)

/-- Where the `url` attribute is cut out, src/libsrcml/srcml_unit.cpp:384-402: (0, 0) if nothing is found. A missing
closing quote gives npos + 1 = 0 for the end. -/
def urlCut (srcml : Str) : Nat × Nat :=
  match findFirst '>' srcml with
  | none => (0, 0)
  | some pos =>
    match findSub " url=".toList (srcml.take pos) with
    | none => (0, 0)
    | some p =>
      match findFirst '"' ((srcml.take pos).drop (p + 6)) with
      | none => (p, 0)
      | some q => (p, p + 6 + q + 1)

/-- The outer srcML, src/libsrcml/srcml_unit.cpp:381-413. `append` with a start beyond the end throws
(`none`: the exception leaves the library); a negative count takes everything. -/
def outerFragment (u : UnitData) : Option Str :=
  let (b, e) := urlCut u.srcml
  if u.srcml.length < u.insertEnd then none
  else if b = 0 then some (u.srcml.take u.insertBegin ++ u.srcml.drop u.insertEnd)
  else some (u.srcml.take u.insertBegin
    ++ (if b < u.insertEnd then u.srcml.drop u.insertEnd else (u.srcml.drop u.insertEnd).take (b - u.insertEnd))
    ++ u.srcml.drop e)

/-- `srcml_unit_get_srcml_outer` on a unit whose body was read or parsed, without a revision,
src/libsrcml/srcml_unit.cpp:371-423: the fragment is computed once. The exception counts as undefined. -/
def UnitObj.getOuter (u : UnitObj) : Run (Option Str × UnitObj) :=
  if u.data.readBody = false ∧ u.data.readHeader = false then .val (none, u)
  else match u.srcmlFragment with
    | some s => .val (some s, u)
    | none => match outerFragment u.data with
      | some s => .val (some s, { u with srcmlFragment := some s })
      | none => .ub

/-- `srcml_unit_get_srcml_inner` on a unit whose body was read or parsed, without a revision,
src/libsrcml/srcml_unit.cpp:437-465: the contents are computed once. -/
def UnitObj.getInner (u : UnitObj) : Option Str × UnitObj :=
  if u.data.readBody = false ∧ u.data.readHeader = false then (none, u)
  else
    let rawsize : Int := u.data.contentEnd - u.data.contentBegin - 1
    if rawsize ≤ 0 then (some [], u)
    else match u.srcmlRaw with
      | some s => (some s, u)
      | none =>
        let s := (u.data.srcml.drop u.data.contentBegin).take rawsize.toNat
        (some s, { u with srcmlRaw := some s })

end Srcml
