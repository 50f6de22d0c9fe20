import Verif.Model.Output
import Verif.Model.Language
import Verif.Model.SrcDiff
/-
Class `srcml_translator`: writing of units to an archive, whole (`add_unit`) or element by element.
-/
namespace Srcml

/-- `srcml_unit`, src/libsrcml/srcml_types.hpp:178-249, without the pointers to its archive, to the buffer
and to the translator, and without the caches. Offsets are `int` in the code. -/
structure UnitData where
  encoding : Option Str := none
  revision : Option Str := some "1.0.0".toList
  language : Option Str := none
  filename : Option Str := none
  url : Option Str := none
  version : Option Str := none
  timestamp : Option Str := none
  hash : Option Str := none
  attributes : List Str := []
  eol : Nat := 0
  derivedLanguage : Nat := 0
  namespaces : Option (List Namespace) := none
  readHeader : Bool := false
  readBody : Bool := false
  srcml : Str := []
  src : Option Str := none
  contentBegin : Nat := 0
  contentEnd : Nat := 0
  insertBegin : Nat := 0
  insertEnd : Nat := 0
  loc : Int := -1
  deriving DecidableEq, Repr

/-- `srcml_translator`, src/libsrcml/srcml_translator.hpp:60-150. The options of the output object are a
reference to those of the translator; here they are only in the output object. The pointers to strings of
the archive or unit are their values. -/
structure Translator where
  out : Out := {}
  first : Bool := true
  revision : Option Str := none
  url : Option Str := none
  filename : Option Str := none
  version : Option Str := none
  attributes : List Str := []
  outputting : Bool := false
  depth : Int := 0
  deriving DecidableEq, Repr

/-- The translator of an archive, `srcml_archive_write_create_translator_xml_buffer`,
src/libsrcml/srcml_archive.cpp:876-903, and the constructors, src/libsrcml/srcml_translator.cpp:56-77 and
src/parser/srcMLOutput.cpp:78-94. -/
def archiveTranslator (a : Archive) (thread : ThreadState) : Translator :=
  { out := ({ options := a.options, tabsize := a.tabstop, userMacroList := a.userMacroList,
              xmlEncoding := a.encoding.getD "UTF-8".toList,
              processingInstruction := a.processingInstruction, thread := thread } : Out).initNamespaces a.namespaces
    revision := a.revision
    url := a.url
    version := a.version
    attributes := a.attributes }

/-- `prepareOutput`, src/libsrcml/srcml_translator.cpp:162-180. -/
def Translator.prepareOutput (t : Translator) : Translator :=
  if t.first = false then t
  else
    let out := if isoption t.out.options OPTION_NO_XML_DECL then t.out else t.out.outputXMLDecl
    let out := out.outputProcessingInstruction
    let out := if isoption t.out.options OPTION_ARCHIVE then
        out.startUnit { revision := t.revision, url := t.url, filename := t.filename, version := t.version,
                        attributes := t.attributes } true
      else out
    { t with first := false, out := out }

/-- The namespaces with which a unit is written, src/libsrcml/srcml_translator.cpp:206-220. -/
def unitNamespaces (a : Archive) (u : UnitData) : List Namespace :=
  let merged := match u.namespaces with
    | some ns => mergeNamespaces a.namespaces ns
    | none => a.namespaces
  if a.revisionNumber.isSome then merged.eraseP (fun n => n.uri = DIFF_NS_URI) else merged

/-- An attribute in the chosen revision, src/libsrcml/srcml_translator.cpp:226-234. -/
def revisionOf (a : Archive) (v : Option Str) : Option Str :=
  v.map (fun s => match a.revisionNumber with
    | some r => attribute_revision s r
    | none => s)

/-- The metadata with which a unit is written, src/libsrcml/srcml_translator.cpp:222-236. -/
def unitMeta (t : Translator) (a : Archive) (u : UnitData) : UnitMeta :=
  { language := some (u.language.getD (getLanguageString u.derivedLanguage))
    revision := if isoption t.out.options OPTION_ARCHIVE && u.revision.isSome then u.revision else t.revision
    url := if isoption t.out.options OPTION_ARCHIVE then none else revisionOf a u.url
    filename := revisionOf a u.filename
    version := revisionOf a u.version
    timestamp := revisionOf a u.timestamp
    hash := revisionOf a u.hash
    encoding := revisionOf a u.encoding
    attributes := u.attributes }

/-- The contents of a unit without its tags, src/libsrcml/srcml_translator.cpp:238-249: `none` if nothing is
written. With a revision and no contents (`<unit/>`) the size is -1, and the search through the text runs past its end. -/
def unitContent (a : Archive) (u : UnitData) : Run (Option Str) :=
  let size : Int := u.contentEnd - u.contentBegin - 1
  let inner := (u.srcml.drop u.contentBegin).take size.toNat
  match a.revisionNumber with
  | some r =>
    if issrcdiff a.namespaces then
      if size < 0 then .ub else
      match extract_revision inner r false with
      | .val s => .val (some s)
      | .ub => .ub
    else .val (if size > 0 then some inner else none)
  | none => .val (if size > 0 then some inner else none)

/-- `add_unit`, src/libsrcml/srcml_translator.cpp:194-255; `a` is the archive of the unit. -/
def Translator.addUnit (t : Translator) (a : Archive) (u : UnitData) : Run (Translator × Bool) :=
  if t.outputting then .val (t, false)
  else
    let t := t.prepareOutput
    let out := if isoption t.out.options OPTION_ARCHIVE then t.out.outputUnitSeparator else t.out
    let out := (out.initNamespaces (unitNamespaces a u)).startUnit (unitMeta t a u) false
    match unitContent a u with
    | .ub => .ub
    | .val c =>
      let w := match c with
        | some s => out.w.writeRaw s
        | none => out.w
      .val ({ t with out := { out with w := w.endElement.1 } }, true)

/-- `add_start_unit`, src/libsrcml/srcml_translator.cpp:267-287; `a` is the archive of the unit. -/
def Translator.addStartUnit (t : Translator) (a : Archive) (u : UnitData) : Translator × Bool :=
  if t.outputting then (t, false)
  else
    ({ t with
        outputting := true
        first := false
        out := t.out.startUnit
          { language := u.language.or a.language
            revision := t.revision
            url := u.url
            filename := u.filename
            version := u.version
            timestamp := u.timestamp
            hash := u.hash
            encoding := u.encoding
            attributes := u.attributes } false }, true)

/-- `add_end_element`, src/libsrcml/srcml_translator.cpp:349-357. -/
def Translator.addEndElement (t : Translator) : Translator × Bool :=
  if t.outputting = false then (t, false)
  else
    ({ t with depth := t.depth - 1, out := { t.out with w := t.out.w.endElement.1 } }, t.out.w.endElement.2)

/-- `n` calls of `add_end_element`. src/libsrcml/srcml_translator.cpp:297-308. -/
def Translator.endElements (t : Translator) : Nat → Translator
  | 0 => t
  | n + 1 => t.addEndElement.1.endElements n

/-- `add_end_unit`, src/libsrcml/srcml_translator.cpp:297-308: the loop runs once per open element. -/
def Translator.addEndUnit (t : Translator) : Translator × Bool :=
  if t.outputting = false then (t, false)
  else
    let t := t.endElements t.depth.toNat
    ({ t with outputting := false, out := { t.out with w := t.out.w.endElement.1 } }, t.out.w.endElement.2)

/-- `add_start_element`, src/libsrcml/srcml_translator.cpp:323-339; `none` is a null pointer. -/
def Translator.addStartElement (t : Translator) (pre name uri : Option Str) : Translator × Bool :=
  match name with
  | none => (t, false)
  | some name =>
    if t.outputting = false then (t, false)
    else if name = "unit".toList then (t, false)
    else
      let r := t.out.w.startElement pre name (if uri = some SRC_NS_URI then none else uri)
      ({ t with depth := t.depth + 1, out := { t.out with w := r.1 } }, r.2)

/-- `add_namespace`, src/libsrcml/srcml_translator.cpp:369-381. -/
def Translator.addNamespace (t : Translator) (pre uri : Option Str) : Translator × Bool :=
  match uri with
  | none => (t, false)
  | some uri =>
    if t.outputting = false then (t, false)
    else
      let r := t.out.w.writeAttribute (xmlnsName pre) uri
      ({ t with out := { t.out with w := r.1 } }, r.2)

/-- `add_attribute`, src/libsrcml/srcml_translator.cpp:395-401. With a null content libxml2 refuses the call after it
wrote the opening of the attribute; that is not modelled, and no theorem speaks of it. -/
def Translator.addAttribute (t : Translator) (pre name uri content : Option Str) : Translator × Bool :=
  match name with
  | none => (t, false)
  | some name =>
    if t.outputting = false then (t, false)
    else match content with
      | none => (t, false)
      | some content =>
        let r := t.out.w.writeAttributeNS pre name uri content
        ({ t with out := { t.out with w := r.1 } }, r.2)

/-- The loop of `add_string` over the text: pieces between double quotes are written escaped, double quotes
as they are, src/libsrcml/srcml_translator.cpp:418-435. `acc` is the piece collected so far. -/
def addStringLoop (w : Writer) (acc : Str) : Str → Writer
  | [] => w.writeString acc
  | c :: cs =>
    if c = '"' then addStringLoop ((w.writeString acc).writeRaw ['"']) [] cs
    else addStringLoop w (acc ++ [c]) cs

/-- `add_string`, src/libsrcml/srcml_translator.cpp:413-436. -/
def Translator.addString (t : Translator) (content : Option Str) : Translator × Bool :=
  match content with
  | none => (t, false)
  | some s =>
    if t.outputting = false then (t, false)
    else ({ t with out := { t.out with w := addStringLoop t.out.w [] s } }, true)

/-- `close`, src/libsrcml/srcml_translator.cpp:96-107. -/
def Translator.close (t : Translator) : Translator :=
  let t := if t.first = false ∧ isoption t.out.options OPTION_ARCHIVE = true then
      { t with out := t.out.outputUnitSeparator } else t
  let t := t.prepareOutput
  let t := if t.outputting then t.addEndUnit.1 else t
  { t with out := t.out.close }

end Srcml
