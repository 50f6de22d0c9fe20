import Verif.Model.Basic
/-
The part of the libxml2 text writer (`xmlTextWriter`) that libsrcml uses. libxml2 is not in /repo: this
is an assumption about the library, listed in the trusted base. Encoding conversion of the output
buffer, memory failures and the internal document object are not modelled; characters outside ASCII
are written as they are (libxml2 may write numeric references for them in attributes).
-/
namespace Srcml

/-- State of a text writer: what has been written, the open elements from the innermost outwards (the
flag says that the start tag is still open, `XML_TEXTWRITER_NAME`), and the namespace declarations
waiting for the start tag to be closed (`nsstack`, last pushed first). The writer `xout` of src/parser/srcMLOutput.hpp:135. -/
structure Writer where
  out : Str := []
  stack : List (Str × Bool) := []
  nsstack : List (Str × Str) := []
  deriving DecidableEq, Repr

/-- Escaping of an attribute value, `xmlBufAttrSerializeTxtContent` (libxml2). For the calls in src/parser/srcMLOutput.cpp:392-396. -/
def attrEscapeChar (c : Char) : Str :=
  if c = '"' then "&quot;".toList
  else if c = '\n' then "&#10;".toList
  else if c = '\r' then "&#13;".toList
  else if c = '\t' then "&#9;".toList
  else if c = '<' then "&lt;".toList
  else if c = '>' then "&gt;".toList
  else if c = '&' then "&amp;".toList
  else [c]

/-- Escaping of character data, `xmlEncodeSpecialChars` (libxml2), used by `xmlTextWriterWriteString`.
For the calls in src/libsrcml/srcml_translator.cpp:425-435. -/
def textEscapeChar (c : Char) : Str :=
  if c = '<' then "&lt;".toList
  else if c = '>' then "&gt;".toList
  else if c = '&' then "&amp;".toList
  else if c = '"' then "&quot;".toList
  else if c = '\r' then "&#13;".toList
  else [c]

/-- ` name="value"` with the value escaped. For the calls in src/parser/srcMLOutput.cpp:392-396. -/
def attrText (name value : Str) : Str :=
  ' ' :: name ++ '=' :: '"' :: value.flatMap attrEscapeChar ++ ['"']

/-- `xmlTextWriterOutputNSDecl` (libxml2): the waiting declarations are written, last pushed first.
For the calls in src/libsrcml/srcml_translator.cpp:338 and 400. -/
def Writer.outputNs (w : Writer) : Writer :=
  { w with out := w.out ++ w.nsstack.flatMap (fun p => attrText p.1 p.2), nsstack := [] }

/-- `xmlTextWriterHandleStateDependencies` (libxml2): an open start tag is completed with `>`. For the calls in src/parser/srcMLOutput.cpp:443-476. -/
def Writer.closeTag (w : Writer) : Writer :=
  match w.stack with
  | (n, true) :: rest => { w.outputNs with out := w.outputNs.out ++ ['>'], stack := (n, false) :: rest }
  | _ => w

/-- `xmlTextWriterWriteRawLen` (libxml2). Called in src/libsrcml/srcml_translator.cpp:245-248, 429 and src/parser/srcMLOutput.cpp:443-476. -/
def Writer.writeRaw (w : Writer) (s : Str) : Writer :=
  { w.closeTag with out := w.closeTag.out ++ s }

/-- `xmlTextWriterWriteString` outside of an attribute (libxml2): escaped if some element is open.
Called in src/libsrcml/srcml_translator.cpp:425-435 and src/parser/srcMLOutput.cpp:231-233. -/
def Writer.writeString (w : Writer) (s : Str) : Writer :=
  match w.stack with
  | [] => w.writeRaw s
  | _ => w.writeRaw (s.flatMap textEscapeChar)

/-- `xmlOutputBufferWrite` on the buffer of the writer, past the writer (libxml2).
Called in src/libsrcml/srcml_archive.cpp:1250 and src/parser/srcMLOutput.cpp:511-528. -/
def Writer.bufferWrite (w : Writer) (s : Str) : Writer := { w with out := w.out ++ s }

/-- Name of an element or attribute with an optional prefix. For the calls in src/libsrcml/srcml_translator.cpp:338, 400. -/
def qname (pre : Option Str) (name : Str) : Str :=
  match pre with
  | none => name
  | some p => p ++ ':' :: name

/-- Name of the namespace declaration of a prefix. As made in src/libsrcml/srcml_translator.cpp:369-381 and src/parser/srcMLOutput.cpp:37-45. -/
def xmlnsName (pre : Option Str) : Str :=
  match pre with
  | none => "xmlns".toList
  | some p => "xmlns".toList ++ ':' :: p

/-- `xmlTextWriterStartElementNS` (libxml2): fails on an empty name.
Called in src/libsrcml/srcml_translator.cpp:338 and src/parser/srcMLOutput.cpp:322, 426, 546. -/
def Writer.startElement (w : Writer) (pre : Option Str) (name : Str) (uri : Option Str) : Writer × Bool :=
  if name = [] then (w, false)
  else
    ({ out := w.closeTag.out ++ '<' :: qname pre name
       stack := (qname pre name, true) :: w.closeTag.stack
       nsstack := (match uri with
         | none => []
         | some u => [(xmlnsName pre, u)]) ++ w.closeTag.nsstack }, true)

/-- `xmlTextWriterWriteAttribute` (libxml2): only inside a start tag.
Called in src/libsrcml/srcml_translator.cpp:380 and src/parser/srcMLOutput.cpp:45, 392-396, 427-428, 550-553. -/
def Writer.writeAttribute (w : Writer) (name value : Str) : Writer × Bool :=
  match w.stack with
  | (_, true) :: _ => if name = [] then (w, false) else ({ w with out := w.out ++ attrText name value }, true)
  | _ => (w, false)

/-- `xmlTextWriterWriteAttributeNS` (libxml2): the declaration of the prefix is recorded first, also
when the attribute itself is then refused; a prefix waiting with another uri is an error. Called in src/libsrcml/srcml_translator.cpp:400. -/
def Writer.writeAttributeNS (w : Writer) (pre : Option Str) (name : Str) (uri : Option Str)
    (value : Str) : Writer × Bool :=
  if name = [] then (w, false)
  else match uri with
    | none => w.writeAttribute (qname pre name) value
    | some u =>
      match w.nsstack.find? (fun p => p.1 = xmlnsName pre) with
      | some (_, u') => if u' = u then w.writeAttribute (qname pre name) value else (w, false)
      | none => { w with nsstack := (xmlnsName pre, u) :: w.nsstack }.writeAttribute (qname pre name) value

/-- `xmlTextWriterEndElement` (libxml2): `/>` if the start tag is still open, the end tag otherwise;
fails if no element is open. Called in src/libsrcml/srcml_translator.cpp:252, 307, 356 and src/parser/srcMLOutput.cpp:429, 563. -/
def Writer.endElement (w : Writer) : Writer × Bool :=
  match w.stack with
  | [] => (w, false)
  | (_, true) :: rest =>
    ({ w.outputNs with out := w.outputNs.out ++ ['/', '>'], stack := rest }, true)
  | (n, false) :: rest =>
    ({ w with out := w.out ++ '<' :: '/' :: n ++ ['>'], stack := rest }, true)

/-- `xmlTextWriterEndDocument` (libxml2): every open element is ended, then a newline is written. Called in src/parser/srcMLOutput.cpp:129. -/
def Writer.endAll (w : Writer) : List (Str × Bool) → Writer
  | [] => w
  | _ :: rest => w.endElement.1.endAll rest

/-- `xmlTextWriterEndDocument` (libxml2). Called in src/parser/srcMLOutput.cpp:129. -/
def Writer.endDocument (w : Writer) : Writer :=
  let w' := w.endAll w.stack
  { w' with out := w'.out ++ ['\n'] }

end Srcml
