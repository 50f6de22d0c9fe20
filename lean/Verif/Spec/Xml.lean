import Verif.Model.Basic
/-
A small reader of XML documents, written independently of the writer: the specification of what a
reader of srcML sees. It goes through the document character by character. It is stricter than XML
where that costs nothing (a raw `>` or carriage return in text, single quotes around attribute values,
comments, CDATA sections and a document type are refused), refuses the characters XML cannot carry,
markup that is not properly nested, duplicate attributes, a second root and text outside the root.
Processing instructions and the XML declaration are skipped.
-/
namespace Srcml.Spec

/-- What the reader reports, in document order. Text is reported character by character, so that it
does not matter how it is split. -/
inductive Ev where
  | op (name : Str) (attrs : List (Str × Str))
  | ch (c : Char)
  | cl (name : Str)
  deriving DecidableEq, Repr

/-- Characters that XML 1.0 can carry as such (among 8-bit characters). -/
def xmlChar (c : Char) : Bool := 32 ≤ c.toNat || c == '\t' || c == '\n'

/-- Characters that end a name. -/
def nameChar (c : Char) : Bool :=
  32 < c.toNat && !("<>/=\"'&?!".toList.contains c)

/-- Value of a decimal number. -/
def decimal (s : Str) : Option Nat :=
  if s ≠ [] ∧ s.all (fun c => 48 ≤ c.toNat && c.toNat ≤ 57) then
    some (s.foldl (fun n c => 10 * n + (c.toNat - 48)) 0)
  else none

/-- The character a reference `&…;` stands for. -/
def entity (s : Str) : Option Char :=
  if s = "lt".toList then some '<'
  else if s = "gt".toList then some '>'
  else if s = "amp".toList then some '&'
  else if s = "quot".toList then some '"'
  else match s with
    | '#' :: ds => (decimal ds).map Char.ofNat
    | _ => none

/-- Where the reader is. -/
inductive Pos where
  | content
  | contentRef (acc : Str)
  | lt
  | openName (acc : Str)
  | closeName (acc : Str)
  | afterTag (name : Str) (attrs : List (Str × Str))
  | inTag (name : Str) (attrs : List (Str × Str))
  | attrName (name : Str) (attrs : List (Str × Str)) (acc : Str)
  | attrEq (name : Str) (attrs : List (Str × Str)) (acc : Str)
  | attrVal (name : Str) (attrs : List (Str × Str)) (aname : Str) (acc : Str)
  | attrRef (name : Str) (attrs : List (Str × Str)) (aname : Str) (acc : Str) (ref : Str)
  | slash (name : Str) (attrs : List (Str × Str))
  | pi
  | piEnd
  deriving DecidableEq, Repr

/-- State of the reader: position, names of the open elements from the innermost outwards, whether the
root was seen, and the events so far. -/
structure RState where
  pos : Pos := .content
  stack : List Str := []
  rooted : Bool := false
  evs : List Ev := []
  deriving DecidableEq, Repr

/-- A character of text: outside of the root only white space, which is not reported. -/
def RState.char (r : RState) (c : Char) : Option RState :=
  if r.stack = [] then
    if c = ' ' ∨ c = '\n' ∨ c = '\t' then some { r with pos := .content } else none
  else some { r with pos := .content, evs := r.evs ++ [.ch c] }

/-- A complete start tag. -/
def RState.openTag (r : RState) (name : Str) (attrs : List (Str × Str)) : Option RState :=
  if r.stack = [] ∧ r.rooted then none
  else if (attrs.map (·.1)).Nodup then
    some { pos := .content, stack := name :: r.stack, rooted := true, evs := r.evs ++ [.op name attrs] }
  else none

/-- A complete end tag: it must name the innermost open element. -/
def RState.closeTag (r : RState) (name : Str) : Option RState :=
  match r.stack with
  | n :: rest => if n = name then some { r with pos := .content, stack := rest, evs := r.evs ++ [.cl name] } else none
  | [] => none

/-- One character. -/
def RState.step (r : RState) (c : Char) : Option RState :=
  match r.pos with
  | .content =>
    if c = '<' then some { r with pos := .lt }
    else if c = '&' then some { r with pos := .contentRef [] }
    else if c = '>' ∨ xmlChar c = false then none
    else r.char c
  | .contentRef acc =>
    if c = ';' then
      match entity acc with
      | some d => r.char d
      | none => none
    else some { r with pos := .contentRef (acc ++ [c]) }
  | .lt =>
    if c = '/' then some { r with pos := .closeName [] }
    else if c = '?' then some { r with pos := .pi }
    else if nameChar c then some { r with pos := .openName [c] }
    else none
  | .openName acc =>
    if c = ' ' then some { r with pos := .inTag acc [] }
    else if c = '>' then r.openTag acc []
    else if c = '/' then some { r with pos := .slash acc [] }
    else if nameChar c then some { r with pos := .openName (acc ++ [c]) }
    else none
  | .closeName acc =>
    if c = '>' then r.closeTag acc
    else if nameChar c then some { r with pos := .closeName (acc ++ [c]) }
    else none
  | .afterTag name attrs =>
    if c = ' ' then some { r with pos := .inTag name attrs }
    else if c = '>' then r.openTag name attrs
    else if c = '/' then some { r with pos := .slash name attrs }
    else none
  | .inTag name attrs =>
    if nameChar c then some { r with pos := .attrName name attrs [c] } else none
  | .attrName name attrs acc =>
    if c = '=' then some { r with pos := .attrEq name attrs acc }
    else if nameChar c then some { r with pos := .attrName name attrs (acc ++ [c]) }
    else none
  | .attrEq name attrs acc =>
    if c = '"' then some { r with pos := .attrVal name attrs acc [] } else none
  | .attrVal name attrs an acc =>
    if c = '"' then some { r with pos := .afterTag name (attrs ++ [(an, acc)]) }
    else if c = '&' then some { r with pos := .attrRef name attrs an acc [] }
    else if c = '<' ∨ xmlChar c = false then none
    else if c = '\n' ∨ c = '\t' then some { r with pos := .attrVal name attrs an (acc ++ [' ']) }
    else some { r with pos := .attrVal name attrs an (acc ++ [c]) }
  | .attrRef name attrs an acc ref =>
    if c = ';' then
      match entity ref with
      | some d => some { r with pos := .attrVal name attrs an (acc ++ [d]) }
      | none => none
    else some { r with pos := .attrRef name attrs an acc (ref ++ [c]) }
  | .slash name attrs =>
    if c = '>' then
      match r.openTag name attrs with
      | some r' => r'.closeTag name
      | none => none
    else none
  | .pi => if c = '?' then some { r with pos := .piEnd } else some r
  | .piEnd =>
    if c = '>' then some { r with pos := .content }
    else if c = '?' then some r
    else some { r with pos := .pi }

/-- Reading a piece of the document. -/
def RState.run (r : RState) : Str → Option RState
  | [] => some r
  | c :: cs => match r.step c with
    | some r' => r'.run cs
    | none => none

/-- Reading a document: the events, if it is one. -/
def readXml (doc : Str) : Option (List Ev) :=
  match ({} : RState).run doc with
  | some r => if r.pos = .content ∧ r.stack = [] ∧ r.rooted then some r.evs else none
  | none => none

/-- The text of a sequence of events. -/
def evText (evs : List Ev) : Str :=
  evs.filterMap (fun e => match e with | .ch c => some c | _ => none)

end Srcml.Spec
