import Verif.Spec.Xml
/-
Specification of writing a unit element by element: which events a sequence of calls stands for. It knows
nothing of the writer: elements are opened and closed, attributes and declarations belong to the element that was
just opened, and what is left open at the end is closed.
-/
namespace Srcml.Spec

/-- What the caller writes between the start and the end of a unit. -/
inductive Piece where
  | start (pre : Option Str) (name : Str) (uri : Option Str)
  | fin
  | attr (pre : Option Str) (name : Str) (uri : Option Str) (value : Str)
  | ns (pre : Option Str) (uri : Str)
  | text (s : Str)
  deriving DecidableEq, Repr

/-- An element whose start tag is still being written. -/
structure Elem where
  name : Str
  attrs : List (Str × Str) := []
  decls : List (Str × Str) := []
  deriving DecidableEq, Repr

/-- What has been written: complete events, the start tag being written, and the open elements. -/
structure Build where
  evs : List Ev := []
  cur : Option Elem := none
  stack : List Str := []
  deriving DecidableEq, Repr

/-- The events, the start tag completed. -/
def Build.flush (b : Build) : List Ev :=
  b.evs ++ match b.cur with
    | none => []
    | some e => [.op e.name (e.attrs ++ e.decls)]

/-- A name with its prefix. -/
def prefixed (pre : Option Str) (name : Str) : Str :=
  match pre with
  | none => name
  | some p => p ++ ':' :: name

/-- The attribute that declares a prefix. -/
def declName (pre : Option Str) : Str := prefixed (pre.map (fun _ => "xmlns".toList)) (pre.getD "xmlns".toList)

/-- Legal names: not empty, of name characters. -/
def legalName (s : Str) : Prop := s ≠ [] ∧ s.all nameChar = true

/-- Legal characters of text and attribute values. -/
def legalText (s : Str) : Prop := ∀ c ∈ s, xmlChar c = true ∨ c = '\r'

instance (s : Str) : Decidable (legalName s) := inferInstanceAs (Decidable (_ ∧ _))
instance (s : Str) : Decidable (legalText s) := inferInstanceAs (Decidable (∀ c ∈ s, _))

/-- The uri of srcML elements. -/
def srcUri : Str := "http://www.srcML.org/srcML/src".toList

/-- A declaration joins those of the start tag: once, if the prefix is declared with the same uri already; not at all
if it is declared with another one. -/
def addDecl (decls : List (Str × Str)) (pre : Option Str) : Option Str → Option (List (Str × Str))
  | none => some decls
  | some u =>
    match decls.find? (fun d => d.1 = declName pre) with
    | some d => if d.2 = u then some decls else none
    | none => some ((declName pre, u) :: decls)

/-- An element with its attributes in order is legal: no name twice. -/
def Elem.legal (e : Elem) : Prop := ((e.attrs ++ e.decls).map (·.1)).Nodup

instance (e : Elem) : Decidable e.legal := inferInstanceAs (Decidable (List.Nodup _))

/-- One call; `none` if it is not legal here. The srcML namespace itself is not declared again on an element. -/
def Build.step (b : Build) : Piece → Option Build
  | .start pre name uri =>
    if name ≠ [] ∧ name ≠ "unit".toList ∧ legalName (prefixed pre name) ∧
        (∀ u, uri = some u → u ≠ srcUri → legalName (declName pre) ∧ legalText u) then
      some { evs := b.flush
             cur := some { name := prefixed pre name
                           decls := match uri with
                             | some u => if u = srcUri then [] else [(declName pre, u)]
                             | none => [] }
             stack := prefixed pre name :: b.stack }
    else none
  | .fin =>
    match b.stack with
    | [] => none
    | n :: st => some { evs := b.flush ++ [.cl n], cur := none, stack := st }
  | .attr pre name uri value =>
    match b.cur with
    | none => none
    | some e =>
      match addDecl e.decls pre uri with
      | none => none
      | some ds =>
        let e' : Elem := { e with attrs := e.attrs ++ [(prefixed pre name, value)], decls := ds }
        if name ≠ [] ∧ e'.legal ∧ legalName (prefixed pre name) ∧ legalText value ∧
            (∀ d ∈ ds, legalName d.1 ∧ legalText d.2) then some { b with cur := some e' } else none
  | .ns pre uri =>
    match b.cur with
    | none => none
    | some e =>
      let e' : Elem := { e with attrs := e.attrs ++ [(declName pre, uri)] }
      if e'.legal ∧ legalName (declName pre) ∧ legalText uri then some { b with cur := some e' } else none
  | .text s => if legalText s then some { b with evs := b.flush ++ s.map .ch, cur := none } else none

/-- A sequence of calls. -/
def Build.run (b : Build) : List Piece → Option Build
  | [] => some b
  | p :: ps => (b.step p).bind (fun b => b.run ps)

/-- The events of a unit body: what is open at the end is closed, innermost first. -/
def bodyEvents (ps : List Piece) : Option (List Ev) :=
  (({} : Build).run ps).map (fun b => b.flush ++ b.stack.map .cl)

/-- The lines of a text; the last one need not be terminated. -/
def textLines : Str → List Str
  | [] => []
  | c :: cs =>
    if c = '\n' then [] :: textLines cs
    else match textLines cs with
      | [] => [[c]]
      | l :: ls => (c :: l) :: ls

end Srcml.Spec
