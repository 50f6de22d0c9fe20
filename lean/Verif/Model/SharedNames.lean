import Verif.Model.SrcSax
/-
Several documents that are read in one process: the names that the SAX layer compares with are in three static variables, which every document sets when it starts.
-/
namespace Srcml

/-- `start_element` where the static names are those of this document's dictionary (`own`) or of another one's, src/libsrcml/sax2_srcsax_handler.cpp:53-55, 606-661: names are compared as pointers into the dictionary of libxml2, of which every
parser context has its own. -/
def Sax2.startElementIn (own : Bool) (s : Sax2) (name : Str) (attrs : List (Str × Str)) (next : Char) : Run Sax2 :=
  if s.collect then
    let s := { s with srcml := s.srcml ++ s.pend, pend := [next] }
    if own ∧ Spec.localName name = "escape".toList then
      match attrs.filter (fun a => !Spec.isNsDecl a.1) with
      | [] => .ub
      | a :: _ => .val { s with src := s.src ++ [lowByte (strtol0 a.2)] }
    else .val s
  else .val { s with pend := [next] }

/-- `first_start_element`, src/libsrcml/sax2_srcsax_handler.cpp:362-410, with the static names as above. -/
def Sax2.firstStartElementIn (own : Bool) (s : Sax2) (name : Str) (attrs : List (Str × Str)) (next : Char) : Run Sax2 :=
  if own ∧ Spec.localName name = "macro-list".toList then
    .val { s with log := s.log ++ [.metaTag attrs], pend := s.pend ++ [next] }
  else
    let s := { s with isArchive := decide (own ∧ Spec.localName name = "unit".toList), start := .element }
    let s := s.reparseRoot
    if s.isArchive then ({ s with loc := 0 }).startUnit name attrs next true
    else s.startElementIn own name attrs next

/-- `end_element`, src/libsrcml/sax2_srcsax_handler.cpp:667-716, with the static names as above. -/
def Sax2.endElementIn (own : Bool) (s : Sax2) (name : Str) : Sax2 :=
  let s := if s.collect then { s with contentEnd := s.srcml.length + 1, srcml := s.srcml ++ s.pend } else s
  let s := { s with pend := [] }
  let s :=
    if own ∧ Spec.localName name = "unit".toList then
      let s := if s.depth = 2 ∨ s.isArchive = false then s.endUnit else s
      if s.depth = 1 then s.endRoot else s
    else s
  { s with depth := s.depth - 1 }

/-- The `startElementNs` callback that is set, src/libsrcml/sax2_srcsax_handler.cpp:252-661, with the static names as above. -/
def Sax2.startTagIn (own : Bool) (s : Sax2) (name : Str) (attrs : List (Str × Str)) (next : Char) : Run Sax2 :=
  let r := match s.start with
    | .root => s.startRoot name attrs next
    | .first => s.firstStartElementIn own name attrs next
    | .element => s.startElementIn own name attrs next
    | .unit => s.startUnit name attrs next true
    | .none => .val { s with pend := s.pend ++ [next] }
  match r with
  | .ub => .ub
  | .val s => .val { s with depth := s.depth + 1 }

/-- One piece of the document, src/libsrcml/sax2_srcsax_handler.cpp:252-916, with the static names as above; only tags have names. -/
def Sax2.feedIn (own : Bool) (s : Sax2) : Feed → Run Sax2
  | .startTag text name attrs => ({ s with pend := s.pend ++ text }).startTagIn own name attrs '>'
  | .emptyTag text name attrs =>
    match ({ s with pend := s.pend ++ text }).startTagIn own name attrs '/' with
    | .ub => .ub
    | .val s => .val (({ s with pend := s.pend ++ ['>'] }).endElementIn own name)
  | .endTag text name => .val (({ s with pend := s.pend ++ text }).endElementIn own name)
  | f => s.feed f

/-- What happens in the process: a document starts, or libxml2 delivers the next piece of one; src/libsrcml/sax2_srcsax_handler.cpp:177-209. -/
inductive DocEvent where
  | start (k : Nat)
  | piece (k : Nat) (f : Feed)
  deriving DecidableEq, Repr

/-- The handlers of all documents, and the one whose dictionary the static names are from, src/libsrcml/sax2_srcsax_handler.cpp:53-55. Simplified: the three variables are set in one step, and steps of different threads do not overlap (in C++ that
would be undefined behaviour: they are not guarded). -/
structure OpenDocs where
  docs : Nat → Sax2
  names : Option Nat := none

/-- One event, src/libsrcml/sax2_srcsax_handler.cpp:193-196, 376, 384, 642, 700. -/
def OpenDocs.step (d : OpenDocs) : DocEvent → Run OpenDocs
  | .start k => .val { d with names := some k }
  | .piece k f =>
    match (d.docs k).feedIn (decide (d.names = some k)) f with
    | .ub => .ub
    | .val s => .val { d with docs := fun j => if j = k then s else d.docs j }

/-- All events, src/libsrcml/sax2_srcsax_handler.cpp:177-916. -/
def OpenDocs.run (d : OpenDocs) : List DocEvent → Run OpenDocs
  | [] => .val d
  | e :: es =>
    match d.step e with
    | .ub => .ub
    | .val d => d.run es

end Srcml
