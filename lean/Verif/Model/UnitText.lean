import Verif.Model.CharBuffer
/-
The source text of a unit that is assembled from its srcML, and its line count.
-/
namespace Srcml

/-- SAX events of the body of a unit, as far as the source text is concerned. `escape v` is the start
of an `<escape char="..."/>` element whose attribute has the value `v`; `other` is any other start or
end tag. src/libsrcml/unit_utilities.cpp:120-190. -/
inductive TextEvent where
  | chars (s : Bytes)
  | escape (value : UInt8)
  | other
  deriving DecidableEq, Repr

/-- `extract_src` without revision, src/libsrcml/unit_utilities.cpp:130-206: the characters and the
escape elements, in document order. -/
def extractSrc (events : List TextEvent) : Bytes :=
  events.foldl (fun s ev => match ev with
    | .chars t => s ++ t
    | .escape v => s ++ [v]
    | .other => s) []

/-- Line count of a unit that was parsed or written element-wise, `srcml_write_end_unit`,
src/libsrcml/srcml_unit.cpp:1014-1016. -/
def writtenLoc (src : Bytes) : Nat :=
  let loc := src.count LF
  match src.getLast? with
  | none => loc
  | some c => if c != LF then loc + 1 else loc

/-- The reader's members `unitsrc` and `loc`, src/libsrcml/sax2_srcsax_handler.hpp:94. -/
structure ReaderText where
  unitsrc : Bytes := []
  loc : Nat := 0
  deriving DecidableEq, Repr

/-- `characters_unit` (src/libsrcml/sax2_srcsax_handler.cpp:777-781) and the escape element in
`start_element` (lines 640-650). -/
def ReaderText.event (r : ReaderText) : TextEvent → ReaderText
  | .chars t => { unitsrc := r.unitsrc ++ t, loc := r.loc + t.count LF }
  | .escape v => { r with unitsrc := r.unitsrc ++ [v] }
  | .other => r

/-- `endUnit`, src/libsrcml/srcml_reader_handler.hpp:448-459: the text and line count of the unit. -/
def ReaderText.endUnit (r : ReaderText) : Bytes × Nat :=
  let loc := match r.unitsrc.getLast? with
    | none => r.loc
    | some c => if c != LF then r.loc + 1 else r.loc
  (r.unitsrc, loc)

/-- Reading the body of a unit: `loc` starts at 0 (srcml_reader_handler.hpp:388). -/
def readBody (events : List TextEvent) : Bytes × Nat :=
  (events.foldl ReaderText.event {}).endUnit

end Srcml
