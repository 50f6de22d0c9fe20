import Verif.Model.Create
import Verif.Model.UnitSelect
/-
A srcML document as input of the command that writes srcML.
-/
namespace Srcml

/-- The calls on the output archive before the first unit of a srcML input is scheduled, src/client/srcml_input_srcml.cpp:62-80. `xml`: srcML is written; `revision`: a revision of a
srcDiff document is asked for; `b`: the input archive, whose namespaces are looked up by their numbers (src/libsrcml/srcml_archive.cpp:693-733). -/
def srcmlOutputCalls (xml : Bool) (unit : Int) (revision : Bool) (b : Archive) : List SetCall :=
  if xml then
    (if isoption b.options OPTION_ARCHIVE = true ∧ unit = 0 then [.disableSolitary] else []) ++
      (b.namespaces.filter (fun n => !(revision && decide (n.uri = DIFF_NS_URI)))).map (fun n => .registerNamespace (some n.prefix_) (some n.uri))
  else []

/-- The request for a unit of a srcML input, src/client/srcml_input_srcml.cpp:109-123. -/
def srcmlWork {D : Type} (b : Archive) (u : UnitData) : Work D :=
  { req := { url := b.url }, unit := some { data := u }, needsparsing := false, input := some b }

/-- `srcml_input_srcml`, src/client/srcml_input_srcml.cpp:34-139, not in the mode of the parser test. `s`: the input archive after it was opened, `none` if it could not be opened. The message that the number
of the unit is too large is an error. -/
def srcml_input_srcml {D : Type} (xml : Bool) (unit : Int) (revision : Bool) (s : Option ArchiveIO) (a : Archive) : Handled D :=
  match s with
  | none => { handled := -1, errors := 1 }
  | some s =>
    let r := srcmlInput a.language unit s
    { requests := r.units.map (srcmlWork s.settings), calls := srcmlOutputCalls xml unit revision s.settings, errors := r.errors, exited := r.exited }

/-- The handlers with that for srcML, src/client/create_srcml.cpp:52-64; `unit`: the number of the unit of an input (src/client/srcml.cpp:81-83), `docs`: the inputs that are srcML, opened. -/
def withSrcml {D : Type} (xml : Bool) (unit : InputSrc → Int) (revision : Bool) (docs : InputSrc → Option ArchiveIO) (other : Handlers D) : Handlers D :=
  { other with run := fun h a i => match h with
      | .srcml => .val (srcml_input_srcml xml (unit i) revision (docs i) a)
      | h => other.run h a i }

end Srcml
