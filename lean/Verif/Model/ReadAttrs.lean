import Verif.Model.Translator
/-
How the reader stores the attributes of a unit start tag in the unit.
-/
namespace Srcml

/-- `unit->attributes[i + 1] = value` for the first pair with the name; the flag tells whether there was one,
src/libsrcml/unit_utilities.cpp:54-61. A name without a value at the end of the vector would be an access
out of bounds; the vector is only filled in pairs. -/
def updatePair (name value : Str) : List Str → List Str × Bool
  | n :: v :: rest =>
    if n = name then (n :: value :: rest, true)
    else (n :: v :: (updatePair name value rest).1, (updatePair name value rest).2)
  | l => (l, false)

/-- One attribute, src/libsrcml/unit_utilities.cpp:33-66. -/
def updateAttribute (u : UnitData) (a : Str × Str) : UnitData :=
  if a.1 = "timestamp".toList then { u with timestamp := some a.2 }
  else if a.1 = "hash".toList then { u with hash := some a.2 }
  else if a.1 = "language".toList then { u with language := some a.2 }
  else if a.1 = "revision".toList then { u with revision := some a.2 }
  else if a.1 = "filename".toList then { u with filename := some a.2 }
  else if a.1 = "url".toList then { u with url := some a.2 }
  else if a.1 = "version".toList then { u with version := some a.2 }
  else if a.1 = "tabs".toList ∨ a.1 = "options".toList then u
  else match updatePair a.1 a.2 u.attributes with
    | (as, true) => { u with attributes := as }
    | (_, false) => { u with attributes := u.attributes ++ [a.1, a.2] }

/-- `unit_update_attributes`, src/libsrcml/unit_utilities.cpp:28-69, on the attributes as libxml2 gives
them: local names and decoded values, without the namespace declarations. -/
def unit_update_attributes (u : UnitData) (as : List (Str × Str)) : UnitData := as.foldl updateAttribute u

end Srcml
