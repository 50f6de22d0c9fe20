import Verif.Model.UnitApi
/-
What a `--pretty` format should print, without reference to how it is done.
-/
namespace Srcml.Spec

/-- The parts of a format: a character, a doubled percent sign, or a field given by its name. -/
inductive FormatPiece where
  | char (c : Char)
  | percent
  | field (name : Str)

/-- How a part is written in a format. -/
def FormatPiece.text : FormatPiece → Str
  | .char c => [c]
  | .percent => ['%', '%']
  | .field n => '%' :: n

/-- A format. -/
def formatText (ps : List FormatPiece) : Str := ps.flatMap FormatPiece.text

/-- What is printed: the values in the place of the fields, one percent sign for a doubled one, the rest as it is. -/
def printed (value : Str → Str) (ps : List FormatPiece) : Str := ps.flatMap fun
  | .char c => [c]
  | .percent => ['%']
  | .field n => value n

/-- The names of the fields in a format, in order. -/
def fields (ps : List FormatPiece) : List Str := ps.filterMap fun
  | .field n => some n
  | _ => none

/-- Values separated by one space. -/
def spaced : List Str → Str
  | [] => []
  | [v] => v
  | v :: vs => v ++ [' '] ++ spaced vs

/-- What a section prints: nothing if there is no field in it, or if its only field is not set; else fields that are not
set print as nothing. -/
def shown (value : Str → Option Str) (ps : List FormatPiece) : Str :=
  match fields ps with
  | [] => []
  | [n] => if value n = none then [] else printed (fun n => (value n).getD []) ps
  | _ => printed (fun n => (value n).getD []) ps

/-- A namespace declaration as it is shown. -/
def nsShown (n : Namespace) : Str :=
  "xmlns".toList ++ (if n.prefix_ = [] then [] else ':' :: n.prefix_) ++ ['='] ++ n.uri

/-- The value of a field of the archive (empty if it is not set). -/
def archiveValue (a : Archive) (name : Str) : Option Str :=
  match name with
  | ['S'] => a.srcEncoding
  | ['U'] => a.url
  | ['V'] => a.version
  | ['X'] => a.encoding
  | _ => none

/-- The value of a field of unit number `i` (from 0) of the archive. -/
def unitValue (a : Archive) (u : UnitData) (i : Nat) (name : Str) : Option Str :=
  match name with
  | ['f'] => u.filename
  | ['h'] => u.hash
  | ['l'] => u.language
  | ['t'] => u.timestamp
  | ['v'] => u.version
  | ['i'] => some (toString i).toList
  | ['N'] => some (spaced (a.namespaces.map nsShown))
  | ['N', ':', 'u'] => some (spaced (a.namespaces.map (·.uri)))
  | ['N', ':', 'p'] => some (spaced (a.namespaces.map (·.prefix_)))
  | _ => archiveValue a name

/-- The value of a field in the footer. -/
def footerValue (a : Archive) (units : Nat) (name : Str) : Option Str :=
  match name with
  | ['C'] => some (toString units).toList
  | _ => archiveValue a name

/-- The fields of the three sections. -/
def headerFields : List Str := ["S", "U", "V", "X"].map String.toList
/-- The fields of the units. -/
def bodyFields : List Str := ["f", "h", "i", "l", "N", "N:u", "N:p", "S", "t", "U", "V", "v", "X"].map String.toList
/-- The fields of the footer. -/
def footerFields : List Str := ["C", "S", "U", "V", "X"].map String.toList

/-- The formats for which the property holds: plain characters are not percent signs; what follows a doubled percent
sign is the end, a percent sign or the letter `s`; the fields are those of the section, and what follows a namespace
field cannot be read as part of it. -/
def WellFormed (names : List Str) : List FormatPiece → Prop
  | [] => True
  | .char c :: r => c ≠ '%' ∧ WellFormed names r
  | .percent :: r => (∀ c, (formatText r).head? = some c → c = '%' ∨ c = 's') ∧ WellFormed names r
  | .field n :: r => n ∈ names ∧
      (n.head? = some 'N' → (formatText r).take 2 ≠ [':', 'u'] ∧ (formatText r).take 2 ≠ [':', 'p']) ∧ WellFormed names r

end Srcml.Spec
