import Verif.Model.ArchiveIO
/-
What is shown of the metadata of a document (C81).
-/
namespace Srcml.Spec

/-- A value in a line of its own: alone, or with its name. -/
def valueLine (alone : Bool) (name value : Str) : Str :=
  if alone then value ++ ['\n'] else name ++ "=\"".toList ++ value ++ "\"\n".toList

/-- The lines of the values that are asked for, in order, each with its name; a value that is not set is empty, and if it is the only one there is no line. -/
def valueLines (alone : Bool) (vs : List (Bool × Str × Option Str)) : Str :=
  match (vs.filter (·.1)).map (·.2) with
  | [(_, none)] => []
  | vs => vs.flatMap (fun v => valueLine alone v.1 (v.2.getD []))

/-- A value that is set, in a line of its own with its name. -/
def namedLine (name : Str) : Option Str → Str
  | none => []
  | some v => name ++ "=\"".toList ++ v ++ "\"\n".toList

/-- A declaration of a namespace in a line of its own. -/
def xmlnsLine (pre uri : Str) : Str :=
  (if pre = [] then "xmlns".toList else "xmlns:".toList ++ pre) ++ "=\"".toList ++ uri ++ "\"\n".toList

/-- The text, at the end of a column of five characters if it is not longer. -/
def Column (s t : Str) : Prop := (s.length ≥ 5 → t = s) ∧ (s.length ≤ 5 → t.length = 5 ∧ ∃ n, t = List.replicate n ' ' ++ s)

/-- `t` is the line of the unit with number `n`. -/
def ListLine (n : Nat) (u : UnitData) (t : Str) : Prop :=
  ∃ number language loc, Column (toString n).toList number ∧ Column (u.language.getD []) language ∧ Column (toString u.loc).toList loc ∧
    t = number ++ language ++ " ".toList ++ loc ++ " ".toList ++ u.hash.getD [] ++ " ".toList ++ u.filename.getD [] ++ "\n".toList

/-- `ls` are the lines of the units, with numbers from `n` on. -/
inductive ListLines : Nat → List UnitData → List Str → Prop where
  | nil (n : Nat) : ListLines n [] []
  | cons {n : Nat} {u : UnitData} {us : List UnitData} {l : Str} {ls : List Str} : ListLine n u l → ListLines (n + 1) us ls → ListLines n (u :: us) (l :: ls)

end Srcml.Spec
