import Verif.Model.Basic
/-
Specification of language names, file extensions and registrations. Independent of the model:
uses only lists of characters.
-/
namespace Srcml.Spec

/-- The languages srcML documents. -/
def IsLanguage (l : Str) : Prop :=
  l = "C".toList ∨ l = "C++".toList ∨ l = "C#".toList ∨ l = "Java".toList ∨ l = "Objective-C".toList

instance (l : Str) : Decidable (IsLanguage l) := by unfold IsLanguage; infer_instance

/-- `e` is the extension of file name `f`: what follows the last dot, once a trailing `.gz`
(of a longer name) is removed. -/
def HasExtension (f e : Str) : Prop :=
  ∃ base stem, ((f = base ++ ".gz".toList ∧ base ≠ []) ∨
                (f = base ∧ ¬ ∃ b, b ≠ [] ∧ f = b ++ ".gz".toList)) ∧
    base = stem ++ '.' :: e ∧ '.' ∉ e

/-- The documented built-in extension table, by language name. -/
def builtin (e : Str) : Option Str :=
  if e ∈ ["c", "h", "i"].map String.toList then some "C".toList
  else if e ∈ ["cpp", "CPP", "cp", "hpp", "cxx", "hxx", "cc", "hh", "c++", "h++", "C", "H", "tcc",
      "ii"].map String.toList then some "C++".toList
  else if e ∈ ["java", "aj"].map String.toList then some "Java".toList
  else if e = "cs".toList then some "C#".toList
  else none

/-- The language given by the last valid registration of `e` in a history of
(extension, language) calls, oldest first. -/
def lastRegistered (e : Str) : List (Str × Str) → Option Str
  | [] => none
  | (e', l) :: rest =>
    match lastRegistered e rest with
    | some l' => some l'
    | none => if e' = e ∧ IsLanguage l then some l else none

/-- What a lookup of extension `e` must give after the history. -/
def lookupSpec (e : Str) (hist : List (Str × Str)) : Option Str :=
  (lastRegistered e hist).or (builtin e)

end Srcml.Spec
