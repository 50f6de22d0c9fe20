import Verif.Model.Archive
/-
Specifications for the configuration of an archive. They use the vocabulary of the API calls
(`SetCall`, `Status`) but none of the functions of the model.
-/
namespace Srcml.Spec

/-- The effect of one call on public option number `i`, as documented. -/
def optionAfter (i : Nat) (b : Bool) : SetCall → Bool
  | .setOptions o => o.getLsbD i
  | .enableOption o => b || o.getLsbD i
  | .disableOption o => b && !o.getLsbD i
  | .registerNamespace (some _) (some u) =>
    b || (i = 3 ∧ u = "http://www.srcML.org/srcML/cpp".toList)
      || (i = 2 ∧ u = "http://www.srcML.org/srcML/position".toList)
  | _ => b

/-- The effect of one call on "the archive is a solitary unit", as documented: only the calls named
after it matter. -/
def solitaryAfter (b : Bool) : SetCall → Bool
  | .enableSolitary => true
  | .disableSolitary => false
  | _ => b

/-- The same for "hashes are generated". -/
def hashAfter (b : Bool) : SetCall → Bool
  | .enableHash => true
  | .disableHash => false
  | _ => b

/-- The prefix registered last for a uri in a history of calls, oldest first. -/
def lastPrefix (uri : Str) : List SetCall → Option Str
  | [] => none
  | c :: cs =>
    match lastPrefix uri cs with
    | some p => some p
    | none =>
      match c with
      | .registerNamespace (some p) (some u) => if u = uri then some p else none
      | _ => none

/-- The type registered last for a macro name. -/
def lastMacroType (token : Str) : List SetCall → Option Str
  | [] => none
  | c :: cs =>
    match lastMacroType token cs with
    | some p => some p
    | none =>
      match c with
      | .registerMacro (some t) (some ty) => if t = token then some ty else none
      | _ => none

/-- A list without its repetitions, keeping first occurrences. -/
def firstOccurrences : List Str → List Str
  | [] => []
  | x :: xs => x :: (firstOccurrences xs).filter (fun y => y ≠ x)

/-- The uris given in the registrations of a history, in order. -/
def registeredUris : List SetCall → List Str
  | [] => []
  | .registerNamespace (some _) (some u) :: cs => u :: registeredUris cs
  | _ :: cs => registeredUris cs

/-- The macro names given in the registrations of a history, in order. -/
def registeredMacros : List SetCall → List Str
  | [] => []
  | .registerMacro (some t) (some _) :: cs => t :: registeredMacros cs
  | _ :: cs => registeredMacros cs

/-- Calls with a missing (null) argument that the documentation requires. -/
def MissingArgument : SetCall → Prop
  | .registerExtension e l => e = none ∨ l = none
  | .registerNamespace p u => p = none ∨ u = none
  | .registerMacro t y => t = none ∨ y = none
  | .setProcessingInstruction t d => t = none ∨ d = none
  | _ => False

end Srcml.Spec
