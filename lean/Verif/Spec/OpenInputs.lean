import Verif.Model.OpenInputs
/-
What C96 says: the command does not wait for itself.
-/
namespace Srcml.Spec

/-- The step has read and written all its inputs. -/
def AllWritten (s : OpenRun) : Prop := s.rest = [] ∧ s.reading = none ∧ s.queue = []

/-- No thread can do anything. -/
def CannotGoOn (cap : Nat) (s : OpenRun) : Prop := ∀ t, ¬ OpenRun.Step cap s t

/-- A run of `n` steps. -/
inductive StepsOf (cap : Nat) : Nat → OpenRun → OpenRun → Prop where
  | done (s : OpenRun) : StepsOf cap 0 s s
  | more {n : Nat} {s t u : OpenRun} : OpenRun.Step cap s t → StepsOf cap n t u → StepsOf cap (n + 1) s u

/-- A bound on the number of steps for inputs with these numbers of units: three for a unit, three for an input, and one. -/
def stepBound (inputs : List Nat) : Nat := 3 * inputs.sum + 3 * inputs.length + 1

end Srcml.Spec
