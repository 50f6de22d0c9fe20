import Verif.Model.Reader
/-
What the calls on an archive that is read must give, in terms of the document alone.
-/
namespace Srcml.Spec

/-- A document: how many complete units it has, whether it breaks off inside of a further unit, and whether it is complete
(the end tag of the root is there). -/
structure Doc where
  units : Nat
  cut : Bool := false
  complete : Bool := true
  deriving DecidableEq, Repr

/-- The result of the `i`-th call (from 0) on the document. A call takes the next unit: a read gives the attributes and the
contents of unit `i`, a skip only passes it. A unit that breaks off can be skipped but not read. In all other cases
the call gives nothing. -/
def delivered (d : Doc) (i : Nat) (c : ReadCall) : Option (Option Nat × Option Nat) :=
  match c with
  | .read => if i < d.units then some (some i, some i) else none
  | .skip => if i < d.units ∨ (i = d.units ∧ d.cut = true ∧ d.complete = false) then some (some i, none) else none

/-- The user is inside of a call: opening the archive, reading, skipping, or closing. -/
def busy (s : Reader) : Prop := s.user ≠ .idle ∧ s.user ≠ .closed

/-- Neither thread can take a step. -/
def stuck (s : Reader) : Prop := ∀ t, ¬ s.Step t

/-- Whatever the scheduler does, a state with `P` is reached: it holds already, or there is a next step and it is inevitable
after every next step. -/
inductive Inevitably (P : Reader → Prop) : Reader → Prop where
  | now {s : Reader} (h : P s) : Inevitably P s
  | later {s : Reader} (h : ∃ t, s.Step t) (hs : ∀ t, s.Step t → Inevitably P t) : Inevitably P s

/-- A call `c` of the user has ended, after the calls of `log`: the user is between calls, and one result was added. -/
def Returned (log : List (ReadCall × Option (Option Nat × Option Nat))) (c : ReadCall) (s : Reader) : Prop :=
  s.user = .idle ∧ ∃ x, s.log = log ++ [(c, x)]

end Srcml.Spec
