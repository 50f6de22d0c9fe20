import Verif.Model.ModeStack
/-
Specification of the mode stack by its history: each level of the stack remembers the writes made while
it was the top one (most recent first), a write being a set of bits and the value they are given.
-/
namespace Srcml.Spec

/-- Setting (`true`) or clearing (`false`) the bits of a mask. -/
structure ModeWrite where
  mask : BitVec 128
  value : Bool

/-- What the grammar does with the modes. -/
inductive ModeOp where
  | start (m : BitVec 128)
  | set (m : BitVec 128)
  | clear (m : BitVec 128)
  | end_
  | push (e : TokType × Nat)
  | pop

/-- The levels after an operation, top first; a level starts by setting its own modes. The last level
cannot be ended, and without a level nothing can be set. Opening and closing elements changes no mode. -/
def levelsStep (ls : List (List ModeWrite)) : ModeOp → List (List ModeWrite)
  | .start m => [⟨m, true⟩] :: ls
  | .set m => match ls with
    | [] => []
    | l :: ls => (⟨m, true⟩ :: l) :: ls
  | .clear m => match ls with
    | [] => []
    | l :: ls => (⟨m, false⟩ :: l) :: ls
  | .end_ => match ls with
    | _ :: l :: ls => l :: ls
    | ls => ls
  | .push _ | .pop => ls

/-- The value most recently written to bit `i`; `false` if there is none. -/
def lastWrite (i : Nat) : List ModeWrite → Bool
  | [] => false
  | w :: ws => if w.mask.getLsbD i then w.value else lastWrite i ws

/-- Does the level have mode `i`? -/
def levelHas (i : Nat) (l : List ModeWrite) : Bool := lastWrite i l

/-- Is mode `i` visible from the top: the last write to it, at any level still on the stack, set it. -/
def visible (i : Nat) (ls : List (List ModeWrite)) : Bool := lastWrite i ls.flatten

end Srcml.Spec
