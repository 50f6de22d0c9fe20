import Verif.Model.Elements
/-
The stack of parser modes: classes `ModeStack` and `srcMLState`. The list of states is written here with
the top of the stack first (`st.back()` is the head).
-/
namespace Srcml

/-- `srcMLState::MODE_TYPE`, `std::bitset<128>`, src/parser/srcMLState.hpp:41. -/
abbrev Mode := BitVec 128

/-- src/parser/Mode.cpp:61 -/
def MODE_ISSUE_EMPTY_AT_POP : Mode := 1#128 <<< 35
/-- src/parser/Mode.cpp:37 -/
def MODE_TOP : Mode := 1#128 <<< 11
/-- src/parser/Mode.cpp:27 -/
def MODE_LIST : Mode := 1#128 <<< 1

/-- `srcMLState`, src/parser/srcMLState.hpp:36-305. The open elements (top first) carry, besides their
type, the number of the start token created for them; the counters of parentheses, braces and types are left out. -/
structure ModeState where
  flags : Mode
  prev : Mode
  all : Mode
  opens : List (TokType × Nat) := []
  deriving DecidableEq, Repr

/-- The stack of states, top first, src/parser/ModeStack.hpp:59. -/
abbrev ModeStack := List ModeState

/-- Test for all the bits of `m`, src/parser/srcMLState.hpp:99-102. -/
def hasMode (flags m : Mode) : Bool := decide (flags &&& m = m)

namespace ModeStack

/-- `getMode`, src/parser/ModeStack.hpp:155-158. -/
def getMode (st : ModeStack) : Mode := (st.head?.map (·.flags)).getD 0
/-- `getTransparentMode`, src/parser/ModeStack.hpp:179-182. -/
def getTransparentMode (st : ModeStack) : Mode := (st.head?.map (·.all)).getD 0

/-- `startNewMode`, src/parser/ModeStack.hpp:99-103, with the constructor src/parser/srcMLState.hpp:52-54. -/
def startNewMode (st : ModeStack) (m : Mode) : ModeStack :=
  ⟨m, getMode st, getTransparentMode st ||| m, []⟩ :: st

/-- `setMode`, src/parser/ModeStack.hpp:210-215 and srcMLState.hpp:158-162; `none`: an exception is thrown. -/
def setMode : ModeStack → Mode → Option ModeStack
  | [], _ => none
  | s :: st, m => some ({ s with flags := s.flags ||| m, all := s.all ||| m } :: st)

/-- `clearMode`, src/parser/ModeStack.hpp:223-228 and srcMLState.hpp:170-174. -/
def clearMode : ModeStack → Mode → Option ModeStack
  | [], _ => none
  | s :: st, m => some ({ s with flags := s.flags &&& ~~~m, all := s.all &&& ~~~m } :: st)

/-- `replaceMode`, src/parser/ModeStack.hpp:484-488. -/
def replaceMode (st : ModeStack) (oldm newm : Mode) : Option ModeStack :=
  (clearMode st oldm).bind (fun st => setMode st newm)

/-- `inMode`, src/parser/ModeStack.hpp:287-290 and srcMLState.hpp:99-102. -/
def inMode (st : ModeStack) (m : Mode) : Bool :=
  match st with
  | [] => false
  | s :: _ => hasMode s.flags m

/-- `inPrevMode`, src/parser/ModeStack.hpp:300-303 and srcMLState.hpp:112-115. -/
def inPrevMode (st : ModeStack) (m : Mode) : Bool :=
  match st with
  | s :: _ :: _ => hasMode s.prev m
  | _ => false

/-- `inTransparentMode`, src/parser/ModeStack.hpp:313-316 and srcMLState.hpp:124-127. -/
def inTransparentMode (st : ModeStack) (m : Mode) : Bool :=
  match st with
  | [] => false
  | s :: _ => hasMode s.all m

/-- `getFirstMode`, src/parser/ModeStack.hpp:192-202. -/
def getFirstMode (st : ModeStack) (m : Mode) : Mode :=
  ((st.find? (fun s => decide (s.flags &&& m ≠ 0))).map (·.flags)).getD 0

/-- `popMode`, src/parser/ModeStack.hpp:454-466: the open elements of the state are ended, innermost
first, and the state is removed. The result is the elements ended, and the stack; `none`: an exception. -/
def popMode : ModeStack → Option (List (TokType × Nat) × ModeStack)
  | [] => none
  | s :: st => some (s.opens, st)

/-- `endMode`, src/parser/ModeStack.hpp:110-116 and 128-134: refused with an exception on the last state (the
version without argument lets an empty stack pass to `popMode`, which throws as well). -/
def endMode (st : ModeStack) : Option (List (TokType × Nat) × ModeStack) :=
  if st.length = 1 then none else popMode st

/-- `while (size() > 1 && c()) endMode();`, the loop of the functions below. src/parser/ModeStack.hpp:110-240. -/
def endWhile (c : ModeStack → Bool) : ModeStack → List (TokType × Nat) × ModeStack
  | s :: s2 :: st =>
    if c (s :: s2 :: st) then
      let r := endWhile c (s2 :: st)
      (s.opens ++ r.1, r.2)
    else ([], s :: s2 :: st)
  | st => ([], st)

/-- `endDownToMode`, src/parser/ModeStack.hpp:570-577. -/
def endDownToMode (st : ModeStack) (m : Mode) : List (TokType × Nat) × ModeStack :=
  if inTransparentMode st m then endWhile (fun st => !inMode st m) st else ([], st)

/-- `endDownToModeSet`, src/parser/ModeStack.hpp:585-589. -/
def endDownToModeSet (st : ModeStack) (m : Mode) : List (TokType × Nat) × ModeStack :=
  endWhile (fun st => decide (getMode st &&& m = 0)) st

/-- `endDownOverMode`, src/parser/ModeStack.hpp:597-605. The flag tells whether the final `endMode` threw;
the elements ended before stay ended. -/
def endDownOverMode (st : ModeStack) (m : Mode) : List (TokType × Nat) × ModeStack × Bool :=
  if inTransparentMode st m then
    let r := endWhile (fun st => !inMode st m) st
    match endMode r.2 with
    | some (es, st') => (r.1 ++ es, st', false)
    | none => (r.1, r.2, true)
  else ([], st, false)

/-- `endWhileMode`, src/parser/ModeStack.hpp:613-617. -/
def endWhileMode (st : ModeStack) (m : Mode) : List (TokType × Nat) × ModeStack :=
  endWhile (fun st => inMode st m) st

/-- `push`, src/parser/ModeStack.hpp:236-241 and srcMLState.hpp:73-75. -/
def push : ModeStack → TokType × Nat → Option ModeStack
  | [], _ => none
  | s :: st, e => some ({ s with opens := e :: s.opens } :: st)

/-- `pop`, src/parser/ModeStack.hpp:248-253 and srcMLState.hpp:82-87. -/
def pop : ModeStack → Option ModeStack
  | [] => none
  | s :: st => match s.opens with
    | [] => none
    | _ :: es => some ({ s with opens := es } :: st)

end ModeStack

end Srcml
