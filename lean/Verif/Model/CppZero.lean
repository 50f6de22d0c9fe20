import Verif.Model.Basic
/-
The state of the parser for conditional directives, and which text it leaves without markup.
-/
namespace Srcml

/-- The directives as far as `eol_post` tells them apart, src/parser/srcMLParser.g:9424-9554, with the texts of the tokens of a condition,
src/parser/srcMLParser.g:9162-9177. -/
inductive CppDirective where
  | ifDir (cond : List Str)
  | ifdef | ifndef
  | elifDir (cond : List Str)
  | elseDir | endif | other
  deriving DecidableEq, Repr

/-- `markblockzero`, src/parser/srcMLParser.g:9100, 9163, 9169, 9177 and 9603-9605: the first token of the condition is the constant `0`. -/
def markblockzero : CppDirective → Bool
  | .ifDir c => c.head? = some ['0']
  | .elifDir c => c.head? = some ['0']
  | _ => false

/-- `cppmodeitem`, src/parser/srcMLParser.g:752-762. -/
structure CppMode where
  statesize : List Nat
  isclosed : Bool := false
  skipelse : Bool := false
  deriving DecidableEq, Repr

/-- `cpp_zeromode`, `cpp_skipelse`, `cpp_ifcount`, `cppmode`, src/parser/srcMLParser.g:703-705, 764; the top of the stack is first. -/
structure CppState where
  zeromode : Bool := false
  skipelse : Bool := false
  ifcount : Int := 0
  cppmode : List CppMode := []
  deriving DecidableEq, Repr

/-- `SRCML_OPTION_CPP_TEXT_ELSE` and `SRCML_OPTION_CPP_MARKUP_IF0`, src/libsrcml/srcml.h:113-115. -/
structure CppOptions where
  textElse : Bool := false
  markupIf0 : Bool := false
  deriving DecidableEq, Repr

/-- `cppmode_cleanup`, src/parser/srcMLParser.g:9577-9591; it is only called when the stack is not empty. -/
def cppmodeCleanup : List CppMode → List CppMode
  | [] => []
  | m :: ms => if m.statesize.all (fun n => some n = m.statesize.head?) || m.statesize.length = 2 then ms else m :: ms

/-- The part of `eol_post` for `#if`, `#ifdef` and `#ifndef`, src/parser/srcMLParser.g:9480-9498. The code before it is disabled with `false &&`. -/
def cppIf (o : CppOptions) (guessing : Bool) (size : Nat) (zero : Bool) (s : CppState) : CppState :=
  let s := if !s.zeromode && zero then { s with zeromode := true, ifcount := 0 } else s
  let s := { s with ifcount := s.ifcount + 1 }
  if !o.textElse && !guessing then { s with cppmode := { statesize := [size] } :: s.cppmode } else s

/-- For `#else` and `#elif`, the flags, src/parser/srcMLParser.g:9503-9511. -/
def cppElseFlags (s : CppState) : CppState :=
  if s.zeromode && s.ifcount = 1 then { s with zeromode := false }
  else if !s.zeromode then { s with skipelse := true, ifcount := 1 } else s

/-- For `#else` and `#elif`, the mode on the top, src/parser/srcMLParser.g:9515-9523. -/
def cppElseTop (size : Nat) (zeromode : Bool) (ms : List CppMode) : CppMode :=
  let m := match ms with
    | [] => ({ statesize := [size] } : CppMode)
    | m :: _ => m
  let m := { m with statesize := m.statesize ++ [size] }
  if !zeromode && decide (m.statesize.headD 0 > size) then { m with skipelse := true } else m

/-- For `#else` and `#elif`, src/parser/srcMLParser.g:9500-9525. -/
def cppElse (o : CppOptions) (guessing : Bool) (size : Nat) (s : CppState) : CppState :=
  let s := cppElseFlags s
  if o.textElse && !guessing then { s with cppmode := cppElseTop size s.zeromode s.cppmode :: s.cppmode.tail } else s

/-- For `#endif`, the flags, src/parser/srcMLParser.g:9529-9538. -/
def cppEndifFlags (s : CppState) : CppState :=
  let n := s.ifcount - 1
  { s with
    ifcount := n
    zeromode := if s.zeromode && n = 0 then false else s.zeromode
    skipelse := if s.skipelse && n = 0 then false else s.skipelse }

/-- For `#endif`, the modes, src/parser/srcMLParser.g:9540-9551. -/
def cppEndifModes (size : Nat) : List CppMode → List CppMode
  | [] => []
  | m :: ms => cppmodeCleanup ({ m with statesize := m.statesize ++ [size], isclosed := true } :: ms)

/-- For `#endif`, src/parser/srcMLParser.g:9527-9551. -/
def cppEndif (o : CppOptions) (guessing : Bool) (size : Nat) (s : CppState) : CppState :=
  let s := cppEndifFlags s
  if o.textElse && !guessing then { s with cppmode := cppEndifModes size s.cppmode } else s

/-- `eol_post`, src/parser/srcMLParser.g:9418-9575, for a directive, with the number of open modes `size()`: the change of the state. -/
def cppDirective (o : CppOptions) (guessing : Bool) (size : Nat) (d : CppDirective) (s : CppState) : CppState :=
  match d with
  | .ifDir _ | .ifdef | .ifndef => cppIf o guessing size (markblockzero d) s
  | .elseDir | .elifDir _ => cppElse o guessing size s
  | .endif => cppEndif o guessing size s
  | .other => s

/-- The condition at the end of `eol_post`, src/parser/srcMLParser.g:9557-9572: whether everything up to the next directive, or to the end of the input, is
consumed as it is. -/
def cppSkips (o : CppOptions) (guessing : Bool) (s : CppState) : Bool :=
  (!o.markupIf0 && s.zeromode) || (o.textElse && s.skipelse) || (o.textElse && guessing && s.skipelse) ||
    (match s.cppmode with
    | [] => false
    | m :: _ => !m.isclosed && m.skipelse)

/-- A directive as it is read: with the number of modes that are open there. src/parser/srcMLParser.g:9418-9575. -/
structure CppLine where
  directive : CppDirective
  size : Nat
  deriving DecidableEq, Repr

/-- The directives in the order in which they are read, src/parser/StreamMLParser.hpp:505-536: for each of them, whether the text between it and the next
one is left without markup. -/
def cppRun (o : CppOptions) (guessing : Bool) : List CppLine → CppState → List Bool × CppState
  | [], s => ([], s)
  | l :: ls, s =>
    let s := cppDirective o guessing l.size l.directive s
    let r := cppRun o guessing ls s
    (cppSkips o guessing s :: r.1, r.2)

end Srcml
