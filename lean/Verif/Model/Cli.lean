import Verif.Model.Elements
import Verif.Model.Basic
/-
The clean-up of the command line arguments in front of the option parser (CLI11, which is not modelled).
-/
namespace Srcml

/-- `arg[7] = '='` for an argument that begins with `--xmlns:`, src/client/srcml_cli.cpp:113-115. -/
def xmlnsArg (arg : Str) : Str := if arg.take 8 = chars! "--xmlns:" then arg.set 7 '=' else arg

/-- The arguments put on the command line for one argument, src/client/srcml_cli.cpp:111-122; `back` of an empty string is
undefined. -/
def cleanArg (arg : Str) : Run (List Str) :=
  match (xmlnsArg arg).getLast? with
  | none => .ub
  | some c => if c = '=' then .val [(xmlnsArg arg).dropLast, []] else .val [xmlnsArg arg]

/-- The loop over the arguments, src/client/srcml_cli.cpp:109-123, of what comes after the name of the program. -/
def cleanArgs : List Str → Run (List Str)
  | [] => .val []
  | a :: as => do
    let x ← cleanArg a
    let y ← cleanArgs as
    pure (x ++ y)

/-- What is given to the option parser, which takes the arguments from the back, src/client/srcml_cli.cpp:124. -/
def cliArguments (args : List Str) : Run (List Str) := do
  let r ← cleanArgs args
  pure r.reverse

end Srcml
