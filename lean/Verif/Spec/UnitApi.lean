import Verif.Model.Basic
/-
What unparsing must do with line endings.
-/
namespace Srcml.Spec

/-- `out` is `text` with every newline replaced by `ending` and nothing else changed. -/
inductive Converted (ending : Str) : Str → Str → Prop
  | nil : Converted ending [] []
  | newline {text out : Str} : Converted ending text out → Converted ending ('\n' :: text) (ending ++ out)
  | other {c : Char} {text out : Str} : c ≠ '\n' → Converted ending text out → Converted ending (c :: text) (c :: out)

/-- The line ending that each number selects, in the public header: 0 leaves the text as it is. -/
def endingOf (eol : Nat) : Option Str :=
  if eol = 1 then some ['\n'] else if eol = 2 then some ['\r'] else if eol = 3 then some ['\r', '\n']
  else none

end Srcml.Spec
