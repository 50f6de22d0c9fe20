import Verif.Model.Basic
/-
Where comments, strings and characters end, independent of the lexer.
-/
namespace Srcml.Spec

/-- In `s` the text `pat` comes first behind `pre`, and `post` follows. -/
structure First (pat s pre post : Str) : Prop where
  split : s = pre ++ pat ++ post
  first : ∀ a b, s = a ++ pat ++ b → pre.length ≤ a.length

/-- A text between two quotes `q`: a backslash and the character behind it belong together, and no other character is the quote. -/
inductive Body (q : Char) : Str → Prop where
  | nil : Body q []
  | plain (c : Char) (s : Str) : c ≠ q → c ≠ '\\' → Body q s → Body q (c :: s)
  | escape (c : Char) (s : Str) : Body q s → Body q ('\\' :: c :: s)

/-- A text in a verbatim string of C#: a quote in it is written twice, and a backslash means nothing. -/
inductive Verbatim : Str → Prop where
  | nil : Verbatim []
  | plain (c : Char) (s : Str) : c ≠ '"' → Verbatim s → Verbatim (c :: s)
  | pair (s : Str) : Verbatim s → Verbatim ('"' :: '"' :: s)

end Srcml.Spec
