import Verif.Model.Parser
import Verif.Spec.Output
/-
Specification of the parser: the text that a stream of tokens carries, and when elements are properly closed.
It uses only the tokens.
-/
namespace Srcml.Spec

/-- What a token of the output carries of the source: the text of a source token, or the character of a control
character element; markup tokens carry nothing. -/
def carried (t : Tok) : Str :=
  match t.category with
  | .text => t.text
  | .empty => if t.type = chars! "CONTROL_CHAR" then [lowByte (strtol0 t.text)] else []
  | _ => []

/-- Is it the end-of-file token of the source? -/
def isEof (t : Tok) : Bool := decide (t.type = chars! "EOF") && decide (t.category = .text)

/-- The text carried by a stream up to its end-of-file token. -/
def carriedText (ts : List Tok) : Str := (ts.takeWhile (fun t => !isEof t)).flatMap carried

/-- The tokens that the parser has returned to the output. The token returned last is still at the front of the
buffer (the next call takes it off), and the first call takes off a token that was never returned. -/
def returned (s : PState) : List Tok := ((s.out ++ s.tb.take 1).drop 1).map (·.tok)

/-- The tokens of a lexer: source text, none of them an end of file; a control character token is one character
below 32. -/
def LexerTokens (src : List Tok) : Prop :=
  ∀ t ∈ src, t.category = .text ∧ isEof t = false ∧
    (t.type = chars! "CONTROL_CHAR" → ∃ ch : Char, t.text = [ch] ∧ ch.toNat < 32)

/-- The end-of-file token of a lexer. -/
def EofToken (t : Tok) : Prop := t.category = .text ∧ isEof t = true ∧ t.text = []

/-- The n-th token of the source; the end of file after the last. -/
def tokAt (c : PConf) (n : Nat) : Tok := (c.src[n]?).getD c.eof

/-- The comments open after a token, innermost first; `none`: the token ends a comment that is not the innermost
open one. -/
def commentStep (cs : List TokType) (t : TokType) : Option (List TokType) :=
  match commentRole t with
  | some (_, true, true) => some cs
  | some (el, true, false) => some (el :: cs)
  | some (el, _, _) =>
    match cs with
    | [] => none
    | e :: r => if e = el then some r else none
  | none => some cs

/-- The comments open before the n-th token. -/
def commentsAt (c : PConf) : Nat → Option (List TokType)
  | 0 => some []
  | n + 1 => (commentsAt c n).bind (fun cs => commentStep cs (tokAt c n).type)

/-- The comments of the source are closed: each end ends the innermost comment, and a token that is not white space
or part of a comment (also the end of file) is outside of comments. -/
def CommentsClosed (c : PConf) : Prop :=
  ∀ n, ∃ cs, commentsAt c n = some cs ∧ ((tokAt c n).type ∉ whitespaceTokens → cs = [])

/-- The elements open after a stream of tokens, innermost first; `none` if an end token does not end the innermost
open element. The tokens of the unit itself are left out: the output writes the unit element on its own. -/
def nest : List TokType → List Tok → Option (List TokType)
  | st, [] => some st
  | st, t :: ts =>
    if t.type = chars! "SUNIT" then nest st ts
    else match t.category with
      | .start => nest (t.type :: st) ts
      | .end_ =>
        match st with
        | [] => none
        | a :: st => if a = t.type then nest st ts else none
      | _ => nest st ts

/-- The types of the tokens of a lexer: none is an element of srcML, except for control characters. -/
def LexerTypes (src : List Tok) : Prop :=
  ∀ t ∈ src, t.type = chars! "CONTROL_CHAR" ∨ (elementOf t.type = none ∧ t.type ≠ chars! "SUNIT")

end Srcml.Spec
