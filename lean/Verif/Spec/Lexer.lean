import Verif.Model.Lexer
import Verif.Spec.Parser
/-
Specification for the lexer: keywords of a language and the starts of comments.
-/
namespace Srcml.Spec

/-- The word is a keyword of the language, with this token. -/
def KeywordOf (language : Nat) (word : Str) (token : TokType) : Prop :=
  ∃ k ∈ keywordMap, k.text = word ∧ k.language &&& language > 0 ∧ k.token = token

/-- The names of the languages that the words are sorted by: C, C++, Java, C#, and Objective-C, which is C too. -/
def languageNumbers : List Nat := [1, 2, 4, 8, 17]

/-- What a comment can start with. -/
def commentStarts : List Str := ["//".toList, "///".toList, "//!".toList, "/*".toList, "/**".toList, "/*!".toList]

/-- No macro of the user is named like the start of a comment. -/
def NoCommentMacro (c : LexConf) : Prop := ∀ p ∈ userLiterals c.userMacros, p.1 ∉ commentStarts

/-- A control character other than tab and newline. -/
def isControl (ch : Char) : Bool := ch.toNat < 32 && ch ≠ '\t' && ch ≠ '\n'

/-- No raw string has to do with a control character: the source has none of them, or no raw string, or is not C++. -/
def NoRawControl (c : LexConf) (s : Str) : Prop :=
  c.language &&& 2 = 0 ∨ (∀ ch ∈ s, isControl ch = false) ∨ ∀ a b, s ≠ a ++ ['R', '"'] ++ b

/-- The comments open after tokens, innermost first, from `cs` on: each end ends the innermost comment, and a token that is not white space
or part of a comment is outside of comments. -/
inductive CommentRun : List TokType → List Tok → List TokType → Prop
  | nil (cs) : CommentRun cs [] cs
  | cons (cs cs1 cs2 t ts) : (t.type ∉ whitespaceTokens → cs = []) → commentStep cs t.type = some cs1 → CommentRun cs1 ts cs2 →
      CommentRun cs (t :: ts) cs2

/-- The line of the place behind a text. -/
def lineBehind (before : Str) : Nat := before.count '\n' + 1

/-- The width of a line on a screen, up to here: a tab goes on to the next multiple of the tab size. -/
def lineWidth (tab : Nat) (line : Str) : Nat := line.foldl (fun w ch => if ch = '\t' then (w / tab + 1) * tab else w + 1) 0

/-- The column of the place behind a text, from 1. -/
def columnBehind (tab : Nat) (before : Str) : Nat := lineWidth tab (before.reverse.takeWhile (· ≠ '\n')).reverse + 1

/-- A word: a letter, `_`, `$` or a byte of a character beyond ASCII, and then also digits. -/
def isWord (x : Str) : Bool :=
  match x with
  | [] => false
  | ch :: r => wordStart ch && r.all (fun ch => wordStart ch || ('0' ≤ ch && ch ≤ '9'))
where
  /-- What a word starts with. -/
  wordStart (ch : Char) : Bool := ('a' ≤ ch && ch ≤ 'z') || ('A' ≤ ch && ch ≤ 'Z') || ch = '_' || ch = '$' || (128 ≤ ch.toNat && ch.toNat ≤ 255)

/-- The types of the tokens inside of comments and literals. -/
def insideTypes : List TokType :=
  [chars! "COMMENT_TEXT", chars! "CONTROL_CHAR", chars! "BLOCK_COMMENT_END", chars! "JAVADOC_COMMENT_END", chars! "DOXYGEN_COMMENT_END",
   chars! "LINE_DOXYGEN_COMMENT_END", chars! "LINE_COMMENT_END", chars! "STRING_END", chars! "RAW_STRING_END", chars! "CHAR_END"]

/-- The types that macros can be registered with, and their tokens. -/
def macroTypes : List (Str × TokType) :=
  [("src:macro".toList, chars! "MACRO_NAME"), ("src:name".toList, chars! "MACRO_TYPE_NAME"), ("src:type".toList, chars! "MACRO_TYPE_NAME"),
   ("src:case".toList, chars! "MACRO_CASE"), ("src:label".toList, chars! "MACRO_LABEL"), ("src:specifier".toList, chars! "MACRO_SPECIFIER")]

/-- The macros registered as pairs of name and type, the last one first. -/
def registered : List Str → List (Str × Str)
  | m :: t :: rest => registered rest ++ [(m, t)]
  | _ => []

/-- The token for the word among the macros registered, where a later one takes precedence and unknown types do not count. -/
def MacroOf (macros : List Str) (word : Str) (token : TokType) : Prop :=
  ∃ newer older type, registered macros = newer ++ (word, type) :: older ∧ (type, token) ∈ macroTypes ∧
    ∀ t, (word, t) ∈ newer → ∀ k, (t, k) ∉ macroTypes

end Srcml.Spec
