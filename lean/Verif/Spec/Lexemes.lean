import Verif.Spec.Lexer
import Verif.Spec.CommentText
/-
The words, numbers, operators, literals and comments of a source, written down independently of the lexer.
-/
namespace Srcml.Spec

/-- The kinds of the parts of a source. -/
inductive LexKind where
  | word | number | imaginary | operator | blank | newline | continuation | string | character | lineComment | blockComment
  deriving DecidableEq, Repr

/-- A decimal digit. -/
def isDigit (ch : Char) : Bool := '0' ≤ ch && ch ≤ '9'

/-- A character inside of a word. -/
def isWordChar (ch : Char) : Bool := isWord.wordStart ch || isDigit ch

/-- The text does not go on with such a character. -/
def NotThen (rest : Str) (p : Char → Bool) : Prop := ∀ ch, rest.head? = some ch → p ch = false

/-- The operators of the languages. -/
def operators (language : Nat) : List Str :=
  ["+", "++", "+=", "-", "--", "-=", "->", "->*", "*", "*=", "%", "%=", "^", "^=", "!", "!=", "|", "||", "|=", "||=", "&", "&&", "&=", "&&=",
   ":", "::", "=", "==", ">", ">=", ">>=", "<", "<<", "<=", "<<=", ",", ";", "(", ")", "[", "]", "{", "}", "~", "`", "#", "/", "/=",
   ".", "..", "..."].map String.toList ++
  (if language ∈ [1, 2, 17] then ["<<<".toList] else []) ++ (if language ≠ 4 then [".*".toList] else []) ++
  (if language ∈ [1, 2, 4] then ["@".toList] else [])

/-- What can be in front of the quote of a string. -/
def stringPrefixes : List Str := ["L", "U", "u", "u8"].map String.toList

/-- What can be in front of the quote of a raw string, in C++. -/
def rawPrefixes : List Str := ["R", "u8R", "LR", "UR", "uR"].map String.toList

/-- The parts of a number: digits, a fraction, an exponent, `i`, and a suffix (which is also how `0x1F` goes on). -/
structure NumberParts where
  whole : Str
  fraction : Str := []
  exponent : Str := []
  imaginary : Str := []
  suffix : Str := []

/-- The text of a number. -/
def NumberParts.text (n : NumberParts) : Str := n.whole ++ n.fraction ++ n.exponent ++ n.imaginary ++ n.suffix

/-- A number, with the text that follows. -/
structure NumberParts.Good (n : NumberParts) (rest : Str) : Prop where
  whole : ∃ ch r, n.whole = ch :: r ∧ isDigit ch = true ∧ ∀ x ∈ r, isDigit x = true ∨ x = '_'
  fraction : n.fraction = [] ∨ ∃ r, n.fraction = '.' :: r ∧ ∀ x ∈ r, isDigit x = true
  exponent : n.exponent = [] ∨ ∃ sign ch r, n.exponent = 'e' :: (sign ++ ch :: r) ∧ (sign = [] ∨ sign = ['+'] ∨ sign = ['-']) ∧
    isDigit ch = true ∧ ∀ x ∈ r, isDigit x = true
  imaginary : n.imaginary = [] ∨ n.imaginary = ['i']
  suffix : n.suffix = [] ∨ isWord n.suffix = true
  suffixStart : n.suffix.head? ≠ some 'i' ∧ (n.exponent = [] → n.imaginary = [] → n.suffix.head? ≠ some 'e') ∧
    (n.fraction = [] → n.exponent = [] → n.imaginary = [] → n.suffix.head? ≠ some '_')
  ends : NotThen rest isWordChar
  noFraction : n.exponent = [] → n.imaginary = [] → n.suffix = [] → rest.head? ≠ some '.'

/-- Where in its line a part of a source is: is it the first part but for blanks, and is the line one of a directive. -/
structure LineState where
  first : Bool := true
  directive : Bool := false
  deriving DecidableEq, Repr

/-- The place behind a part. A comment counts like the end of a line; `/**/` and a division do not change anything. -/
def LineState.next (l : LineState) (x : Str) : LexKind → LineState
  | .blank => l
  | .newline => {}
  | .continuation => { first := false }
  | .lineComment => {}
  | .blockComment => if x = "/**/".toList then l else {}
  | .operator =>
    if x = ['#'] ∧ l.first = true then { first := false, directive := true }
    else if x = ['/'] ∨ x = "/=".toList then l
    else { l with first := false }
  | _ => { l with first := false }

/-- A part of a source, its kind, and the text that follows; `directive`: it is in the line of a directive, where a literal ends at the end of the line. -/
inductive Lexeme (language : Nat) (directive : Bool) : Str → LexKind → Str → Prop where
  | word (x rest : Str) : isWord x = true → NotThen rest isWordChar →
      (rest.head? = some '"' → x ∉ stringPrefixes ∧ (language = 2 → x ∉ rawPrefixes)) → Lexeme language directive x .word rest
  | number (n : NumberParts) (rest : Str) : n.Good rest → Lexeme language directive n.text (if n.imaginary = [] then .number else .imaginary) rest
  /-- a number that starts with the decimal point -/
  | fraction (n : NumberParts) (rest : Str) : n.Good rest → n.fraction = [] → Lexeme language directive ('.' :: n.text) .number rest
  /-- a word with `@`, in C# and Objective-C -/
  | atWord (x rest : Str) : language ∈ [8, 17] → isWord x = true → NotThen rest isWordChar → Lexeme language directive ('@' :: x) .word rest
  /-- a number object of Objective-C -/
  | atNumber (n : NumberParts) (rest : Str) : language = 17 → n.Good rest → Lexeme language directive ('@' :: n.text) .number rest
  /-- the start of an expression, array or dictionary object of Objective-C -/
  | atOpen (x : Char) (rest : Str) : language = 17 → x ∈ ['(', '[', '{'] → Lexeme language directive ['@', x] .operator rest
  /-- a string object of Objective-C; not one with a quote inside -/
  | atString (body rest : Str) : language = 17 → '"' ∉ body → (directive = true → '\n' ∉ body) → rest.head? ≠ some '"' → Lexeme language directive ('@' :: '"' :: body ++ ['"']) .string rest
  /-- the longest operator, where no comment and no number starts -/
  | operator (x rest : Str) : x ∈ operators language → (∀ o ∈ operators language, o <+: x ++ rest → o.length ≤ x.length) →
      ¬ "//".toList <+: x ++ rest → ¬ "/*".toList <+: x ++ rest → ¬ ">>==".toList <+: x ++ rest →
      (language = 8 → ¬ "=>".toList <+: x ++ rest) → (x = ".".toList → NotThen rest isDigit) → Lexeme language directive x .operator rest
  | questions (n : Nat) (rest : Str) : rest.head? ≠ some '?' → Lexeme language directive (List.replicate (n + 1) '?') .operator rest
  | blank (x rest : Str) : x ≠ [] → (∀ ch ∈ x, ch = ' ' ∨ ch = '\t') → rest.head? ≠ some ' ' → rest.head? ≠ some '\t' →
      Lexeme language directive x .blank rest
  | newline (rest : Str) : Lexeme language directive ['\n'] .newline rest
  | continuation (rest : Str) : rest.head? ≠ some '\n' → Lexeme language directive ['\\', '\n'] .continuation rest
  | string (p body rest : Str) : p = [] ∨ p ∈ stringPrefixes → Body '"' body → (directive = true → '\n' ∉ body) → rest.head? ≠ some '"' →
      Lexeme language directive (p ++ '"' :: body ++ ['"']) .string rest
  | rawString (p d body rest : Str) : language = 2 → p ∈ rawPrefixes → (∀ ch ∈ d, ch ∉ "()\\\n \t".toList) → (directive = true → '\n' ∉ body) →
      First (')' :: d ++ ['"']) (body ++ ')' :: d ++ '"' :: rest) body rest → rest.head? ≠ some '"' →
      Lexeme language directive (p ++ '"' :: d ++ '(' :: body ++ ')' :: d ++ ['"']) .string rest
  | verbatim (body rest : Str) : language = 8 → Verbatim body → (directive = true → '\n' ∉ body) → (∀ a r, body ≠ a ++ ['\\', '"', '"'] ++ r) →
      rest.head? ≠ some '"' → Lexeme language directive ('@' :: '"' :: body ++ ['"']) .string rest
  | character (body rest : Str) : Body '\'' body → (directive = true → '\n' ∉ body) → Lexeme language directive ('\'' :: body ++ ['\'']) .character rest
  /-- to the end of the line; the newline is not a part of it, except when the comment is empty (or ends with a control character) -/
  | lineComment (text rest : Str) : '\n' ∉ text → (∀ ch, text.getLast? = some ch → isControl ch = false) → (rest = [] ∨ rest.head? = some '\n') → text ∉ [[], ['/'], ['!']] →
      Lexeme language directive ("//".toList ++ text) .lineComment rest
  | emptyLineComment (text rest : Str) : text ∈ [[], ['/'], ['!']] → Lexeme language directive ("//".toList ++ text ++ ['\n']) .lineComment rest
  | blockComment (body rest : Str) : First ['*', '/'] (body ++ "*/".toList ++ rest) body rest → (language ≠ 4 → ¬ "!/".toList <+: body ++ "*/".toList) →
      Lexeme language directive ("/*".toList ++ body ++ "*/".toList) .blockComment rest

/-- A source as its parts, one after the other. -/
inductive Lexemes (language : Nat) : LineState → Str → List (Str × LexKind) → Prop where
  | nil (l : LineState) : Lexemes language l [] []
  | cons (l : LineState) (x : Str) (k : LexKind) (rest : Str) (xs : List (Str × LexKind)) : Lexeme language l.directive x k rest →
      Lexemes language (l.next x k) rest xs → Lexemes language l (x ++ rest) ((x, k) :: xs)

/-- The type of a word or operator: that of the keyword, or of the macro registered last, or the usual one. -/
def LiteralType (c : LexConf) (x : Str) (usual type : TokType) : Prop :=
  KeywordOf c.language x type ∨
    ((∀ k, ¬ KeywordOf c.language x k) ∧ (MacroOf c.userMacros x type ∨ ((∀ k, ¬ MacroOf c.userMacros x k) ∧ type = usual)))

/-- The types of the first and the last token of a comment. -/
def commentTypes (language : Nat) (x : Str) : TokType × TokType :=
  if "//!".toList <+: x ∨ "///".toList <+: x then (chars! "LINE_DOXYGEN_COMMENT_START", chars! "LINE_DOXYGEN_COMMENT_END")
  else if "//".toList <+: x then (chars! "LINE_COMMENT_START", chars! "LINE_COMMENT_END")
  else if language = 4 ∧ "/**".toList <+: x then (chars! "JAVADOC_COMMENT_START", chars! "JAVADOC_COMMENT_END")
  else if language ≠ 4 ∧ ("/**".toList <+: x ∨ "/*!".toList <+: x) then (chars! "DOXYGEN_COMMENT_START", chars! "DOXYGEN_COMMENT_END")
  else (chars! "BLOCK_COMMENT_START", chars! "BLOCK_COMMENT_END")

/-- A text between a first and a last token: the others are its text and its control characters. -/
structure Between (first last : TokType → Prop) (x : Str) (ts : List Tok) : Prop where
  parts : ∃ a inner z, ts = a :: inner ++ [z] ∧ first a.type ∧ last z.type ∧
    ∀ t ∈ inner, t.type = chars! "COMMENT_TEXT" ∨ t.type = chars! "CONTROL_CHAR"
  text : ts.flatMap (·.text) = x

/-- The tokens of a part of a source; `first`: it is the first part of its line. A `#` is a directive there only. -/
inductive TokensOf (c : LexConf) (first : Bool) : LexKind → Str → List Tok → Prop where
  | word (t : Tok) : LiteralType c t.text (chars! "NAME") t.type → TokensOf c first .word t.text [t]
  | number (t : Tok) : t.type = chars! "CONSTANTS" → TokensOf c first .number t.text [t]
  | numberAt (t : Tok) : (t.text.head? = some '.' ∨ t.text.head? = some '@') → LiteralType c t.text (chars! "CONSTANTS") t.type → TokensOf c first .number t.text [t]
  | imaginary (t : Tok) : t.type = chars! "COMPLEX_NUMBER" → TokensOf c first .imaginary t.text [t]
  | operator (t : Tok) : LiteralType c t.text (if t.text = ['#'] ∧ first = true then chars! "PREPROC" else chars! "OPERATORS") t.type → TokensOf c first .operator t.text [t]
  | blank (t : Tok) : t.type = chars! "WS" → TokensOf c first .blank t.text [t]
  | newline (t : Tok) : t.type = chars! "EOL" → TokensOf c first .newline t.text [t]
  | continuation (t : Tok) : LiteralType c t.text (chars! "EOL_BACKSLASH") t.type → TokensOf c first .continuation t.text [t]
  | string (x : Str) (ts : List Tok) : Between (fun a => ∃ q, q <+: x ∧ (a = chars! "STRING_START" ∨ LiteralType c q (chars! "STRING_START") a))
      (· = chars! "STRING_END") x ts → TokensOf c first .string x ts
  | character (x : Str) (ts : List Tok) : Between (· = chars! "CHAR_START") (· = chars! "CHAR_END") x ts → TokensOf c first .character x ts
  | lineComment (x : Str) (ts : List Tok) : Between (· = (commentTypes c.language x).1) (· = (commentTypes c.language x).2) x ts →
      TokensOf c first .lineComment x ts
  | blockComment (x : Str) (ts : List Tok) : Between (· = (commentTypes c.language x).1) (· = (commentTypes c.language x).2) x ts →
      TokensOf c first .blockComment x ts
  | whole (t : Tok) : t.text = "/**/".toList → LiteralType c t.text (chars! "WHOLE_COMMENT") t.type → TokensOf c first .blockComment t.text [t]

/-- The tokens of the parts of a source, one after the other. -/
inductive TokensOfAll (c : LexConf) : LineState → List (Str × LexKind) → List Tok → Prop where
  | nil (l : LineState) : TokensOfAll c l [] []
  | cons (l : LineState) (x : Str) (k : LexKind) (xs : List (Str × LexKind)) (ts us : List Tok) : TokensOf c l.first k x ts →
      TokensOfAll c (l.next x k) xs us → TokensOfAll c l ((x, k) :: xs) (ts ++ us)

/-- In front of it there are only blanks in the line. -/
def FirstInLine (pre : List (Str × LexKind)) : Prop :=
  ∃ a blanks, pre = a ++ blanks ∧ (∀ x ∈ blanks, x.2 = .blank) ∧ (a = [] ∨ ∃ x, a.getLast? = some x ∧ x.2 = .newline)

/-- In front of it there is, in its line, a word, a number, a literal or an operator, with at most blanks between; not a division and not a comment. -/
def BehindText (pre : List (Str × LexKind)) : Prop :=
  ∃ a x blanks, pre = a ++ x :: blanks ∧ (∀ y ∈ blanks, y.2 = .blank) ∧
    (x.2 ∈ [.word, .number, .imaginary, .string, .character] ∨ (x.2 = .operator ∧ x.1 ≠ ['/'] ∧ x.1 ≠ "/=".toList))

end Srcml.Spec
