import Verif.Model.Keywords
import Verif.Model.Output
import Verif.Model.CommentText
/-
The lexer: the rules of TextLexer.g and OperatorLexer.g, the keywords of KeywordLexer.g, and the change to the lexer for the texts of comments
and literals (Model/CommentText.lean).  The input are the bytes that `UTF8CharBuffer` gives, as characters below 256.  The line numbers of `#line` are
not modelled: the member `isline` that turns them on is never set.
-/
namespace Srcml

/-- The arguments of the constructor, src/parser/KeywordLexer.g:323-344, and `setTabsize`, src/libsrcml/srcml_translator.cpp:132; `lineOption` is
`SRCML_OPTION_LINE`. -/
structure LexConf where
  language : Nat
  tabsize : Nat := 8
  lineOption : Bool := false
  userMacros : List Str := []
  deriving Repr

/-- `inLanguage`, src/parser/Language.hpp:136-138. -/
def LexConf.inLanguage (c : LexConf) (l : Nat) : Bool := decide (l &&& c.language > 0)

/-- The members that change, src/parser/KeywordLexer.g:303-315, and the line and the column of the input state; `prev` is 0 at first. -/
structure LexState where
  startline : Bool := true
  onpreprocline : Bool := false
  lastpos : Int := 0
  prev : Char := Char.ofNat 0
  line : Nat := 1
  column : Nat := 1
  deriving DecidableEq, Repr

/-- The type for a macro of the user, src/parser/KeywordLexer.g:331-343; `none`: it is ignored. -/
def macroToken (type : Str) : Option TokType :=
  if type = "src:macro".toList then some (chars! "MACRO_NAME")
  else if type = "src:name".toList then some (chars! "MACRO_TYPE_NAME")
  else if type = "src:type".toList then some (chars! "MACRO_TYPE_NAME")
  else if type = "src:case".toList then some (chars! "MACRO_CASE")
  else if type = "src:label".toList then some (chars! "MACRO_LABEL")
  else if type = "src:specifier".toList then some (chars! "MACRO_SPECIFIER")
  else none

/-- The loop over the macros of the user, src/parser/KeywordLexer.g:330-343; they are in pairs. -/
def userLiterals : List Str → List (Str × TokType)
  | m :: t :: rest => (match macroToken t with
    | some k => [(m, k)]
    | none => []) ++ userLiterals rest
  | _ => []

/-- The assignments to `literals`, in order, src/parser/KeywordLexer.g:330-343 and 677-680. -/
def LexConf.assignments (c : LexConf) : List (Str × TokType) :=
  userLiterals c.userMacros ++ (keywordMap.filter (fun k => c.inLanguage k.language)).map (fun k => (k.text, k.token))

/-- `testLiteralsTable` (ANTLR) on the map `literals`: the last assignment counts, src/parser/KeywordLexer.g:677-680. -/
def LexConf.testLiterals (c : LexConf) (text : Str) (type : TokType) : TokType :=
  ((c.assignments.reverse.find? (fun p => p.1 = text)).map (·.2)).getD type

/-! ### Positions -/

/-- `consume`, `tab` and `newline` of ANTLR for one character, as called in src/parser/TextLexer.g:187-205 and
src/parser/CommentTextLexer.g:152-158: line and column. -/
def LexConf.move (c : LexConf) (p : Nat × Nat) (ch : Char) : Nat × Nat :=
  if ch = '\n' then (p.1 + 1 + (if c.lineOption then 65536 else 0), 1)
  else if ch = '\t' then (p.1, ((p.2 - 1) / c.tabsize + 1) * c.tabsize + 1)
  else (p.1, p.2 + 1)

/-- Line and column behind a text, src/parser/TextLexer.g:187-205. -/
def LexConf.moves (c : LexConf) (p : Nat × Nat) (s : Str) : Nat × Nat := s.foldl c.move p

/-! ### Rules -/

/-- `'0'..'9'`, src/parser/TextLexer.g:112. -/
def lexDigit (c : Char) : Bool := 48 ≤ c.toNat && c.toNat ≤ 57

/-- The first character of a name, src/parser/TextLexer.g:127. -/
def nameStart (c : Char) : Bool :=
  (97 ≤ c.toNat && c.toNat ≤ 122) || (65 ≤ c.toNat && c.toNat ≤ 90) || c = '_' || (128 ≤ c.toNat && c.toNat ≤ 255) || c = '$'

/-- The other characters of a name, src/parser/TextLexer.g:128. -/
def nameChar (c : Char) : Bool := lexDigit c || nameStart c

/-- The first character of the text if it is one of these, and nothing otherwise: an optional character of a rule, as in src/parser/OperatorLexer.g:115-160. -/
def opt (s : Str) (p : Char → Bool) : Str := (s.take 1).filter p

/-- `CONSTANTS`, src/parser/TextLexer.g:110-123: the text. The rule `NAME` in it cannot start a string there, because the text of the token
starts with a digit. -/
def constantText (s : Str) : Str × Bool :=
  let a := s.takeWhile (fun c => lexDigit c || c = '_')
  let s := s.drop a.length
  let b := s.takeWhile (fun c => c = '.' || lexDigit c)
  let s := s.drop b.length
  let e := opt s (· = 'e')
  let s := s.drop e.length
  let sign := if e = [] then [] else s.takeWhile (fun c => c = '+' || c = '-')
  let s := s.drop sign.length
  let exp := if e = [] then [] else s.takeWhile lexDigit
  let s := s.drop exp.length
  let i := s.takeWhile (· = 'i')
  let s := s.drop i.length
  let n := if (opt s nameStart) = [] then [] else s.takeWhile nameChar
  (a ++ b ++ e ++ sign ++ exp ++ i ++ n, i ≠ [])

/-- A token of the main lexer: its text, its type, and the lexer for a text that it changes to (`changetotextlexer`, src/parser/KeywordLexer.g:52-56). -/
structure MainTok where
  text : Str
  type : TokType
  enters : Option TextLexer := none
  deriving Repr

/-- `NAME`, src/parser/TextLexer.g:125-136, with `STRING_START` and `RAW_STRING_START`, src/parser/TextLexer.g:63-102. -/
def lexName (c : LexConf) (st : LexState) (s : Str) : MainTok :=
  let n := s.takeWhile nameChar
  let rest := s.drop n.length
  if rest.head? = some '"' then
    if n = ['L'] ∨ n = ['U'] ∨ n = ['u'] ∨ n = ['u', '8'] then
      ⟨n ++ ['"'], c.testLiterals (n ++ ['"']) (chars! "STRING_START"), some { mode := .string, onpreprocline := st.onpreprocline }⟩
    else if c.inLanguage LANGUAGE_CXX ∧ (n = ['R'] ∨ n = ['u', '8', 'R'] ∨ n = ['L', 'R'] ∨ n = ['U', 'R'] ∨ n = ['u', 'R']) then
      let d := rawDelimiter (rest.drop 1)
      let p := opt ((rest.drop 1).drop d.length) (· = '(')
      ⟨n ++ '"' :: (d ++ p), c.testLiterals (n ++ '"' :: (d ++ p)) (chars! "STRING_START"),
        some { mode := .rawString, onpreprocline := st.onpreprocline, delimiter1 := d }⟩
    else ⟨n, c.testLiterals n (chars! "NAME"), none⟩
  else ⟨n, c.testLiterals n (chars! "NAME"), none⟩

/-- The languages as `LINE_COMMENT_START` tells them apart, src/parser/TextLexer.g:152, 157. -/
def LexConf.commentLang (c : LexConf) : CommentLang :=
  if c.inLanguage LANGUAGE_JAVA then .java
  else if c.inLanguage LANGUAGE_CXX || c.inLanguage LANGUAGE_C || c.inLanguage LANGUAGE_CSHARP then .cFamily
  else .other

/-- The type of the token that starts a comment, src/parser/TextLexer.g:139-163. -/
def TextMode.startType : TextMode → TokType
  | .block => chars! "BLOCK_COMMENT_START"
  | .javadoc => chars! "JAVADOC_COMMENT_START"
  | .doxygen => chars! "DOXYGEN_COMMENT_START"
  | .lineDoxygen => chars! "LINE_DOXYGEN_COMMENT_START"
  | .line => chars! "LINE_COMMENT_START"
  | .string | .rawString => chars! "STRING_START"
  | .char => chars! "CHAR_START"

/-- The token of the lexer for texts that ends in a mode, src/parser/CommentTextLexer.g:56-70. -/
def TextMode.endType : TextMode → TokType
  | .block => chars! "BLOCK_COMMENT_END"
  | .javadoc => chars! "JAVADOC_COMMENT_END"
  | .doxygen => chars! "DOXYGEN_COMMENT_END"
  | .lineDoxygen => chars! "LINE_DOXYGEN_COMMENT_END"
  | .line => chars! "LINE_COMMENT_END"
  | .string => chars! "STRING_END"
  | .rawString => chars! "RAW_STRING_END"
  | .char => chars! "CHAR_END"

/-- `LINE_COMMENT_START`, src/parser/TextLexer.g:138-178, behind its first character. -/
def lexSlash (c : LexConf) (st : LexState) (s : Str) : MainTok :=
  let r := commentStart c.commentLang s
  match r.2.1 with
  | .opened m => ⟨'/' :: r.1, c.testLiterals ('/' :: r.1) m.startType, some { mode := m, onpreprocline := st.onpreprocline }⟩
  | .whole => ⟨'/' :: r.1, c.testLiterals ('/' :: r.1) (chars! "WHOLE_COMMENT"), none⟩
  | .operator => ⟨'/' :: r.1, c.testLiterals ('/' :: r.1) (chars! "LINE_COMMENT_START"), none⟩

/-- `'=' ('=' | {...}? '>')?`, src/parser/OperatorLexer.g:125: a `>` is taken in C# when the character before is no operator, with the position of the last operator as
it is remembered. -/
def arrowAllowed (c : LexConf) (st : LexState) : Bool :=
  c.inLanguage LANGUAGE_CSHARP && (decide (st.lastpos ≠ (st.column : Int)) || st.prev = ')' || st.prev = '#')

/-- The text of an operator from its first character `ch` on, with `s` behind it: src/parser/OperatorLexer.g:100-181, without `@`, `.` in front of a number and
a backslash at the end of a line. -/
def operatorText (c : LexConf) (st : LexState) (ch : Char) (s : Str) : Str :=
  if ch = '+' then ch :: opt s (fun x => x = '+' || x = '=')
  else if ch = '-' then
    if s.head? = some '>' then ch :: '>' :: opt (s.drop 1) (· = '*') else ch :: opt s (fun x => x = '-' || x = '=')
  else if ch = '*' ∨ ch = '%' ∨ ch = '^' ∨ ch = '!' then ch :: opt s (· = '=')
  else if ch = '|' ∨ ch = '&' then
    let a := opt s (· = ch)
    ch :: (a ++ opt (s.drop a.length) (· = '='))
  else if ch = ':' then ch :: opt s (· = ':')
  else if ch = '=' then ch :: opt s (fun x => x = '=' || (x = '>' && arrowAllowed c st))
  else if ch = '>' then
    let a := if s.take 2 = ['>', '='] then ['>', '='] else []
    ch :: (a ++ opt (s.drop a.length) (· = '='))
  else if ch = '<' then
    if s.head? = some '<' then
      ch :: '<' :: opt (s.drop 1) (fun x => (x = '<' && (c.inLanguage LANGUAGE_CXX || c.inLanguage LANGUAGE_C)) || x = '=')
    else ch :: opt s (· = '=')
  else if ch = '?' then ch :: s.takeWhile (· = '?')
  else [ch]

/-- The characters that the rule `OPERATORS` starts with and that have no other continuation than `operatorText`, src/parser/OperatorLexer.g:102-181. -/
def plainOperators : Str := "#+-*%^|`!:=&><,;()[]{}?~".toList

/-- `OPERATORS`, src/parser/OperatorLexer.g:100-183, for `@` with `s` behind it. -/
def lexAt (c : LexConf) (st : LexState) (s : Str) : MainTok :=
  let objc := c.inLanguage LANGUAGE_OBJECTIVE_C
  let names := c.inLanguage LANGUAGE_CSHARP || objc
  match s with
  | [] => ⟨['@'], c.testLiterals ['@'] (chars! "OPERATORS"), none⟩
  | x :: _ =>
    if objc ∧ (x = '(' ∨ x = '[' ∨ x = '{') then ⟨['@', x], c.testLiterals ['@', x] (chars! "OPERATORS"), none⟩
    else if names ∧ nameStart x then
      ⟨'@' :: s.takeWhile nameChar, c.testLiterals ('@' :: s.takeWhile nameChar) (chars! "NAME"), none⟩
    else if objc ∧ lexDigit x then
      ⟨'@' :: (constantText s).1, c.testLiterals ('@' :: (constantText s).1) (chars! "CONSTANTS"), none⟩
    else if names ∧ x = '\'' then
      ⟨['@', x], c.testLiterals ['@', x] (chars! "CHAR_START"), some { mode := .char, onpreprocline := st.onpreprocline }⟩
    else if names ∧ x = '"' then
      ⟨['@', x], c.testLiterals ['@', x] (chars! "STRING_START"),
        some { mode := .string, onpreprocline := st.onpreprocline, noescape := true }⟩
    else ⟨['@'], c.testLiterals ['@'] (chars! "OPERATORS"), none⟩

/-- `OPERATORS`, src/parser/OperatorLexer.g:100-183, for `.` with `s` behind it. -/
def lexDot (c : LexConf) (s : Str) : MainTok :=
  match s with
  | [] => ⟨['.'], c.testLiterals ['.'] (chars! "OPERATORS"), none⟩
  | x :: r =>
    if c.inLanguage LANGUAGE_C_FAMILY ∧ x = '*' then ⟨['.', x], c.testLiterals ['.', x] (chars! "OPERATORS"), none⟩
    else if x = '.' then
      ⟨'.' :: '.' :: opt r (· = '.'), c.testLiterals ('.' :: '.' :: opt r (· = '.')) (chars! "OPERATORS"), none⟩
    else if lexDigit x then
      ⟨'.' :: (constantText s).1, c.testLiterals ('.' :: (constantText s).1) (chars! "CONSTANTS"), none⟩
    else ⟨['.'], c.testLiterals ['.'] (chars! "OPERATORS"), none⟩

/-- `OPERATORS`, src/parser/OperatorLexer.g:100-183, for a backslash with `s` behind it. -/
def lexBackslash (c : LexConf) (s : Str) : MainTok :=
  let n := s.takeWhile (· = '\n')
  ⟨'\\' :: n, c.testLiterals ('\\' :: n) (if n = [] then chars! "OPERATORS" else chars! "EOL_BACKSLASH"), none⟩

/-- The token at the start of the text `ch :: s`, `nextToken` (ANTLR) with the rules of src/parser/TextLexer.g:63-222 and src/parser/OperatorLexer.g:100-183;
`none`: no rule starts with this character. -/
def mainTok (c : LexConf) (st : LexState) (ch : Char) (s : Str) : Option MainTok :=
  if ch = '"' then some ⟨['"'], chars! "STRING_START", some { mode := .string, onpreprocline := st.onpreprocline }⟩
  else if ch = '\'' then some ⟨['\''], chars! "CHAR_START", some { mode := .char, onpreprocline := st.onpreprocline }⟩
  else if lexDigit ch then
    some ⟨(constantText (ch :: s)).1, if (constantText (ch :: s)).2 then chars! "COMPLEX_NUMBER" else chars! "CONSTANTS", none⟩
  else if nameStart ch then some (lexName c st (ch :: s))
  else if ch = '/' then some (lexSlash c st s)
  else if ch = ' ' ∨ ch = '\t' then some ⟨(ch :: s).takeWhile (fun x => x = ' ' || x = '\t'), chars! "WS", none⟩
  else if ch = '\n' then some ⟨['\n'], chars! "EOL", none⟩
  else if ch.toNat ≤ 8 ∨ (11 ≤ ch.toNat ∧ ch.toNat ≤ 12) ∨ (14 ≤ ch.toNat ∧ ch.toNat ≤ 31) then some ⟨[ch], chars! "CONTROL_CHAR", none⟩
  else if ch = '@' then some (lexAt c st s)
  else if ch = '.' then some (lexDot c s)
  else if ch = '\\' then some (lexBackslash c s)
  else if ch ∈ plainOperators then
    some ⟨operatorText c st ch s,
      c.testLiterals (operatorText c st ch s) (if ch = '#' ∧ st.startline then chars! "PREPROC" else chars! "OPERATORS"), none⟩
  else none

/-- The members after a token that starts with `ch`, src/parser/TextLexer.g:64, 91, 105, 111, 126, 167-177, 187-195, 214 and src/parser/OperatorLexer.g:104-113, 182. `t` is the
token. -/
def LexState.after (c : LexConf) (st : LexState) (ch : Char) (t : MainTok) : LexState :=
  let p := c.moves (st.line, st.column) t.text
  let st' := { st with line := p.1, column := p.2 }
  if ch = '"' ∨ ch = '\'' ∨ lexDigit ch ∨ nameStart ch then { st' with startline := false }
  else if ch = '/' then
    if t.enters.isSome then { st' with startline := true, onpreprocline := false } else st'
  else if ch = ' ' ∨ ch = '\t' then st'
  else if ch = '\n' then { st' with startline := true, onpreprocline := false }
  else if ch.toNat ≤ 31 then { st' with startline := true }
  else
    { st' with
      startline := false
      lastpos := p.2
      prev := ch
      onpreprocline :=
        if ch = '#' ∧ st.startline then true
        else if ch = '\\' ∧ t.text.length > 1 then false else st.onpreprocline }

/-- The type of a token of the lexer for texts, src/parser/CommentTextLexer.g:56-70, 122. -/
def TextType.tokType : TextType → TokType
  | .text => chars! "COMMENT_TEXT"
  | .control => chars! "CONTROL_CHAR"
  | .ended m => m.endType

/-- The tokens of the lexer for texts with their positions, from a position on; `makeToken` (ANTLR) takes the position of the start,
src/parser/KeywordLexer.g:329. -/
def textToks (c : LexConf) (p : Nat × Nat) : List (Str × TextType) → List Tok
  | [] => []
  | t :: ts => { type := t.2.tokType, text := t.1, line := p.1, column := p.2 } :: textToks c (c.moves p t.1) ts

/-- What the lexer makes of a text: its tokens, the position of the end, and what is left when a character has no rule (then an exception is thrown),
src/libsrcml/srcml_translator.cpp:123-145. -/
structure Lexed where
  toks : List Tok
  line : Nat
  column : Nat
  left : Str := []
  deriving DecidableEq, Repr

/-- All tokens: `nextToken` of the selector until the end, src/libsrcml/srcml_translator.cpp:123-145; the two lexers work on the same input, and the one for texts is on top
of the other (`selector->push`, src/parser/KeywordLexer.g:52-56). `fuel` bounds the number of steps; each of them takes a character. -/
def lexWith (c : LexConf) : Nat → LexState → Str → Lexed
  | 0, st, s => ⟨[], st.line, st.column, s⟩
  | _ + 1, st, [] => ⟨[], st.line, st.column, []⟩
  | fuel + 1, st, ch :: s =>
    match mainTok c st ch s with
    | none => ⟨[], st.line, st.column, ch :: s⟩
    | some t =>
      let st' := st.after c ch t
      let rest := (ch :: s).drop t.text.length
      let tok : Tok := { type := t.type, text := t.text, line := st.line, column := st.column }
      match t.enters with
      | none =>
        let r := lexWith c fuel st' rest
        { r with toks := tok :: r.toks }
      | some l =>
        let x := l.tokens rest
        let p := c.moves (st'.line, st'.column) (x.1.flatMap (·.1))
        let r := lexWith c fuel { st' with line := p.1, column := p.2 } x.2
        { r with toks := tok :: (textToks c (st'.line, st'.column) x.1 ++ r.toks) }

/-- The lexer on a source text, src/libsrcml/srcml_translator.cpp:123-145. -/
def lex (c : LexConf) (s : Str) : Lexed :=
  lexWith c s.length { line := if c.lineOption then 65537 else 1 } s

end Srcml
