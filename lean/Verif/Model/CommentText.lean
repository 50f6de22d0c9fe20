import Verif.Model.Basic
/-
The lexer for the texts of comments, strings and characters, and the starts of these in the main lexer.
-/
namespace Srcml

/-- The modes of the lexer, named by the token that ends them, src/parser/CommentTextLexer.g:56-70. -/
inductive TextMode where
  | block | javadoc | doxygen | line | lineDoxygen | string | rawString | char
  deriving DecidableEq, Repr

/-- The type of a token of this lexer, src/parser/CommentTextLexer.g:56-70: text, a control character, or the end in a mode. -/
inductive TextType where
  | text | control | ended (m : TextMode)
  deriving DecidableEq, Repr

/-- `CommentTextLexer`, src/parser/CommentTextLexer.g:75-90; its counter of quotes is local to a loop and not kept here. -/
structure TextLexer where
  mode : TextMode
  onpreprocline : Bool := false
  noescape : Bool := false
  delimiter1 : Str := []
  delimiter : Str := []
  deriving DecidableEq, Repr

/-- `mode == LINE_COMMENT_END || mode == LINE_DOXYGEN_COMMENT_END`, src/parser/CommentTextLexer.g:160, 244. -/
def TextMode.isLine : TextMode → Bool
  | .line | .lineDoxygen => true
  | _ => false

/-- `mode == BLOCK_COMMENT_END || mode == JAVADOC_COMMENT_END || mode == DOXYGEN_COMMENT_END`, src/parser/CommentTextLexer.g:212-214. -/
def TextMode.isBlock : TextMode → Bool
  | .block | .javadoc | .doxygen => true
  | _ => false

/-- `mode == STRING_END || mode == RAW_STRING_END || mode == CHAR_END`, src/parser/CommentTextLexer.g:160, 243. -/
def TextMode.isLiteral : TextMode → Bool
  | .string | .rawString | .char => true
  | _ => false

/-- A control character that is a token of its own, src/parser/CommentTextLexer.g:140, 146-148, 168-170. Tab and newline are not. -/
def controlChar (c : Char) : Bool := c.toNat ≤ 0x1F && c ≠ '\t' && c ≠ '\n'

/-- The characters that cannot be in the delimiter of a raw string, src/parser/CommentTextLexer.g:256 and src/parser/TextLexer.g:100. -/
def delimiterChar (c : Char) : Bool :=
  c ≠ '(' && c ≠ ')' && c ≠ '\\' && c ≠ '\n' && c ≠ ' ' && c ≠ '\t'

/-- `RSTRING_DELIMITER` of the text lexer, src/parser/CommentTextLexer.g:252-257: at most `n` characters. -/
def takeDelimiter : Nat → Str → Str
  | n + 1, c :: cs => if delimiterChar c then c :: takeDelimiter n cs else []
  | _, _ => []

/-- The alternatives of `COMMENT_TEXT` for the character `c` with the rest of the input behind it and `prev` (`prevLA`) before it,
src/parser/CommentTextLexer.g:142-232: the characters that are consumed after `c`, the rest of the input, the type of the token, the lexer, and
`prevprevLA`. -/
def TextLexer.alt (l : TextLexer) (prev c : Char) (rest : Str) : Str × Str × TextType × TextLexer × Char :=
  if controlChar c then ([], rest, .control, l, c)
  else if c = '\n' then
    ([], rest, if l.mode.isLine || (l.mode.isLiteral && l.onpreprocline) then .ended l.mode else .text, l, c)
  else if c = '"' then
    let run := if prev ≠ '\\' then rest.takeWhile (· = '"') else []
    (run, rest.drop run.length,
      if (l.noescape && (1 + run.length) % 2 = 1) || (!l.noescape && decide (prev ≠ '\\') && decide (l.mode = .string)) then .ended l.mode
      else .text, l, c)
  else if c = '\'' then
    ([], rest, if prev ≠ '\\' ∧ l.mode = .char then .ended l.mode else .text, l, c)
  else if c = ')' ∧ l.mode = .rawString then
    let d := takeDelimiter l.delimiter1.length rest
    (d, rest.drop d.length, .text,
      { l with delimiter := d
               mode := if d = l.delimiter1 ∧ (rest.drop d.length).head? = some '"' then .string else l.mode }, c)
  else if c = '/' then
    ([], rest, if prev = '*' ∧ l.mode.isBlock then .ended l.mode else .text, l, c)
  else if c = '\\' then
    ([], rest, .text, l, if prev = '\\' then Char.ofNat 0 else c)
  else ([], rest, .text, l, c)

/-- `About to read a newline, or the EOF`, src/parser/CommentTextLexer.g:241-248: the type of the token after a character, with the input behind it. -/
def TextLexer.after (l : TextLexer) (rest : Str) (t : TextType) : TextType :=
  if t = .text ∧ ((rest.head? = some '\n' ∧ l.mode ≠ .rawString) ∨ rest = []) ∧
      ((l.mode.isLiteral = true ∧ (l.onpreprocline = true ∨ l.mode = .rawString)) ∨ l.mode.isLine = true) then .ended l.mode
  else t

theorem alt_rest (l : TextLexer) (prev c : Char) (rest : Str) : (l.alt prev c rest).2.1.length ≤ rest.length := by
  unfold TextLexer.alt
  split
  · exact Nat.le_refl _
  split
  · exact Nat.le_refl _
  split
  · simp
  split
  · exact Nat.le_refl _
  split
  · simp
  split
  · exact Nat.le_refl _
  split <;> exact Nat.le_refl _

/-- The loop of `COMMENT_TEXT`, src/parser/CommentTextLexer.g:122-250: the text of the token, its type, the lexer and the rest of the input. At the
end of the input the loop ends. The numbers of lines are not modelled. -/
def TextLexer.loop (l : TextLexer) (prev : Char) (first : Bool) (s : Str) : Str × TextType × TextLexer × Str :=
  match s with
  | [] => ([], .text, l, [])
  | c :: rest =>
    if controlChar c && !first then ([], .text, l, c :: rest)
    else
      let r := l.alt prev c rest
      let t := r.2.2.2.1.after r.2.1 r.2.2.1
      if t = .text then
        let x := TextLexer.loop r.2.2.2.1 r.2.2.2.2 false r.2.1
        (c :: r.1 ++ x.1, x.2)
      else (c :: r.1, t, r.2.2.2.1, r.2.1)
termination_by s.length
decreasing_by
  have := alt_rest l prev c rest
  simp only [List.length_cons]
  omega

/-- One token, src/parser/CommentTextLexer.g:122-131: at its start there is no previous character. -/
def TextLexer.token (l : TextLexer) (s : Str) : Str × TextType × TextLexer × Str := l.loop (Char.ofNat 0) true s

theorem loop_rest (l : TextLexer) (prev : Char) (first : Bool) (s : Str) : (l.loop prev first s).2.2.2.length ≤ s.length := by
  fun_induction TextLexer.loop l prev first s with
  | case1 => simp
  | case2 => simp
  | case3 l prev first c rest h r t ht x ih =>
    have := alt_rest l prev c rest
    simp only [List.length_cons]
    show x.2.2.2.length ≤ _
    have : x.2.2.2.length ≤ r.2.1.length := ih
    show x.2.2.2.length ≤ rest.length + 1
    have h2 : r.2.1.length ≤ rest.length := alt_rest l prev c rest
    omega
  | case4 l prev first c rest h r t ht =>
    have h2 : r.2.1.length ≤ rest.length := alt_rest l prev c rest
    simp only [List.length_cons]
    omega

theorem token_rest (l : TextLexer) (c : Char) (s : Str) : (l.token (c :: s)).2.2.2.length ≤ s.length := by
  unfold TextLexer.token TextLexer.loop
  rw [if_neg (by simp)]
  simp only
  have h2 := alt_rest l (Char.ofNat 0) c s
  split
  · exact Nat.le_trans (loop_rest _ _ _ _) h2
  · exact h2

/-- The tokens of this lexer until it gives back control (`selector->pop()`, src/parser/CommentTextLexer.g:162, 181, 192, 215, 247) or the input ends, and the
rest of the input. -/
def TextLexer.tokens (l : TextLexer) (s : Str) : List (Str × TextType) × Str :=
  match s with
  | [] => ([], [])
  | c :: rest =>
    let r := l.token (c :: rest)
    match r.2.1 with
    | .ended m => ([(r.1, .ended m)], r.2.2.2)
    | t =>
      let x := TextLexer.tokens r.2.2.1 r.2.2.2
      ((r.1, t) :: x.1, x.2)
termination_by s.length
decreasing_by
  have := token_rest l c rest
  simp only [List.length_cons]
  omega

/-! ### The starts in the main lexer -/

/-- The languages as far as they matter for comments, src/parser/TextLexer.g:152, 157. -/
inductive CommentLang where
  | java | cFamily | other
  deriving DecidableEq, Repr

/-- What follows on the start of a comment: a text in a mode, a comment that is complete, or no comment. src/parser/TextLexer.g:138-178. -/
inductive CommentStart where
  | opened (m : TextMode) | whole | operator
  deriving DecidableEq, Repr

/-- `LINE_COMMENT_START`, src/parser/TextLexer.g:138-178, after its first character `/`: the text of this token behind it, what follows, and the rest of
the input. -/
def commentStart (lang : CommentLang) : Str → Str × CommentStart × Str
  | '/' :: c :: s => if c = '/' ∨ c = '!' then (['/', c], .opened .lineDoxygen, s) else (['/'], .opened .line, c :: s)
  | ['/'] => (['/'], .opened .line, [])
  | '*' :: s =>
    match lang, s with
    | .java, '*' :: '/' :: s => (['*', '*', '/'], .whole, s)
    | .java, '*' :: s => (['*', '*'], .opened .javadoc, s)
    | .cFamily, '*' :: '/' :: s => (['*', '*', '/'], .whole, s)
    | .cFamily, '*' :: s => (['*', '*'], .opened .doxygen, s)
    | .cFamily, '!' :: '/' :: s => (['*', '!', '/'], .whole, s)
    | .cFamily, '!' :: s => (['*', '!'], .opened .doxygen, s)
    | _, s => (['*'], .opened .block, s)
  | '=' :: s => (['='], .operator, s)
  | s => ([], .operator, s)

/-- The text of a comment from its first character on and the rest of the input behind it; `none`: there is no comment. The lexer for the text is
started with `changetotextlexer(mode)`, src/parser/TextLexer.g:167-177 and src/parser/KeywordLexer.g:52-56, where `atstring` is false: it is set only just before a
string starts, src/parser/OperatorLexer.g:169-173, src/parser/TextLexer.g:73-75. -/
def lexComment (lang : CommentLang) (onpreprocline : Bool) (s : Str) : Option (Str × List (Str × TextType) × Str) :=
  match s with
  | '/' :: s =>
    match commentStart lang s with
    | (x, .opened m, rest) =>
      let r := TextLexer.tokens { mode := m, onpreprocline := onpreprocline } rest
      some ('/' :: x, r.1, r.2)
    | (x, .whole, rest) => some ('/' :: x, [], rest)
    | (_, .operator, _) => none
  | _ => none

/-- The text inside the element of a line comment, src/parser/StreamMLParser.hpp:376-394, 473-491: the element ends before a last token that ends with a
newline. -/
def commentInside (start : Str) (ts : List (Str × TextType)) : Str :=
  start ++ (ts.flatMap (fun t =>
    match t.2 with
    | .ended m => if m.isLine = true ∧ t.1.getLast? = some '\n' then [] else t.1
    | _ => t.1))

/-- `RSTRING_DELIMITER` of the main lexer, src/parser/TextLexer.g:97-101. -/
def rawDelimiter (s : Str) : Str := s.takeWhile delimiterChar

/-- The lexer for the text of a literal, started with `changetotextlexer` for a string (with `@` before it in C# and Objective-C), a character, or
a raw string whose start is behind its first quote: src/parser/TextLexer.g:63-108, src/parser/OperatorLexer.g:164-173. The result has the text behind the first
quote, whether the literal is closed, and the rest. -/
def lexLiteral (m : TextMode) (atstring onpreprocline : Bool) (s : Str) : Str × List (Str × TextType) × Str :=
  if m = .rawString then
    let d := rawDelimiter s
    let s := s.drop d.length
    let open_ := if s.head? = some '(' then ['('] else []
    let r := TextLexer.tokens { mode := m, onpreprocline := onpreprocline, noescape := atstring, delimiter1 := d } (s.drop open_.length)
    (d ++ open_, r.1, r.2)
  else
    let r := TextLexer.tokens { mode := m, onpreprocline := onpreprocline, noescape := atstring } s
    ([], r.1, r.2)

end Srcml
