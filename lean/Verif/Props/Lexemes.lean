import Verif.Proofs.LexemesLines
/-
C65: the tokens of a source are its words, numbers, operators, literals and comments. C66: directives.
-/
namespace Srcml

open Spec

set_option linter.unusedSimpArgs false

theorem takes_lexeme {c : LexConf} (hl : c.language ∈ languageNumbers) (hm : NoCommentMacro c) {x rest : Str} {k : LexKind} (st : LexState)
    (h : Lexeme c.language st.onpreprocline x k rest) : ∃ g, Takes c st x rest g ∧ TokensOf c st.startline k x g := by
  cases h with
  | word _ _ h1 h2 h3 => exact takes_word st h1 h2 h3 hl
  | number n _ h1 => exact takes_number st n h1
  | operator _ _ h1 h2 h3 h4 h5 h6 h7 => exact takes_operator st hl h1 h2 h3 h4 h5 h6 h7
  | fraction n _ h1 => exact takes_fraction st n h1
  | atWord x _ h1 h2 h3 => exact takes_atWord st h1 h2 h3
  | atNumber n _ h1 h2 => exact takes_atNumber st n h1 h2
  | atOpen x _ h1 h2 => exact takes_atOpen st h1 h2
  | atString body _ h1 h2 h3 h4 =>
    exact takes_verbatim st (by rw [h1]; decide) (verbatim_of_not h2) h3 (fun a r e => h2 (by rw [e]; simp)) h4
  | questions n _ h1 => exact takes_questions st n h1
  | blank _ _ h1 h2 h3 h4 => exact takes_blank st h1 h2 h3 h4
  | newline => exact takes_newline st _
  | continuation _ h1 => exact takes_continuation st h1
  | string p body _ h1 h2 h3 h4 => exact takes_string st h1 h2 h3 h4
  | rawString p d body _ h1 h2 h3 h4 h5 h6 => exact takes_raw st h1 h2 h3 h4 h5 h6
  | verbatim body _ h1 h2 h3 h4 h5 => exact takes_verbatim st (by rw [h1]; decide) h2 h3 h4 h5
  | character body _ h1 h2 => exact takes_character st h1 h2
  | lineComment text _ h1 h2 h3 h4 => exact takes_line hm st (.inl ⟨h1, h2, h3, h4⟩)
  | emptyLineComment text _ h1 =>
    rw [List.append_assoc]
    exact takes_line hm st (.inr ⟨text, h1, rfl⟩)
  | blockComment body _ h1 h2 => exact takes_block hl hm st h1 h2

/-- C65, for sources made of the parts that the specification has (what is missing: see there and the findings): the tokens of a source are the words, numbers, operators, literals and comments it is made of, one after the other, with the types of these; the
whole source is read. -/
theorem C65_lexemes_partial (c : LexConf) (hl : c.language ∈ languageNumbers) (hm : NoCommentMacro c) (s : Str) (items : List (Str × LexKind))
    (h : Lexemes c.language {} s items) : TokensOfAll c {} items (lex c s).toks ∧ (lex c s).left = [] := by
  suffices H : ∀ l s items, Lexemes c.language l s items → ∀ n st, st.place = l → s.length ≤ n →
      TokensOfAll c l items (lexWith c n st s).toks ∧ (lexWith c n st s).left = [] from H _ _ _ h _ _ rfl (Nat.le_refl _)
  intro l s items h
  induction h with
  | nil l =>
    intro n st _ _
    cases n <;> exact ⟨.nil l, rfl⟩
  | cons l x k rest xs h1 _ ih =>
    intro n st hst hn
    subst hst
    obtain ⟨g, ⟨ch, r, m, q1, q2, g1⟩, g2⟩ := takes_lexeme hl hm st h1
    obtain ⟨n', st', e1, e2, e3, e4, e5⟩ := g1 n (by simpa using hn)
    have hp : st'.place = st.place.next x k := by
      rw [← after_next hl h1 q1 q2]
      unfold LexState.place
      rw [e4, e5]
    rw [e2, e3]
    exact ⟨.cons _ _ _ _ _ _ g2 (ih n' st' hp e1).1, (ih n' st' hp e1).2⟩

/-- A source with all kinds of parts. -/
example : ∃ items, Lexemes 2 {} ("int x=0x1F+.5;\t// a\n/** b */u8\"c\\\"\"+'d'".toList) items ∧ items.map (·.2) =
    [.word, .blank, .word, .operator, .number, .operator, .number, .operator, .blank, .lineComment, .newline, .blockComment, .string, .operator, .character] := by
  have nt : ∀ (k : Char) (r : Str) (p : Char → Bool), p k = false → NotThen (k :: r) p := by
    intro k r p h ch hc
    injection hc with hc
    rw [← hc]
    exact h
  refine ⟨_, .cons _ "int".toList .word _ _ (.word _ _ (by decide) (nt ' ' _ _ (by decide)) (by decide)) <|
    .cons _ " ".toList .blank _ _ (.blank _ _ (by decide) (by decide) (by decide) (by decide)) <|
    .cons _ "x".toList .word _ _ (.word _ _ (by decide) (nt '=' _ _ (by decide)) (by decide)) <|
    .cons _ "=".toList .operator _ _ (.operator _ _ (by decide) (by decide) (by decide) (by decide) (by decide) (by decide) (fun h => absurd h (by decide))) <|
    .cons _ "0x1F".toList .number _ _ (.number { whole := ['0'], suffix := ['x', '1', 'F'] } _
      ⟨⟨'0', [], rfl, by decide, by decide⟩, .inl rfl, .inl rfl, .inl rfl, .inr (by decide), by decide, nt '+' _ _ (by decide), by decide⟩) <|
    .cons _ "+".toList .operator _ _ (.operator _ _ (by decide) (by decide) (by decide) (by decide) (by decide) (by decide) (fun h => absurd h (by decide))) <|
    .cons _ ".5".toList .number _ _ (.fraction { whole := ['5'] } _
      ⟨⟨'5', [], rfl, by decide, by decide⟩, .inl rfl, .inl rfl, .inl rfl, .inl rfl, by decide, nt ';' _ _ (by decide), by decide⟩ rfl) <|
    .cons _ ";".toList .operator _ _ (.operator _ _ (by decide) (by decide) (by decide) (by decide) (by decide) (by decide) (fun h => absurd h (by decide))) <|
    .cons _ "\t".toList .blank _ _ (.blank _ _ (by decide) (by decide) (by decide) (by decide)) <|
    .cons _ "// a".toList .lineComment _ _ (.lineComment " a".toList _ (by decide) (fun ch h => by
      injection h with h; subst h; decide) (.inr rfl) (by decide)) <|
    .cons _ "\n".toList .newline _ _ (.newline _) <|
    .cons _ "/** b */".toList .blockComment _ _ (.blockComment "* b ".toList _ ⟨rfl, fun a b h => ?_⟩ (by decide)) <|
    .cons _ "u8\"c\\\"\"".toList .string _ _ (.string "u8".toList "c\\\"".toList _ (.inr (by decide))
      (.plain 'c' _ (by decide) (by decide) (.escape '"' _ .nil)) (by decide) (by decide)) <|
    .cons _ "+".toList .operator _ _ (.operator _ _ (by decide) (by decide) (by decide) (by decide) (by decide) (by decide) (fun h => absurd h (by decide))) <|
    .cons _ "'d'".toList .character _ _ (.character "d".toList _ (.plain 'd' _ (by decide) (by decide) .nil) (by decide)) <|
    .nil _, rfl⟩
  rcases a with _ | ⟨a0, _ | ⟨a1, _ | ⟨a2, _ | ⟨a3, a⟩⟩⟩⟩ <;> simp at h ⊢

/-- Not every text is one of parts like these: `>>==` is one operator, the exponent `E` is no exponent, a separator in a number starts a character, two points
in a number belong to it. -/
theorem C65_finding_numbers :
    (lex { language := 2 } "1E+5".toList).toks.map (·.text) = ["1E".toList, "+".toList, "5".toList] ∧
    (lex { language := 2 } "1'0'0".toList).toks.map (fun t => (t.text, t.type)) =
      [("1".toList, chars! "CONSTANTS"), ("'".toList, chars! "CHAR_START"), ("0'".toList, chars! "CHAR_END"),
       ("0".toList, chars! "CONSTANTS")] ∧
    (lex { language := 8 } "1..2".toList).toks.map (·.text) = ["1..2".toList] ∧
    (lex { language := 2 } "a>>==b".toList).toks.map (·.text) = ["a".toList, ">>==".toList, "b".toList] := by
  refine ⟨?_, ?_, ?_, ?_⟩ <;> (rw [lex_eq]; decide +kernel)

/-- A line comment without a text takes the newline behind it. -/
theorem C65_finding_line_comment :
    (lex { language := 2 } "//\n#if".toList).toks.map (fun t => (t.text, t.type)) =
      [("//".toList, chars! "LINE_COMMENT_START"), ("\n".toList, chars! "LINE_COMMENT_END"), ("#".toList, chars! "PREPROC"), ("if".toList, chars! "IF")] ∧
    (lex { language := 2 } "//a\n#if".toList).toks.map (fun t => (t.text, t.type)) =
      [("//".toList, chars! "LINE_COMMENT_START"), ("a".toList, chars! "LINE_COMMENT_END"), ("\n".toList, chars! "EOL"), ("#".toList, chars! "PREPROC"),
       ("if".toList, chars! "IF")] := by
  refine ⟨?_, ?_⟩ <;> (rw [lex_eq]; decide +kernel)

/-! ### Directives -/

theorem Spec.TokensOf.text {c : LexConf} {f : Bool} {k : Spec.LexKind} {x : Str} {ts : List Tok} (h : TokensOf c f k x ts) : ts.flatMap (·.text) = x := by
  cases h <;> first | (rename_i h; exact h.text) | simp

theorem tokensOfAll_at {c : LexConf} {pre post : List (Str × LexKind)} {x : Str × LexKind} {l : LineState} {toks : List Tok}
    (h : TokensOfAll c l (pre ++ x :: post) toks) : ∃ ts g us, toks = ts ++ g ++ us ∧ ts.flatMap (·.text) = pre.flatMap (·.1) ∧
      TokensOf c (pre.foldl (fun (l : LineState) y => l.next y.1 y.2) l).first x.2 x.1 g := by
  induction pre generalizing l toks with
  | nil =>
    cases h with
    | cons _ _ _ _ ts us h1 h2 => exact ⟨[], ts, us, rfl, rfl, h1⟩
  | cons y pre ih =>
    cases h with
    | cons _ _ _ _ ts us h1 h2 =>
      obtain ⟨a, g, b, e1, e2, e3⟩ := ih h2
      exact ⟨ts ++ a, g, b, by rw [e1]; simp, by rw [List.flatMap_append, e2, h1.text]; simp, e3⟩

theorem foldl_blanks {blanks : List (Str × LexKind)} (h : ∀ x ∈ blanks, x.2 = .blank) (l : LineState) :
    blanks.foldl (fun (l : LineState) y => l.next y.1 y.2) l = l := by
  induction blanks generalizing l with
  | nil => rfl
  | cons y ys ih =>
    rw [List.foldl_cons, h y (by simp)]
    exact ih (fun x hx => h x (by simp [hx])) _

theorem firstInLine {pre : List (Str × LexKind)} (h : FirstInLine pre) : (pre.foldl (fun (l : LineState) y => l.next y.1 y.2) {}).first = true := by
  obtain ⟨a, b, rfl, h1, h2⟩ := h
  rw [List.foldl_append, foldl_blanks h1]
  rcases h2 with rfl | ⟨x, h2, h3⟩
  · rfl
  · obtain ⟨a', rfl⟩ : ∃ a', a = a' ++ [x] := by
      have hne : a ≠ [] := by rintro rfl; cases h2
      refine ⟨a.dropLast, ?_⟩
      rw [List.getLast?_eq_some_getLast hne] at h2
      injection h2 with h2
      rw [← h2]
      exact (List.dropLast_concat_getLast hne).symm
    rw [List.foldl_append, List.foldl_cons, h3]
    rfl

theorem behindText {pre : List (Str × LexKind)} (h : BehindText pre) : (pre.foldl (fun (l : LineState) y => l.next y.1 y.2) {}).first = false := by
  obtain ⟨a, x, b, rfl, h1, h2⟩ := h
  rw [List.foldl_append, List.foldl_cons, foldl_blanks h1]
  generalize a.foldl (fun (l : LineState) y => l.next y.1 y.2) {} = l
  rcases h2 with h2 | ⟨h2, h3, h4⟩
  · simp only [List.mem_cons, List.not_mem_nil, or_false] at h2
    rcases h2 with h2 | h2 | h2 | h2 | h2 <;> rw [h2] <;> rfl
  · rw [h2]
    unfold LineState.next
    simp only
    split
    · rfl
    · rw [if_neg (by rintro (h | h); exact h3 h; exact h4 h)]

theorem hash_no_keyword : ∀ k ∈ keywordMap, k.text ≠ ['#'] := by decide +kernel

theorem literalType_hash {c : LexConf} (hm : ∀ k, ¬ MacroOf c.userMacros ['#'] k) {d ty : TokType} (h : LiteralType c ['#'] d ty) : ty = d := by
  rcases h with h | ⟨_, h | h⟩
  · obtain ⟨k, h1, h2, _⟩ := h
    exact absurd h2 (hash_no_keyword k h1)
  · exact absurd h (hm _)
  · exact h.2

/-- C66: a `#` is the start of a directive exactly when it is the first thing in its line but for blanks; behind a word, a number, a literal or another
operator in the line it is an operator. Comments in front of it are left out here, see `C66_finding_comment`. -/
theorem C66_directive_partial (c : LexConf) (hl : c.language ∈ languageNumbers) (hm : NoCommentMacro c) (hh : ∀ k, ¬ MacroOf c.userMacros ['#'] k) (s : Str)
    (pre post : List (Str × LexKind)) (h : Lexemes c.language {} s (pre ++ (['#'], .operator) :: post)) :
    ∃ ts t us, (lex c s).toks = ts ++ t :: us ∧ ts.flatMap (·.text) = pre.flatMap (·.1) ∧ t.text = ['#'] ∧
      (FirstInLine pre → t.type = chars! "PREPROC") ∧ (BehindText pre → t.type = chars! "OPERATORS") := by
  obtain ⟨ts, g, us, e1, e2, e3⟩ := tokensOfAll_at (C65_lexemes_partial c hl hm s _ h).1
  generalize hx : ((['#'], .operator) : Str × LexKind).1 = x at e3
  cases e3 with
  | operator t ht =>
    refine ⟨ts, t, us, by rw [e1]; simp, e2, hx.symm, fun hf => ?_, fun hb => ?_⟩
    · rw [firstInLine hf, ← hx] at ht
      exact literalType_hash hh ht
    · rw [behindText hb, ← hx] at ht
      exact literalType_hash hh ht

/-- A source with a `#` at the start of a line, behind blanks, and one in the line behind it. -/
example : ∃ pre post, Lexemes 2 {} ("a\n #if b#c".toList) (pre ++ (['#'], .operator) :: post) ∧ FirstInLine pre ∧
    ∃ pre' post', pre ++ (['#'], .operator) :: post = pre' ++ (['#'], .operator) :: post' ∧ BehindText pre' := by
  have nt : ∀ (k : Char) (r : Str) (p : Char → Bool), p k = false → NotThen (k :: r) p := by
    intro k r p h ch hc
    injection hc with hc
    rw [← hc]
    exact h
  refine ⟨[(['a'], .word), (['\n'], .newline), ([' '], .blank)], [(['i', 'f'], .word), ([' '], .blank), (['b'], .word), (['#'], .operator), (['c'], .word)], ?_,
    ⟨[(['a'], .word), (['\n'], .newline)], _, rfl, by simp, .inr ⟨_, rfl, rfl⟩⟩,
    [(['a'], .word), (['\n'], .newline), ([' '], .blank), (['#'], .operator), (['i', 'f'], .word), ([' '], .blank), (['b'], .word)], _, rfl,
    ⟨[(['a'], .word), (['\n'], .newline), ([' '], .blank), (['#'], .operator), (['i', 'f'], .word), ([' '], .blank)], (['b'], .word), [], rfl, by simp,
      .inl (by simp)⟩⟩
  exact .cons _ ['a'] .word _ _ (.word _ _ (by decide) (nt '\n' _ _ (by decide)) (by decide)) <|
    .cons _ ['\n'] .newline _ _ (.newline _) <|
    .cons _ [' '] .blank _ _ (.blank _ _ (by decide) (by decide) (by decide) (by decide)) <|
    .cons _ ['#'] .operator _ _ (.operator _ _ (by decide) (by decide) (by decide) (by decide) (by decide) (by decide) (fun h => absurd h (by decide))) <|
    .cons _ ['i', 'f'] .word _ _ (.word _ _ (by decide) (nt ' ' _ _ (by decide)) (by decide)) <|
    .cons _ [' '] .blank _ _ (.blank _ _ (by decide) (by decide) (by decide) (by decide)) <|
    .cons _ ['b'] .word _ _ (.word _ _ (by decide) (nt '#' _ _ (by decide)) (by decide)) <|
    .cons _ ['#'] .operator _ _ (.operator _ _ (by decide) (by decide) (by decide) (by decide) (by decide) (by decide) (fun h => absurd h (by decide))) <|
    .cons _ ['c'] .word _ [] (.word _ _ (by decide) (by intro ch h; cases h) (by decide)) <| .nil _

/-- Behind a comment in the middle of a line a `#` starts a directive, and so it does behind a division at the start of a line; but not behind `/**/` or a line
that goes on. -/
theorem C66_finding_comment :
    ((lex { language := 2 } "a /* b */ #c".toList).toks.map (·.type)).getD 5 [] = chars! "PREPROC" ∧
    ((lex { language := 2 } "/ #c".toList).toks.map (·.type)).getD 2 [] = chars! "PREPROC" ∧
    ((lex { language := 2 } "a /**/ #c".toList).toks.map (·.type)).getD 4 [] = chars! "OPERATORS" ∧
    ((lex { language := 2 } "\\\n#c".toList).toks.map (·.type)).getD 1 [] = chars! "OPERATORS" := by
  refine ⟨?_, ?_, ?_, ?_⟩ <;> (rw [lex_eq]; decide +kernel)

/-- In the line of a directive a string ends at the end of the line; behind a comment in that line it does not, and neither in the next line of a directive
that goes on. -/
theorem C66_finding_literal :
    ((lex { language := 2 } "#x \"a\nb\"".toList).toks.map (·.type)) =
      [chars! "PREPROC", chars! "NAME", chars! "WS", chars! "STRING_START", chars! "STRING_END", chars! "EOL", chars! "NAME", chars! "STRING_START"] ∧
    ((lex { language := 2 } "#x/*c*/\"a\nb\"".toList).toks.map (·.type)) =
      [chars! "PREPROC", chars! "NAME", chars! "BLOCK_COMMENT_START", chars! "BLOCK_COMMENT_END", chars! "STRING_START", chars! "STRING_END"] ∧
    ((lex { language := 2 } "#x\\\n\"a\nb\"".toList).toks.map (·.type)) =
      [chars! "PREPROC", chars! "NAME", chars! "EOL_BACKSLASH", chars! "STRING_START", chars! "STRING_END"] := by
  refine ⟨?_, ?_, ?_⟩ <;> (rw [lex_eq]; decide +kernel)

end Srcml
