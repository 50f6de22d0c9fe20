import Verif.Proofs.LiteralEnds
set_option linter.unusedSimpArgs false
/-
C52: where comments, strings and characters end.
-/
namespace Srcml
open Spec

/-- The tokens of a text: all of it, and only the last one ends it. -/
structure Ends (ts : List (Str × TextType)) (text : Str) : Prop where
  text : ts.flatMap (·.1) = text
  last : ∃ ts' x m, ts = ts' ++ [(x, .ended m)] ∧ ∀ t ∈ ts', ∀ n, t.2 ≠ .ended n

/-- The tokens of a text that does not end. -/
structure Open (ts : List (Str × TextType)) (text : Str) : Prop where
  text : ts.flatMap (·.1) = text
  last : ∀ t ∈ ts, ∀ n, t.2 ≠ .ended n

theorem ends_of_scan {l : TextLexer} {s x rest : Str} {m : TextMode} (h : l.scan (Char.ofNat 0) s = (x, some m, rest)) :
    (l.tokens s).2 = rest ∧ Ends (l.tokens s).1 x := by
  obtain ⟨h1, h2, h3, -⟩ := tokens_scan l s
  rw [h] at h1 h2 h3
  obtain ⟨ts, y, e1, e2⟩ := h3 m rfl
  exact ⟨h2, h1, ts, y, m, e1, e2⟩

theorem open_of_scan {l : TextLexer} {s x rest : Str} (h : l.scan (Char.ofNat 0) s = (x, none, rest)) :
    (l.tokens s).2 = rest ∧ Open (l.tokens s).1 x := by
  obtain ⟨h1, h2, -, h4⟩ := tokens_scan l s
  rw [h] at h1 h2 h4
  exact ⟨h2, h1, h4 rfl⟩

theorem tokens_block {m : TextMode} (hm : m.isBlock = true) (o : Bool) {s pre post : Str} (h : First ['*', '/'] s pre post) :
    (TextLexer.tokens { mode := m, onpreprocline := o } s).2 = post ∧
      Ends (TextLexer.tokens { mode := m, onpreprocline := o } s).1 (pre ++ ['*', '/']) := by
  apply ends_of_scan (m := m)
  rw [scan_block _ hm rfl]
  have := blockEnd_some false pre post (by simpa using First.before h (k := '/') (p := ['*']) rfl)
  rw [h.split]
  simp only [show (decide (Char.ofNat 0 = '*')) = false from by decide, this]
  rfl

theorem tokens_block_open {m : TextMode} (hm : m.isBlock = true) (o : Bool) {s : Str} (h : ∀ a b, s ≠ a ++ ['*', '/'] ++ b) :
    (TextLexer.tokens { mode := m, onpreprocline := o } s).2 = [] ∧
      Open (TextLexer.tokens { mode := m, onpreprocline := o } s).1 s := by
  apply open_of_scan
  rw [scan_block _ hm rfl]
  have := blockEnd_none false s (by simpa using h)
  simp only [show (decide (Char.ofNat 0 = '*')) = false from by decide, this]
  rfl

/-- The comments that the main lexer takes for whole ones by mistake: `/*!/`. -/
def StartsBang (lang : CommentLang) (s : Str) : Prop := lang = .cFamily ∧ ∃ r, s = '!' :: '/' :: r

/-- What the starts of a block comment leave for the text lexer. -/
theorem commentStart_block (lang : CommentLang) (s : Str) (h : ¬ StartsBang lang s) :
    (∃ r, s = '*' :: '/' :: r ∧ commentStart lang ('*' :: s) = (['*', '*', '/'], .whole, r)) ∨
      (∃ u r m, s = u ++ r ∧ u.length ≤ 1 ∧ '/' ∉ u ∧ m.isBlock = true ∧ commentStart lang ('*' :: s) = ('*' :: u, .opened m, r) ∧
        (u = ['*'] → r.head? ≠ some '/')) := by
  cases s with
  | nil =>
    right
    refine ⟨[], [], .block, rfl, by simp, by simp, rfl, ?_, by simp⟩
    cases lang <;> rfl
  | cons c s =>
    have other : c ≠ '*' → c ≠ '!' → commentStart lang ('*' :: c :: s) = (['*'], .opened .block, c :: s) := by
      intro h1 h2
      cases lang with
      | other => rfl
      | java =>
        rw [commentStart.eq_def]
        simp only
        split <;> simp_all
      | cFamily =>
        rw [commentStart.eq_def]
        simp only
        split <;> simp_all
    by_cases h1 : c = '*'
    · subst h1
      cases lang with
      | other => exact .inr ⟨[], '*' :: s, .block, rfl, by simp, by simp, rfl, rfl, by simp⟩
      | java =>
        cases s with
        | nil => exact .inr ⟨['*'], [], .javadoc, rfl, by simp, by simp, rfl, rfl, by simp⟩
        | cons d s =>
          by_cases hd : d = '/'
          · subst hd
            exact .inl ⟨s, rfl, rfl⟩
          · refine .inr ⟨['*'], d :: s, .javadoc, rfl, by simp, by simp, rfl, ?_, by simpa using hd⟩
            rw [commentStart.eq_def]
            simp only
            split <;> simp_all
      | cFamily =>
        cases s with
        | nil => exact .inr ⟨['*'], [], .doxygen, rfl, by simp, by simp, rfl, rfl, by simp⟩
        | cons d s =>
          by_cases hd : d = '/'
          · subst hd
            exact .inl ⟨s, rfl, rfl⟩
          · refine .inr ⟨['*'], d :: s, .doxygen, rfl, by simp, by simp, rfl, ?_, by simpa using hd⟩
            rw [commentStart.eq_def]
            simp only
            split <;> simp_all
    by_cases h2 : c = '!'
    · subst h2
      cases lang with
      | other => exact .inr ⟨[], '!' :: s, .block, rfl, by simp, by simp, rfl, rfl, by simp⟩
      | java => exact .inr ⟨[], '!' :: s, .block, rfl, by simp, by simp, rfl, rfl, by simp⟩
      | cFamily =>
        cases s with
        | nil => exact .inr ⟨['!'], [], .doxygen, rfl, by simp, by simp, rfl, rfl, by simp⟩
        | cons d s =>
          by_cases hd : d = '/'
          · subst hd
            exact absurd ⟨rfl, s, rfl⟩ h
          · refine .inr ⟨['!'], d :: s, .doxygen, rfl, by simp, by simp, rfl, ?_, by simp⟩
            rw [commentStart.eq_def]
            simp only
            split <;> simp_all
    · exact .inr ⟨[], c :: s, .block, rfl, by simp, by simp, rfl, other h1 h2, by simp⟩

/-- C52: a block comment is closed by the first `*/` behind its start, whatever is in it and in every language: the comment has all of the text up
to there, and the source goes on directly behind. Only a text that starts with `!/` in C, C++ and C# is not one of these. -/
theorem C52_block_comment (lang : CommentLang) (o : Bool) (s pre post : Str) (h : First ['*', '/'] s pre post) (hb : ¬ StartsBang lang s) :
    ∃ start ts, lexComment lang o ('/' :: '*' :: s) = some (start, ts, post) ∧ start ++ ts.flatMap (·.1) = ['/', '*'] ++ pre ++ ['*', '/'] ∧
      (ts = [] ∨ Ends ts (ts.flatMap (·.1))) := by
  unfold lexComment
  simp only []
  rcases commentStart_block lang s hb with ⟨r, e, e2⟩ | ⟨u, r, m, e, hu, hns, hm, e2, hst⟩
  · rw [e2]
    have hp : pre = [] := by
      have := h.first [] r (by rw [e]; rfl)
      simpa using this
    subst hp
    have : post = r := by
      have := h.split
      rw [e] at this
      simpa using this.symm
    subst this
    exact ⟨_, [], rfl, rfl, .inl rfl⟩
  · rw [e2]
    -- the text behind the start still has its first end at the same place
    obtain ⟨pre', hpre⟩ : ∃ pre', pre = u ++ pre' := by
      cases u with
      | nil => exact ⟨pre, rfl⟩
      | cons c u =>
        cases u with
        | cons d u => simp at hu
        | nil =>
          cases pre with
          | cons d pre =>
            have := h.split
            rw [e] at this
            simp only [List.cons_append, List.nil_append, List.cons.injEq] at this
            exact ⟨pre, by rw [this.1]; rfl⟩
          | nil =>
            exfalso
            have := h.split
            rw [e] at this
            simp only [List.cons_append, List.nil_append, List.cons.injEq] at this
            obtain ⟨rfl, h2⟩ := this
            exact hst rfl (by rw [h2]; rfl)
    have hF : First ['*', '/'] r pre' post := First.drop (u := u) (by rw [← e, ← hpre]; exact h)
    obtain ⟨t1, t2⟩ := tokens_block hm o hF
    refine ⟨'/' :: '*' :: u, _, by simp only [t1], ?_, .inr ⟨rfl, t2.last⟩⟩
    rw [t2.text, hpre]
    simp

/-- C52: and when there is no `*/` behind the start the comment goes on to the end of the input. -/
theorem C52_block_comment_open (lang : CommentLang) (o : Bool) (s : Str) (h : ∀ a b, s ≠ a ++ ['*', '/'] ++ b) (hb : ¬ StartsBang lang s) :
    ∃ start ts, lexComment lang o ('/' :: '*' :: s) = some (start, ts, []) ∧ start ++ ts.flatMap (·.1) = ['/', '*'] ++ s ∧
      Open ts (ts.flatMap (·.1)) := by
  unfold lexComment
  simp only []
  rcases commentStart_block lang s hb with ⟨r, e, -⟩ | ⟨u, r, m, e, -, -, hm, e2, -⟩
  · exact absurd e (h [] r)
  · rw [e2]
    obtain ⟨t1, t2⟩ := tokens_block_open hm o (s := r) (fun a b e' => h (u ++ a) b (by rw [e, e']; simp))
    refine ⟨'/' :: '*' :: u, _, by simp only [t1], ?_, ⟨rfl, t2.last⟩⟩
    rw [t2.text, e]
    simp

/-- The theorems apply: `/** * "x */ y`. -/
theorem C52_block_comment_applies :
    First ['*', '/'] "* * \"x */ y".toList "* * \"x ".toList " y".toList ∧ ¬ StartsBang .cFamily "* * \"x */ y".toList := by
  refine ⟨⟨by decide, ?_⟩, ?_⟩
  · intro a b e
    have : ∀ k, k < 7 → ("* * \"x */ y".toList.drop k).take 2 ≠ ['*', '/'] := by decide
    have h2 := this a.length
    rw [e] at h2
    apply Classical.byContradiction
    intro hlt
    exact h2 (by simpa using hlt) (by simp)
  · rintro ⟨-, r, e⟩
    cases e

/-- Finding: in C, C++ and C#, `/*!/` is a comment of its own: the comment is closed at a `/` that no `*` is before. The text of the comment that follows is
taken for code. src/parser/TextLexer.g:157-161. -/
theorem C52_finding_bang :
    lexComment .cFamily false "/*!/ x */ y".toList = some ("/*!/".toList, [], " x */ y".toList) := rfl

/-! ### Line comments -/

theorem commentInside_append (x : Str) (ts : List (Str × TextType)) : commentInside x ts = x ++ commentInside [] ts := rfl

/-- C52: a line comment has the text up to the end of its line and not the newline, or up to the end of the input. Nothing else is lost but, in some
cases, the newline itself is read together with the comment (it is then written behind it). -/
theorem C52_line_comment (lang : CommentLang) (o : Bool) (text rest : Str) (ht : '\n' ∉ text) (hr : rest = [] ∨ rest.head? = some '\n') :
    ∃ start ts rem, lexComment lang o (['/', '/'] ++ text ++ rest) = some (start, ts, rem) ∧ commentInside start ts = ['/', '/'] ++ text ∧
      (rem = rest ∨ '\n' :: rem = rest) := by
  -- what comes behind the start
  have key : ∀ (x y u : Str) (m : TextMode), m.isLine = true → text ++ rest = u ++ y → '\n' ∉ u → x = ['/', '/'] ++ u →
      commentInside x (TextLexer.tokens { mode := m, onpreprocline := o } y).1 = ['/', '/'] ++ text ∧
        ((TextLexer.tokens { mode := m, onpreprocline := o } y).2 = rest ∨ '\n' :: (TextLexer.tokens { mode := m, onpreprocline := o } y).2 = rest) := by
    intro x y u m hm e hu hx
    have htw : text = u ++ y.takeWhile (· ≠ '\n') := by
      rw [← takeWhile_line ht hr, e]
      clear e hx ht
      induction u with
      | nil => rfl
      | cons d u ih =>
        have : d ≠ '\n' := fun e => hu (by simp [e])
        simp only [List.cons_append, List.takeWhile_cons]
        rw [if_pos (by simpa using this), ih (fun h => hu (by simp [h]))]
    obtain ⟨q1, q2⟩ := tokens_line { mode := m, onpreprocline := o } y hm rfl
    refine ⟨by rw [commentInside_append, q1, hx, htw]; simp, ?_⟩
    rcases q2 with q2 | q2
    · left
      have e' := e
      rw [q2, htw, ← List.append_assoc] at e
      exact (List.append_cancel_left e).symm
    · right
      rw [q2, htw, ← List.append_assoc] at e
      exact (List.append_cancel_left e).symm
  unfold lexComment
  simp only [List.cons_append, List.nil_append]
  cases hq : text ++ rest with
  | nil =>
    obtain ⟨k1, k2⟩ := key ['/', '/'] [] [] .line rfl (by rw [hq]; rfl) (by simp) rfl
    refine ⟨_, _, _, rfl, k1, k2⟩
  | cons c s =>
    by_cases hc : c = '/' ∨ c = '!'
    · have hu : '\n' ∉ [c] := by
        rcases hc with rfl | rfl <;> decide
      obtain ⟨k1, k2⟩ := key ['/', '/', c] s [c] .lineDoxygen rfl (by rw [hq]; rfl) hu rfl
      refine ⟨['/', '/', c], (TextLexer.tokens { mode := .lineDoxygen, onpreprocline := o } s).1,
        (TextLexer.tokens { mode := .lineDoxygen, onpreprocline := o } s).2, ?_, k1, k2⟩
      simp only [commentStart, hc, if_true]
    · obtain ⟨k1, k2⟩ := key ['/', '/'] (c :: s) [] .line rfl (by rw [hq]; rfl) (by simp) rfl
      refine ⟨['/', '/'], (TextLexer.tokens { mode := .line, onpreprocline := o } (c :: s)).1,
        (TextLexer.tokens { mode := .line, onpreprocline := o } (c :: s)).2, ?_, k1, k2⟩
      simp only [commentStart, hc, if_false]

/-- The theorem applies: `// a "b` and a line behind it. -/
theorem C52_line_comment_applies : '\n' ∉ " a \"b".toList ∧ ("\nx".toList = [] ∨ "\nx".toList.head? = some '\n') := by decide

/-! ### Strings and characters -/

/-- C52: a string ends at the first quote that is not escaped by a backslash. On a preprocessor line this is shown for strings without a newline in them,
and everywhere for strings that no quote follows on directly. -/
theorem C52_string_partial (o : Bool) (body post : Str) (hb : Body '"' body) (hpost : post.head? ≠ some '"') (ho : o = false ∨ '\n' ∉ body) :
    ∃ ts, lexLiteral .string false o (body ++ '"' :: post) = ([], ts, post) ∧ Ends ts (body ++ ['"']) := by
  unfold lexLiteral
  rw [if_neg (by decide)]
  have := scan_string { mode := .string, onpreprocline := o } rfl rfl hb post hpost (Char.ofNat 0) (by decide) ho
  obtain ⟨h1, h2⟩ := ends_of_scan this
  exact ⟨_, by simp only [h1], h2⟩

/-- Finding: all quotes that follow on the end of a string directly are taken into it, so of two strings without a space
between them the second one loses its first quote: its text is read as code, and its last quote starts a string. src/parser/CommentTextLexer.g:172-183. -/
theorem C52_finding_adjacent_strings (body post : Str) (hb : Body '"' body) (n : Nat) (hpost : post.head? ≠ some '"') :
    ∃ ts, lexLiteral .string false false (body ++ '"' :: (List.replicate n '"' ++ post)) = ([], ts, post) ∧
      Ends ts (body ++ '"' :: List.replicate n '"') := by
  unfold lexLiteral
  rw [if_neg (by decide)]
  have := scan_string_run { mode := .string, onpreprocline := false } rfl rfl hb (List.replicate n '"' ++ post) (Char.ofNat 0) (by decide) (.inl rfl)
  rw [takeWhile_run n post hpost, List.drop_append_of_le_length (by simp), List.drop_length, List.nil_append] at this
  obtain ⟨h1, h2⟩ := ends_of_scan this
  exact ⟨_, by simp only [h1], h2⟩

/-- C52: a string without such a quote does not end (not on a preprocessor line). -/
theorem C52_string_open (s : Str) (h : ∀ b post, Body '"' b → s ≠ b ++ '"' :: post) :
    ∃ ts, lexLiteral .string false false s = ([], ts, []) ∧ Open ts s := by
  unfold lexLiteral
  rw [if_neg (by decide)]
  have := scan_string_open { mode := .string, onpreprocline := false } rfl rfl rfl s h (Char.ofNat 0) (by decide)
  obtain ⟨h1, h2⟩ := open_of_scan this
  exact ⟨_, by simp only [h1], h2⟩

/-- C52: a character ends at the first single quote that is not escaped, whatever follows. -/
theorem C52_character (o : Bool) (body post : Str) (hb : Body '\'' body) (ho : o = false ∨ '\n' ∉ body) :
    ∃ ts, lexLiteral .char false o (body ++ '\'' :: post) = ([], ts, post) ∧ Ends ts (body ++ ['\'']) := by
  unfold lexLiteral
  rw [if_neg (by decide)]
  have := scan_char { mode := .char, onpreprocline := o } rfl rfl hb post (Char.ofNat 0) (by decide) ho
  obtain ⟨h1, h2⟩ := ends_of_scan this
  exact ⟨_, by simp only [h1], h2⟩

/-- C52: a verbatim string of C# ends at the first quote that is not one of two, when no two quotes come directly behind a backslash in it. -/
theorem C52_verbatim_partial (o : Bool) (body post : Str) (hb : Verbatim body) (hpost : post.head? ≠ some '"')
    (hno : ∀ a r, body ≠ a ++ ['\\', '"', '"'] ++ r) (ho : o = false ∨ '\n' ∉ body) :
    ∃ ts, lexLiteral .string true o (body ++ '"' :: post) = ([], ts, post) ∧ Ends ts (body ++ ['"']) := by
  unfold lexLiteral
  rw [if_neg (by decide)]
  have := scan_verbatim { mode := .string, onpreprocline := o, noescape := true } rfl rfl hb post hpost hno (Char.ofNat 0)
    (fun h => absurd h (by decide)) ho
  obtain ⟨h1, h2⟩ := ends_of_scan this
  exact ⟨_, by simp only [h1], h2⟩

theorem rawDelimiter_paren (d s : Str) (hd : ∀ c ∈ d, delimiterChar c = true) : rawDelimiter (d ++ '(' :: s) = d := by
  unfold rawDelimiter
  induction d with
  | nil => simp [delimiterChar]
  | cons c d ih =>
    rw [List.cons_append, List.takeWhile_cons, if_pos (hd c (by simp)), ih (fun c h => hd c (by simp [h]))]

/-- C52: a raw string `R"d(...)d"` ends at the first `)d"`: no backslash, quote or other parenthesis in it counts. The text `s` is behind `R"d(`. -/
theorem C52_raw_string_partial (o : Bool) (d s body post : Str) (hd : ∀ c ∈ d, delimiterChar c = true)
    (h : First (')' :: d ++ ['"']) s body post) (hpost : post.head? ≠ some '"') (ho : o = false ∨ '\n' ∉ body) :
    ∃ ts, lexLiteral .rawString false o (d ++ '(' :: s) = (d ++ ['('], ts, post) ∧ Ends ts (body ++ ')' :: d ++ ['"']) := by
  unfold lexLiteral
  rw [if_pos rfl]
  simp only [rawDelimiter_paren d s hd]
  have hdr : (d ++ '(' :: s).drop d.length = '(' :: s := by simp
  rw [hdr]
  have := scan_raw { mode := .rawString, onpreprocline := o, delimiter1 := d } rfl rfl hd s body post h hpost (Char.ofNat 0) ho
  obtain ⟨h1, h2⟩ := ends_of_scan this
  refine ⟨_, ?_, h2⟩
  simp [h1]

/-- Finding: in a verbatim string two quotes behind a backslash end it at the first of them. The C# string `@"a\""b"` ends behind the backslash and one quote; the
second quote starts another string. src/parser/CommentTextLexer.g:174-176. -/
theorem C52_finding_verbatim :
    Verbatim "a\\\"\"b".toList ∧
      ∃ ts, lexLiteral .string true false "a\\\"\"b\";".toList = ([], ts, "\"b\";".toList) ∧ Ends ts "a\\\"".toList := by
  refine ⟨.plain _ _ (by decide) (.plain _ _ (by decide) (.pair _ (.plain _ _ (by decide) .nil))), ?_⟩
  unfold lexLiteral
  rw [if_neg (by decide)]
  have : TextLexer.scan { mode := .string, noescape := true } (Char.ofNat 0) "a\\\"\"b\";".toList = ("a\\\"".toList, some .string, "\"b\";".toList) := by
    simp [TextLexer.scan, TextLexer.alt, TextLexer.after, controlChar, TextMode.isLiteral, TextMode.isLine]
  obtain ⟨h1, h2⟩ := ends_of_scan this
  exact ⟨_, by simp only [h1], h2⟩

/-- Finding: in Objective-C `@"..."` is a usual string with escapes, but the lexer reads it like a verbatim string of C#: `@"a\" b"` ends at the escaped
quote. src/parser/OperatorLexer.g:169-173. -/
theorem C52_finding_objective_c :
    Body '"' "a\\\" b".toList ∧
      ∃ ts, lexLiteral .string true false "a\\\" b\";".toList = ([], ts, " b\";".toList) ∧ Ends ts "a\\\"".toList := by
  refine ⟨.plain _ _ (by decide) (by decide) (.escape _ _ (.plain _ _ (by decide) (by decide) (.plain _ _ (by decide) (by decide) .nil))), ?_⟩
  unfold lexLiteral
  rw [if_neg (by decide)]
  have : TextLexer.scan { mode := .string, noescape := true } (Char.ofNat 0) "a\\\" b\";".toList = ("a\\\"".toList, some .string, " b\";".toList) := by
    simp [TextLexer.scan, TextLexer.alt, TextLexer.after, controlChar, TextMode.isLiteral, TextMode.isLine]
  obtain ⟨h1, h2⟩ := ends_of_scan this
  exact ⟨_, by simp only [h1], h2⟩

/-- Finding: on a preprocessor line a string ends at the end of the line also when the line goes on: `"a\` newline `b"` in a definition. The lexer
ends the string before the newline that the backslash continues. src/parser/CommentTextLexer.g:160, 241-248. -/
theorem C52_finding_continued_line :
    Body '"' "a\\\nb".toList ∧
      ∃ ts, lexLiteral .string false true "a\\\nb\";".toList = ([], ts, "\nb\";".toList) ∧ Ends ts "a\\".toList := by
  refine ⟨.plain _ _ (by decide) (by decide) (.escape _ _ (.plain _ _ (by decide) (by decide) .nil)), ?_⟩
  unfold lexLiteral
  rw [if_neg (by decide)]
  have : TextLexer.scan { mode := .string, onpreprocline := true } (Char.ofNat 0) "a\\\nb\";".toList = ("a\\".toList, some .string, "\nb\";".toList) := by
    simp [TextLexer.scan, TextLexer.alt, TextLexer.after, controlChar, TextMode.isLiteral, TextMode.isLine]
  obtain ⟨h1, h2⟩ := ends_of_scan this
  exact ⟨_, by simp only [h1], h2⟩

/-- The theorems apply: `"a\"b\\"`, `'\''`, `@"a""b\"` and `R"x(a)" \)x"`. -/
theorem C52_literals_apply :
    Body '"' "a\\\"b\\\\".toList ∧ Body '\'' "\\'".toList ∧ Verbatim "a\"\"b\\".toList ∧
      First (')' :: "x".toList ++ ['"']) "a)\" \\)x\";".toList "a)\" \\".toList ";".toList := by
  refine ⟨?_, ?_, ?_, by decide, ?_⟩
  · exact .plain _ _ (by decide) (by decide) (.escape _ _ (.plain _ _ (by decide) (by decide) (.escape _ _ .nil)))
  · exact .escape _ _ .nil
  · exact .plain _ _ (by decide) (.pair _ (.plain _ _ (by decide) (.plain _ _ (by decide) .nil)))
  · intro a b e
    have : ∀ k, k < 5 → ("a)\" \\)x\";".toList.drop k).take 3 ≠ [')', 'x', '"'] := by decide
    have h2 := this a.length
    rw [e] at h2
    apply Classical.byContradiction
    intro hlt
    exact h2 (by simpa using hlt) (by simp)

end Srcml
