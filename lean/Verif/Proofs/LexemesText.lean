import Verif.Proofs.LexemesOps
/-
The lexer on the literals and comments of a source.
-/
namespace Srcml

open Spec

set_option linter.unusedSimpArgs false

theorem textToks_types {c : LexConf} {p : Nat × Nat} {ts : List (Str × TextType)} (h : ∀ t ∈ ts, ∀ n, t.2 ≠ .ended n) :
    ∀ t ∈ textToks c p ts, t.type = chars! "COMMENT_TEXT" ∨ t.type = chars! "CONTROL_CHAR" := by
  intro t ht
  obtain ⟨y, h1, q, rfl⟩ := textToks_mem ht
  have := h y h1
  dsimp only
  cases hy : y.2 with
  | text => exact .inl rfl
  | control => exact .inr rfl
  | ended n => exact absurd hy (this n)

/-- A text that the scan of the lexer for texts ends. -/
theorem takes_scan {c : LexConf} {st : LexState} {ch : Char} {r y rest : Str} {m : MainTok} {l : TextLexer} {mode : TextMode}
    (h : mainTok c st ch (r ++ (y ++ rest)) = some m) (he : m.enters = some l) (ht : m.text = ch :: r)
    (hl : l.scan (Char.ofNat 0) (y ++ rest) = (y, some mode, rest)) :
    ∃ g, Takes c st (ch :: r ++ y) rest g ∧ Between (· = m.type) (· = mode.endType) (ch :: r ++ y) g := by
  obtain ⟨h1, h2, h3, -⟩ := tokens_scan l (y ++ rest)
  rw [hl] at h1 h2 h3
  dsimp only at h1 h2 h3
  obtain ⟨ts, z, e1, e2⟩ := h3 mode rfl
  have htk : l.tokens (y ++ rest) = (ts ++ [(z, .ended mode)], rest) := by
    rw [← e1]; exact Prod.ext rfl h2
  obtain ⟨p, hp⟩ := takes_text h he ht htk
  refine ⟨_, hp, ?_, ?_⟩
  · rw [textToks_append]
    refine ⟨mkTok st m, textToks c p ts, { type := mode.endType, text := z, line := _, column := _ }, rfl, rfl, rfl, textToks_types e2⟩
  · rw [List.flatMap_cons, textToks_text, ← e1, h1]
    simp [mkTok, ht]

/-! ### Strings and characters -/

theorem takes_string {c : LexConf} (st : LexState) {p body rest : Str} (hp : p = [] ∨ p ∈ stringPrefixes) (hb : Body '"' body) (hn : st.onpreprocline = true → '\n' ∉ body)
    (hr : rest.head? ≠ some '"') : ∃ g, Takes c st (p ++ '"' :: body ++ ['"']) rest g ∧ TokensOf c st.startline .string (p ++ '"' :: body ++ ['"']) g := by
  have sc : (TextLexer.scan { mode := .string, onpreprocline := st.onpreprocline } (Char.ofNat 0) (body ++ '"' :: rest)) =
      (body ++ ['"'], some .string, rest) := scan_string _ rfl rfl hb rest hr _ (by decide) (newline_or hn)
  have key : ∀ ch r, p ++ ['"'] = ch :: r → ∀ ty, mainTok c st ch (r ++ (body ++ '"' :: rest)) =
        some ⟨ch :: r, ty, some { mode := .string, onpreprocline := st.onpreprocline }⟩ →
      (ty = chars! "STRING_START" ∨ LiteralType c (ch :: r) (chars! "STRING_START") ty) →
      ∃ g, Takes c st (p ++ '"' :: body ++ ['"']) rest g ∧ TokensOf c st.startline .string (p ++ '"' :: body ++ ['"']) g := by
    intro ch r e ty hm hty
    have hm' : mainTok c st ch (r ++ ((body ++ ['"']) ++ rest)) = some ⟨ch :: r, ty, some { mode := .string, onpreprocline := st.onpreprocline }⟩ := by
      rw [show (body ++ ['"']) ++ rest = body ++ '"' :: rest from by simp]; exact hm
    obtain ⟨g, g1, g2⟩ := takes_scan hm' rfl rfl (by rw [show (body ++ ['"']) ++ rest = body ++ '"' :: rest from by simp]; exact sc)
    have ex : p ++ '"' :: body ++ ['"'] = ch :: r ++ (body ++ ['"']) := by rw [← e]; simp
    rw [ex]
    refine ⟨g, g1, .string _ _ ⟨?_, g2.text⟩⟩
    obtain ⟨a, inner, z, q1, q2, q3, q4⟩ := g2.parts
    exact ⟨a, inner, z, q1, ⟨ch :: r, List.prefix_append _ _, by rw [q2]; exact hty⟩, q3, q4⟩
  rcases hp with rfl | hp
  · refine key '"' [] rfl _ ?_ (.inl rfl)
    unfold mainTok
    rw [if_pos rfl]
  · have cases : ∃ ch r, p = ch :: r ∧ nameStart ch = true ∧ (∀ y ∈ p, nameChar y = true) ∧ (p = ['L'] ∨ p = ['U'] ∨ p = ['u'] ∨ p = ['u', '8']) := by
      have : p ∈ ([['L'], ['U'], ['u'], ['u', '8']] : List Str) := hp
      simp only [List.mem_cons, List.not_mem_nil, or_false] at this
      rcases this with rfl | rfl | rfl | rfl
      · exact ⟨'L', [], rfl, by decide, by decide, by decide⟩
      · exact ⟨'U', [], rfl, by decide, by decide, by decide⟩
      · exact ⟨'u', [], rfl, by decide, by decide, by decide⟩
      · exact ⟨'u', ['8'], rfl, by decide, by decide, by decide⟩
    obtain ⟨ch, r, e, q1, q2, q3⟩ := cases
    refine key ch (r ++ ['"']) (by rw [e]; rfl) (c.testLiterals (p ++ ['"']) (chars! "STRING_START")) ?_ ?_
    · have hn := nameStart_not q1
      unfold mainTok
      rw [if_neg hn.1, if_neg hn.2.1, if_neg (by rw [hn.2.2]; decide), if_pos q1]
      unfold lexName
      have e2 : ch :: (r ++ ['"'] ++ (body ++ '"' :: rest)) = p ++ ('"' :: (body ++ '"' :: rest)) := by rw [e]; simp
      have tw : (p ++ ('"' :: (body ++ '"' :: rest))).takeWhile nameChar = p := takeWhile_stop q2 (fun k hk => by
        simp at hk; subst hk; decide)
      have dr : (p ++ ('"' :: (body ++ '"' :: rest))).drop p.length = '"' :: (body ++ '"' :: rest) := by simp
      simp only [e2, tw, dr]
      rw [if_pos (by rfl), if_pos q3, e]
      rfl
    · right
      rw [show ch :: (r ++ ['"']) = p ++ ['"'] from by rw [e]; rfl]
      exact literalType c _ _

theorem takes_raw {c : LexConf} (st : LexState) {p d body rest : Str} (hl : c.language = 2) (hp : p ∈ rawPrefixes)
    (hd : ∀ ch ∈ d, ch ∉ "()\\\n \t".toList) (hn : st.onpreprocline = true → '\n' ∉ body)
    (hf : First (')' :: d ++ ['"']) (body ++ ')' :: d ++ '"' :: rest) body rest) (hr : rest.head? ≠ some '"') :
    ∃ g, Takes c st (p ++ '"' :: d ++ '(' :: body ++ ')' :: d ++ ['"']) rest g ∧
      TokensOf c st.startline .string (p ++ '"' :: d ++ '(' :: body ++ ')' :: d ++ ['"']) g := by
  have hd' : ∀ ch ∈ d, delimiterChar ch = true := by
    intro ch hc
    have h1 : ch ∉ ['(', ')', '\\', '\n', ' ', '\t'] := hd ch hc
    simp only [List.mem_cons, List.not_mem_nil, or_false, not_or] at h1
    unfold delimiterChar
    simp [h1]
  have hb : ∀ z : Str, (body ++ ')' :: d ++ ['"']) ++ z = body ++ ')' :: d ++ '"' :: z := by intro z; simp
  have sc := scan_raw { mode := .rawString, onpreprocline := st.onpreprocline, delimiter1 := d } rfl rfl hd' _ body rest hf hr (Char.ofNat 0) (newline_or hn)
  have cases : ∃ ch r, p = ch :: r ∧ nameStart ch = true ∧ (∀ y ∈ p, nameChar y = true) ∧ ¬ (p = ['L'] ∨ p = ['U'] ∨ p = ['u'] ∨ p = ['u', '8']) ∧
      (p = ['R'] ∨ p = ['u', '8', 'R'] ∨ p = ['L', 'R'] ∨ p = ['U', 'R'] ∨ p = ['u', 'R']) := by
    have : p ∈ ([['R'], ['u', '8', 'R'], ['L', 'R'], ['U', 'R'], ['u', 'R']] : List Str) := hp
    simp only [List.mem_cons, List.not_mem_nil, or_false] at this
    rcases this with rfl | rfl | rfl | rfl | rfl
    · exact ⟨'R', [], rfl, by decide, by decide, by decide, by decide⟩
    · exact ⟨'u', ['8', 'R'], rfl, by decide, by decide, by decide, by decide⟩
    · exact ⟨'L', ['R'], rfl, by decide, by decide, by decide, by decide⟩
    · exact ⟨'U', ['R'], rfl, by decide, by decide, by decide, by decide⟩
    · exact ⟨'u', ['R'], rfl, by decide, by decide, by decide, by decide⟩
  obtain ⟨ch, r, e, q1, q2, q3, q4⟩ := cases
  have hm : mainTok c st ch ((r ++ '"' :: (d ++ ['('])) ++ ((body ++ ')' :: d ++ ['"']) ++ rest)) =
      some ⟨ch :: (r ++ '"' :: (d ++ ['('])), c.testLiterals (p ++ '"' :: (d ++ ['('])) (chars! "STRING_START"),
        some { mode := .rawString, onpreprocline := st.onpreprocline, delimiter1 := d }⟩ := by
    have hn := nameStart_not q1
    unfold mainTok
    rw [if_neg hn.1, if_neg hn.2.1, if_neg (by rw [hn.2.2]; decide), if_pos q1]
    unfold lexName
    generalize hz : (body ++ ')' :: d ++ ['"']) ++ rest = z
    have e2 : ch :: ((r ++ '"' :: (d ++ ['('])) ++ z) = p ++ ('"' :: (d ++ '(' :: z)) := by rw [e]; simp
    have tw : (p ++ ('"' :: (d ++ '(' :: z))).takeWhile nameChar = p := takeWhile_stop q2 (fun k hk => by
      simp at hk; subst hk; decide)
    have dr : (p ++ ('"' :: (d ++ '(' :: z))).drop p.length = '"' :: (d ++ '(' :: z) := by simp
    have hrd : rawDelimiter (d ++ '(' :: z) = d := rawDelimiter_paren d z hd'
    have dr2 : (d ++ '(' :: z).drop d.length = '(' :: z := by simp
    simp only [e2, tw, dr]
    rw [if_pos (by rfl), if_neg q3, if_pos ⟨by unfold LexConf.inLanguage; rw [hl]; decide, q4⟩]
    simp only [List.drop_succ_cons, List.drop_zero, hrd, dr2]
    rw [show opt ('(' :: z) (fun x => decide (x = '(')) = ['('] from opt_some (by decide), e]
    rfl
  obtain ⟨g, g1, g2⟩ := takes_scan hm rfl rfl (by rw [hb]; exact sc)
  have ex : p ++ '"' :: d ++ '(' :: body ++ ')' :: d ++ ['"'] = ch :: (r ++ '"' :: (d ++ ['('])) ++ (body ++ ')' :: d ++ ['"']) := by rw [e]; simp
  rw [ex]
  refine ⟨g, g1, .string _ _ ⟨?_, g2.text⟩⟩
  obtain ⟨a, inner, z, w1, w2, w3, w4⟩ := g2.parts
  refine ⟨a, inner, z, w1, ⟨ch :: (r ++ '"' :: (d ++ ['('])), List.prefix_append _ _, .inr ?_⟩, w3, w4⟩
  rw [w2]
  rw [show ch :: (r ++ '"' :: (d ++ ['('])) = p ++ '"' :: (d ++ ['(']) from by rw [e]; rfl]
  exact literalType c _ _

theorem names_at {c : LexConf} (hl : c.language ∈ [8, 17]) : (c.inLanguage LANGUAGE_CSHARP || c.inLanguage LANGUAGE_OBJECTIVE_C) = true := by
  unfold LexConf.inLanguage
  simp only [List.mem_cons, List.not_mem_nil, or_false] at hl
  rcases hl with hl | hl <;> rw [hl] <;> decide

theorem takes_atWord {c : LexConf} (st : LexState) {x rest : Str} (hl : c.language ∈ [8, 17]) (hx : isWord x = true) (hr : NotThen rest isWordChar) :
    ∃ g, Takes c st ('@' :: x) rest g ∧ TokensOf c st.startline .word ('@' :: x) g := by
  obtain ⟨ch, r, e, h1, h2⟩ := (isWord_iff x).1 hx
  subst e
  have htw : (ch :: (r ++ rest)).takeWhile nameChar = ch :: r := by
    rw [← List.cons_append]
    refine takeWhile_stop ?_ (fun k hk => by rw [← isWordChar_eq]; exact hr k hk)
    intro y hy
    rcases List.mem_cons.1 hy with rfl | hy
    · simp [nameChar, h1]
    · exact h2 y hy
  have hp : ¬ (ch = '(' ∨ ch = '[' ∨ ch = '{') := by rintro (rfl | rfl | rfl) <;> exact absurd h1 (by decide)
  have hm : mainTok c st '@' (ch :: r ++ rest) = some ⟨'@' :: ch :: r, c.testLiterals ('@' :: ch :: r) (chars! "NAME"), none⟩ := by
    rw [mainTok_at]
    unfold lexAt
    simp only [List.cons_append, names_at hl, htw]
    rw [if_neg (fun h => hp h.2), if_pos ⟨trivial, h1⟩]
  exact ⟨_, takes_one hm rfl rfl, .word (mkTok st ⟨'@' :: ch :: r, c.testLiterals ('@' :: ch :: r) (chars! "NAME"), none⟩) (literalType c _ _)⟩

theorem takes_atOpen {c : LexConf} (st : LexState) {x : Char} {rest : Str} (hl : c.language = 17) (hx : x ∈ ['(', '[', '{']) :
    ∃ g, Takes c st ['@', x] rest g ∧ TokensOf c st.startline .operator ['@', x] g := by
  have ho : c.inLanguage LANGUAGE_OBJECTIVE_C = true := by unfold LexConf.inLanguage; rw [hl]; decide
  have hm : mainTok c st '@' ([x] ++ rest) = some ⟨['@', x], c.testLiterals ['@', x] (chars! "OPERATORS"), none⟩ := by
    rw [mainTok_at]
    unfold lexAt
    simp only [List.cons_append, List.nil_append]
    rw [if_pos ⟨ho, by simpa using hx⟩]
  exact ⟨_, takes_one hm rfl rfl, .operator (mkTok st ⟨['@', x], c.testLiterals ['@', x] (chars! "OPERATORS"), none⟩) (operatorType (fun h => by injection h with h; exact absurd h (by decide)) (literalType c _ _))⟩

theorem takes_atNumber {c : LexConf} (st : LexState) (n : NumberParts) {rest : Str} (hl : c.language = 17) (h : n.Good rest) :
    ∃ g, Takes c st ('@' :: n.text) rest g ∧ TokensOf c st.startline .number ('@' :: n.text) g := by
  have ht := constantText_number n rest h
  have ho : c.inLanguage LANGUAGE_OBJECTIVE_C = true := by unfold LexConf.inLanguage; rw [hl]; decide
  obtain ⟨ch, r, q1, q2, q3⟩ := h.whole
  rw [isDigit_eq] at q2
  have hx : n.text = ch :: (r ++ n.fraction ++ n.exponent ++ n.imaginary ++ n.suffix) := by simp [NumberParts.text, q1]
  rw [hx] at ht ⊢
  generalize r ++ n.fraction ++ n.exponent ++ n.imaginary ++ n.suffix = r' at *
  have hp : ¬ (ch = '(' ∨ ch = '[' ∨ ch = '{') := by rintro (rfl | rfl | rfl) <;> exact absurd q2 (by decide)
  have hns : nameStart ch = false := by
    cases hh : nameStart ch with
    | false => rfl
    | true => rw [(nameStart_not hh).2.2] at q2; cases q2
  have hm : mainTok c st '@' (ch :: r' ++ rest) = some ⟨'@' :: ch :: r', c.testLiterals ('@' :: ch :: r') (chars! "CONSTANTS"), none⟩ := by
    rw [mainTok_at]
    unfold lexAt
    rw [List.cons_append] at ht
    simp only [List.cons_append, ht]
    rw [if_neg (fun h => hp h.2), if_neg (by rw [hns]; rintro ⟨_, h⟩; cases h), if_pos ⟨ho, q2⟩]
  exact ⟨_, takes_one hm rfl rfl, .numberAt (mkTok st ⟨'@' :: ch :: r', c.testLiterals ('@' :: ch :: r') (chars! "CONSTANTS"), none⟩) (.inr rfl) (literalType c _ _)⟩

theorem takes_fraction {c : LexConf} (st : LexState) (n : NumberParts) {rest : Str} (h : n.Good rest) :
    ∃ g, Takes c st ('.' :: n.text) rest g ∧ TokensOf c st.startline .number ('.' :: n.text) g := by
  have ht := constantText_number n rest h
  obtain ⟨ch, r, q1, q2, q3⟩ := h.whole
  rw [isDigit_eq] at q2
  have hx : n.text = ch :: (r ++ n.fraction ++ n.exponent ++ n.imaginary ++ n.suffix) := by simp [NumberParts.text, q1]
  rw [hx] at ht ⊢
  generalize r ++ n.fraction ++ n.exponent ++ n.imaginary ++ n.suffix = r' at *
  have hm : mainTok c st '.' (ch :: r' ++ rest) = some ⟨'.' :: ch :: r', c.testLiterals ('.' :: ch :: r') (chars! "CONSTANTS"), none⟩ := by
    rw [mainTok_dot]
    unfold lexDot
    rw [List.cons_append] at ht
    simp only [List.cons_append, ht]
    rw [if_neg (by rintro ⟨_, rfl⟩; exact absurd q2 (by decide)), if_neg (by rintro rfl; exact absurd q2 (by decide)), if_pos q2]
  exact ⟨_, takes_one hm rfl rfl, .numberAt (mkTok st ⟨'.' :: ch :: r', c.testLiterals ('.' :: ch :: r') (chars! "CONSTANTS"), none⟩) (.inl rfl) (literalType c _ _)⟩

theorem verbatim_of_not {body : Str} (h : '"' ∉ body) : Verbatim body := by
  induction body with
  | nil => exact .nil
  | cons ch r ih => exact .plain ch r (by rintro rfl; exact h (by simp)) (ih (fun hx => h (by simp [hx])))

theorem takes_verbatim {c : LexConf} (st : LexState) {body rest : Str} (hl : c.language ∈ [8, 17]) (hb : Verbatim body) (hn : st.onpreprocline = true → '\n' ∉ body)
    (hno : ∀ a r, body ≠ a ++ ['\\', '"', '"'] ++ r) (hr : rest.head? ≠ some '"') :
    ∃ g, Takes c st ('@' :: '"' :: body ++ ['"']) rest g ∧ TokensOf c st.startline .string ('@' :: '"' :: body ++ ['"']) g := by
  have sc := scan_verbatim { mode := .string, onpreprocline := st.onpreprocline, noescape := true } rfl rfl hb rest hr hno (Char.ofNat 0)
    (fun h => absurd h (by decide)) (newline_or hn)
  have hc : (c.inLanguage LANGUAGE_CSHARP || c.inLanguage LANGUAGE_OBJECTIVE_C) = true := names_at hl
  have eb : ∀ z : Str, (body ++ ['"']) ++ z = body ++ '"' :: z := by intro z; simp
  have hm : mainTok c st '@' (['"'] ++ ((body ++ ['"']) ++ rest)) = some ⟨['@', '"'], c.testLiterals ['@', '"'] (chars! "STRING_START"),
      some { mode := .string, onpreprocline := st.onpreprocline, noescape := true }⟩ := by
    rw [mainTok_at]
    unfold lexAt
    simp only [List.cons_append, List.nil_append, hc]
    rw [if_neg (by rintro ⟨_, h | h | h⟩ <;> exact absurd h (by decide)), if_neg (by rintro ⟨_, h⟩; exact absurd h (by decide)),
      if_neg (by rintro ⟨_, h⟩; exact absurd h (by decide)), if_neg (by rintro ⟨_, h⟩; exact absurd h (by decide)), if_pos ⟨trivial, trivial⟩]
  obtain ⟨g, g1, g2⟩ := takes_scan hm rfl rfl (by rw [eb]; exact sc)
  have ex : '@' :: '"' :: body ++ ['"'] = '@' :: ['"'] ++ (body ++ ['"']) := by simp
  rw [ex]
  refine ⟨g, g1, .string _ _ ⟨?_, g2.text⟩⟩
  obtain ⟨a, inner, z, w1, w2, w3, w4⟩ := g2.parts
  refine ⟨a, inner, z, w1, ⟨['@', '"'], List.prefix_append _ _, .inr ?_⟩, w3, w4⟩
  rw [w2]
  exact literalType c _ _

theorem takes_character {c : LexConf} (st : LexState) {body rest : Str} (hb : Body '\'' body) (hn : st.onpreprocline = true → '\n' ∉ body) :
    ∃ g, Takes c st ('\'' :: body ++ ['\'']) rest g ∧ TokensOf c st.startline .character ('\'' :: body ++ ['\'']) g := by
  have sc := scan_char { mode := .char, onpreprocline := st.onpreprocline } rfl rfl hb rest (Char.ofNat 0) (by decide) (newline_or hn)
  have eb : ∀ z : Str, (body ++ ['\'']) ++ z = body ++ '\'' :: z := by intro z; simp
  have hm : mainTok c st '\'' ([] ++ ((body ++ ['\'']) ++ rest)) = some ⟨['\''], chars! "CHAR_START",
      some { mode := .char, onpreprocline := st.onpreprocline }⟩ := by
    unfold mainTok
    rw [if_neg (by decide), if_pos rfl]
  obtain ⟨g, g1, g2⟩ := takes_scan hm rfl rfl (by rw [eb]; exact sc)
  exact ⟨g, g1, .character _ _ g2⟩

/-! ### Comments -/

theorem testLiterals_comment {c : LexConf} (hm : NoCommentMacro c) {x : Str} (hx : x ∈ commentStarts) (d : TokType) : c.testLiterals x d = d := by
  refine testLiterals_none c x d (fun p hp e => ?_)
  rcases List.mem_append.1 hp with h | h
  · exact hm p h (e ▸ hx)
  · obtain ⟨k, hk, rfl⟩ := List.mem_map.1 h
    exact keyword_not_comment k (List.mem_filter.1 hk).1 (by have e : k.text = x := e; rw [e]; exact hx)

theorem commentLang_eq {c : LexConf} (hl : c.language ∈ languageNumbers) : c.commentLang = if c.language = 4 then .java else .cFamily := by
  unfold LexConf.commentLang LexConf.inLanguage
  simp only [languageNumbers, List.mem_cons, List.not_mem_nil, or_false] at hl
  rcases hl with hl | hl | hl | hl | hl <;> rw [hl] <;> decide

theorem scan_line (l : TextLexer) (hl : l.mode.isLine = true) (hn : l.noescape = false) (rest : Str) (hr : rest = [] ∨ rest.head? = some '\n') :
    ∀ (n : Nat) (text : Str) (prev : Char), text.length ≤ n → text ≠ [] → '\n' ∉ text → (∀ ch, text.getLast? = some ch → isControl ch = false) →
      l.scan prev (text ++ rest) = (text, some l.mode, rest) := by
  intro n
  induction n with
  | zero => intro text prev h hne; cases text with | nil => exact absurd rfl hne | cons => simp at h
  | succ n ih =>
    intro text prev hlen hne hnl hlast
    cases text with
    | nil => exact absurd rfl hne
    | cons ch r =>
      have hc : ch ≠ '\n' := by rintro rfl; exact hnl (by simp)
      obtain ⟨a1, a2, a3, a4⟩ := alt_line l hl hn prev ch (r ++ rest) hc
      generalize ha : l.alt prev ch (r ++ rest) = x at a1 a2 a3 a4
      obtain ⟨run, rest', t, l', p⟩ := x
      dsimp only at a1 a2 a3 a4
      subst a1
      -- the run is in the text
      have hrun : ∃ r2, r = run ++ r2 ∧ rest' = r2 ++ rest := by
        rcases List.append_eq_append_iff.1 a2 with ⟨z, h1, h2⟩ | ⟨z, h1, h2⟩
        · exact ⟨z, h1, h2⟩
        · cases z with
          | nil => exact ⟨[], by simpa using h1.symm, by simpa using h2.symm⟩
          | cons k z =>
            exfalso
            rcases hr with hr | hr
            · rw [hr] at h2; cases h2
            · rw [h2] at hr
              simp at hr
              subst hr
              rw [h1] at a3
              exact a3 (by simp)
      obtain ⟨r2, e1, e2⟩ := hrun
      rw [List.cons_append, TextLexer.scan, ha]
      dsimp only
      cases ht : t with
      | ended m => exact absurd ht (a4 m)
      | control =>
        have hcc : controlChar ch = true := alt_is_control (by rw [ha]; exact ht)
        have hrr := alt_control l' hcc prev (r ++ rest)
        rw [ha] at hrr
        have e0 : run = [] := congrArg (·.1) hrr
        subst e0
        rw [after_control]
        dsimp only
        have hne2 : r2 ≠ [] := by
          rintro rfl
          have e1' : r = [] := by simpa using e1
          subst e1'
          have := hlast ch rfl
          rw [isControl_controlChar, hcc] at this
          cases this
        have e1' : r = r2 := by simpa using e1
        subst e1'
        rw [e2, ih r p (by simp at hlen; omega) hne2 (fun h => hnl (by simp [h])) (fun k hk => hlast k (by
          cases r with
          | nil => exact absurd rfl hne2
          | cons a b => simpa using hk))]
        simp
      | text =>
        rw [after_line l' hl]
        by_cases hr2 : r2 = []
        · subst hr2
          rw [List.nil_append] at e2
          rw [if_pos (by rw [e2]; exact hr)]
          dsimp only
          rw [e2, e1]
          simp
        · have hnot : ¬ (rest' = [] ∨ rest'.head? = some '\n') := by
            rw [e2]
            cases r2 with
            | nil => exact absurd rfl hr2
            | cons k r2 =>
              simp
              rintro rfl
              exact hnl (by rw [e1]; simp)
          rw [if_neg hnot]
          dsimp only
          rw [e2, ih r2 p (by rw [e1] at hlen; simp at hlen; omega) hr2 (fun h => hnl (by rw [e1]; simp [h])) (fun k hk => hlast k (by
            rw [e1, ← List.cons_append, List.getLast?_append, hk]; rfl))]
          simp [e1]

theorem scan_newline (l : TextLexer) (hl : l.mode.isLine = true) (prev : Char) (rest : Str) :
    l.scan prev ('\n' :: rest) = (['\n'], some l.mode, rest) := by
  have : l.alt prev '\n' rest = ([], rest, .ended l.mode, l, '\n') := by
    unfold TextLexer.alt
    simp [controlChar, hl]
  rw [TextLexer.scan, this]
  have : l.after rest (.ended l.mode) = .ended l.mode := by
    unfold TextLexer.after
    simp
  simp [this]

theorem takes_comment {c : LexConf} (hmac : NoCommentMacro c) (st : LexState) {u y rest : Str} {m : TextMode}
    (hs : commentStart c.commentLang (u ++ (y ++ rest)) = (u, .opened m, y ++ rest)) (hu : '/' :: u ∈ commentStarts)
    (sc : TextLexer.scan { mode := m, onpreprocline := st.onpreprocline } (Char.ofNat 0) (y ++ rest) = (y, some m, rest)) :
    ∃ g, Takes c st ('/' :: u ++ y) rest g ∧ Between (· = m.startType) (· = m.endType) ('/' :: u ++ y) g := by
  have hm : mainTok c st '/' (u ++ (y ++ rest)) = some ⟨'/' :: u, m.startType, some { mode := m, onpreprocline := st.onpreprocline }⟩ := by
    rw [mainTok_slash]
    unfold lexSlash
    simp only [hs, testLiterals_comment hmac hu]
  exact takes_scan hm rfl rfl sc

theorem takes_line {c : LexConf} (hmac : NoCommentMacro c) (st : LexState) {text rest : Str}
    (h : ('\n' ∉ text ∧ (∀ ch, text.getLast? = some ch → isControl ch = false) ∧ (rest = [] ∨ rest.head? = some '\n') ∧ text ∉ [[], ['/'], ['!']]) ∨
      ∃ t0, t0 ∈ ([[], ['/'], ['!']] : List Str) ∧ text = t0 ++ ['\n']) :
    ∃ g, Takes c st ("//".toList ++ text) rest g ∧ TokensOf c st.startline .lineComment ("//".toList ++ text) g := by
  -- the text behind the start
  have sc : ∀ (u y : Str) (m : TextMode), text = u ++ y → y ≠ [] → m.isLine = true →
      TextLexer.scan { mode := m, onpreprocline := st.onpreprocline } (Char.ofNat 0) (y ++ rest) = (y, some m, rest) ∨ u.length ≠ 1 ∧ u.length ≠ 0 ∨
        (u = [] ∧ (text.head? = some '/' ∨ text.head? = some '!')) ∨ (u.length = 1 ∧ u ≠ ['/'] ∧ u ≠ ['!']) := by
    intro u y m e hy hmode
    rcases h with ⟨h1, h2, h3, h4⟩ | ⟨t0, h1, h2⟩
    · left
      refine scan_line { mode := m, onpreprocline := st.onpreprocline } hmode rfl rest h3 y.length y _ (Nat.le_refl _) hy (fun h => h1 (by rw [e]; simp [h])) (fun ch hc => h2 ch ?_)
      rw [e, List.getLast?_append, hc]; rfl
    · have hn : y = ['\n'] → TextLexer.scan { mode := m, onpreprocline := st.onpreprocline } (Char.ofNat 0) (y ++ rest) = (y, some m, rest) := by
        rintro rfl
        exact scan_newline { mode := m, onpreprocline := st.onpreprocline } hmode _ _
      have h2 := h2.symm.trans e
      simp only [List.mem_cons, List.not_mem_nil, or_false] at h1
      rcases h1 with rfl | rfl | rfl
      · cases u with
        | nil => exact .inl (hn h2.symm)
        | cons a u =>
          simp at h2
          exact absurd h2.2.2 hy
      · cases u with
        | nil => right; right; left; exact ⟨rfl, by rw [e, List.nil_append, ← List.nil_append y, ← h2]; simp⟩
        | cons a u =>
          simp at h2
          cases u with
          | nil => exact .inl (hn (by simpa using h2.2.symm))
          | cons b u => right; left; simp
      · cases u with
        | nil => right; right; left; exact ⟨rfl, by rw [e, List.nil_append, ← List.nil_append y, ← h2]; simp⟩
        | cons a u =>
          simp at h2
          cases u with
          | nil => exact .inl (hn (by simpa using h2.2.symm))
          | cons b u => right; left; simp
  cases htx : text with
  | nil =>
    exfalso
    rcases h with ⟨_, _, _, h4⟩ | ⟨t0, h1, h2⟩
    · exact h4 (by simp [htx])
    · rw [htx] at h2; simp at h2
  | cons k t =>
    by_cases hk : k = '/' ∨ k = '!'
    · have ht : t ≠ [] := by
        rintro rfl
        rcases h with ⟨_, _, _, h4⟩ | ⟨t0, h1, h2⟩
        · rcases hk with rfl | rfl <;> exact h4 (by simp [htx])
        · rw [htx] at h2
          cases t0 with
          | nil => simp at h2; subst h2; rcases hk with hk | hk <;> exact absurd hk (by decide)
          | cons => simp at h2
      have s1 : TextLexer.scan { mode := .lineDoxygen, onpreprocline := st.onpreprocline } (Char.ofNat 0) (t ++ rest) = (t, some .lineDoxygen, rest) := by
        rcases sc [k] t .lineDoxygen htx ht rfl with q | q | q | q
        · exact q
        · simp at q
        · simp at q
        · rcases hk with rfl | rfl
          · exact absurd rfl q.2.1
          · exact absurd rfl q.2.2
      have hs : commentStart c.commentLang (['/', k] ++ (t ++ rest)) = (['/', k], .opened .lineDoxygen, t ++ rest) := by
        show commentStart c.commentLang ('/' :: k :: (t ++ rest)) = _
        unfold commentStart
        simp only [hk, if_true]
      obtain ⟨g, g1, g2⟩ := takes_comment hmac st hs (by rcases hk with rfl | rfl <;> decide) s1
      have ex : "//".toList ++ k :: t = '/' :: ['/', k] ++ t := rfl
      rw [ex]
      refine ⟨g, g1, .lineComment _ _ ?_⟩
      have : commentTypes c.language ('/' :: ['/', k] ++ t) = (chars! "LINE_DOXYGEN_COMMENT_START", chars! "LINE_DOXYGEN_COMMENT_END") := by
        unfold commentTypes
        rw [if_pos]
        rcases hk with rfl | rfl
        · exact .inr ⟨t, rfl⟩
        · exact .inl ⟨t, rfl⟩
      rw [this]
      exact g2
    · have s1 : TextLexer.scan { mode := .line, onpreprocline := st.onpreprocline } (Char.ofNat 0) ((k :: t) ++ rest) = (k :: t, some .line, rest) := by
        rcases sc [] (k :: t) .line (by rw [htx]; rfl) (by simp) rfl with q | q | q | q
        · exact q
        · simp at q
        · rw [htx] at q
          rcases q.2 with q | q <;> simp at q <;> exact absurd (by simp [q]) hk
        · simp at q
      have hs : commentStart c.commentLang (['/'] ++ ((k :: t) ++ rest)) = (['/'], .opened .line, (k :: t) ++ rest) := by
        show commentStart c.commentLang ('/' :: k :: (t ++ rest)) = _
        unfold commentStart
        simp only [hk, if_false]
        rfl
      obtain ⟨g, g1, g2⟩ := takes_comment hmac st hs (by decide) s1
      have ex : "//".toList ++ k :: t = '/' :: ['/'] ++ (k :: t) := rfl
      rw [ex]
      refine ⟨g, g1, .lineComment _ _ ?_⟩
      have : commentTypes c.language ('/' :: ['/'] ++ (k :: t)) = (chars! "LINE_COMMENT_START", chars! "LINE_COMMENT_END") := by
        unfold commentTypes
        rw [if_neg, if_pos ⟨k :: t, rfl⟩]
        rintro (⟨z, hz⟩ | ⟨z, hz⟩)
        · injection hz with _ hz; injection hz with _ hz; injection hz with hz _; exact hk (.inr hz.symm)
        · injection hz with _ hz; injection hz with _ hz; injection hz with hz _; exact hk (.inl hz.symm)
      rw [this]
      exact g2

/-- The `*/` that comes first is first in a rest of the text also. -/
theorem First_tail {u b rest : Str} (h : First ['*', '/'] (u ++ b ++ ['*', '/'] ++ rest) (u ++ b) rest) :
    First ['*', '/'] (b ++ ['*', '/'] ++ rest) b rest := by
  refine ⟨rfl, fun a r e => ?_⟩
  have := h.first (u ++ a) r (by rw [List.append_assoc, List.append_assoc, ← List.append_assoc b, e]; simp)
  simpa using this

theorem scan_close {m : TextMode} (hm : m.isBlock = true) (o : Bool) {b rest : Str} (h : First ['*', '/'] (b ++ ['*', '/'] ++ rest) b rest) :
    TextLexer.scan { mode := m, onpreprocline := o } (Char.ofNat 0) (b ++ ['*', '/'] ++ rest) = (b ++ ['*', '/'], some m, rest) := by
  rw [scan_block _ hm rfl]
  have := blockEnd_some false b rest (by simpa using First.before h (k := '/') (p := ['*']) rfl)
  simp only [show (decide (Char.ofNat 0 = '*')) = false from by decide, this]
  rfl

theorem takes_block {c : LexConf} (hl : c.language ∈ languageNumbers) (hmac : NoCommentMacro c) (st : LexState) {body rest : Str}
    (h : First ['*', '/'] (body ++ "*/".toList ++ rest) body rest) (hb : c.language ≠ 4 → ¬ "!/".toList <+: body ++ "*/".toList) :
    ∃ g, Takes c st ("/*".toList ++ body ++ "*/".toList) rest g ∧ TokensOf c st.startline .blockComment ("/*".toList ++ body ++ "*/".toList) g := by
  change First ['*', '/'] (body ++ ['*', '/'] ++ rest) body rest at h
  change c.language ≠ 4 → ¬ ['!', '/'] <+: body ++ ['*', '/'] at hb
  have hcl := commentLang_eq hl
  have types : ∀ (m : TextMode) (u b : Str), body = u ++ b → m.isBlock = true → '/' :: '*' :: u ∈ commentStarts →
      commentStart c.commentLang ('*' :: u ++ ((b ++ ['*', '/']) ++ rest)) = ('*' :: u, .opened m, (b ++ ['*', '/']) ++ rest) →
      commentTypes c.language ('/' :: '*' :: (body ++ ['*', '/'])) = (m.startType, m.endType) →
      ∃ g, Takes c st ("/*".toList ++ body ++ "*/".toList) rest g ∧ TokensOf c st.startline .blockComment ("/*".toList ++ body ++ "*/".toList) g := by
    intro m u b e hm hu hs ht
    subst e
    obtain ⟨g, g1, g2⟩ := takes_comment hmac st hs hu (scan_close hm st.onpreprocline (First_tail h))
    have ex : "/*".toList ++ (u ++ b) ++ "*/".toList = '/' :: ('*' :: u) ++ (b ++ ['*', '/']) := by simp
    have ex2 : '/' :: '*' :: ((u ++ b) ++ ['*', '/']) = '/' :: ('*' :: u) ++ (b ++ ['*', '/']) := by simp
    rw [ex2] at ht
    rw [ex]
    refine ⟨g, g1, .blockComment _ _ ?_⟩
    rw [ht]
    exact g2
  have nl : ∀ r, ¬ ("//!".toList <+: '/' :: '*' :: r ∨ "///".toList <+: '/' :: '*' :: r) ∧ ¬ "//".toList <+: '/' :: '*' :: r := by
    intro r
    refine ⟨?_, ?_⟩
    · rintro (⟨z, hz⟩ | ⟨z, hz⟩) <;> (injection hz with _ hz; injection hz with hz _; exact absurd hz (by decide))
    · rintro ⟨z, hz⟩
      injection hz with _ hz; injection hz with hz _; exact absurd hz (by decide)
  have pre : ∀ (k : Char) (r : Str), ['/', '*', k] <+: '/' :: '*' :: r ↔ r.head? = some k := by
    intro k r
    constructor
    · rintro ⟨z, hz⟩
      injection hz with _ hz; injection hz with _ hz
      rw [← hz]; rfl
    · intro hr
      cases r with
      | nil => cases hr
      | cons a r => injection hr with hr; subst hr; exact ⟨r, rfl⟩
  have ct : ∀ r, commentTypes c.language ('/' :: '*' :: r) =
      if c.language = 4 ∧ r.head? = some '*' then (chars! "JAVADOC_COMMENT_START", chars! "JAVADOC_COMMENT_END")
      else if c.language ≠ 4 ∧ (r.head? = some '*' ∨ r.head? = some '!') then (chars! "DOXYGEN_COMMENT_START", chars! "DOXYGEN_COMMENT_END")
      else (chars! "BLOCK_COMMENT_START", chars! "BLOCK_COMMENT_END") := by
    intro r
    unfold commentTypes
    rw [if_neg (nl r).1, if_neg (nl r).2]
    have p1 : "/**".toList <+: '/' :: '*' :: r ↔ r.head? = some '*' := pre '*' r
    have p2 : "/*!".toList <+: '/' :: '*' :: r ↔ r.head? = some '!' := pre '!' r
    simp only [p1, p2]
  cases hbody : body with
  | nil =>
    have hs : commentStart c.commentLang (['*', '*', '/'] ++ rest) = (['*', '*', '/'], .whole, rest) := by
      rw [hcl]
      split <;> rfl
    have hm : mainTok c st '/' (['*', '*', '/'] ++ rest) = some ⟨['/', '*', '*', '/'], c.testLiterals ['/', '*', '*', '/'] (chars! "WHOLE_COMMENT"), none⟩ := by
      rw [mainTok_slash]
      unfold lexSlash
      simp only [hs]
    exact ⟨_, takes_one hm rfl rfl, .whole (mkTok st ⟨['/', '*', '*', '/'], _, none⟩) rfl (literalType c _ _)⟩
  | cons k b =>
    rw [← hbody]
    by_cases hk : k = '*'
    · subst hk
      have hb' : ∀ z, (b ++ ['*', '/']) ++ rest ≠ '/' :: z := by
        intro z hz
        have := h.first [] z (by rw [hbody]; simp only [List.cons_append]; rw [hz]; rfl)
        rw [hbody] at this
        simp at this
      have hs : commentStart c.commentLang ('*' :: '*' :: ((b ++ ['*', '/']) ++ rest)) =
          (['*', '*'], .opened (if c.language = 4 then .javadoc else .doxygen), (b ++ ['*', '/']) ++ rest) := by
        rw [hcl]
        generalize (b ++ ['*', '/']) ++ rest = z at hb'
        cases z with
        | nil => split <;> rfl
        | cons a z =>
          have ha : a ≠ '/' := by rintro rfl; exact hb' z rfl
          split <;> (rw [commentStart.eq_def]; simp [ha])
      by_cases h4 : c.language = 4
      · rw [if_pos h4] at hs
        exact types .javadoc ['*'] b hbody rfl (by decide) hs (by rw [ct, if_pos ⟨h4, by rw [hbody]; rfl⟩]; rfl)
      · rw [if_neg h4] at hs
        exact types .doxygen ['*'] b hbody rfl (by decide) hs (by
          rw [ct, if_neg (fun h => h4 h.1), if_pos ⟨h4, .inl (by rw [hbody]; rfl)⟩]; rfl)
    · by_cases hk2 : k = '!' ∧ c.language ≠ 4
      · obtain ⟨rfl, h4⟩ := hk2
        have hb' : ∀ z, (b ++ ['*', '/']) ++ rest ≠ '/' :: z := by
          intro z hz
          refine hb h4 ?_
          rw [hbody]
          cases b with
          | nil => simp at hz
          | cons a b => simp at hz; rw [hz.1]; exact ⟨b ++ ['*', '/'], rfl⟩
        have hs : commentStart c.commentLang ('*' :: '!' :: ((b ++ ['*', '/']) ++ rest)) =
            (['*', '!'], .opened .doxygen, (b ++ ['*', '/']) ++ rest) := by
          rw [hcl, if_neg h4]
          generalize (b ++ ['*', '/']) ++ rest = z at hb'
          cases z with
          | nil => rfl
          | cons a z =>
            have ha : a ≠ '/' := by rintro rfl; exact hb' z rfl
            rw [commentStart.eq_def]; simp [ha]
        exact types .doxygen ['!'] b hbody rfl (by decide) hs (by
          rw [ct, if_neg (fun h => h4 h.1), if_pos ⟨h4, .inr (by rw [hbody]; rfl)⟩]; rfl)
      · have hs : commentStart c.commentLang (['*'] ++ ((body ++ ['*', '/']) ++ rest)) = (['*'], .opened .block, (body ++ ['*', '/']) ++ rest) := by
          rw [hbody, hcl]
          by_cases h4 : c.language = 4
          · rw [if_pos h4, commentStart.eq_def]
            simp [hk]
          · rw [if_neg h4, commentStart.eq_def]
            have : k ≠ '!' := fun e => hk2 ⟨e, h4⟩
            simp [hk, this]
        refine types .block [] body rfl rfl (by decide) hs ?_
        have hd : (body ++ ['*', '/']).head? = some k := by rw [hbody]; rfl
        rw [ct, hd, if_neg, if_neg]
        · rfl
        · rintro ⟨h4, h | h⟩
          · injection h with h; exact hk h
          · injection h with h; exact hk2 ⟨h, h4⟩
        · rintro ⟨_, h⟩
          injection h with h; exact hk h

end Srcml
