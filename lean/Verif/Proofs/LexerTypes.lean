import Verif.Proofs.Lexer
import Verif.Spec.Lexer
/-
The types of the tokens of the lexer, and its comments.
-/
namespace Srcml

open Spec

set_option linter.unusedSimpArgs false

/-! ### Words -/

/-- The types that `testLiterals` can give. -/
def literalTypes : List TokType :=
  [chars! "MACRO_NAME", chars! "MACRO_TYPE_NAME", chars! "MACRO_CASE", chars! "MACRO_LABEL", chars! "MACRO_SPECIFIER"] ++
    keywordMap.map (·.token)

theorem macroToken_types {t : Str} {k : TokType} (h : macroToken t = some k) :
    k ∈ [chars! "MACRO_NAME", chars! "MACRO_TYPE_NAME", chars! "MACRO_CASE", chars! "MACRO_LABEL", chars! "MACRO_SPECIFIER"] := by
  unfold macroToken at h
  repeat' split at h
  all_goals first
    | cases h; simp
    | cases h

theorem userLiterals_types (ms : List Str) : ∀ p ∈ userLiterals ms, p.2 ∈ literalTypes := by
  fun_induction userLiterals ms with
  | case1 m t rest ih =>
    intro p hp
    rcases List.mem_append.1 hp with h | h
    · cases hk : macroToken t with
      | none => rw [hk] at h; simp at h
      | some k =>
        rw [hk] at h
        simp at h
        subst h
        exact List.mem_append_left _ (macroToken_types hk)
    · exact ih p h
  | case2 => simp

theorem assignments_types (c : LexConf) : ∀ p ∈ c.assignments, p.2 ∈ literalTypes := by
  intro p hp
  rcases List.mem_append.1 hp with h | h
  · exact userLiterals_types _ p h
  · obtain ⟨k, hk, rfl⟩ := List.mem_map.1 h
    exact List.mem_append_right _ (List.mem_map_of_mem (List.mem_filter.1 hk).1)

theorem testLiterals_mem (c : LexConf) (x : Str) (d : TokType) : c.testLiterals x d = d ∨ c.testLiterals x d ∈ literalTypes := by
  unfold LexConf.testLiterals
  cases h : c.assignments.reverse.find? (fun p => p.1 = x) with
  | none => exact .inl rfl
  | some p =>
    right
    exact assignments_types c p (List.mem_reverse.1 (List.mem_of_find?_eq_some h))

theorem testLiterals_none (c : LexConf) (x : Str) (d : TokType) (h : ∀ p ∈ c.assignments, p.1 ≠ x) : c.testLiterals x d = d := by
  unfold LexConf.testLiterals
  rw [List.find?_eq_none.2 (fun p hp => by simpa using h p (List.mem_reverse.1 hp))]
  rfl

/-- The last row of the table for a word and a language. -/
def lastRow (language : Nat) (word : Str) : Option Keyword :=
  (keywordMap.filter (fun k => decide (k.language &&& language > 0))).reverse.find? (fun k => k.text = word)

theorem find?_map' {α β : Type} (f : α → β) (p : β → Bool) (l : List α) : (l.map f).find? p = (l.find? (fun a => p (f a))).map f := by
  induction l with
  | nil => rfl
  | cons a l ih =>
    simp only [List.map_cons, List.find?_cons]
    split <;> rename_i h
    · rfl
    · exact ih

/-- The type of a word: of the last row for it, or else of the macro registered last, or else the one given. -/
theorem testLiterals_eq (c : LexConf) (x : Str) (d : TokType) :
    c.testLiterals x d = match lastRow c.language x with
      | some k => k.token
      | none => (((userLiterals c.userMacros).reverse.find? (fun p => p.1 = x)).map (·.2)).getD d := by
  unfold LexConf.testLiterals LexConf.assignments lastRow
  rw [List.reverse_append, List.find?_append, ← List.map_reverse, find?_map']
  show ((Option.or (Option.map _ ((keywordMap.filter (fun k => c.inLanguage k.language)).reverse.find? _)) _).map _).getD d = _
  have : (fun k : Keyword => c.inLanguage k.language) = (fun k => decide (k.language &&& c.language > 0)) := rfl
  rw [this]
  cases (keywordMap.filter (fun k => decide (k.language &&& c.language > 0))).reverse.find? (fun k => decide (k.text = x)) with
  | some k => rfl
  | none => rfl

theorem lastRow_some {l : Nat} {w : Str} {k : Keyword} (h : lastRow l w = some k) : KeywordOf l w k.token := by
  have h1 := List.mem_of_find?_eq_some h
  have h2 := List.find?_some h
  have h3 := List.mem_filter.1 (List.mem_reverse.1 h1)
  exact ⟨k, h3.1, by simpa using h2, by simpa using h3.2, rfl⟩

theorem lastRow_none {l : Nat} {w : Str} : lastRow l w = none ↔ ∀ t, ¬ KeywordOf l w t := by
  constructor
  · intro h t ⟨k, h1, h2, h3, _⟩
    have := List.find?_eq_none.1 h k (List.mem_reverse.2 (List.mem_filter.2 ⟨h1, by simpa using h3⟩))
    simp at this
    exact this h2
  · intro h
    cases h1 : lastRow l w with
    | none => rfl
    | some k => exact absurd (lastRow_some h1) (h _)

/-! ### The lexer for texts -/

/-- The mode of a lexer for texts changes only from raw strings to strings. -/
def TextLexer.Same (l l' : TextLexer) : Prop := l'.mode = l.mode ∨ (l.mode = .rawString ∧ l'.mode = .string)

theorem TextLexer.Same.refl (l : TextLexer) : l.Same l := .inl rfl

theorem TextLexer.Same.trans {a b d : TextLexer} (h1 : a.Same b) (h2 : b.Same d) : a.Same d := by
  unfold TextLexer.Same at *
  rcases h1 with h1 | ⟨h1, h1'⟩ <;> rcases h2 with h2 | ⟨h2, h2'⟩
  · exact .inl (h2.trans h1)
  · exact .inr ⟨h1 ▸ h2, h2'⟩
  · exact .inr ⟨h1, h2.trans h1'⟩
  · rw [h1'] at h2; cases h2

theorem alt_same (l : TextLexer) (prev c : Char) (rest : Str) : l.Same (l.alt prev c rest).2.2.2.1 := by
  unfold TextLexer.alt
  split
  · exact .refl l
  split
  · exact .refl l
  split
  · exact .refl l
  split
  · exact .refl l
  split
  · rename_i h
    dsimp only
    split
    · exact .inr ⟨h.2, rfl⟩
    · exact .inl rfl
  split
  · exact .refl l
  split <;> exact .refl l

theorem alt_ended {l : TextLexer} {prev c : Char} {rest : Str} {m : TextMode} (h : (l.alt prev c rest).2.2.1 = .ended m) :
    m = l.mode := by
  unfold TextLexer.alt at h
  repeat' split at h
  all_goals first
    | cases h; rfl
    | (dsimp only at h; split at h <;> cases h; rfl)
    | cases h

theorem after_ended {l : TextLexer} {rest : Str} {t : TextType} {m : TextMode} (h : l.after rest t = .ended m) :
    t = .ended m ∨ m = l.mode := by
  unfold TextLexer.after at h
  split at h
  · cases h; exact .inr rfl
  · exact .inl h

theorem alt_control_text {l : TextLexer} {p c : Char} {rest : Str} (h : (l.alt p c rest).2.2.1 = .control) :
    (l.alt p c rest).1 = [] := by
  have := alt_is_control h
  rw [alt_control l this]

/-- What one token of the lexer for texts is. -/
theorem loop_types (l : TextLexer) (prev : Char) (first : Bool) (s : Str) :
    l.Same (l.loop prev first s).2.2.1 ∧
    (∀ m, (l.loop prev first s).2.1 = .ended m → ∃ l', l.Same l' ∧ m = l'.mode) ∧
    ((l.loop prev first s).2.1 = .control → ∃ ch, controlChar ch = true ∧ (first = true → (l.loop prev first s).1 = [ch]) ∧ first = true) := by
  fun_induction TextLexer.loop l prev first s with
  | case1 l => exact ⟨.refl l, fun m h => (by cases h), fun h => (by cases h)⟩
  | case2 l => exact ⟨.refl l, fun m h => (by cases h), fun h => (by cases h)⟩
  | case3 l prev first c rest h r t ht x ih =>
    obtain ⟨i1, i2, i3⟩ := ih
    have hs : l.Same r.2.2.2.1 := alt_same l prev c rest
    refine ⟨hs.trans i1, fun m hm => ?_, fun hc => ?_⟩
    · obtain ⟨l', h1, h2⟩ := i2 m hm
      exact ⟨l', hs.trans h1, h2⟩
    · obtain ⟨ch, _, _, hf⟩ := i3 hc
      cases hf
  | case4 l prev first c rest h r t ht =>
    have hs : l.Same r.2.2.2.1 := alt_same l prev c rest
    refine ⟨hs, fun m hm => ?_, fun hc => ?_⟩
    · rcases after_ended (show r.2.2.2.1.after r.2.1 r.2.2.1 = .ended m from hm) with h1 | h1
      · exact ⟨l, .refl l, alt_ended h1⟩
      · exact ⟨_, hs, h1⟩
    · have hc : r.2.2.2.1.after r.2.1 r.2.2.1 = .control := hc
      rcases after_cases r.2.2.2.1 r.2.1 r.2.2.1 with h1 | h1
      · rw [h1] at hc
        have h2 : controlChar c = true := alt_is_control hc
        refine ⟨c, h2, fun _ => ?_, ?_⟩
        · have : r.1 = [] := alt_control_text hc
          show c :: r.1 = [c]
          rw [this]
        · rw [h2] at h; simpa using h
      · rw [h1] at hc; cases hc

/-- The tokens of the lexer for texts: text and control characters, and at most one end, which is the last. -/
theorem tokens_types (l : TextLexer) (s : Str) :
    ∃ init : List (Str × TextType), (∀ x ∈ init, x.2 = .text ∨ (x.2 = .control ∧ ∃ ch, controlChar ch = true ∧ x.1 = [ch])) ∧
      ((l.tokens s = (init, [])) ∨
        ∃ x m rest l', l.tokens s = (init ++ [(x, .ended m)], rest) ∧ l.Same l' ∧ m = l'.mode) := by
  fun_induction TextLexer.tokens l s with
  | case1 => exact ⟨[], by simp, .inl rfl⟩
  | case2 l c rest r m hm =>
    obtain ⟨l', h1, h2⟩ := (loop_types l (Char.ofNat 0) true (c :: rest)).2.1 m hm
    exact ⟨[], by simp, .inr ⟨r.1, m, r.2.2.2, l', rfl, h1, h2⟩⟩
  | case3 l c rest r t h ih =>
    obtain ⟨init, h1, h2⟩ := ih
    have hs : l.Same r.2.2.1 := (loop_types l (Char.ofNat 0) true (c :: rest)).1
    refine ⟨(r.1, r.2.1) :: init, ?_, ?_⟩
    · intro x hx
      rcases List.mem_cons.1 hx with rfl | hx
      · cases hr : r.2.1 with
        | text => exact .inl rfl
        | control =>
          obtain ⟨ch, g1, g2, _⟩ := (loop_types l (Char.ofNat 0) true (c :: rest)).2.2 hr
          exact .inr ⟨rfl, ch, g1, g2 rfl⟩
        | ended m => exact absurd hr (h m)
      · exact h1 x hx
    · rcases h2 with h2 | ⟨x, m, rest', l', h2, h3, h4⟩
      · left
        show ((r.1, r.2.1) :: t.1, t.2) = _
        rw [show t = (init, []) from h2]
      · refine .inr ⟨x, m, rest', l', ?_, hs.trans h3, h4⟩
        show ((r.1, r.2.1) :: t.1, t.2) = _
        rw [show t = _ from h2]; rfl

/-! ### The tokens of the main lexer -/

/-- The types of tokens of the main lexer that neither start a comment nor are control characters. -/
def plainTypes : List TokType :=
  [chars! "STRING_START", chars! "CHAR_START", chars! "COMPLEX_NUMBER", chars! "CONSTANTS", chars! "NAME", chars! "WHOLE_COMMENT", chars! "WS",
   chars! "EOL", chars! "OPERATORS", chars! "EOL_BACKSLASH", chars! "PREPROC"] ++ literalTypes

theorem plainTypes_facts : ∀ x ∈ plainTypes, elementOf x = none ∧ x ≠ chars! "SUNIT" ∧ x ≠ chars! "EOF" ∧ x ≠ chars! "CONTROL_CHAR" ∧
    commentStep [] x = some [] := by
  decide +kernel

theorem testLiterals_plain (c : LexConf) (x : Str) {d : TokType} (h : d ∈ plainTypes) : c.testLiterals x d ∈ plainTypes := by
  rcases testLiterals_mem c x d with e | e
  · rw [e]; exact h
  · exact List.mem_append_right _ e

theorem lexName_type (c : LexConf) (st : LexState) (s : Str) : (lexName c st s).type ∈ plainTypes ∧
    ∀ l, (lexName c st s).enters = some l → l.mode.isLiteral = true := by
  unfold lexName
  dsimp only
  split
  · split
    · exact ⟨testLiterals_plain _ _ (by simp [plainTypes]), by rintro l ⟨⟩; rfl⟩
    split
    · exact ⟨testLiterals_plain _ _ (by simp [plainTypes]), by rintro l ⟨⟩; rfl⟩
    · exact ⟨testLiterals_plain _ _ (by simp [plainTypes]), by rintro l ⟨⟩⟩
  · exact ⟨testLiterals_plain _ _ (by simp [plainTypes]), by rintro l ⟨⟩⟩

theorem lexAt_type (c : LexConf) (st : LexState) (s : Str) : (lexAt c st s).type ∈ plainTypes ∧
    ∀ l, (lexAt c st s).enters = some l → l.mode.isLiteral = true := by
  unfold lexAt
  dsimp only
  repeat' split
  all_goals refine ⟨testLiterals_plain _ _ (by simp [plainTypes]), ?_⟩
  all_goals first
    | (rintro l ⟨⟩; done)
    | (rintro l ⟨⟩; rfl)

theorem lexDot_type (c : LexConf) (s : Str) : (lexDot c s).type ∈ plainTypes ∧ (lexDot c s).enters = none := by
  unfold lexDot
  repeat' split
  all_goals exact ⟨testLiterals_plain _ _ (by simp [plainTypes]), rfl⟩

theorem commentStart_operator {lang : CommentLang} {s : Str} (h : (commentStart lang s).2.1 = .operator) :
    (commentStart lang s).1 = [] ∨ (commentStart lang s).1 = ['='] := by
  unfold commentStart at h ⊢
  split at h
  · split at h <;> cases h
  · cases h
  · split at h <;> cases h
  · exact .inr rfl
  · exact .inl rfl

theorem commentStart_opened {lang : CommentLang} {s : Str} {m : TextMode} (h : (commentStart lang s).2.1 = .opened m) :
    m.isLiteral = false ∧ '/' :: (commentStart lang s).1 ∈ commentStarts := by
  unfold commentStart at h ⊢
  split at h
  · split at h
    · rename_i hx
      cases h
      refine ⟨rfl, ?_⟩
      rw [if_pos hx]
      rcases hx with rfl | rfl <;> (dsimp only; decide)
    · rename_i hx
      cases h; rw [if_neg hx]; exact ⟨rfl, by dsimp only; decide⟩
  · cases h; exact ⟨rfl, by dsimp only; decide⟩
  · split at h <;> cases h <;> exact ⟨rfl, by dsimp only; decide⟩
  · cases h
  · cases h

theorem keyword_not_comment : ∀ k ∈ keywordMap, k.text ∉ commentStarts := by decide +kernel

theorem slash_rows : (∀ k ∈ keywordMap, k.text = ['/'] → k.token = chars! "OPERATORS") ∧
    (∀ k ∈ keywordMap, k.text = ['/', '='] → k.token = chars! "ASSIGNMENT") ∧
    (∃ k ∈ keywordMap, k.text = ['/'] ∧ k.language = LANGUAGE_ALL) ∧ (∃ k ∈ keywordMap, k.text = ['/', '='] ∧ k.language = LANGUAGE_ALL) := by
  decide +kernel

theorem testLiterals_slash (c : LexConf) (hl : c.inLanguage LANGUAGE_ALL = true) {x : Str} (hx : x = ['/'] ∨ x = ['/', '=']) (d : TokType) :
    c.testLiterals x d ∈ plainTypes := by
  rw [testLiterals_eq]
  cases h : lastRow c.language x with
  | none =>
    exfalso
    have h1 := lastRow_none.1 h
    obtain ⟨_, _, ⟨k, k1, k2, k3⟩, ⟨k', k1', k2', k3'⟩⟩ := slash_rows
    unfold LexConf.inLanguage at hl
    have hl := of_decide_eq_true hl
    rcases hx with rfl | rfl
    · exact h1 k.token ⟨k, k1, k2, by rw [k3]; exact hl, rfl⟩
    · exact h1 k'.token ⟨k', k1', k2', by rw [k3']; exact hl, rfl⟩
  | some k =>
    obtain ⟨k', h1, _, _, h4⟩ := lastRow_some h
    dsimp only
    rw [← h4]
    exact List.mem_append_right _ (List.mem_append_right _ (List.mem_map_of_mem h1))

/-- A token that the lexer for a comment follows. -/
structure CommentTok (t : MainTok) (m : TextMode) : Prop where
  type : t.type = m.startType
  comment : m.isLiteral = false

theorem lexSlash_type (c : LexConf) (hl : c.inLanguage LANGUAGE_ALL = true) (hm : NoCommentMacro c) (st : LexState) (s : Str) :
    ((lexSlash c st s).enters = none ∧ (lexSlash c st s).type ∈ plainTypes) ∨
    ∃ l, (lexSlash c st s).enters = some l ∧ CommentTok (lexSlash c st s) l.mode := by
  unfold lexSlash
  dsimp only
  split
  · rename_i m h
    right
    refine ⟨_, rfl, ?_, (commentStart_opened h).1⟩
    refine testLiterals_none _ _ _ (fun p hp e => ?_)
    have hs := (commentStart_opened h).2
    rw [← e] at hs
    rcases List.mem_append.1 hp with hp | hp
    · exact hm p hp hs
    · obtain ⟨k, hk, rfl⟩ := List.mem_map.1 hp
      exact keyword_not_comment k (List.mem_filter.1 hk).1 hs
  · exact .inl ⟨rfl, testLiterals_plain _ _ (by simp [plainTypes])⟩
  · rename_i h
    refine .inl ⟨rfl, testLiterals_slash c hl ?_ _⟩
    rcases commentStart_operator h with e | e
    · rw [e]; exact .inl rfl
    · rw [e]; exact .inr rfl

/-- A control character of the main lexer. -/
structure ControlTok (t : MainTok) : Prop where
  type : t.type = chars! "CONTROL_CHAR"
  enters : t.enters = none
  char : ∃ ch : Char, t.text = [ch] ∧ ch.toNat < 32

/-- The tokens of the main lexer. -/
theorem mainTok_type {c : LexConf} (hl : c.inLanguage LANGUAGE_ALL = true) (hm : NoCommentMacro c) {st : LexState} {ch : Char} {s : Str} {t : MainTok}
    (h : mainTok c st ch s = some t) :
    (t.type ∈ plainTypes ∧ ∀ l, t.enters = some l → l.mode.isLiteral = true) ∨ ControlTok t ∨ ∃ l, t.enters = some l ∧ CommentTok t l.mode := by
  unfold mainTok at h
  rcases lex_ite_some h with ⟨hp, rfl⟩ | ⟨_, h⟩
  · exact .inl ⟨by simp [plainTypes], by rintro l ⟨⟩; rfl⟩
  rcases lex_ite_some h with ⟨hp, rfl⟩ | ⟨_, h⟩
  · exact .inl ⟨by simp [plainTypes], by rintro l ⟨⟩; rfl⟩
  rcases lex_ite_some h with ⟨hp, rfl⟩ | ⟨_, h⟩
  · refine .inl ⟨?_, by rintro l ⟨⟩⟩
    dsimp only
    split <;> simp [plainTypes]
  rcases lex_ite_some h with ⟨hp, rfl⟩ | ⟨_, h⟩
  · exact .inl (lexName_type _ _ _)
  rcases lex_ite_some h with ⟨hp, rfl⟩ | ⟨_, h⟩
  · rcases lexSlash_type c hl hm st s with ⟨h1, h2⟩ | h1
    · exact .inl ⟨h2, by rw [h1]; rintro l ⟨⟩⟩
    · exact .inr (.inr h1)
  rcases lex_ite_some h with ⟨hp, rfl⟩ | ⟨_, h⟩
  · exact .inl ⟨by simp [plainTypes], by rintro l ⟨⟩⟩
  rcases lex_ite_some h with ⟨hp, rfl⟩ | ⟨_, h⟩
  · exact .inl ⟨by simp [plainTypes], by rintro l ⟨⟩⟩
  rcases lex_ite_some h with ⟨hp, rfl⟩ | ⟨_, h⟩
  · exact .inr (.inl ⟨rfl, rfl, ch, rfl, by omega⟩)
  rcases lex_ite_some h with ⟨hp, rfl⟩ | ⟨_, h⟩
  · exact .inl (lexAt_type _ _ _)
  rcases lex_ite_some h with ⟨hp, rfl⟩ | ⟨_, h⟩
  · exact .inl ⟨(lexDot_type _ _).1, by rw [(lexDot_type _ _).2]; rintro l ⟨⟩⟩
  rcases lex_ite_some h with ⟨hp, rfl⟩ | ⟨_, h⟩
  · refine .inl ⟨testLiterals_plain _ _ ?_, by rintro l ⟨⟩⟩
    split <;> simp [plainTypes]
  rcases lex_ite_some h with ⟨hp, rfl⟩ | ⟨_, h⟩
  · refine .inl ⟨testLiterals_plain _ _ ?_, by rintro l ⟨⟩⟩
    split <;> simp [plainTypes]
  · cases h

/-! ### Comments -/

theorem Spec.CommentRun.append {a b d : List TokType} {xs ys : List Tok} (h1 : CommentRun a xs b) (h2 : CommentRun b ys d) :
    CommentRun a (xs ++ ys) d := by
  induction h1 with
  | nil cs => exact h2
  | cons cs cs1 cs2 t ts g1 g2 _ ih => exact .cons cs cs1 d t _ g1 g2 (ih h2)

/-- The element of a comment. -/
def TextMode.element : TextMode → TokType
  | .block => chars! "SCOMMENT"
  | .javadoc => chars! "SJAVADOC_COMMENT"
  | .doxygen => chars! "SDOXYGEN_COMMENT"
  | .lineDoxygen => chars! "SLINE_DOXYGEN_COMMENT"
  | _ => chars! "SLINECOMMENT"

theorem startStep : ∀ m : TextMode, m.isLiteral = false → commentStep [] m.startType = some [m.element] := by
  intro m; cases m <;> decide

theorem endStep : ∀ m : TextMode, m.isLiteral = false → commentStep [m.element] m.endType = some [] ∧ m.endType ∈ whitespaceTokens := by
  intro m; cases m <;> decide

theorem literalStep : ∀ m : TextMode, m.isLiteral = true → commentStep [] m.endType = some [] := by
  intro m; cases m <;> decide

theorem textStep (cs : List TokType) {t : TextType} (h : t = .text ∨ t = .control) :
    commentStep cs t.tokType = some cs ∧ t.tokType ∈ whitespaceTokens := by
  have h1 : commentRole (chars! "COMMENT_TEXT") = none := by decide
  have h2 : commentRole (chars! "CONTROL_CHAR") = none := by decide
  rcases h with rfl | rfl
  · exact ⟨by unfold commentStep TextType.tokType; dsimp only; rw [h1], by decide⟩
  · exact ⟨by unfold commentStep TextType.tokType; dsimp only; rw [h2], by decide⟩

theorem textToks_append (c : LexConf) (p : Nat × Nat) (a b : List (Str × TextType)) :
    textToks c p (a ++ b) = textToks c p a ++ textToks c (c.moves p (a.flatMap (·.1))) b := by
  induction a generalizing p with
  | nil => rfl
  | cons t a ih =>
    simp only [List.cons_append, textToks, ih, List.flatMap_cons]
    unfold LexConf.moves
    rw [List.foldl_append]

theorem textToks_run (c : LexConf) (cs : List TokType) (p : Nat × Nat) (init : List (Str × TextType))
    (h : ∀ x ∈ init, x.2 = .text ∨ x.2 = .control) : CommentRun cs (textToks c p init) cs := by
  induction init generalizing p with
  | nil => exact .nil cs
  | cons t init ih =>
    obtain ⟨h1, h2⟩ := textStep cs (h t (by simp))
    exact .cons cs cs cs _ _ (fun hn => absurd h2 hn) h1 (ih _ (fun x hx => h x (List.mem_cons_of_mem _ hx)))

theorem same_literal {l l' : TextLexer} (h : l.Same l') : l'.mode.isLiteral = l.mode.isLiteral := by
  rcases h with h | ⟨h1, h2⟩
  · rw [h]
  · rw [h1, h2]; rfl

theorem same_comment {l l' : TextLexer} (h : l.Same l') (hc : l.mode.isLiteral = false) : l'.mode = l.mode := by
  rcases h with h | ⟨h1, h2⟩
  · exact h
  · rw [h1] at hc; cases hc

/-- The comments of the tokens of the lexer: at most one is open at the end, and then the whole source is read. -/
theorem lexWith_comments {c : LexConf} (hl : c.inLanguage LANGUAGE_ALL = true) (hm : NoCommentMacro c) (n : Nat) (st : LexState) (s : Str) :
    CommentRun [] (lexWith c n st s).toks [] ∨ ∃ m : TextMode, CommentRun [] (lexWith c n st s).toks [m.element] ∧ m.isLiteral = false := by
  fun_induction lexWith c n st s with
  | case1 => exact .inl (.nil [])
  | case2 => exact .inl (.nil [])
  | case3 => exact .inl (.nil [])
  | case4 fuel st ch s t ht st' rest tok hen r ih =>
    have step : commentStep [] t.type = some [] := by
      rcases mainTok_type hl hm ht with ⟨h1, _⟩ | h1 | ⟨l, h1, _⟩
      · exact (plainTypes_facts _ h1).2.2.2.2
      · rw [h1.type]; decide
      · rw [hen] at h1; cases h1
    rcases ih with ih | ⟨m, ih, hc⟩
    · exact .inl (.cons [] [] [] tok _ (fun _ => rfl) step ih)
    · exact .inr ⟨m, .cons [] [] _ tok _ (fun _ => rfl) step ih, hc⟩
  | case5 fuel st ch s t ht st' rest tok l hen x p r ih =>
    obtain ⟨init, h1, h2⟩ := tokens_types l rest
    have h1' : ∀ x ∈ init, x.2 = .text ∨ x.2 = .control := fun x hx => (h1 x hx).imp id And.left
    rcases mainTok_type hl hm ht with ⟨g1, g2⟩ | g1 | ⟨l1, g1, g2⟩
    · -- a literal
      have hlit := g2 l hen
      have step : commentStep [] t.type = some [] := (plainTypes_facts _ g1).2.2.2.2
      have hx : CommentRun [] (textToks c (st'.line, st'.column) x.1) [] := by
        rcases h2 with h2 | ⟨y, m, rest', l', h2, h3, h4⟩
        · rw [show x = _ from h2]; exact textToks_run _ _ _ _ h1'
        · rw [show x = _ from h2, textToks_append]
          refine (textToks_run _ _ _ _ h1').append (.cons [] [] [] _ _ (fun _ => rfl) ?_ (.nil []))
          exact literalStep m (by rw [h4, same_literal h3]; exact hlit)
      rcases ih with ih | ⟨m, ih, hc⟩
      · exact .inl (.cons [] [] [] tok _ (fun _ => rfl) step (hx.append ih))
      · exact .inr ⟨m, .cons [] [] _ tok _ (fun _ => rfl) step (hx.append ih), hc⟩
    · rw [g1.enters] at hen; cases hen
    · -- a comment
      rw [hen] at g1; cases g1
      have step : commentStep [] tok.type = some [l.mode.element] := by
        show commentStep [] t.type = _
        rw [g2.type]; exact startStep _ g2.comment
      rcases h2 with h2 | ⟨y, m, rest', l', h2, h3, h4⟩
      · have hx : CommentRun [l.mode.element] (textToks c (st'.line, st'.column) x.1) [l.mode.element] := by
          rw [show x = _ from h2]; exact textToks_run _ _ _ _ h1'
        have hr : r.toks = [] := by
          show (lexWith c fuel _ x.2).toks = []
          rw [show x = _ from h2]
          cases fuel <;> rfl
        refine .inr ⟨l.mode, .cons [] _ _ tok _ (fun _ => rfl) step ?_, g2.comment⟩
        rw [hr, List.append_nil]; exact hx
      · have hmm : m = l.mode := by rw [h4, same_comment h3 g2.comment]
        subst hmm
        have hx : CommentRun [l.mode.element] (textToks c (st'.line, st'.column) x.1) [] := by
          rw [show x = _ from h2, textToks_append]
          refine (textToks_run _ _ _ _ h1').append (.cons _ [] [] _ _ (fun hn => absurd (endStep _ g2.comment).2 hn) (endStep _ g2.comment).1 (.nil []))
        rcases ih with ih | ⟨m, ih, hc⟩
        · exact .inl (.cons [] _ [] tok _ (fun _ => rfl) step (hx.append ih))
        · exact .inr ⟨m, .cons [] _ _ tok _ (fun _ => rfl) step (hx.append ih), hc⟩

/-! ### The types -/

theorem endType_facts : ∀ m : TextMode, elementOf m.endType = none ∧ m.endType ≠ chars! "SUNIT" ∧ m.endType ≠ chars! "EOF" ∧
    m.endType ≠ chars! "CONTROL_CHAR" := by
  intro m; cases m <;> decide +kernel

theorem startType_facts : ∀ m : TextMode, elementOf m.startType = none ∧ m.startType ≠ chars! "SUNIT" ∧ m.startType ≠ chars! "EOF" ∧
    m.startType ≠ chars! "CONTROL_CHAR" := by
  intro m; cases m <;> decide +kernel

/-- What is true of every token of the lexer. -/
def LexedTok (t : Tok) : Prop :=
  t.category = .text ∧ ((t.type = chars! "CONTROL_CHAR" ∧ ∃ ch : Char, t.text = [ch] ∧ ch.toNat < 32) ∨
    (elementOf t.type = none ∧ t.type ≠ chars! "SUNIT" ∧ t.type ≠ chars! "EOF" ∧ t.type ≠ chars! "CONTROL_CHAR"))

theorem controlChar_lt {ch : Char} (h : controlChar ch = true) : ch.toNat < 32 := by
  unfold controlChar at h; simp at h; omega

theorem textTok_lexed {x : Str × TextType} (h : x.2 = .text ∨ (x.2 = .control ∧ ∃ ch, controlChar ch = true ∧ x.1 = [ch])) (p : Nat × Nat) :
    LexedTok { type := x.2.tokType, text := x.1, line := p.1, column := p.2 } := by
  rcases h with h | ⟨h, ch, h1, h2⟩
  · rw [h]; exact ⟨rfl, .inr (by dsimp only; decide +kernel)⟩
  · rw [h]; exact ⟨rfl, .inl ⟨rfl, ch, h2, controlChar_lt h1⟩⟩

theorem textToks_mem {c : LexConf} {p : Nat × Nat} {ts : List (Str × TextType)} {t : Tok} (h : t ∈ textToks c p ts) :
    ∃ x ∈ ts, ∃ q : Nat × Nat, t = { type := x.2.tokType, text := x.1, line := q.1, column := q.2 } := by
  induction ts generalizing p with
  | nil => cases h
  | cons x ts ih =>
    rcases List.mem_cons.1 h with h | h
    · exact ⟨x, by simp, p, h⟩
    · obtain ⟨y, h1, h2⟩ := ih h
      exact ⟨y, List.mem_cons_of_mem _ h1, h2⟩

theorem tokens_lexed {c : LexConf} {p : Nat × Nat} {l : TextLexer} {s : Str} {t : Tok} (h : t ∈ textToks c p (l.tokens s).1) : LexedTok t := by
  obtain ⟨x, h1, q, rfl⟩ := textToks_mem h
  obtain ⟨init, g1, g2⟩ := tokens_types l s
  rcases g2 with g2 | ⟨y, m, rest', l', g2, _, _⟩
  · rw [g2] at h1; exact textTok_lexed (g1 x h1) q
  · rw [g2] at h1
    rcases List.mem_append.1 h1 with h1 | h1
    · exact textTok_lexed (g1 x h1) q
    · simp at h1; subst h1; exact ⟨rfl, .inr (endType_facts m)⟩

theorem lexWith_lexed {c : LexConf} (hl : c.inLanguage LANGUAGE_ALL = true) (hm : NoCommentMacro c) (n : Nat) (st : LexState) (s : Str) :
    ∀ t ∈ (lexWith c n st s).toks, LexedTok t := by
  have main : ∀ {st : LexState} {ch : Char} {s : Str} {t : MainTok}, mainTok c st ch s = some t →
      LexedTok { type := t.type, text := t.text, line := st.line, column := st.column } := by
    intro st ch s t ht
    rcases mainTok_type hl hm ht with ⟨h1, _⟩ | h1 | ⟨l, _, h1⟩
    · have := plainTypes_facts _ h1
      exact ⟨rfl, .inr ⟨this.1, this.2.1, this.2.2.1, this.2.2.2.1⟩⟩
    · exact ⟨rfl, .inl ⟨h1.type, h1.char⟩⟩
    · refine ⟨rfl, .inr ?_⟩
      show elementOf t.type = none ∧ _
      rw [h1.type]; exact startType_facts _
  fun_induction lexWith c n st s with
  | case1 => intro t h; cases h
  | case2 => intro t h; cases h
  | case3 => intro t h; cases h
  | case4 fuel st ch s t ht st' rest tok hen r ih =>
    intro t' h
    rcases List.mem_cons.1 h with rfl | h
    · exact main ht
    · exact ih t' h
  | case5 fuel st ch s t ht st' rest tok l hen x p r ih =>
    intro t' h
    rcases List.mem_cons.1 h with rfl | h
    · exact main ht
    · rcases List.mem_append.1 h with h | h
      · exact tokens_lexed h
      · exact ih t' h

theorem tokens_ne (l : TextLexer) (s : Str) : ∀ x ∈ (l.tokens s).1, x.1 ≠ [] := by
  fun_induction TextLexer.tokens l s with
  | case1 => intro x h; cases h
  | case2 l c rest r m hm =>
    intro x hx
    simp at hx
    subst hx
    exact token_ne l c rest
  | case3 l c rest r t h ih =>
    intro x hx
    rcases List.mem_cons.1 hx with rfl | hx
    · exact token_ne l c rest
    · exact ih x hx

end Srcml
