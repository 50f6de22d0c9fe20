import Verif.Model.Lexer
import Verif.Spec.Parser
import Verif.Proofs.CommentEnds
import Verif.Proofs.LiteralEnds
/-
Facts about the lexer: every token is a piece of the text, in order.
-/
namespace Srcml

set_option linter.unusedSimpArgs false

theorem prefix_seq {a b s : Str} (h1 : a <+: s) (h2 : b <+: s.drop a.length) : a ++ b <+: s := by
  obtain ⟨r, rfl⟩ := h1
  rw [List.drop_left] at h2
  obtain ⟨q, rfl⟩ := h2
  exact ⟨q, by simp⟩

theorem opt_prefix (s : Str) (p : Char → Bool) : opt s p <+: s := by
  unfold opt
  cases s with
  | nil => simp
  | cons c s =>
    simp only [List.take_succ_cons, List.take_zero, List.filter_cons]
    split
    · exact ⟨s, by simp⟩
    · exact List.nil_prefix

theorem nil_prefix' (s : Str) : ([] : Str) <+: s := List.nil_prefix

theorem prefix_ite {p : Prop} [Decidable p] {a b s : Str} (h1 : p → a <+: s) (h2 : ¬ p → b <+: s) : (if p then a else b) <+: s := by
  split
  · exact h1 ‹_›
  · exact h2 ‹_›

theorem constantText_prefix (s : Str) : (constantText s).1 <+: s := by
  unfold constantText
  dsimp only
  simp only [List.append_assoc]
  refine prefix_seq (List.takeWhile_prefix _) ?_
  refine prefix_seq (List.takeWhile_prefix _) ?_
  refine prefix_seq (opt_prefix _ _) ?_
  refine prefix_seq (prefix_ite (fun _ => List.nil_prefix) (fun _ => List.takeWhile_prefix _)) ?_
  refine prefix_seq (prefix_ite (fun _ => List.nil_prefix) (fun _ => List.takeWhile_prefix _)) ?_
  refine prefix_seq (List.takeWhile_prefix _) ?_
  exact prefix_ite (fun _ => List.nil_prefix) (fun _ => List.takeWhile_prefix _)

theorem constantText_ne {c : Char} (h : lexDigit c = true) (s : Str) : (constantText (c :: s)).1 ≠ [] := by
  unfold constantText
  dsimp only
  simp [List.takeWhile_cons, h]

theorem lexName_prefix (c : LexConf) (st : LexState) (s : Str) : (lexName c st s).text <+: s := by
  unfold lexName
  dsimp only
  have h0 : s.takeWhile nameChar <+: s := List.takeWhile_prefix _
  split
  · rename_i hq
    have h1 : ['"'] <+: s.drop (s.takeWhile nameChar).length := by
      cases h : s.drop (s.takeWhile nameChar).length with
      | nil => rw [h] at hq; simp at hq
      | cons x y => rw [h] at hq; simp at hq; subst hq; exact ⟨y, rfl⟩
    split
    · exact prefix_seq h0 h1
    split
    · refine prefix_seq h0 ?_
      rw [show ∀ a : Str, '"' :: a = ['"'] ++ a from fun _ => rfl]
      refine prefix_seq h1 ?_
      exact prefix_seq (List.takeWhile_prefix _) (opt_prefix _ _)
    · exact h0
  · exact h0

theorem lexName_ne (c : LexConf) (st : LexState) {ch : Char} (s : Str) (h : nameStart ch = true) : (lexName c st (ch :: s)).text ≠ [] := by
  unfold lexName
  dsimp only
  have h1 : (ch :: s).takeWhile nameChar = ch :: s.takeWhile nameChar := by
    simp [List.takeWhile_cons, nameChar, h]
  rw [h1]
  split
  · split
    · simp
    split <;> simp
  · simp

theorem commentStart_split (lang : CommentLang) (s : Str) : (commentStart lang s).1 ++ (commentStart lang s).2.2 = s := by
  unfold commentStart
  split
  · split <;> simp
  · rfl
  · split <;> simp
  · rfl
  · rfl

theorem lexSlash_text (c : LexConf) (st : LexState) (s : Str) : (lexSlash c st s).text = '/' :: (commentStart c.commentLang s).1 := by
  unfold lexSlash
  dsimp only
  split <;> rfl

theorem cons_prefix' {a s : Str} (ch : Char) (h : a <+: s) : ch :: a <+: ch :: s := by
  obtain ⟨r, rfl⟩ := h
  exact ⟨r, rfl⟩

theorem head_prefix {s : Str} {x : Char} (h : s.head? = some x) : s = x :: s.drop 1 := by
  cases s with
  | nil => simp at h
  | cons y s => simp at h; rw [h]; rfl

theorem operatorText_prefix (c : LexConf) (st : LexState) (ch : Char) (s : Str) : operatorText c st ch s <+: ch :: s := by
  unfold operatorText
  split
  · exact cons_prefix' _ (opt_prefix _ _)
  split
  · split
    · rename_i h
      rw [head_prefix h]
      exact cons_prefix' _ (cons_prefix' _ (opt_prefix _ _))
    · exact cons_prefix' _ (opt_prefix _ _)
  split
  · exact cons_prefix' _ (opt_prefix _ _)
  split
  · exact cons_prefix' _ (prefix_seq (opt_prefix _ _) (opt_prefix _ _))
  split
  · exact cons_prefix' _ (opt_prefix _ _)
  split
  · exact cons_prefix' _ (opt_prefix _ _)
  split
  · refine cons_prefix' _ (prefix_seq (prefix_ite (fun h => ?_) (fun _ => List.nil_prefix)) (opt_prefix _ _))
    rw [← h]; exact List.take_prefix _ _
  split
  · split
    · rename_i h
      rw [head_prefix h]
      exact cons_prefix' _ (cons_prefix' _ (opt_prefix _ _))
    · exact cons_prefix' _ (opt_prefix _ _)
  split
  · exact cons_prefix' _ (List.takeWhile_prefix _)
  · exact ⟨s, rfl⟩

theorem operatorText_ne (c : LexConf) (st : LexState) (ch : Char) (s : Str) : ∃ r, operatorText c st ch s = ch :: r := by
  unfold operatorText
  repeat' split
  all_goals exact ⟨_, rfl⟩

theorem lexAt_prefix (c : LexConf) (st : LexState) (s : Str) : (lexAt c st s).text <+: '@' :: s ∧ (lexAt c st s).text ≠ [] := by
  unfold lexAt
  dsimp only
  split
  · exact ⟨⟨[], rfl⟩, by simp⟩
  · rename_i x r
    split
    · exact ⟨⟨r, rfl⟩, by simp⟩
    split
    · exact ⟨cons_prefix' _ (List.takeWhile_prefix _), by simp⟩
    split
    · exact ⟨cons_prefix' _ (constantText_prefix _), by simp⟩
    split
    · exact ⟨⟨r, rfl⟩, by simp⟩
    split
    · exact ⟨⟨r, rfl⟩, by simp⟩
    · exact ⟨⟨x :: r, rfl⟩, by simp⟩

theorem lexDot_prefix (c : LexConf) (s : Str) : (lexDot c s).text <+: '.' :: s ∧ (lexDot c s).text ≠ [] := by
  unfold lexDot
  split
  · exact ⟨⟨[], rfl⟩, by simp⟩
  · rename_i x r
    split
    · exact ⟨⟨r, rfl⟩, by simp⟩
    split
    · rename_i h; subst h
      exact ⟨cons_prefix' _ (cons_prefix' _ (opt_prefix _ _)), by simp⟩
    split
    · exact ⟨cons_prefix' _ (constantText_prefix _), by simp⟩
    · exact ⟨⟨x :: r, rfl⟩, by simp⟩

theorem lex_ite_some {α : Type} {p : Prop} [Decidable p] {a t : α} {o : Option α} (h : (if p then some a else o) = some t) :
    (p ∧ a = t) ∨ (¬ p ∧ o = some t) := by
  by_cases hp : p
  · rw [if_pos hp] at h; cases h; exact .inl ⟨hp, rfl⟩
  · rw [if_neg hp] at h; exact .inr ⟨hp, h⟩

theorem lex_ite_none {α : Type} {p : Prop} [Decidable p] {a : α} {o : Option α} : (if p then some a else o) = none ↔ (¬ p ∧ o = none) := by
  by_cases hp : p
  · rw [if_pos hp]; simp [hp]
  · rw [if_neg hp]; simp [hp]

/-- A token is a piece of the text that is not empty. -/
theorem mainTok_prefix {c : LexConf} {st : LexState} {ch : Char} {s : Str} {t : MainTok} (h : mainTok c st ch s = some t) :
    t.text <+: ch :: s ∧ t.text ≠ [] := by
  unfold mainTok at h
  rcases lex_ite_some h with ⟨hp, rfl⟩ | ⟨_, h⟩
  · subst hp; exact ⟨⟨s, rfl⟩, by simp⟩
  rcases lex_ite_some h with ⟨hp, rfl⟩ | ⟨_, h⟩
  · subst hp; exact ⟨⟨s, rfl⟩, by simp⟩
  rcases lex_ite_some h with ⟨hp, rfl⟩ | ⟨_, h⟩
  · exact ⟨constantText_prefix _, constantText_ne hp _⟩
  rcases lex_ite_some h with ⟨hp, rfl⟩ | ⟨_, h⟩
  · exact ⟨lexName_prefix _ _ _, lexName_ne _ _ _ hp⟩
  rcases lex_ite_some h with ⟨hp, rfl⟩ | ⟨_, h⟩
  · subst hp
    rw [lexSlash_text]
    exact ⟨cons_prefix' _ ⟨_, commentStart_split _ _⟩, by simp⟩
  rcases lex_ite_some h with ⟨hp, rfl⟩ | ⟨_, h⟩
  · refine ⟨List.takeWhile_prefix _, ?_⟩
    have : (decide (ch = ' ') || decide (ch = '\t')) = true := by simpa using hp
    simp [List.takeWhile_cons, this]
  rcases lex_ite_some h with ⟨hp, rfl⟩ | ⟨_, h⟩
  · subst hp; exact ⟨⟨s, rfl⟩, by simp⟩
  rcases lex_ite_some h with ⟨hp, rfl⟩ | ⟨_, h⟩
  · exact ⟨⟨s, rfl⟩, by simp⟩
  rcases lex_ite_some h with ⟨hp, rfl⟩ | ⟨_, h⟩
  · subst hp; exact lexAt_prefix _ _ _
  rcases lex_ite_some h with ⟨hp, rfl⟩ | ⟨_, h⟩
  · subst hp; exact lexDot_prefix _ _
  rcases lex_ite_some h with ⟨hp, rfl⟩ | ⟨_, h⟩
  · subst hp
    exact ⟨cons_prefix' _ (List.takeWhile_prefix _), by simp [lexBackslash]⟩
  rcases lex_ite_some h with ⟨hp, rfl⟩ | ⟨_, h⟩
  · refine ⟨operatorText_prefix _ _ _ _, ?_⟩
    obtain ⟨r, hr⟩ := operatorText_ne c st ch s
    rw [hr]; simp
  · cases h

/-! ### The lexer for texts -/

theorem alt_split (l : TextLexer) (prev c : Char) (rest : Str) : (l.alt prev c rest).1 ++ (l.alt prev c rest).2.1 = rest := by
  unfold TextLexer.alt
  split
  · rfl
  split
  · rfl
  split
  · dsimp only
    split
    · exact (quotes_split rest).symm
    · rfl
  split
  · rfl
  split
  · exact takeDelimiter_prefix _ _
  split
  · rfl
  split <;> rfl

theorem loop_split (l : TextLexer) (prev : Char) (first : Bool) (s : Str) : (l.loop prev first s).1 ++ (l.loop prev first s).2.2.2 = s := by
  fun_induction TextLexer.loop l prev first s with
  | case1 => rfl
  | case2 => rfl
  | case3 l prev first c rest h r t ht x ih =>
    have h1 : r.1 ++ r.2.1 = rest := alt_split l prev c rest
    show c :: r.1 ++ x.1 ++ x.2.2.2 = _
    have ih : x.1 ++ x.2.2.2 = r.2.1 := ih
    rw [List.append_assoc, ih, List.cons_append, h1]
  | case4 l prev first c rest h r t ht =>
    have h1 : r.1 ++ r.2.1 = rest := alt_split l prev c rest
    show c :: r.1 ++ r.2.1 = _
    rw [List.cons_append, h1]

theorem token_ne (l : TextLexer) (c : Char) (s : Str) : (l.token (c :: s)).1 ≠ [] := by
  unfold TextLexer.token TextLexer.loop
  rw [if_neg (by simp)]
  simp only
  split <;> simp

/-- The lexer for texts loses nothing. -/
theorem tokens_split (l : TextLexer) (s : Str) : (l.tokens s).1.flatMap (·.1) ++ (l.tokens s).2 = s := by
  fun_induction TextLexer.tokens l s with
  | case1 => rfl
  | case2 l c rest r m hm =>
    have h1 : r.1 ++ r.2.2.2 = c :: rest := loop_split l _ _ _
    simpa using h1
  | case3 l c rest r t h ih =>
    have h1 : r.1 ++ r.2.2.2 = c :: rest := loop_split l _ _ _
    have ih : t.1.flatMap (·.1) ++ t.2 = r.2.2.2 := ih
    show ((r.1, r.2.1) :: t.1).flatMap (·.1) ++ t.2 = _
    rw [List.flatMap_cons, List.append_assoc, ih, h1]

/-! ### The text of the tokens -/

theorem textToks_text (c : LexConf) (p : Nat × Nat) (ts : List (Str × TextType)) :
    (textToks c p ts).flatMap (·.text) = ts.flatMap (·.1) := by
  induction ts generalizing p with
  | nil => rfl
  | cons t ts ih => simp only [textToks, List.flatMap_cons, ih]

theorem lexWith_split (c : LexConf) (n : Nat) (st : LexState) (s : Str) :
    (lexWith c n st s).toks.flatMap (·.text) ++ (lexWith c n st s).left = s := by
  fun_induction lexWith c n st s with
  | case1 => rfl
  | case2 => rfl
  | case3 => rfl
  | case4 fuel st ch s t ht st' rest tok hen r ih =>
    obtain ⟨h1, _⟩ := mainTok_prefix ht
    have ih : r.toks.flatMap (·.text) ++ r.left = rest := ih
    show (tok :: r.toks).flatMap (·.text) ++ r.left = _
    rw [List.flatMap_cons, List.append_assoc, ih]
    obtain ⟨z, hz⟩ := h1
    show t.text ++ (ch :: s).drop t.text.length = _
    rw [← hz, List.drop_left]
  | case5 fuel st ch s t ht st' rest tok l hen x p r ih =>
    obtain ⟨h1, _⟩ := mainTok_prefix ht
    have ih : r.toks.flatMap (·.text) ++ r.left = x.2 := ih
    have hx : x.1.flatMap (·.1) ++ x.2 = rest := tokens_split l rest
    show (tok :: (textToks c (st'.line, st'.column) x.1 ++ r.toks)).flatMap (·.text) ++ r.left = _
    rw [List.flatMap_cons, List.flatMap_append, textToks_text, List.append_assoc, List.append_assoc, ih, hx]
    obtain ⟨z, hz⟩ := h1
    show t.text ++ (ch :: s).drop t.text.length = _
    rw [← hz, List.drop_left]

/-- A character that no rule starts with. -/
def noRule (ch : Char) : Prop := ch.toNat = 13 ∨ ch.toNat = 127 ∨ 255 < ch.toNat

theorem mainTok_none {c : LexConf} {st : LexState} {ch : Char} {s : Str} : mainTok c st ch s = none ↔ noRule ch := by
  have key : ∀ n, n < 256 → (¬ (Char.ofNat n = '"') ∧ ¬ (Char.ofNat n = '\'') ∧ ¬ (lexDigit (Char.ofNat n) = true) ∧
      ¬ (nameStart (Char.ofNat n) = true) ∧ ¬ (Char.ofNat n = '/') ∧ ¬ (Char.ofNat n = ' ' ∨ Char.ofNat n = '\t') ∧ ¬ (Char.ofNat n = '\n') ∧
      ¬ ((Char.ofNat n).toNat ≤ 8 ∨ (11 ≤ (Char.ofNat n).toNat ∧ (Char.ofNat n).toNat ≤ 12) ∨
        (14 ≤ (Char.ofNat n).toNat ∧ (Char.ofNat n).toNat ≤ 31)) ∧ ¬ (Char.ofNat n = '@') ∧
      ¬ (Char.ofNat n = '.') ∧ ¬ (Char.ofNat n = '\\') ∧ ¬ (Char.ofNat n ∈ plainOperators) ↔ noRule (Char.ofNat n)) := by
    unfold noRule
    decide +kernel
  unfold mainTok
  simp only [lex_ite_none]
  by_cases h : ch.toNat < 256
  · have := key ch.toNat h
    rw [Char.ofNat_toNat] at this
    rw [← this]
    simp only [and_true]
  · refine ⟨fun _ => .inr (.inr (by omega)), fun _ => ?_⟩
    have hne : ∀ x : Char, x.toNat < 256 → ch ≠ x := by rintro x hx rfl; exact h hx
    refine ⟨hne _ (by decide), hne _ (by decide), ?_, ?_, hne _ (by decide), ?_, hne _ (by decide), ?_, hne _ (by decide), hne _ (by decide),
      hne _ (by decide), ?_, trivial⟩
    · unfold lexDigit; simp; omega
    · unfold nameStart; simp
      refine ⟨⟨⟨⟨by omega, by omega⟩, hne _ (by decide)⟩, by omega⟩, hne _ (by decide)⟩
    · rintro (e | e)
      · exact hne _ (by decide) e
      · exact hne _ (by decide) e
    · omega
    · intro hm
      have : ∀ x ∈ plainOperators, x.toNat < 256 := by decide +kernel
      exact h (this _ hm)

/-- What is left starts with a character that no rule starts with. -/
theorem lexWith_left (c : LexConf) (n : Nat) (st : LexState) (s : Str) (h : s.length ≤ n) :
    (lexWith c n st s).left = [] ∨ ∃ ch r, (lexWith c n st s).left = ch :: r ∧ noRule ch := by
  fun_induction lexWith c n st s with
  | case1 st s =>
    cases s with
    | nil => exact .inl rfl
    | cons => simp at h
  | case2 => exact .inl rfl
  | case3 fuel st ch s ht => exact .inr ⟨ch, s, rfl, mainTok_none.1 ht⟩
  | case4 fuel st ch s t ht st' rest tok hen r ih =>
    obtain ⟨_, h1⟩ := mainTok_prefix ht
    refine ih ?_
    show ((ch :: s).drop t.text.length).length ≤ fuel
    have : 0 < t.text.length := List.length_pos_iff.2 h1
    simp only [List.length_drop, List.length_cons] at h ⊢
    omega
  | case5 fuel st ch s t ht st' rest tok l hen x p r ih =>
    obtain ⟨_, h1⟩ := mainTok_prefix ht
    refine ih ?_
    have hx : x.1.flatMap (·.1) ++ x.2 = rest := tokens_split l rest
    have hl : x.2.length ≤ rest.length := by rw [← hx]; simp
    have hr : rest.length = (ch :: s).length - t.text.length := List.length_drop
    have : 0 < t.text.length := List.length_pos_iff.2 h1
    simp only [List.length_cons] at h hr
    omega

end Srcml
