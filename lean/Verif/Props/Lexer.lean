import Verif.Proofs.LexerClean
import Verif.Proofs.LexerRun
import Verif.Props.ParserNest
/-
C61: lexing loses nothing. C62: keywords and macros. C63: positions of tokens. C16: from source text to source text.
-/
namespace Srcml

open Spec

set_option linter.unusedSimpArgs false

/-! ### C61 -/

/-- C61: the texts of the tokens, one after the other, are the source, up to the place where the lexer gives up. -/
theorem C61_in_order (c : LexConf) (s : Str) : (lex c s).toks.flatMap (·.text) ++ (lex c s).left = s := lexWith_split _ _ _ _

/-- C61: if bytes are given without carriage return and DEL, nothing is lost: the texts of the tokens are the source. -/
theorem C61_nothing_lost_partial (c : LexConf) (s : Str) (h : ∀ ch ∈ s, ch.toNat < 256 ∧ ch.toNat ≠ 13 ∧ ch.toNat ≠ 127) :
    (lex c s).toks.flatMap (·.text) = s ∧ (lex c s).left = [] := by
  have h1 := C61_in_order c s
  have h2 : (lex c s).left = [] := by
    rcases lexWith_left c s.length { line := if c.lineOption then 65537 else 1 } s (Nat.le_refl _) with h2 | ⟨ch, r, h2, h3⟩
    · exact h2
    · exfalso
      have hm : ch ∈ s := by
        rw [← h1]
        show ch ∈ _ ++ (lexWith c s.length _ s).left
        rw [h2]; simp
      have := h ch hm
      unfold noRule at h3
      omega
  rw [h2, List.append_nil] at h1
  exact ⟨h1, h2⟩

/-- C61: the lexer gives up only at a carriage return or DEL (or what is not a byte). -/
theorem C61_gives_up (c : LexConf) (s : Str) (ch : Char) (r : Str) (h : (lex c s).left = ch :: r) : ch.toNat = 13 ∨ ch.toNat = 127 ∨ 255 < ch.toNat := by
  rcases lexWith_left c s.length { line := if c.lineOption then 65537 else 1 } s (Nat.le_refl _) with h2 | ⟨ch', r', h2, h3⟩
  · have h : (lexWith c s.length _ s).left = ch :: r := h
    rw [h2] at h; cases h
  · have h : (lexWith c s.length _ s).left = ch :: r := h
    rw [h2] at h; cases h; exact h3

/-- C61: no token is empty. -/
theorem C61_not_empty (c : LexConf) (s : Str) : ∀ t ∈ (lex c s).toks, t.text ≠ [] := by
  have key : ∀ n st s, ∀ t ∈ (lexWith c n st s).toks, t.text ≠ [] := by
    intro n st s
    fun_induction lexWith c n st s with
    | case1 => intro t h; cases h
    | case2 => intro t h; cases h
    | case3 => intro t h; cases h
    | case4 fuel st ch s t ht st' rest tok hen r ih =>
      intro t' h
      rcases List.mem_cons.1 h with rfl | h
      · exact (mainTok_prefix ht).2
      · exact ih t' h
    | case5 fuel st ch s t ht st' rest tok l hen x p r ih =>
      intro t' h
      rcases List.mem_cons.1 h with rfl | h
      · exact (mainTok_prefix ht).2
      · rcases List.mem_append.1 h with h | h
        · obtain ⟨y, h1, q, rfl⟩ := textToks_mem h
          exact tokens_ne l rest y h1
        · exact ih t' h
  exact key _ _ _

/-- C61 (finding): a DEL outside of comments and literals is no token: the lexer throws, and the rest of the source is lost. -/
theorem C61_finding_delete : (lex { language := LANGUAGE_C } "a\x7Fb".toList).toks.map (·.text) = ["a".toList] ∧
    (lex { language := LANGUAGE_C } "a\x7Fb".toList).left = "\x7Fb".toList := by decide +kernel

/-! ### C62 -/

theorem macroTypes_iff (t : Str) (k : TokType) : (t, k) ∈ macroTypes ↔ macroToken t = some k := by
  unfold macroTypes macroToken
  constructor
  · intro h
    simp only [List.mem_cons, Prod.mk.injEq, List.not_mem_nil, or_false] at h
    rcases h with ⟨rfl, rfl⟩ | ⟨rfl, rfl⟩ | ⟨rfl, rfl⟩ | ⟨rfl, rfl⟩ | ⟨rfl, rfl⟩ | ⟨rfl, rfl⟩ <;> decide
  · intro h
    simp only [List.mem_cons, Prod.mk.injEq, List.not_mem_nil, or_false]
    split at h
    · rename_i e; cases h; exact .inl ⟨e, rfl⟩
    split at h
    · rename_i e; cases h; exact .inr (.inl ⟨e, rfl⟩)
    split at h
    · rename_i e; cases h; exact .inr (.inr (.inl ⟨e, rfl⟩))
    split at h
    · rename_i e; cases h; exact .inr (.inr (.inr (.inl ⟨e, rfl⟩)))
    split at h
    · rename_i e; cases h; exact .inr (.inr (.inr (.inr (.inl ⟨e, rfl⟩))))
    split at h
    · rename_i e; cases h; exact .inr (.inr (.inr (.inr (.inr ⟨e, rfl⟩))))
    · cases h

theorem userLiterals_registered (ms : List Str) :
    (userLiterals ms).reverse = (registered ms).filterMap (fun p => (macroToken p.2).map (fun k => (p.1, k))) := by
  fun_induction userLiterals ms with
  | case1 m t rest ih =>
    rw [List.reverse_append, ih, registered, List.filterMap_append]
    cases h : macroToken t with
    | none => simp [h]
    | some k => simp [h]
  | case2 ms h =>
    unfold registered
    split
    · exact absurd rfl (h _ _ _)
    · rfl

theorem find_macro (L : List (Str × Str)) (w : Str) :
    (∀ k, ((L.filterMap (fun p => (macroToken p.2).map (fun k => (p.1, k)))).find? (fun p => p.1 = w)).map (·.2) = some k →
      ∃ newer older type, L = newer ++ (w, type) :: older ∧ (type, k) ∈ macroTypes ∧ ∀ t, (w, t) ∈ newer → ∀ k, (t, k) ∉ macroTypes) ∧
    (((L.filterMap (fun p => (macroToken p.2).map (fun k => (p.1, k)))).find? (fun p => p.1 = w)).map (·.2) = none →
      ∀ t, (w, t) ∈ L → ∀ k, (t, k) ∉ macroTypes) := by
  induction L with
  | nil =>
    refine ⟨fun k h => ?_, fun _ t h => ?_⟩
    · simp at h
    · cases h
  | cons p L ih =>
    obtain ⟨n, ty⟩ := p
    have skip : (n = w → macroToken ty = none) → ∀ t, (w, t) = (n, ty) → ∀ k, (t, k) ∉ macroTypes := by
      intro h t e k hk
      cases e
      rw [macroTypes_iff, h rfl] at hk
      cases hk
    have go : (n = w → macroToken ty = none) →
        (((n, ty) :: L).filterMap (fun p => (macroToken p.2).map (fun k => (p.1, k)))).find? (fun p => p.1 = w) =
        (L.filterMap (fun p => (macroToken p.2).map (fun k => (p.1, k)))).find? (fun p => p.1 = w) := by
      intro h
      rw [List.filterMap_cons]
      cases hk : macroToken ty with
      | none => rfl
      | some k =>
        have : n ≠ w := by intro e; rw [h e] at hk; cases hk
        simp [this]
    by_cases hx : n = w → macroToken ty = none
    · rw [go hx]
      refine ⟨fun k h => ?_, fun h t ht => ?_⟩
      · obtain ⟨newer, older, type, h1, h2, h3⟩ := ih.1 k h
        refine ⟨(n, ty) :: newer, older, type, by rw [h1]; rfl, h2, fun t ht => ?_⟩
        rcases List.mem_cons.1 ht with e | ht
        · exact skip hx t e
        · exact h3 t ht
      · rcases List.mem_cons.1 ht with e | ht
        · exact skip hx t e
        · exact ih.2 h t ht
    · have hn : n = w := Classical.byContradiction fun h => hx (fun e => absurd e h)
      subst hn
      cases hk : macroToken ty with
      | none => exact absurd (fun _ => hk) hx
      | some k0 =>
        have e : (((n, ty) :: L).filterMap (fun p => (macroToken p.2).map (fun k => (p.1, k)))).find? (fun p => p.1 = n) = some (n, k0) := by
          rw [List.filterMap_cons]; simp [hk]
        rw [e]
        refine ⟨fun k h => ?_, fun h => ?_⟩
        · simp at h
          subst h
          exact ⟨[], L, ty, rfl, (macroTypes_iff _ _).2 hk, fun t ht => by cases ht⟩
        · simp at h

theorem isWord_iff (x : Str) : isWord x = true ↔ ∃ ch r, x = ch :: r ∧ nameStart ch = true ∧ ∀ y ∈ r, nameChar y = true := by
  have h1 : ∀ ch, isWord.wordStart ch = nameStart ch := by
    intro ch
    unfold isWord.wordStart nameStart
    have e : ∀ a b : Char, decide (a ≤ b) = decide (a.toNat ≤ b.toNat) := fun a b => rfl
    rw [e, e, e, e]
    show ((decide (97 ≤ ch.toNat) && decide (ch.toNat ≤ 122)) || (decide (65 ≤ ch.toNat) && decide (ch.toNat ≤ 90)) || _ || _ || _) = _
    cases (decide (97 ≤ ch.toNat) && decide (ch.toNat ≤ 122)) <;> cases (decide (65 ≤ ch.toNat) && decide (ch.toNat ≤ 90)) <;>
      cases decide (ch = '_') <;> cases decide (ch = '$') <;> cases (decide (128 ≤ ch.toNat) && decide (ch.toNat ≤ 255)) <;> rfl
  have h2 : ∀ ch, (isWord.wordStart ch || ('0' ≤ ch && ch ≤ '9')) = nameChar ch := by
    intro ch
    rw [h1, Bool.or_comm]
    rfl
  cases x with
  | nil => simp [isWord]
  | cons ch r =>
    unfold isWord
    simp only [h1, h2]
    constructor
    · intro h
      have h := Bool.and_eq_true_iff.1 h
      exact ⟨ch, r, rfl, h.1, fun y hy => by
        have := List.all_eq_true.1 h.2 y hy
        rw [← h1, h2] at this; exact this⟩
    · rintro ⟨a, b, e, g1, g2⟩
      cases e
      rw [g1, Bool.true_and]
      refine List.all_eq_true.2 (fun y hy => ?_)
      rw [← h1, h2]; exact g2 y hy

/-- A word that is a token of the main lexer. -/
theorem mainTok_word {c : LexConf} {st : LexState} {ch : Char} {s : Str} {t : MainTok} (h : mainTok c st ch s = some t)
    (hw : isWord t.text = true) : t.type = c.testLiterals t.text (chars! "NAME") := by
  obtain ⟨a, r, e, h1, h2⟩ := (isWord_iff _).1 hw
  have hp := (mainTok_prefix h).1
  rw [e] at hp
  have hch : ch = a := by
    obtain ⟨z, hz⟩ := hp
    injection hz with hz _
    exact hz.symm
  subst hch
  have hq : ch ≠ '"' ∧ ch ≠ '\'' ∧ lexDigit ch = false := by
    refine ⟨?_, ?_, ?_⟩
    · rintro rfl; exact absurd h1 (by decide)
    · rintro rfl; exact absurd h1 (by decide)
    · cases hd : lexDigit ch with
      | false => rfl
      | true =>
        exfalso
        unfold lexDigit at hd
        unfold nameStart at h1
        simp at hd h1
        rcases h1 with (((h1 | h1) | rfl) | h1) | rfl
        · omega
        · omega
        · exact absurd hd (by decide)
        · omega
        · exact absurd hd (by decide)
  unfold mainTok at h
  rw [if_neg hq.1, if_neg hq.2.1, if_neg (by rw [hq.2.2]; decide), if_pos h1] at h
  cases h
  have hnq : ∀ x : Str, lexName c st (ch :: s) ≠ lexName c st (ch :: s) ∨ '"' ∉ (lexName c st (ch :: s)).text := by
    intro _
    right
    rw [e]
    intro hm
    rcases List.mem_cons.1 hm with h | h
    · exact hq.1 h.symm
    · exact absurd (h2 _ h) (by decide)
  have hnq : '"' ∉ (lexName c st (ch :: s)).text := by
    rcases hnq [] with h | h
    · exact absurd rfl h
    · exact h
  revert hnq
  unfold lexName
  dsimp only
  split
  · split
    · intro h; exact absurd h (by simp)
    split
    · intro h; exact absurd h (by simp)
    · intro _; rfl
  · intro _; rfl

theorem textType_inside (t : TextType) : t.tokType ∈ insideTypes := by
  cases t with
  | text => decide
  | control => decide
  | ended m => cases m <;> decide

/-- C62: the type of a word outside of comments and literals, wherever it is in the source: a token of a keyword of the language; if it is none, the token of
the macro registered last; and otherwise a name. -/
theorem C62_words (c : LexConf) (s : Str) : ∀ t ∈ (lex c s).toks, isWord t.text = true → t.type ∈ insideTypes ∨
    KeywordOf c.language t.text t.type ∨
    ((∀ k, ¬ KeywordOf c.language t.text k) ∧ (MacroOf c.userMacros t.text t.type ∨
      ((∀ k, ¬ MacroOf c.userMacros t.text k) ∧ t.type = chars! "NAME"))) := by
  have word : ∀ x : Str, KeywordOf c.language x (c.testLiterals x (chars! "NAME")) ∨
      ((∀ k, ¬ KeywordOf c.language x k) ∧ (MacroOf c.userMacros x (c.testLiterals x (chars! "NAME")) ∨
        ((∀ k, ¬ MacroOf c.userMacros x k) ∧ c.testLiterals x (chars! "NAME") = chars! "NAME"))) := by
    intro x
    rw [testLiterals_eq]
    cases hr : lastRow c.language x with
    | some k => exact .inl (lastRow_some hr)
    | none =>
      refine .inr ⟨lastRow_none.1 hr, ?_⟩
      dsimp only
      have hf := find_macro (registered c.userMacros) x
      rw [← userLiterals_registered] at hf
      cases hm : ((userLiterals c.userMacros).reverse.find? (fun p => p.1 = x)).map (·.2) with
      | some k => exact .inl (hf.1 k hm)
      | none =>
        refine .inr ⟨?_, rfl⟩
        rintro k ⟨newer, older, type, h1, h2, _⟩
        exact hf.2 hm type (by rw [h1]; simp) k h2
  have key : ∀ n st s, ∀ t ∈ (lexWith c n st s).toks, isWord t.text = true → t.type ∈ insideTypes ∨
      t.type = c.testLiterals t.text (chars! "NAME") := by
    intro n st s
    fun_induction lexWith c n st s with
    | case1 => intro t h; cases h
    | case2 => intro t h; cases h
    | case3 => intro t h; cases h
    | case4 fuel st ch s t ht st' rest tok hen r ih =>
      intro t' h hw
      rcases List.mem_cons.1 h with rfl | h
      · exact .inr (mainTok_word ht hw)
      · exact ih t' h hw
    | case5 fuel st ch s t ht st' rest tok l hen x p r ih =>
      intro t' h hw
      rcases List.mem_cons.1 h with rfl | h
      · exact .inr (mainTok_word ht hw)
      · rcases List.mem_append.1 h with h | h
        · obtain ⟨y, h1, q, rfl⟩ := textToks_mem h
          exact .inl (textType_inside _)
        · exact ih t' h hw
  intro t ht hw
  rcases key _ _ _ t ht hw with h | h
  · exact .inl h
  · right
    rw [h]
    exact word t.text

/-- Two rows of the table for the same word and language have the same token, except for three words of C++. -/
def keywordTable : Bool := keywordMap.all (fun k => keywordMap.all (fun k' => !decide (k.text = k'.text) || languageNumbers.all (fun l =>
  !(decide (k.language &&& l > 0) && decide (k'.language &&& l > 0) &&
    (decide (l ≠ 2) || decide (k.text ∉ ["try".toList, "catch".toList, "class".toList]))) || decide (k.token = k'.token))))

theorem keywordTable_checked : keywordTable = true := by decide +kernel

/-- C62: a keyword has one token in a language; in C++ three of them have a second one in the table, and the one for C++ is used. -/
theorem C62_one_token (l : Nat) (hl : l ∈ languageNumbers) (w : Str) (a b : TokType) (h1 : KeywordOf l w a) (h2 : KeywordOf l w b)
    (hw : l ≠ 2 ∨ w ∉ ["try".toList, "catch".toList, "class".toList]) : a = b := by
  obtain ⟨k, k1, k2, k3, rfl⟩ := h1
  obtain ⟨k', k1', k2', k3', rfl⟩ := h2
  have table := keywordTable_checked
  unfold keywordTable at table
  have table := List.all_eq_true.1 (List.all_eq_true.1 table k k1) k' k1'
  rw [k2, k2'] at table
  rcases Bool.or_eq_true_iff.1 table with h | h
  · simp at h
  rcases Bool.or_eq_true_iff.1 (List.all_eq_true.1 h l hl) with h | h
  · exfalso
    have hb : (decide (k.language &&& l > 0) && decide (k'.language &&& l > 0) &&
        (decide (l ≠ 2) || decide (w ∉ ["try".toList, "catch".toList, "class".toList]))) = true := by
      rw [decide_eq_true k3, decide_eq_true k3']
      simp only [Bool.and_self, Bool.true_and]
      rcases hw with hw | hw
      · rw [decide_eq_true hw]; rfl
      · rw [decide_eq_true hw]; simp
    rw [hb] at h
    cases h
  · exact of_decide_eq_true h

/-- C62: `try`, `catch` and `class` in C++. -/
theorem C62_cpp (c : LexConf) (h : c.language = 2) (d : TokType) :
    c.testLiterals "try".toList d = chars! "CXX_TRY" ∧ c.testLiterals "catch".toList d = chars! "CXX_CATCH" ∧
    c.testLiterals "class".toList d = chars! "CXX_CLASS" := by
  rw [testLiterals_eq, testLiterals_eq, testLiterals_eq, h]
  have h1 : (lastRow 2 "try".toList).map (·.token) = some (chars! "CXX_TRY") := by decide +kernel
  have h2 : (lastRow 2 "catch".toList).map (·.token) = some (chars! "CXX_CATCH") := by decide +kernel
  have h3 : (lastRow 2 "class".toList).map (·.token) = some (chars! "CXX_CLASS") := by decide +kernel
  refine ⟨?_, ?_, ?_⟩
  · cases h : lastRow 2 "try".toList with
    | none => rw [h] at h1; cases h1
    | some k => rw [h] at h1; simpa using h1
  · cases h : lastRow 2 "catch".toList with
    | none => rw [h] at h2; cases h2
    | some k => rw [h] at h2; simpa using h2
  · cases h : lastRow 2 "class".toList with
    | none => rw [h] at h3; cases h3
    | some k => rw [h] at h3; simpa using h3

/-- Words of several kinds. -/
def exWords : LexConf := { language := LANGUAGE_C, userMacros := ["FOO".toList, "src:macro".toList, "if".toList, "src:type".toList] }

example : (lex exWords "if FOO x".toList).toks.map (fun t => (t.text, t.type)) =
    [("if".toList, chars! "IF"), (" ".toList, chars! "WS"), ("FOO".toList, chars! "MACRO_NAME"), (" ".toList, chars! "WS"), ("x".toList, chars! "NAME")] := by
  decide +kernel

/-- C62 (finding): a macro registered with the name of a keyword has no effect: the word keeps the token of the keyword. -/
theorem C62_finding_macro_keyword (c : LexConf) (w : Str) (d : TokType) (h : ∃ k, KeywordOf c.language w k) :
    c.testLiterals w d = ({ c with userMacros := [] } : LexConf).testLiterals w d := by
  rw [testLiterals_eq, testLiterals_eq]
  cases hr : lastRow c.language w with
  | none =>
    obtain ⟨k, hk⟩ := h
    exact absurd hk (lastRow_none.1 hr k)
  | some k => rfl

/-! ### C63 -/

theorem moves_append (c : LexConf) (p : Nat × Nat) (a b : Str) : c.moves p (a ++ b) = c.moves (c.moves p a) b := by
  unfold LexConf.moves; rw [List.foldl_append]

theorem moves_behind (c : LexConf) (hc : c.lineOption = false) (y : Str) :
    c.moves (1, 1) y.reverse = (lineBehind y.reverse, columnBehind c.tabsize y.reverse) := by
  induction y with
  | nil => rfl
  | cons ch y ih =>
    rw [List.reverse_cons, moves_append, ih]
    show c.move _ ch = _
    unfold LexConf.move lineBehind columnBehind
    rw [hc]
    simp only [List.reverse_append, List.reverse_cons, List.reverse_nil, List.nil_append, List.cons_append, List.takeWhile_cons]
    by_cases h : ch = '\n'
    · subst h
      simp [lineWidth]
    · have hcount : (y.reverse ++ [ch]).count '\n' = y.reverse.count '\n' := by
        rw [List.count_append, List.count_cons]
        have : (ch == '\n') = false := by simpa using h
        simp [this]
      rw [hcount, if_neg h]
      simp only [h, ne_eq, not_false_eq_true, decide_true, if_true, List.reverse_cons, List.reverse_reverse]
      unfold lineWidth
      rw [List.foldl_append]
      by_cases ht : ch = '\t'
      · subst ht; simp
      · simp [ht]

theorem after_position (c : LexConf) (st : LexState) (ch : Char) (t : MainTok) :
    ((st.after c ch t).line, (st.after c ch t).column) = c.moves (st.line, st.column) t.text := by
  unfold LexState.after
  dsimp only
  repeat' split
  all_goals rfl

theorem textToks_position (c : LexConf) (p : Nat × Nat) (ts : List (Str × TextType)) (pre : List Tok) (t : Tok) (post : List Tok)
    (h : textToks c p ts = pre ++ t :: post) : (t.line, t.column) = c.moves p (pre.flatMap (·.text)) := by
  induction ts generalizing p pre with
  | nil => cases pre <;> cases h
  | cons x ts ih =>
    cases pre with
    | nil =>
      injection h with h _
      subst h; rfl
    | cons y pre =>
      injection h with h1 h2
      rw [ih _ _ h2, List.flatMap_cons, moves_append, ← h1]

theorem lexWith_position (c : LexConf) (n : Nat) (st : LexState) (s : Str) : ∀ pre t post, (lexWith c n st s).toks = pre ++ t :: post →
    (t.line, t.column) = c.moves (st.line, st.column) (pre.flatMap (·.text)) := by
  fun_induction lexWith c n st s with
  | case1 => intro pre t post h; cases pre <;> cases h
  | case2 => intro pre t post h; cases pre <;> cases h
  | case3 => intro pre t post h; cases pre <;> cases h
  | case4 fuel st ch s t ht st' rest tok hen r ih =>
    intro pre t' post h
    have h : tok :: r.toks = pre ++ t' :: post := h
    cases pre with
    | nil => injection h with h _; rw [← h]; rfl
    | cons y pre =>
      injection h with h1 h2
      rw [ih pre t' post h2, List.flatMap_cons, moves_append, ← h1, after_position]
  | case5 fuel st ch s t ht st' rest tok l hen x p r ih =>
    intro pre t' post h
    have h : tok :: (textToks c (st'.line, st'.column) x.1 ++ r.toks) = pre ++ t' :: post := h
    cases pre with
    | nil => injection h with h _; rw [← h]; rfl
    | cons y pre =>
      injection h with h1 h2
      rw [List.flatMap_cons, moves_append, ← h1, show tok.text = t.text from rfl, ← after_position c st ch t]
      rcases List.append_eq_append_iff.1 h2 with ⟨a, g1, g2⟩ | ⟨a, g1, g2⟩
      · rw [g1, List.flatMap_append, textToks_text, moves_append]
        exact ih a t' post g2
      · cases a with
        | nil =>
          have h3 := ih [] t' post (by simpa using g2.symm)
          rw [h3]
          rw [List.append_nil] at g1
          rw [← g1, textToks_text]
          rfl
        | cons z a =>
          injection g2 with g2 _
          subst g2
          exact textToks_position c _ _ _ _ _ g1

/-- C63: every token has the line and the column of the place where its text starts in the source; tabs go on to the next multiple of the tab size. -/
theorem C63_positions (c : LexConf) (hc : c.lineOption = false) (s : Str) (pre : List Tok) (t : Tok) (post : List Tok)
    (h : (lex c s).toks = pre ++ t :: post) :
    t.line = lineBehind (pre.flatMap (·.text)) ∧ t.column = columnBehind c.tabsize (pre.flatMap (·.text)) := by
  have h1 := lexWith_position c _ _ _ pre t post h
  have h2 := moves_behind c hc (pre.flatMap (·.text)).reverse
  rw [List.reverse_reverse] at h2
  simp only [hc, Bool.false_eq_true, if_false] at h1
  rw [h2] at h1
  exact Prod.mk.inj h1

example : (lex { language := LANGUAGE_C } "a;\n\tb".toList).toks.map (fun t => (t.text, t.line, t.column)) =
    [("a".toList, 1, 1), (";".toList, 1, 2), ("\n".toList, 1, 3), ("\t".toList, 2, 1), ("b".toList, 2, 9)] := by decide +kernel

theorem lexWith_end (c : LexConf) (n : Nat) (st : LexState) (s : Str) :
    ((lexWith c n st s).line, (lexWith c n st s).column) = c.moves (st.line, st.column) ((lexWith c n st s).toks.flatMap (·.text)) := by
  fun_induction lexWith c n st s with
  | case1 => rfl
  | case2 => rfl
  | case3 => rfl
  | case4 fuel st ch s t ht st' rest tok hen r ih =>
    show (r.line, r.column) = c.moves _ ((tok :: r.toks).flatMap (·.text))
    rw [List.flatMap_cons, moves_append, show tok.text = t.text from rfl, ← after_position c st ch t]
    exact ih
  | case5 fuel st ch s t ht st' rest tok l hen x p r ih =>
    show (r.line, r.column) = c.moves _ ((tok :: (textToks c (st'.line, st'.column) x.1 ++ r.toks)).flatMap (·.text))
    rw [List.flatMap_cons, List.flatMap_append, moves_append, moves_append, textToks_text, show tok.text = t.text from rfl, ← after_position c st ch t]
    exact ih

/-- C63: the position of the end. -/
theorem C63_end_position (c : LexConf) (hc : c.lineOption = false) (s : Str) (hl : (lex c s).left = []) :
    (lex c s).line = lineBehind s ∧ (lex c s).column = columnBehind c.tabsize s := by
  have h0 := C61_in_order c s
  rw [hl, List.append_nil] at h0
  have h1 := lexWith_end c s.length { line := if c.lineOption then 65537 else 1 } s
  have h2 := moves_behind c hc s.reverse
  rw [List.reverse_reverse] at h2
  rw [show (lexWith c s.length _ s).toks.flatMap (·.text) = s from h0] at h1
  simp only [hc, Bool.false_eq_true, if_false] at h1
  rw [h2] at h1
  have h1 : ((lex c s).line, (lex c s).column) = (lineBehind s, columnBehind c.tabsize s) := by
    unfold lex
    simp only [hc, Bool.false_eq_true, if_false]
    exact h1
  exact Prod.mk.inj h1

/-- C62 (finding): in C#, whether `=>` is one token depends on the lines before: the place of the last operator is kept over the end of a line. The two
sources have the same last line. -/
theorem C62_finding_arrow :
    (lex { language := LANGUAGE_CSHARP } "x=5;\nabc => d".toList).toks.map (·.text) =
      ["x", "=", "5", ";", "\n", "abc", " ", "=", ">", " ", "d"].map String.toList ∧
    (lex { language := LANGUAGE_CSHARP } "x=55;\nabc => d".toList).toks.map (·.text) =
      ["x", "=", "55", ";", "\n", "abc", " ", "=>", " ", "d"].map String.toList := by decide +kernel

/-! ### C16 -/

/-- The parser on a source: the tokens of the lexer and the end of file behind them, src/libsrcml/srcml_translator.cpp:123-145. -/
def sourceConf (c : LexConf) (position cpp : Bool) (s : Str) : PConf :=
  { src := (lex c s).toks, eof := { type := chars! "EOF", line := (lex c s).line, column := (lex c s).column }, position := position, cpp := cpp }

/-- No comment is open at the end of the source. -/
def NoOpenComment (c : LexConf) (s : Str) : Prop := ∀ m, ¬ CommentRun [] (lex c s).toks [m]

theorem CommentRun.step {c : PConf} {cs cs2 : List TokType} {ts : List Tok} (h : CommentRun cs ts cs2) :
    ∀ (k : Nat), commentsAt c k = some cs → c.src.drop k = ts →
      (∀ i, i ≤ ts.length → ∃ cs', commentsAt c (k + i) = some cs' ∧ (i < ts.length → (tokAt c (k + i)).type ∉ whitespaceTokens → cs' = [])) ∧
      commentsAt c (k + ts.length) = some cs2 := by
  induction h with
  | nil cs =>
    intro k hk hd
    refine ⟨fun i hi => ?_, hk⟩
    have : i = 0 := by simpa using hi
    subst this
    exact ⟨cs, hk, fun h => by simp at h⟩
  | cons cs cs1 cs2 t ts g1 g2 _ ih =>
    intro k hk hd
    have hlen : k < c.src.length := by
      have := congrArg List.length hd
      simp at this; omega
    have hkt : tokAt c k = t := by
      unfold tokAt
      rw [List.getElem?_eq_getElem hlen]
      have := List.drop_eq_getElem_cons hlen
      rw [hd] at this
      injection this with h1 _
      simp [h1]
    have hd' : c.src.drop (k + 1) = ts := by
      have := List.drop_eq_getElem_cons hlen
      rw [hd] at this
      injection this with _ h2
      exact h2.symm
    have hk' : commentsAt c (k + 1) = some cs1 := by
      show (commentsAt c k).bind _ = _
      rw [hk]
      show commentStep cs (tokAt c k).type = _
      rw [hkt]; exact g2
    obtain ⟨i1, i2⟩ := ih (k + 1) hk' hd'
    refine ⟨fun i hi => ?_, ?_⟩
    · cases i with
      | zero => exact ⟨cs, hk, fun _ h => g1 (by rw [← hkt]; exact h)⟩
      | succ i =>
        obtain ⟨cs', h1, h2⟩ := i1 i (by simpa using hi)
        rw [show k + (i + 1) = k + 1 + i from by omega]
        exact ⟨cs', h1, fun h => h2 (by simpa using h)⟩
    · rw [show k + (t :: ts).length = k + 1 + ts.length from by simp; omega]
      exact i2

/-- The comments of a source are closed for the parser. -/
theorem source_commentsClosed {c : LexConf} (hl : c.inLanguage LANGUAGE_ALL = true) (hm : NoCommentMacro c) (position cpp : Bool) (s : Str)
    (ho : NoOpenComment c s) : CommentsClosed (sourceConf c position cpp s) := by
  have hr : CommentRun [] (sourceConf c position cpp s).src [] := by
    rcases lexWith_comments hl hm s.length { line := if c.lineOption then 65537 else 1 } s with h | ⟨m, h, _⟩
    · exact h
    · exact absurd h (ho _)
  obtain ⟨h1, h2⟩ := CommentRun.step (c := sourceConf c position cpp s) hr 0 rfl (by rfl)
  simp only [Nat.zero_add] at h1 h2
  have hend : ∀ k, commentsAt (sourceConf c position cpp s) ((sourceConf c position cpp s).src.length + k) = some [] := by
    intro k
    induction k with
    | zero => exact h2
    | succ k ih =>
      rw [← Nat.add_assoc]
      show (commentsAt _ (_ + k)).bind _ = _
      rw [ih]
      have : tokAt (sourceConf c position cpp s) ((sourceConf c position cpp s).src.length + k) = (sourceConf c position cpp s).eof := by
        unfold tokAt; rw [List.getElem?_eq_none (by omega)]; rfl
      show commentStep [] (tokAt _ (_ + k)).type = _
      rw [this]; rfl
  intro n
  rcases Nat.lt_or_ge n (sourceConf c position cpp s).src.length with h | h
  · obtain ⟨cs, g1, g2⟩ := h1 n (by omega)
    exact ⟨cs, g1, g2 h⟩
  · refine ⟨[], ?_, fun _ => rfl⟩
    have := hend (n - (sourceConf c position cpp s).src.length)
    rwa [show (sourceConf c position cpp s).src.length + (n - (sourceConf c position cpp s).src.length) = n from by omega] at this

theorem xmlChar_clean {x : Str} (h : Clean x) : x.all xmlChar = true := by
  refine List.all_eq_true.2 (fun ch hc => ?_)
  have := h ch hc
  unfold isControl at this
  unfold xmlChar
  simp at this ⊢
  by_cases h1 : 32 ≤ ch.toNat
  · exact .inl (.inl h1)
  · by_cases h2 : ch = '\t'
    · exact .inl (.inr h2)
    · exact .inr (this (by omega) h2)

theorem source_clean {c : LexConf} {s : Str} (h : NoRawControl c s) :
    ∀ t ∈ (lex c s).toks, t.type ≠ chars! "CONTROL_CHAR" → t.text.all xmlChar = true := by
  intro t ht hn
  rcases h with h | h | h
  · have : NoRaw c s := .inl (by
      unfold LexConf.inLanguage
      rw [Nat.and_comm, show c.language &&& LANGUAGE_CXX = 0 from h]; rfl)
    rcases lexWith_clean c _ _ s this t ht with e | e
    · exact absurd e hn
    · exact xmlChar_clean e
  · refine xmlChar_clean (fun ch hc => h ch ?_)
    rw [← C61_in_order c s]
    exact List.mem_append_left _ (List.mem_flatMap.2 ⟨t, ht, hc⟩)
  · rcases lexWith_clean c _ _ s (.inr h) t ht with e | e
    · exact absurd e hn
    · exact xmlChar_clean e

theorem source_lexed {c : LexConf} (hl : c.inLanguage LANGUAGE_ALL = true) (hm : NoCommentMacro c) (s : Str) :
    LexerTokens (lex c s).toks ∧ LexerTypes (lex c s).toks := by
  have h := lexWith_lexed hl hm s.length { line := if c.lineOption then 65537 else 1 } s
  refine ⟨fun t ht => ?_, fun t ht => ?_⟩
  · obtain ⟨h1, h2⟩ := h t ht
    refine ⟨h1, ?_, fun hc => ?_⟩
    · unfold isEof
      rcases h2 with ⟨e, _⟩ | ⟨_, _, e, _⟩
      · rw [e]; rfl
      · rw [decide_eq_false e]; rfl
    · rcases h2 with ⟨_, e⟩ | ⟨_, _, _, e⟩
      · exact e
      · exact absurd hc e
  · obtain ⟨_, h2⟩ := h t ht
    rcases h2 with ⟨e, _⟩ | ⟨e1, e2, _⟩
    · exact .inl e
    · exact .inr ⟨e1, e2⟩

/-- The tokens that the parser has returned for a source, once the parse has ended. -/
theorem source_tokens (lc : LexConf) (position cpp : Bool) (src : Str) (hlang : lc.language ∈ languageNumbers) (hmac : NoCommentMacro lc)
    (hb : ∀ ch ∈ src, ch.toNat < 256 ∧ ch.toNat ≠ 13 ∧ ch.toNat ≠ 127) (hraw : NoRawControl lc src) (hopen : NoOpenComment lc src)
    {s : PState} (h : Exec (sourceConf lc position cpp src) true .driver (PState.init (sourceConf lc position cpp src)) s) (hst : s.st = []) {p : PTok}
    (htb : s.tb = [p]) (hp : isEof p.tok = true) :
    ∃ ts, returned s = ts ++ [p.tok] ∧ Balanced ts ∧ Carries ts src ∧ ∀ t ∈ ts, t.text.all xmlChar = true := by
  have hl : lc.inLanguage LANGUAGE_ALL = true := by
    have : ∀ l ∈ languageNumbers, decide (LANGUAGE_ALL &&& l > 0) = true := by decide
    exact this _ hlang
  obtain ⟨h1, h2⟩ := source_lexed hl hmac src
  obtain ⟨ts, g1, g2, g3, g4⟩ := finished_tokens (c := sourceConf lc position cpp src) h1 ⟨rfl, rfl, rfl⟩ h2 (source_clean hraw)
    (source_commentsClosed hl hmac position cpp src hopen) h hst htb hp
  refine ⟨ts, g1, g2, ?_, g4⟩
  have : (sourceConf lc position cpp src).text = src := (C61_nothing_lost_partial lc src hb).1
  rwa [this] at g3

/-- C16, from source text to source text: for every source without carriage return and DEL (as bytes; a carriage return never reaches the lexer) that ends outside of comments, in any
language and with any macros whose names are not starts of comments, and for every regular behaviour of the grammar: once the parse has ended, the document
written for its tokens is well formed XML, and the text extracted from it is the source. What is missing for the full property: that the
grammar is regular (it is not modelled) and comments open at the end of the file; raw strings with control characters are a finding below. -/
theorem C16_source_partial (lc : LexConf) (position cpp : Bool) (src : Str) (hlang : lc.language ∈ languageNumbers) (hmac : NoCommentMacro lc)
    (hb : ∀ ch ∈ src, ch.toNat < 256 ∧ ch.toNat ≠ 13 ∧ ch.toNat ≠ 127) (hraw : NoRawControl lc src) (hopen : NoOpenComment lc src)
    {s : PState} (h : Exec (sourceConf lc position cpp src) true .driver (PState.init (sourceConf lc position cpp src)) s) (hst : s.st = []) {p : PTok}
    (htb : s.tb = [p]) (hp : isEof p.tok = true) (o : Out) (m : UnitMeta) (hw : o.w = {})
    (hpre : CleanPrefixes o.namespaces) (hm : CleanMeta m) (ht : o.ThreadAgrees) :
    ∃ ts evs, returned s = ts ++ [p.tok] ∧ readXml (o.unitDocument m ts) = some evs ∧
      extractEvents o.env.escapeName evs = .val src := by
  have hl : lc.inLanguage LANGUAGE_ALL = true := by
    have : ∀ l ∈ languageNumbers, decide (LANGUAGE_ALL &&& l > 0) = true := by decide
    exact this _ hlang
  obtain ⟨h1, h2⟩ := source_lexed hl hmac src
  obtain ⟨ts, evs, g1, g2, g3⟩ := C16_round_trip_partial (c := sourceConf lc position cpp src) h1 ⟨rfl, rfl, rfl⟩ h2 (source_clean hraw)
    (source_commentsClosed hl hmac position cpp src hopen) h hst htb hp o m hw hpre hm ht
  refine ⟨ts, evs, g1, g2, ?_⟩
  rw [g3]
  exact congrArg _ (C61_nothing_lost_partial lc src hb).1

/-- C16 (finding): a raw string of C++ can have a control character in its delimiter; then the character is in a token of text, and what is
written is not XML. -/
theorem C16_finding_raw_control :
    (lex { language := LANGUAGE_CXX } "R\"\x01(a)\x01\"".toList).toks.map (fun t => (t.type, t.text)) =
      [(chars! "STRING_START", "R\"\x01(".toList), (chars! "STRING_END", "a)\x01\"".toList)] ∧
    "R\"\x01(".toList.all xmlChar = false := by
  rw [lex_eq]; decide +kernel

/-- C16 (finding): a macro registered with the name `//` takes the place of the start of a comment, but not of its end: the parser then takes a comment
off an empty stack, which is undefined. -/
theorem C16_finding_comment_macro :
    (lex { language := LANGUAGE_C, userMacros := ["//".toList, "src:macro".toList] } "//a\n".toList).toks.map (·.type) =
      [chars! "MACRO_NAME", chars! "LINE_COMMENT_END", chars! "EOL"] ∧
    commentsAt (sourceConf { language := LANGUAGE_C, userMacros := ["//".toList, "src:macro".toList] } false false "//a\n".toList) 2 = none := by
  constructor
  · rw [lex_eq]; decide +kernel
  · unfold sourceConf; rw [lex_eq]; decide +kernel

/-- C52 (finding): a quote that is the last character of a preprocessor line takes the end of the line into the literal: there is no token for the end of
the line, so the directive goes on with the next line. -/
theorem C52_finding_quote_at_end :
    (lex { language := LANGUAGE_C } "#define A '\nint b;".toList).toks.map (fun t => (t.type, t.text)) =
      [(chars! "PREPROC", "#".toList), (chars! "DEFINE", "define".toList), (chars! "WS", " ".toList), (chars! "NAME", "A".toList),
       (chars! "WS", " ".toList), (chars! "CHAR_START", "'".toList), (chars! "CHAR_END", "\n".toList), (chars! "NAME", "int".toList),
       (chars! "WS", " ".toList), (chars! "NAME", "b".toList), (chars! "TERMINATE", ";".toList)] := by
  rw [lex_eq]; decide +kernel

/-- C51 (finding): behind a comment a `#` counts as the start of a directive, also in the middle of a line. -/
theorem C51_finding_behind_comment :
    (lex { language := LANGUAGE_C } "a/*b*/#if".toList).toks.map (·.type) =
      [chars! "NAME", chars! "BLOCK_COMMENT_START", chars! "BLOCK_COMMENT_END", chars! "PREPROC", chars! "IF"] ∧
    (lex { language := LANGUAGE_C } "a #if".toList).toks.map (·.type) = [chars! "NAME", chars! "WS", chars! "OPERATORS", chars! "IF"] := by
  constructor
  · rw [lex_eq]; decide +kernel
  · rw [lex_eq]; decide +kernel

/-! ### A run from source to source -/

/-- `x/*a*/`, a control character, and `;` -/
def exSource : Str := chars! "x/*a*/" ++ ['\x01', ';']

/-- C. -/
def exLexConf : LexConf := { language := LANGUAGE_C }

/-- The grammar looks ahead over everything, parses an expression statement with a name, and ends all modes. -/
def exSourceScript : List (Option Script) :=
  some (.act (.newMode 1)
    (.act (.startElement (chars! "SEXPRESSION_STATEMENT"))
    (.act (.startElement (chars! "SNAME"))
    (.guess (.eat (.skip (.skip (.skip .stop))) (.eat .stop .done))
    (.eat (.skip (.skip (.skip .stop)))
    (.act .endTop
    (.eat .stop
    (.act .endMode (.act .completeSkip (.act .flushSkip (.act .endLastMode
    (.eat .stop .done)))))))))))) :: List.replicate 13 none

theorem exSource_lexed : (lex exLexConf exSource).toks.map (fun t => (t.type, t.text)) =
    [(chars! "NAME", chars! "x"), (chars! "BLOCK_COMMENT_START", chars! "/*"), (chars! "BLOCK_COMMENT_END", chars! "a*/"),
     (chars! "CONTROL_CHAR", ['\x01']), (chars! "TERMINATE", [';'])] := by
  rw [lex_eq]; decide +kernel

theorem CommentRun.unique {a b d : List TokType} {ts : List Tok} (h1 : CommentRun a ts b) (h2 : CommentRun a ts d) : b = d := by
  induction h1 with
  | nil cs => cases h2; rfl
  | cons cs cs1 cs2 t ts _ g2 _ ih =>
    cases h2 with
    | cons _ cs1' _ _ _ _ k2 k3 =>
      rw [g2] at k2; cases k2
      exact ih k3

/-- The comment of the source is closed. -/
theorem exSource_closed : NoOpenComment exLexConf exSource := by
  have h : CommentRun [] (lex exLexConf exSource).toks [] := by
    have e : ∃ a b d e f, (lex exLexConf exSource).toks = [a, b, d, e, f] ∧ a.type = chars! "NAME" ∧ b.type = chars! "BLOCK_COMMENT_START" ∧
        d.type = chars! "BLOCK_COMMENT_END" ∧ e.type = chars! "CONTROL_CHAR" ∧ f.type = chars! "TERMINATE" := by
      rw [lex_eq]; exact ⟨_, _, _, _, _, rfl, by decide +kernel, by decide +kernel, by decide +kernel, by decide +kernel, by decide +kernel⟩
    obtain ⟨a, b, d, e, f, h0, h1, h2, h3, h4, h5⟩ := e
    rw [h0]
    refine .cons [] [] _ _ _ (fun _ => rfl) (by rw [h1]; decide) ?_
    refine .cons [] [chars! "SCOMMENT"] _ _ _ (fun _ => rfl) (by rw [h2]; decide) ?_
    refine .cons _ [] _ _ _ (fun h => absurd (by rw [h3]; decide) h) (by rw [h3]; decide) ?_
    refine .cons [] [] _ _ _ (fun _ => rfl) (by rw [h4]; decide) ?_
    exact .cons [] [] _ _ _ (fun _ => rfl) (by rw [h5]; decide) (.nil [])
  intro m hm
  exact absurd (CommentRun.unique h hm) (by simp)

/-- The hypotheses of the theorem are met by a run to the end of the file. -/
example : ∃ s ts evs, Exec (sourceConf exLexConf true false exSource) true .driver (PState.init (sourceConf exLexConf true false exSource)) s ∧
    (∃ t, returned s = ts ++ [t]) ∧ readXml (sampleOut.unitDocument {} ts) = some evs ∧
    extractEvents sampleOut.env.escapeName evs = .val exSource := by
  have h : (Script.drive (sourceConf exLexConf true false exSource) true exSourceScript (PState.init (sourceConf exLexConf true false exSource))).map
      (fun s => (s.st.length, s.tb.map (fun p => isEof p.tok))) = some (0, [true]) := by
    unfold sourceConf; rw [lex_eq]; decide +kernel
  cases hs : Script.drive (sourceConf exLexConf true false exSource) true exSourceScript (PState.init (sourceConf exLexConf true false exSource)) with
  | none => rw [hs] at h; cases h
  | some s =>
    rw [hs] at h
    simp only [Option.map_some, Option.some.injEq, Prod.mk.injEq] at h
    have hx := Script.drive_sound _ true exSourceScript _ s hs
    obtain ⟨h1, h2⟩ := h
    cases htb : s.tb with
    | nil => rw [htb] at h2; cases h2
    | cons p r =>
      rw [htb] at h2
      simp only [List.map_cons, List.cons.injEq, List.map_eq_nil_iff] at h2
      obtain ⟨ts, evs, r1, r2, r3⟩ := C16_source_partial exLexConf true false exSource (by decide) (by intro p hp; cases hp)
        (by decide) (.inl (by decide)) exSource_closed hx (List.length_eq_zero_iff.1 h1) (by rw [htb, h2.2]) h2.1 sampleOut {} rfl sample_prefixes
        ⟨by simp, by simp [attrPairs], by simp [attrPairs], by simp [attrPairs]⟩ ⟨Or.inl rfl, Or.inl rfl⟩
      exact ⟨s, ts, evs, hx, ⟨_, r1⟩, r2, r3⟩

end Srcml
