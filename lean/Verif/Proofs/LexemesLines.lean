import Verif.Proofs.LexemesText
/-
The place in the line, as the lexer keeps it, behind each part of a source.
-/
namespace Srcml

open Spec

set_option linter.unusedSimpArgs false

/-- The place in the line that the lexer keeps. -/
def LexState.place (st : LexState) : LineState := ⟨st.startline, st.onpreprocline⟩

theorem place_word {c : LexConf} {st : LexState} {ch : Char} (m : MainTok) (h : ch = '"' ∨ ch = '\'' ∨ lexDigit ch = true ∨ nameStart ch = true) :
    (st.after c ch m).place = { st.place with first := false } := by
  unfold LexState.after
  simp only [if_pos h]
  rfl

theorem place_operator {c : LexConf} {st : LexState} {ch : Char} (m : MainTok) (h : ¬ (ch = '"' ∨ ch = '\'' ∨ lexDigit ch = true ∨ nameStart ch = true))
    (h1 : ch ≠ '/') (h2 : 32 < ch.toNat) (h3 : ch ≠ '\\') :
    (st.after c ch m).place = if ch = '#' ∧ st.startline = true then ⟨false, true⟩ else { st.place with first := false } := by
  have e1 : ¬ (ch = ' ' ∨ ch = '\t') := by rintro (rfl | rfl) <;> exact absurd h2 (by decide)
  have e2 : ch ≠ '\n' := by rintro rfl; exact absurd h2 (by decide)
  have e3 : ¬ ch.toNat ≤ 31 := by omega
  unfold LexState.after
  simp only [if_neg h, if_neg h1, if_neg e1, if_neg e2, if_neg e3, h3, false_and, if_false]
  unfold LexState.place
  by_cases hs : ch = '#' ∧ st.startline = true <;> simp [hs]

theorem place_slash {c : LexConf} {st : LexState} (m : MainTok) : (st.after c '/' m).place = if m.enters.isSome then {} else st.place := by
  unfold LexState.after
  simp only [show ¬ ('/' = '"' ∨ '/' = '\'' ∨ lexDigit '/' = true ∨ nameStart '/' = true) from by decide, if_false, if_true]
  split <;> rfl

theorem place_blank {c : LexConf} {st : LexState} {ch : Char} (m : MainTok) (h : ch = ' ' ∨ ch = '\t') : (st.after c ch m).place = st.place := by
  unfold LexState.after
  have h1 : ¬ (ch = '"' ∨ ch = '\'' ∨ lexDigit ch = true ∨ nameStart ch = true) := by rcases h with rfl | rfl <;> decide
  have h2 : ch ≠ '/' := by rcases h with rfl | rfl <;> decide
  simp only [if_neg h1, if_neg h2, if_pos h]
  rfl

theorem operators_place : ∀ L ∈ [1, 2, 4, 8, 17], ∀ x ∈ operators L, ∃ ch r, x = ch :: r ∧
    ¬ (ch = '"' ∨ ch = '\'' ∨ lexDigit ch = true ∨ nameStart ch = true) ∧ 32 < ch.toNat ∧ ch ≠ '\\' ∧ (ch = '#' → r = []) ∧
    (ch = '/' → r = [] ∨ r = ['=']) := by
  have H : ([1, 2, 4, 8, 17].all fun L => (operators L).all fun x => match x with
    | [] => false
    | ch :: r => !(decide (ch = '"') || decide (ch = '\'') || lexDigit ch || nameStart ch) && decide (32 < ch.toNat) && decide (ch ≠ '\\') &&
      (decide (ch ≠ '#') || decide (r = [])) && (decide (ch ≠ '/') || decide (r = []) || decide (r = ['=']))) = true := by decide +kernel
  intro L hL x hx
  have := List.all_eq_true.1 (List.all_eq_true.1 H L hL) x hx
  cases x with
  | nil => cases this
  | cons ch r =>
    refine ⟨ch, r, rfl, ?_⟩
    simp only [Bool.and_eq_true, Bool.or_eq_true, Bool.not_eq_true', Bool.or_eq_false_iff, decide_eq_true_eq, decide_eq_false_iff_not] at this
    obtain ⟨⟨⟨⟨h1, h2⟩, h3⟩, h4⟩, h5⟩ := this
    refine ⟨?_, h2, h3, fun e => h4.resolve_left (fun h => h e), fun e => ?_⟩
    · rintro (h | h | h | h)
      · exact h1.1.1.1 h
      · exact h1.1.1.2 h
      · rw [h1.1.2] at h; cases h
      · rw [h1.2] at h; cases h
    · rcases h5 with (h | h) | h
      · exact absurd e h
      · exact .inl h
      · exact .inr h

theorem after_next {c : LexConf} (hl : c.language ∈ languageNumbers) {st : LexState} {d : Bool} {x rest : Str} {k : Spec.LexKind} (h : Lexeme c.language d x k rest)
    {ch : Char} {r : Str} (hx : x = ch :: r) {m : MainTok} (hm : mainTok c st ch (r ++ rest) = some m) :
    (st.after c ch m).place = st.place.next x k := by
  have word : ∀ {y : Str}, isWord y = true → ∀ {r2 : Str}, y ++ r2 = ch :: r → (st.after c ch m).place = { st.place with first := false } := by
    intro y hy r2 e
    obtain ⟨a, b, e2, h1, _⟩ := (isWord_iff y).1 hy
    rw [e2] at e
    injection e with e _
    subst e
    exact place_word m (.inr (.inr (.inr h1)))
  have op : ∀ a ∈ ['@', '.', '?', '"', '\''], a = ch → (st.after c ch m).place = { st.place with first := false } := by
    rintro a ha rfl
    simp only [List.mem_cons, List.not_mem_nil, or_false] at ha
    rcases ha with rfl | rfl | rfl | rfl | rfl
    · exact (place_operator m (by decide) (by decide) (by decide) (by decide)).trans (if_neg (by rintro ⟨h, _⟩; exact absurd h (by decide)))
    · exact (place_operator m (by decide) (by decide) (by decide) (by decide)).trans (if_neg (by rintro ⟨h, _⟩; exact absurd h (by decide)))
    · exact (place_operator m (by decide) (by decide) (by decide) (by decide)).trans (if_neg (by rintro ⟨h, _⟩; exact absurd h (by decide)))
    · exact place_word m (by decide)
    · exact place_word m (by decide)
  have digit : ∀ {n : NumberParts}, n.Good rest → n.text = ch :: r → (st.after c ch m).place = { st.place with first := false } := by
    intro n hn e
    obtain ⟨a, b, q1, q2, _⟩ := hn.whole
    have : n.text = a :: (b ++ n.fraction ++ n.exponent ++ n.imaginary ++ n.suffix) := by simp [NumberParts.text, q1]
    rw [this] at e
    injection e with e _
    subst e
    exact place_word m (.inr (.inr (.inl (by rw [← isDigit_eq]; exact q2))))
  have slash : ∀ {y : Str}, '/' :: y = ch :: r → ∀ {q : CommentStart}, (commentStart c.commentLang (y ++ rest)).2.1 = q →
      (st.after c ch m).place = match q with
        | .opened _ => {}
        | _ => st.place := by
    intro y e q hq
    injection e with e1 e2
    subst e1 e2
    rw [mainTok_slash] at hm
    injection hm with hm
    subst hm
    rw [place_slash]
    unfold lexSlash
    simp only [hq]
    cases q <;> rfl
  subst hx
  generalize hy : ch :: r = y at h
  cases h with
  | word _ _ h1 h2 h3 => exact word h1 (r2 := []) (by rw [hy]; simp)
  | number n _ h1 => rw [digit h1 hy.symm]; split <;> rfl
  | fraction n _ h1 => injection hy with e _; exact op '.' (by decide) e.symm
  | atWord x _ h1 h2 h3 => injection hy with e _; exact op '@' (by decide) e.symm
  | atNumber n _ h1 h2 => injection hy with e _; exact op '@' (by decide) e.symm
  | atOpen x _ h1 h2 =>
    injection hy with e e2
    rw [op '@' (by decide) e.symm]
    unfold LineState.next
    simp only
    rw [if_neg (by rintro ⟨h, _⟩; injection h with h; exact absurd h (by decide)),
      if_neg (by rintro (h | h) <;> (injection h with h; exact absurd h (by decide)))]
  | atString body _ h1 h2 h3 h4 => injection hy with e _; exact op '@' (by decide) e.symm
  | operator _ _ h1 h2 h3 h4 h5 h6 h7 =>
    obtain ⟨a, b, e, q1, q2, q3, q4, q5⟩ := operators_place _ hl _ h1
    rw [← hy] at e
    injection e with e1 e2
    subst e1 e2
    by_cases hs : ch = '/'
    · subst hs
      have hn : commentStart c.commentLang (r ++ rest) = (r, .operator, rest) := by
        rcases q5 rfl with rfl | rfl
        · rw [List.nil_append]
          cases rest with
          | nil => rfl
          | cons k rest =>
            have k1 : k ≠ '/' := by rintro rfl; rw [← hy] at h3; exact h3 ⟨rest, rfl⟩
            have k2 : k ≠ '*' := by rintro rfl; rw [← hy] at h4; exact h4 ⟨rest, rfl⟩
            have k3 : k ≠ '=' := by
              rintro rfl
              rw [← hy] at h2
              have := h2 "/=".toList (by unfold operators; simp) ⟨rest, rfl⟩
              simp at this
            rw [commentStart.eq_def]
            split
            · rename_i e; injection e with e _; exact absurd e k1
            · rename_i e; injection e with e _; exact absurd e k1
            · rename_i e; injection e with e _; exact absurd e k2
            · rename_i e; injection e with e _; exact absurd e k3
            · rfl
        · rfl
      rw [slash rfl (congrArg (·.2.1) hn)]
      unfold LineState.next
      rw [← hy]
      rcases q5 rfl with rfl | rfl <;> rfl
    · rw [place_operator m q1 hs q2 q3]
      unfold LineState.next
      simp only
      rw [← hy]
      by_cases h9 : ch = '#'
      · have := q4 h9
        subst this h9
        simp [LexState.place]
      · rw [if_neg (fun h => h9 h.1), if_neg (by rintro ⟨h, _⟩; injection h with h; exact h9 h),
          if_neg (by rintro (h | h) <;> (injection h with h; exact hs h))]
  | questions n _ h1 =>
    injection hy with e e2
    rw [op '?' (by decide) e.symm]
    unfold LineState.next
    simp only
    rw [if_neg (by rintro ⟨h, _⟩; injection h with h; exact absurd h (by decide)),
      if_neg (by rintro (h | h) <;> (injection h with h; exact absurd h (by decide)))]
  | blank _ _ h1 h2 h3 h4 => exact place_blank m (h2 ch (by rw [← hy]; simp))
  | newline =>
    injection hy with e _
    subst e
    unfold LexState.after
    rfl
  | continuation _ h1 =>
    injection hy with e1 e2
    subst e1 e2
    have : m.text.length > 1 := by
      have e : mainTok c st '\\' (['\n'] ++ rest) = some (lexBackslash c (['\n'] ++ rest)) := by
        unfold mainTok
        rfl
      rw [e] at hm
      injection hm with hm
      subst hm
      simp [lexBackslash]
    unfold LexState.after
    simp only [this]
    rfl
  | string p body _ h1 h2 h3 h4 =>
    rcases h1 with rfl | h1
    · injection hy with e _; exact op '"' (by decide) e.symm
    · have : ∀ q ∈ stringPrefixes, isWord q = true := by decide
      exact word (this p h1) (r2 := '"' :: body ++ ['"']) (by rw [hy]; simp)
  | rawString p dl body _ h1 h2 h3 h4 h5 h6 =>
    have : ∀ q ∈ rawPrefixes, isWord q = true := by decide
    exact word (this p h2) (r2 := '"' :: dl ++ '(' :: body ++ ')' :: dl ++ ['"']) (by rw [hy]; simp)
  | verbatim body _ h1 h2 h3 h4 h5 => injection hy with e _; exact op '@' (by decide) e.symm
  | character body _ h1 h2 => injection hy with e _; exact op '\'' (by decide) e.symm
  | lineComment text _ h1 h2 h3 h4 =>
    have : ∃ m, (commentStart c.commentLang ('/' :: text ++ rest)).2.1 = .opened m := by
      rw [commentStart.eq_def]
      cases hz : text ++ rest with
      | nil => simp [hz]
      | cons a z =>
        simp only [List.cons_append, hz]
        split
        · exact ⟨_, rfl⟩
        · exact ⟨_, rfl⟩
    obtain ⟨m', hm'⟩ := this
    exact slash (y := '/' :: text) hy.symm hm'
  | emptyLineComment text _ h1 =>
    have : ∃ m, (commentStart c.commentLang ('/' :: (text ++ ['\n']) ++ rest)).2.1 = .opened m := by
      rw [commentStart.eq_def]
      cases hz : text ++ ['\n'] ++ rest with
      | nil => simp [hz]
      | cons a z =>
        simp only [List.cons_append, hz]
        split
        · exact ⟨_, rfl⟩
        · exact ⟨_, rfl⟩
    obtain ⟨m', hm'⟩ := this
    exact slash (y := '/' :: (text ++ ['\n'])) (by rw [hy]; simp) hm'
  | blockComment body _ h1 h2 =>
    change First ['*', '/'] (body ++ ['*', '/'] ++ rest) body rest at h1
    change c.language ≠ 4 → ¬ ['!', '/'] <+: body ++ ['*', '/'] at h2
    have sl := @slash ('*' :: (body ++ ['*', '/'])) hy.symm
    unfold LineState.next
    simp only
    have hb := commentStart_block c.commentLang (body ++ ['*', '/'] ++ rest) (by
      rintro ⟨q1, z, q2⟩
      rw [commentLang_eq hl] at q1
      have h4 : c.language ≠ 4 := by intro h4; rw [if_pos h4] at q1; cases q1
      apply h2 h4
      rcases body with _ | ⟨a, _ | ⟨b, body⟩⟩
      · simp at q2
      · simp at q2
      · simp at q2
        obtain ⟨rfl, rfl, _⟩ := q2
        exact ⟨body ++ ['*', '/'], rfl⟩)
    rw [List.cons_append] at sl
    by_cases hb0 : body = []
    · subst hb0
      have hs : commentStart c.commentLang (['*', '*', '/'] ++ rest) = (['*', '*', '/'], .whole, rest) := by
        rw [commentLang_eq hl]
        split <;> rfl
      exact sl (congrArg (·.2.1) hs)
    · have hne : "/*".toList ++ body ++ "*/".toList ≠ "/**/".toList := by
        intro e
        have := congrArg List.length e
        simp at this
        exact hb0 this
      rw [if_neg hne]
      rcases hb with ⟨z, e1, e2⟩ | ⟨u, z, m', e1, e2, e3, e4, e5, e6⟩
      · have := h1.first [] z (by rw [e1]; rfl)
        exact absurd (List.eq_nil_of_length_eq_zero (by simpa using this)) hb0
      · exact sl (congrArg (·.2.1) e5)

end Srcml
