import Verif.Proofs.LexerTypes
/-
Control characters in the tokens of the lexer.
-/
namespace Srcml

open Spec

set_option linter.unusedSimpArgs false

/-- There is no control character other than tab and newline. -/
def Clean (x : Str) : Prop := ∀ ch ∈ x, isControl ch = false

theorem Clean.nil : Clean [] := by intro ch h; cases h

theorem Clean.append {a b : Str} (h1 : Clean a) (h2 : Clean b) : Clean (a ++ b) := by
  intro ch h
  rcases List.mem_append.1 h with h | h
  · exact h1 ch h
  · exact h2 ch h

theorem Clean.cons {a : Char} {b : Str} (h1 : isControl a = false) (h2 : Clean b) : Clean (a :: b) := by
  intro ch h
  rcases List.mem_cons.1 h with rfl | h
  · exact h1
  · exact h2 ch h

theorem Clean.takeWhile {p : Char → Bool} (h : ∀ c, p c = true → isControl c = false) (s : Str) : Clean (s.takeWhile p) := by
  intro ch hm
  exact h ch (List.all_eq_true.1 List.all_takeWhile ch hm)

theorem Clean.opt {p : Char → Bool} (h : ∀ c, p c = true → isControl c = false) (s : Str) : Clean (opt s p) := by
  intro ch hm
  exact h ch (List.mem_filter.1 hm).2

theorem Clean.ite {p : Prop} [Decidable p] {a b : Str} (h1 : Clean a) (h2 : Clean b) : Clean (if p then a else b) := by
  split
  · exact h1
  · exact h2

theorem clean_ge {ch : Char} (h : 32 ≤ ch.toNat) : isControl ch = false := by
  unfold isControl
  simp only [Bool.and_eq_false_iff, decide_eq_false_iff_not]
  exact .inl (.inl (by omega))

theorem digit_clean (c : Char) (h : lexDigit c = true) : isControl c = false := by
  unfold lexDigit at h; simp at h; exact clean_ge (by omega)

theorem nameStart_clean (c : Char) (h : nameStart c = true) : isControl c = false := by
  unfold nameStart at h
  simp at h
  rcases h with (((h | h) | rfl) | h) | rfl
  · exact clean_ge (by omega)
  · exact clean_ge (by omega)
  · decide
  · exact clean_ge (by omega)
  · decide

theorem nameChar_clean (c : Char) (h : nameChar c = true) : isControl c = false := by
  unfold nameChar at h
  rcases Bool.or_eq_true_iff.1 h with h | h
  · exact digit_clean c h
  · exact nameStart_clean c h

theorem constantText_clean (s : Str) : Clean (constantText s).1 := by
  unfold constantText
  dsimp only
  refine .append (.append (.append (.append (.append (.append ?_ ?_) ?_) ?_) ?_) ?_) ?_
  · refine .takeWhile (fun c h => ?_) _
    rcases Bool.or_eq_true_iff.1 h with h | h
    · exact digit_clean c h
    · have := of_decide_eq_true h; subst this; decide
  · refine .takeWhile (fun c h => ?_) _
    rcases Bool.or_eq_true_iff.1 h with h | h
    · have := of_decide_eq_true h; subst this; decide
    · exact digit_clean c h
  · refine .opt (fun c h => ?_) _
    have := of_decide_eq_true h; subst this; decide
  · refine .ite .nil (.takeWhile (fun c h => ?_) _)
    rcases Bool.or_eq_true_iff.1 h with h | h
    · have := of_decide_eq_true h; subst this; decide
    · have := of_decide_eq_true h; subst this; decide
  · exact .ite .nil (.takeWhile digit_clean _)
  · refine .takeWhile (fun c h => ?_) _
    have := of_decide_eq_true h; subst this; decide
  · exact .ite .nil (.takeWhile nameChar_clean _)

/-- An optional character, one of these. -/
theorem opt_clean (s : Str) (p : Char → Bool) (l : List Char) (h : ∀ c, p c = true → c ∈ l) (hl : ∀ c ∈ l, isControl c = false) : Clean (opt s p) :=
  .opt (fun c hc => hl c (h c hc)) s

theorem operatorText_clean (c : LexConf) (st : LexState) {ch : Char} (hch : isControl ch = false) (s : Str) : Clean (operatorText c st ch s) := by
  have key : ∀ p : Char → Bool, (∀ x, p x = true → x ∈ "+-=*|&:><?".toList) → ∀ s, Clean (opt s p) := by
    intro p hp s
    exact opt_clean s p _ hp (by decide)
  unfold operatorText
  dsimp only
  repeat' split
  · exact .cons hch (key _ (by intro x hx; simp at hx; rcases hx with rfl | rfl <;> decide) _)
  · exact .cons hch (.cons (by decide) (key _ (by intro x hx; simp at hx; subst hx; decide) _))
  · exact .cons hch (key _ (by intro x hx; simp at hx; rcases hx with rfl | rfl <;> decide) _)
  · exact .cons hch (key _ (by intro x hx; simp at hx; subst hx; decide) _)
  · rename_i h
    refine .cons hch (.append (.opt (fun x hx => ?_) _) (key _ (by intro x hx; simp at hx; subst hx; decide) _))
    have := of_decide_eq_true hx; subst this; exact hch
  · exact .cons hch (key _ (by intro x hx; simp at hx; subst hx; decide) _)
  · exact .cons hch (key _ (by intro x hx; simp at hx; rcases hx with rfl | ⟨rfl, _⟩ <;> decide) _)
  · exact .cons hch (.append (.cons (by decide) (.cons (by decide) .nil)) (key _ (by intro x hx; simp at hx; subst hx; decide) _))
  · exact .cons hch (.append .nil (key _ (by intro x hx; simp at hx; subst hx; decide) _))
  · exact .cons hch (.cons (by decide) (key _ (by intro x hx; simp at hx; rcases hx with ⟨rfl, _⟩ | rfl <;> decide) _))
  · exact .cons hch (key _ (by intro x hx; simp at hx; subst hx; decide) _)
  · exact .cons hch (.takeWhile (fun x hx => by have := of_decide_eq_true hx; subst this; decide) _)
  · exact .cons hch .nil

theorem commentStart_clean (lang : CommentLang) (s : Str) : Clean (commentStart lang s).1 := by
  unfold commentStart
  split
  · split
    · rename_i h
      refine .cons (by decide) (.cons ?_ .nil)
      rcases h with rfl | rfl <;> decide
    · exact .cons (by decide) .nil
  · exact .cons (by decide) .nil
  · split <;> (intro ch h; revert ch; dsimp only; decide)
  · exact .cons (by decide) .nil
  · exact .nil

theorem lexAt_clean (c : LexConf) (st : LexState) (s : Str) : Clean (lexAt c st s).text := by
  unfold lexAt
  dsimp only
  repeat' split
  · exact .cons (by decide) .nil
  · rename_i h
    refine .cons (by decide) (.cons ?_ .nil)
    rcases h.2 with rfl | rfl | rfl <;> decide
  · exact .cons (by decide) (.takeWhile nameChar_clean _)
  · exact .cons (by decide) (constantText_clean _)
  · rename_i h; exact .cons (by decide) (.cons (by rw [h.2]; decide) .nil)
  · rename_i h; exact .cons (by decide) (.cons (by rw [h.2]; decide) .nil)
  · exact .cons (by decide) .nil

theorem lexDot_clean (c : LexConf) (s : Str) : Clean (lexDot c s).text := by
  unfold lexDot
  repeat' split
  · exact .cons (by decide) .nil
  · rename_i h; exact .cons (by decide) (.cons (by rw [h.2]; decide) .nil)
  · exact .cons (by decide) (.cons (by decide) (.opt (fun x hx => by have := of_decide_eq_true hx; subst this; decide) _))
  · exact .cons (by decide) (constantText_clean _)
  · exact .cons (by decide) .nil

/-- No raw string starts in the text. -/
def NoRaw (c : LexConf) (s : Str) : Prop := c.inLanguage LANGUAGE_CXX = false ∨ ∀ a b, s ≠ a ++ ['R', '"'] ++ b

theorem NoRaw.suffix {c : LexConf} {a b : Str} (h : NoRaw c (a ++ b)) : NoRaw c b := by
  rcases h with h | h
  · exact .inl h
  · refine .inr (fun x y e => h (a ++ x) y ?_)
    rw [e]; simp

theorem lexName_clean {c : LexConf} {s : Str} (h : NoRaw c s) (st : LexState) :
    Clean (lexName c st s).text ∧ ∀ l, (lexName c st s).enters = some l → l.mode ≠ .rawString := by
  unfold lexName
  dsimp only
  have h0 : Clean (s.takeWhile nameChar) := .takeWhile nameChar_clean _
  split
  · rename_i hq
    split
    · exact ⟨.append h0 (.cons (by decide) .nil), by rintro l ⟨⟩; dsimp only; decide⟩
    split
    · rename_i hx
      exfalso
      rcases h with h | h
      · rw [h] at hx; exact absurd hx.1 (by simp)
      · have hs : s = s.takeWhile nameChar ++ s.drop (s.takeWhile nameChar).length := by
          have h2 : ∀ a : Str, a <+: s → s = a ++ s.drop a.length := by
            rintro a ⟨r, rfl⟩; rw [List.drop_left]
          exact h2 _ (List.takeWhile_prefix nameChar)
        have hd := head_prefix hq
        generalize hD : s.drop (s.takeWhile nameChar).length = D at hs hd
        generalize hN : s.takeWhile nameChar = N at hs hx
        have hR : ∃ a, N = a ++ ['R'] := by
          rcases hx.2 with e | e | e | e | e
          · exact ⟨[], e⟩
          · exact ⟨['u', '8'], e⟩
          · exact ⟨['L'], e⟩
          · exact ⟨['U'], e⟩
          · exact ⟨['u'], e⟩
        obtain ⟨a, ha⟩ := hR
        refine h a (D.drop 1) ?_
        rw [hs, ha]
        conv => lhs; rw [hd]
        simp
    · exact ⟨h0, by rintro l ⟨⟩⟩
  · exact ⟨h0, by rintro l ⟨⟩⟩

theorem mainTok_clean {c : LexConf} {st : LexState} {ch : Char} {s : Str} {t : MainTok} (hr : NoRaw c (ch :: s))
    (h : mainTok c st ch s = some t) :
    (Clean t.text ∨ t.type = chars! "CONTROL_CHAR") ∧ ∀ l, t.enters = some l → l.mode ≠ .rawString := by
  unfold mainTok at h
  rcases lex_ite_some h with ⟨hp, rfl⟩ | ⟨_, h⟩
  · exact ⟨.inl (.cons (by decide) .nil), by rintro l ⟨⟩; dsimp only; decide⟩
  rcases lex_ite_some h with ⟨hp, rfl⟩ | ⟨_, h⟩
  · exact ⟨.inl (.cons (by decide) .nil), by rintro l ⟨⟩; dsimp only; decide⟩
  rcases lex_ite_some h with ⟨hp, rfl⟩ | ⟨_, h⟩
  · exact ⟨.inl (constantText_clean _), by rintro l ⟨⟩⟩
  rcases lex_ite_some h with ⟨hp, rfl⟩ | ⟨_, h⟩
  · exact ⟨.inl (lexName_clean hr st).1, (lexName_clean hr st).2⟩
  rcases lex_ite_some h with ⟨hp, rfl⟩ | ⟨_, h⟩
  · refine ⟨.inl ?_, ?_⟩
    · rw [lexSlash_text]; exact .cons (by decide) (commentStart_clean _ _)
    · intro l hl
      unfold lexSlash at hl
      dsimp only at hl
      split at hl
      · rename_i m hm
        cases hl
        dsimp only
        rintro rfl
        have := (commentStart_opened hm).1
        cases this
      · cases hl
      · cases hl
  rcases lex_ite_some h with ⟨hp, rfl⟩ | ⟨_, h⟩
  · refine ⟨.inl (.takeWhile (fun x hx => ?_) _), by rintro l ⟨⟩⟩
    rcases Bool.or_eq_true_iff.1 hx with h | h
    · have := of_decide_eq_true h; subst this; decide
    · have := of_decide_eq_true h; subst this; decide
  rcases lex_ite_some h with ⟨hp, rfl⟩ | ⟨_, h⟩
  · exact ⟨.inl (.cons (by decide) .nil), by rintro l ⟨⟩⟩
  rcases lex_ite_some h with ⟨hp, rfl⟩ | ⟨_, h⟩
  · exact ⟨.inr rfl, by rintro l ⟨⟩⟩
  rcases lex_ite_some h with ⟨hp, rfl⟩ | ⟨_, h⟩
  · refine ⟨.inl (lexAt_clean _ _ _), ?_⟩
    intro l hl
    unfold lexAt at hl
    dsimp only at hl
    repeat' split at hl
    all_goals first
      | (cases hl; done)
      | (cases hl; dsimp only; decide)
  rcases lex_ite_some h with ⟨hp, rfl⟩ | ⟨_, h⟩
  · exact ⟨.inl (lexDot_clean _ _), by rw [(lexDot_type _ _).2]; rintro l ⟨⟩⟩
  rcases lex_ite_some h with ⟨hp, rfl⟩ | ⟨_, h⟩
  · refine ⟨.inl (.cons (by decide) (.takeWhile (fun x hx => ?_) _)), by rintro l ⟨⟩⟩
    have := of_decide_eq_true hx; subst this; decide
  rcases lex_ite_some h with ⟨hp, rfl⟩ | ⟨_, h⟩
  · refine ⟨.inl (operatorText_clean _ _ ?_ _), by rintro l ⟨⟩⟩
    exact (show ∀ x ∈ plainOperators, isControl x = false by decide +kernel) _ hp
  · cases h

/-! ### The lexer for texts -/

theorem isControl_controlChar (ch : Char) : isControl ch = controlChar ch := by
  unfold isControl controlChar
  congr 2
  simp only [decide_eq_decide]
  omega

theorem alt_clean {l : TextLexer} (hl : l.mode ≠ .rawString) (prev c : Char) (rest : Str) : Clean (l.alt prev c rest).1 := by
  unfold TextLexer.alt
  split
  · exact .nil
  split
  · exact .nil
  split
  · dsimp only
    exact .ite (.takeWhile (fun x hx => by have := of_decide_eq_true hx; subst this; decide) _) .nil
  split
  · exact .nil
  split
  · rename_i h; exact absurd h.2 hl
  split
  · exact .nil
  split <;> exact .nil

theorem same_raw {l l' : TextLexer} (h : l.Same l') (hl : l.mode ≠ .rawString) : l'.mode ≠ .rawString := by
  rcases h with h | ⟨h, _⟩
  · rw [h]; exact hl
  · exact absurd h hl

theorem loop_clean (l : TextLexer) (prev : Char) (first : Bool) (s : Str) (hl : l.mode ≠ .rawString) :
    (l.loop prev first s).2.1 = .control ∨ Clean (l.loop prev first s).1 := by
  fun_induction TextLexer.loop l prev first s with
  | case1 => exact .inr .nil
  | case2 => exact .inr .nil
  | case3 l prev first c rest h r t ht x ih =>
    have hs : l.Same r.2.2.2.1 := alt_same l prev c rest
    have hr : Clean r.1 := alt_clean hl prev c rest
    rcases ih (same_raw hs hl) with ih | ih
    · exact .inl ih
    · right
      have hc : isControl c = false := by
        rw [isControl_controlChar]
        cases hcc : controlChar c with
        | false => rfl
        | true =>
          exfalso
          have h1 : r = ([], rest, .control, l, c) := alt_control l hcc prev rest
          have h2 : t = .control := by
            show r.2.2.2.1.after r.2.1 r.2.2.1 = _
            rw [h1]; exact after_control _ _
          rw [h2] at ht; cases ht
      exact .append (.cons hc hr) ih
  | case4 l prev first c rest h r t ht =>
    have hr : Clean r.1 := alt_clean hl prev c rest
    cases hcc : controlChar c with
    | false => exact .inr (.cons (by rw [isControl_controlChar]; exact hcc) hr)
    | true =>
      left
      have h1 : r = ([], rest, .control, l, c) := alt_control l hcc prev rest
      show r.2.2.2.1.after r.2.1 r.2.2.1 = _
      rw [h1]; exact after_control _ _

theorem tokens_clean (l : TextLexer) (s : Str) (hl : l.mode ≠ .rawString) : ∀ x ∈ (l.tokens s).1, x.2 = .control ∨ Clean x.1 := by
  fun_induction TextLexer.tokens l s with
  | case1 => intro x h; cases h
  | case2 l c rest r m hm =>
    intro x hx
    simp at hx
    subst hx
    rcases loop_clean l (Char.ofNat 0) true (c :: rest) hl with h | h
    · have h : r.2.1 = .control := h
      rw [hm] at h; cases h
    · exact .inr h
  | case3 l c rest r t h ih =>
    intro x hx
    have hs : l.Same r.2.2.1 := (loop_types l (Char.ofNat 0) true (c :: rest)).1
    rcases List.mem_cons.1 hx with rfl | hx
    · exact loop_clean l (Char.ofNat 0) true (c :: rest) hl
    · exact ih (same_raw hs hl) x hx

/-- Control characters are only in their own tokens. -/
theorem lexWith_clean (c : LexConf) (n : Nat) (st : LexState) (s : Str) (hr : NoRaw c s) :
    ∀ t ∈ (lexWith c n st s).toks, t.type = chars! "CONTROL_CHAR" ∨ Clean t.text := by
  fun_induction lexWith c n st s with
  | case1 => intro t h; cases h
  | case2 => intro t h; cases h
  | case3 => intro t h; cases h
  | case4 fuel st ch s t ht st' rest tok hen r ih =>
    intro t' h
    rcases List.mem_cons.1 h with rfl | h
    · exact (mainTok_clean hr ht).1.symm
    · refine ih ?_ t' h
      obtain ⟨⟨z, hz⟩, _⟩ := mainTok_prefix ht
      have hrest : rest = z := by
        show (ch :: s).drop t.text.length = z
        rw [← hz, List.drop_left]
      rw [hrest]
      exact NoRaw.suffix (a := t.text) (by rw [hz]; exact hr)
  | case5 fuel st ch s t ht st' rest tok l hen x p r ih =>
    intro t' h
    obtain ⟨⟨z, hz⟩, _⟩ := mainTok_prefix ht
    have hrest : rest = z := by
      show (ch :: s).drop t.text.length = z
      rw [← hz, List.drop_left]
    have hx : x.1.flatMap (·.1) ++ x.2 = rest := tokens_split l rest
    rcases List.mem_cons.1 h with rfl | h
    · exact (mainTok_clean hr ht).1.symm
    · rcases List.mem_append.1 h with h | h
      · obtain ⟨y, h1, q, rfl⟩ := textToks_mem h
        rcases tokens_clean l rest ((mainTok_clean hr ht).2 l hen) y h1 with h2 | h2
        · left; rw [h2]; rfl
        · exact .inr h2
      · refine ih ?_ t' h
        refine NoRaw.suffix (a := t.text ++ x.1.flatMap (·.1)) ?_
        rw [List.append_assoc, hx, hrest, hz]; exact hr

end Srcml
