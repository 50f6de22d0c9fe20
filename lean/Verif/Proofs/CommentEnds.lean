import Verif.Proofs.CommentText
import Verif.Spec.CommentText
set_option linter.unusedSimpArgs false
/-
Where the text lexer gives back control.
-/
namespace Srcml
open Spec

theorem after_block (l : TextLexer) (h : l.mode.isBlock = true) (rest : Str) (t : TextType) : l.after rest t = t := by
  unfold TextLexer.after
  rw [if_neg]
  rintro ⟨-, -, h2⟩
  cases hm : l.mode <;> simp_all [TextMode.isBlock, TextMode.isLiteral, TextMode.isLine]

/-- The quotes that are taken together are quotes, and one character of them at a time gives the same. -/
theorem quotes_split (s : Str) : s = s.takeWhile (· = '"') ++ s.drop (s.takeWhile (· = '"')).length := by
  induction s with
  | nil => rfl
  | cons c s ih =>
    by_cases h : c = '"'
    · simp [h, ← ih]
    · simp [h]

theorem takeWhile_quotes (s : Str) : ∀ c ∈ s.takeWhile (· = '"'), c = '"' := by
  induction s with
  | nil => simp
  | cons c s ih =>
    by_cases h : c = '"'
    · subst h
      simp only [decide_true, List.takeWhile_cons_of_pos, List.mem_cons]
      rintro d (rfl | hd)
      · rfl
      · exact ih d hd
    · simp [h]

/-- The first `*/`, with a `*` or not before the text. -/
def blockEnd (star : Bool) : Str → Str × Bool × Str
  | [] => ([], false, [])
  | c :: s => if star ∧ c = '/' then (['/'], true, s) else (c :: (blockEnd (c = '*') s).1, (blockEnd (c = '*') s).2)

theorem blockEnd_quotes (q : Str) (hq : ∀ c ∈ q, c = '"') (s : Str) (hne : q ≠ []) (b : Bool) :
    blockEnd b (q ++ s) = (q ++ (blockEnd false s).1, (blockEnd false s).2) := by
  induction q generalizing b with
  | nil => exact absurd rfl hne
  | cons c q ih =>
    have hc := hq c (by simp)
    subst hc
    cases q with
    | nil => simp [blockEnd]
    | cons d q =>
      rw [List.cons_append, blockEnd, ih (fun c h => hq c (by simp [h])) (by simp)]
      simp

theorem scan_block (l : TextLexer) (hl : l.mode.isBlock = true) (hn : l.noescape = false) (prev : Char) (s : Str) :
    l.scan prev s = ((blockEnd (prev = '*') s).1, if (blockEnd (prev = '*') s).2.1 then some l.mode else none, (blockEnd (prev = '*') s).2.2) := by
  have hline : l.mode.isLine = false := by cases hm : l.mode <;> simp_all [TextMode.isBlock, TextMode.isLine]
  have hlit : l.mode.isLiteral = false := by cases hm : l.mode <;> simp_all [TextMode.isBlock, TextMode.isLiteral]
  have hs : l.mode ≠ .string := by intro h; simp [h, TextMode.isBlock] at hl
  have hch : l.mode ≠ .char := by intro h; simp [h, TextMode.isBlock] at hl
  have hr : l.mode ≠ .rawString := by intro h; simp [h, TextMode.isBlock] at hl
  induction hk : s.length using Nat.strongRecOn generalizing prev s with
  | _ k ih =>
  subst hk
  cases s with
  | nil => simp [TextLexer.scan, blockEnd]
  | cons c rest =>
    have step : ∀ (run rest' : Str) (t : TextType) (p : Char), rest'.length ≤ rest.length → (∀ m, t ≠ .ended m) →
        l.alt prev c rest = (run, rest', t, l, p) → (p = '*' ↔ c = '*' ∧ run = []) →
        blockEnd (prev = '*') (c :: rest) = (c :: run ++ (blockEnd (p = '*') rest').1, (blockEnd (p = '*') rest').2) →
        l.scan prev (c :: rest) = ((blockEnd (prev = '*') (c :: rest)).1,
          if (blockEnd (prev = '*') (c :: rest)).2.1 then some l.mode else none, (blockEnd (prev = '*') (c :: rest)).2.2) := by
      intro run rest' t p hle ht ha hp hb
      rw [TextLexer.scan, ha]
      simp only [after_block l hl]
      rw [hb]
      have := ih rest'.length (by simp only [List.length_cons]; omega) p rest' rfl
      cases t with
      | ended m => exact absurd rfl (ht m)
      | text => simp only [this]
      | control => simp only [this]
    by_cases hc : controlChar c = true
    · refine step [] rest .control c (Nat.le_refl _) (by simp) (alt_control l hc prev rest) (by simp) ?_
      have : c ≠ '/' := by rintro rfl; exact absurd hc (by decide)
      simp [blockEnd, this]
    by_cases h1 : c = '\n'
    · subst h1
      exact step [] rest .text '\n' (Nat.le_refl _) (by simp) (by unfold TextLexer.alt; simp [controlChar, hline, hlit]) (by simp) (by simp [blockEnd])
    by_cases h2 : c = '"'
    · subst h2
      by_cases hp : prev = '\\'
      · exact step [] rest .text '"' (Nat.le_refl _) (by simp) (by unfold TextLexer.alt; simp [controlChar, hn, hp]) (by simp) (by simp [blockEnd])
      · refine step (rest.takeWhile (· = '"')) (rest.drop (rest.takeWhile (· = '"')).length) .text '"' (by simp) (by simp)
          (by unfold TextLexer.alt; simp [controlChar, hn, hp, hs]) (by simp) ?_
        have := blockEnd_quotes ('"' :: rest.takeWhile (· = '"')) (by simpa using takeWhile_quotes rest)
          (rest.drop (rest.takeWhile (· = '"')).length) (by simp) (prev = '*')
        rw [List.cons_append, ← quotes_split] at this
        exact this
    by_cases h3 : c = '\''
    · subst h3
      exact step [] rest .text '\'' (Nat.le_refl _) (by simp) (by unfold TextLexer.alt; simp [controlChar, hch]) (by simp) (by simp [blockEnd])
    by_cases h4 : c = '/'
    · subst h4
      by_cases hp : prev = '*'
      · rw [TextLexer.scan]
        have : l.alt prev '/' rest = ([], rest, .ended l.mode, l, '/') := by
          unfold TextLexer.alt
          simp [controlChar, hp, hl]
        rw [this]
        simp [after_block l hl, blockEnd, hp]
      · exact step [] rest .text '/' (Nat.le_refl _) (by simp) (by unfold TextLexer.alt; simp [controlChar, hp]) (by simp) (by simp [blockEnd, hp])
    by_cases h5 : c = '\\'
    · subst h5
      by_cases hp : prev = '\\'
      · exact step [] rest .text (Char.ofNat 0) (Nat.le_refl _) (by simp) (by unfold TextLexer.alt; simp [controlChar, hp]) (by simp) (by simp [blockEnd])
      · exact step [] rest .text '\\' (Nat.le_refl _) (by simp) (by unfold TextLexer.alt; simp [controlChar, hp]) (by simp) (by simp [blockEnd])
    · exact step [] rest .text c (Nat.le_refl _) (by simp) (by unfold TextLexer.alt; simp [hc, h1, h2, h3, h4, h5, hr]) (by simp) (by simp [blockEnd, h4])

theorem blockEnd_some (b : Bool) (pre post : Str)
    (h : ∀ a r, (if b then ['*'] else []) ++ pre ++ ['*'] ≠ a ++ ['*', '/'] ++ r) :
    blockEnd b (pre ++ ['*', '/'] ++ post) = (pre ++ ['*', '/'], true, post) := by
  induction pre generalizing b with
  | nil => simp [blockEnd]
  | cons c pre ih =>
    rw [List.cons_append, List.cons_append, blockEnd, if_neg, ih]
    · intro a r e
      by_cases hc : c = '*'
      · subst hc
        refine h ((if b then ['*'] else []) ++ a) r ?_
        simp only [decide_true, if_true] at e
        rw [List.append_assoc, List.append_assoc, List.append_assoc, ← List.append_assoc a, ← e]
        simp
      · refine h ((if b then ['*'] else []) ++ c :: a) r ?_
        simp only [hc, decide_false, Bool.false_eq_true, if_false, List.nil_append] at e
        rw [List.append_assoc, List.append_assoc, List.append_assoc, List.cons_append, List.cons_append, ← List.append_assoc a, ← e]
    · rintro ⟨hb, rfl⟩
      exact h [] (pre ++ ['*']) (by simp [hb])

theorem blockEnd_none (b : Bool) (s : Str) (h : ∀ a r, (if b then ['*'] else []) ++ s ≠ a ++ ['*', '/'] ++ r) :
    blockEnd b s = (s, false, []) := by
  induction s generalizing b with
  | nil => simp [blockEnd]
  | cons c s ih =>
    rw [blockEnd, if_neg, ih]
    · intro a r e
      by_cases hc : c = '*'
      · subst hc
        refine h ((if b then ['*'] else []) ++ a) r ?_
        simp only [decide_true, if_true] at e
        rw [List.append_assoc, List.append_assoc, ← List.append_assoc a, ← e]
        simp
      · refine h ((if b then ['*'] else []) ++ c :: a) r ?_
        simp only [hc, decide_false, Bool.false_eq_true, if_false, List.nil_append] at e
        rw [List.append_assoc, List.append_assoc, List.cons_append, ← List.append_assoc a, ← e]
    · rintro ⟨hb, rfl⟩
      exact h [] s (by simp [hb])

theorem First.before {pat s pre post : Str} (h : First pat s pre post) {k : Char} {p : Str} (hp : pat = p ++ [k]) :
    ∀ a r, pre ++ p ≠ a ++ pat ++ r := by
  intro a r e
  have h1 := h.first a (r ++ k :: post) (by rw [h.split, hp, ← List.append_assoc, e, hp]; simp)
  have := congrArg List.length e
  simp [hp] at this
  omega

/-! ### Line comments -/

theorem takeWhile_line {x y : Str} (hx : '\n' ∉ x) (hy : y = [] ∨ y.head? = some '\n') : (x ++ y).takeWhile (· ≠ '\n') = x := by
  induction x with
  | nil =>
    rcases hy with rfl | hy
    · rfl
    · cases y with
      | nil => cases hy
      | cons c y =>
        cases hy
        simp
  | cons c x ih =>
    have : c ≠ '\n' := fun e => hx (by simp [e])
    simp only [List.cons_append, List.takeWhile_cons]
    rw [if_pos (by simpa using this), ih (fun h => hx (by simp [h]))]

theorem alt_line (l : TextLexer) (hl : l.mode.isLine = true) (hn : l.noescape = false) (prev c : Char) (rest : Str) (hc : c ≠ '\n') :
    (l.alt prev c rest).2.2.2.1 = l ∧ (l.alt prev c rest).1 ++ (l.alt prev c rest).2.1 = rest ∧ '\n' ∉ (l.alt prev c rest).1 ∧
      ∀ m, (l.alt prev c rest).2.2.1 ≠ .ended m := by
  have hs : l.mode ≠ .string := by intro h; simp [h, TextMode.isLine] at hl
  have hch : l.mode ≠ .char := by intro h; simp [h, TextMode.isLine] at hl
  have hr : l.mode ≠ .rawString := by intro h; simp [h, TextMode.isLine] at hl
  have hb : l.mode.isBlock = false := by cases hm : l.mode <;> simp_all [TextMode.isBlock, TextMode.isLine]
  unfold TextLexer.alt
  by_cases hcc : controlChar c = true
  · simp [hcc]
  simp only [hcc, hc, if_false]
  by_cases h2 : c = '"'
  · subst h2
    by_cases hp : prev = '\\'
    · simp [hp, hn]
    · simp only [if_true, hp, ne_eq, not_false_eq_true, hn, hs]
      refine ⟨by simp, (quotes_split rest).symm, ?_, by simp⟩
      intro h
      exact absurd (takeWhile_quotes rest _ h) (by decide)
  by_cases h3 : c = '\''
  · subst h3
    simp [hch]
  by_cases h4 : c = '/'
  · subst h4
    simp [hb]
  by_cases h5 : c = '\\'
  · subst h5
    simp
  · simp [h2, h3, h4, h5, hr]

theorem after_line (l : TextLexer) (hl : l.mode.isLine = true) (rest : Str) :
    l.after rest .text = if rest = [] ∨ rest.head? = some '\n' then .ended l.mode else .text := by
  have hr : l.mode ≠ .rawString := by intro h; simp [h, TextMode.isLine] at hl
  unfold TextLexer.after
  by_cases h : rest = [] ∨ rest.head? = some '\n'
  · rw [if_pos h, if_pos]
    refine ⟨rfl, ?_, .inr hl⟩
    rcases h with h | h
    · exact .inr h
    · exact .inl ⟨h, hr⟩
  · rw [if_neg h, if_neg]
    rintro ⟨-, h1, -⟩
    rcases h1 with h1 | h1
    · exact h (.inr h1.1)
    · exact h (.inl h1)

theorem textLoop_line (l : TextLexer) (prev : Char) (first : Bool) (s : Str) (hl : l.mode.isLine = true) (hn : l.noescape = false)
    (hs : s.head? ≠ some '\n') :
    (l.loop prev first s).1 ++ (l.loop prev first s).2.2.2 = s ∧ '\n' ∉ (l.loop prev first s).1 ∧ (l.loop prev first s).2.2.1 = l ∧
      ∀ m, (l.loop prev first s).2.1 = .ended m → m = l.mode ∧
        ((l.loop prev first s).2.2.2 = [] ∨ (l.loop prev first s).2.2.2.head? = some '\n') := by
  fun_induction TextLexer.loop l prev first s with
  | case1 => simp
  | case2 => simp
  | case3 l prev first c rest h r t ht x ih =>
    have hc : c ≠ '\n' := by intro e; exact hs (by simp [e])
    obtain ⟨a1, a2, a3, a4⟩ := alt_line l hl hn prev c rest hc
    have hr : l.alt prev c rest = r := rfl
    rw [hr] at a1 a2 a3 a4
    have hk : r.2.2.2.1.after r.2.1 r.2.2.1 = .text := ht
    have hty : r.2.2.1 = .text := by
      rcases after_cases r.2.2.2.1 r.2.1 r.2.2.1 with e | e
      · rw [← e, hk]
      · rw [hk] at e; cases e
    rw [hty, a1, after_line l hl] at hk
    have hne : ¬ (r.2.1 = [] ∨ r.2.1.head? = some '\n') := by
      intro e
      rw [if_pos e] at hk
      cases hk
    obtain ⟨i1, i2, i3, i4⟩ := ih (by rw [a1]; exact hl) (by rw [a1]; exact hn) (fun e => hne (.inr e))
    have hx : TextLexer.loop r.2.2.2.1 r.2.2.2.2 false r.2.1 = x := rfl
    rw [hx] at i1 i2 i3 i4
    refine ⟨?_, ?_, ?_, ?_⟩
    · show c :: r.1 ++ x.1 ++ x.2.2.2 = c :: rest
      rw [List.append_assoc, i1, List.cons_append, a2]
    · intro hm
      rcases List.mem_append.mp hm with hm | hm
      · rcases List.mem_cons.mp hm with hm | hm
        · exact hc hm.symm
        · exact a3 hm
      · exact i2 hm
    · show x.2.2.1 = l
      rw [i3, a1]
    · intro m hm
      obtain ⟨q1, q2⟩ := i4 m hm
      exact ⟨by rw [q1, a1], q2⟩
  | case4 l prev first c rest h r t ht =>
    have hc : c ≠ '\n' := by intro e; exact hs (by simp [e])
    obtain ⟨a1, a2, a3, a4⟩ := alt_line l hl hn prev c rest hc
    have hr : l.alt prev c rest = r := rfl
    rw [hr] at a1 a2 a3 a4
    refine ⟨by simp [a2], ?_, a1, ?_⟩
    · intro hm
      rcases List.mem_cons.mp hm with hm | hm
      · exact hc hm.symm
      · exact a3 hm
    · intro m hm
      have hk : r.2.2.2.1.after r.2.1 r.2.2.1 = .ended m := hm
      have hty : r.2.2.1 = .text := by
        cases hq : r.2.2.1 with
        | text => rfl
        | ended n => exact absurd hq (a4 n)
        | control => rw [hq, after_control] at hk; cases hk
      rw [hty, a1, after_line l hl] at hk
      split at hk
      · rename_i e
        cases hk
        exact ⟨rfl, e⟩
      · cases hk

/-- The element of a line comment has the text before the end of the line. -/
theorem tokens_line (l : TextLexer) (s : Str) (hl : l.mode.isLine = true) (hn : l.noescape = false) :
    commentInside [] (l.tokens s).1 = s.takeWhile (· ≠ '\n') ∧
      (s = s.takeWhile (· ≠ '\n') ++ (l.tokens s).2 ∨ s = s.takeWhile (· ≠ '\n') ++ '\n' :: (l.tokens s).2) := by
  fun_induction TextLexer.tokens l s with
  | case1 => simp [commentInside]
  | case2 l c rest r m hm =>
    by_cases hc : c = '\n'
    · subst hc
      have hr : r = (['\n'], .ended l.mode, l, rest) := by
        show l.loop (Char.ofNat 0) true ('\n' :: rest) = _
        rw [TextLexer.loop]
        have : l.alt (Char.ofNat 0) '\n' rest = ([], rest, .ended l.mode, l, '\n') := by
          unfold TextLexer.alt
          simp [controlChar, hl]
        rw [this]
        have : l.after rest (.ended l.mode) = .ended l.mode := by
          unfold TextLexer.after
          simp
        simp [this, controlChar]
      rw [hr] at hm ⊢
      cases hm
      simp [commentInside, hl]
    · obtain ⟨i1, i2, -, i4⟩ := textLoop_line l (Char.ofNat 0) true (c :: rest) hl hn (by simpa using hc)
      have hr : l.loop (Char.ofNat 0) true (c :: rest) = r := rfl
      rw [hr] at i1 i2 i4
      obtain ⟨-, q⟩ := i4 m hm
      have hlast : r.1.getLast? ≠ some '\n' := fun e => i2 (List.mem_of_getLast? e)
      rw [← i1, takeWhile_line i2 q]
      refine ⟨?_, .inl rfl⟩
      simp [commentInside, hlast]
  | case3 l c rest r x hm ih =>
    have hc : c ≠ '\n' := by
      rintro rfl
      apply hm l.mode
      show (l.loop (Char.ofNat 0) true ('\n' :: rest)).2.1 = _
      rw [TextLexer.loop]
      have : l.alt (Char.ofNat 0) '\n' rest = ([], rest, .ended l.mode, l, '\n') := by
        unfold TextLexer.alt
        simp [controlChar, hl]
      rw [this]
      have : l.after rest (.ended l.mode) = .ended l.mode := by
        unfold TextLexer.after
        simp
      simp [this, controlChar]
    obtain ⟨i1, i2, i3, -⟩ := textLoop_line l (Char.ofNat 0) true (c :: rest) hl hn (by simpa using hc)
    have hr : l.loop (Char.ofNat 0) true (c :: rest) = r := rfl
    rw [hr] at i1 i2 i3
    obtain ⟨j1, j2⟩ := ih (by rw [i3]; exact hl) (by rw [i3]; exact hn)
    have hx : TextLexer.tokens r.2.2.1 r.2.2.2 = x := rfl
    rw [hx] at j1 j2
    have htw : (r.1 ++ r.2.2.2).takeWhile (· ≠ '\n') = r.1 ++ r.2.2.2.takeWhile (· ≠ '\n') := by
      clear j1 j2 hx hr i1 ih i3 hm x
      generalize r.1 = u at i2
      induction u with
      | nil => rfl
      | cons d u ih =>
        have : d ≠ '\n' := fun e => i2 (by simp [e])
        simp only [List.cons_append, List.takeWhile_cons]
        rw [if_pos (by simpa using this), ih (fun h => i2 (by simp [h]))]
    rw [← i1, htw]
    refine ⟨?_, ?_⟩
    · rw [← j1]
      show commentInside [] ((r.1, r.2.1) :: x.1) = _
      cases hq : r.2.1 with
      | ended m => exact absurd hq (hm m)
      | text => simp [commentInside]
      | control => simp [commentInside]
    · rcases j2 with j2 | j2
      · left
        show r.1 ++ r.2.2.2 = r.1 ++ _ ++ x.2
        rw [List.append_assoc, ← j2]
      · right
        show r.1 ++ r.2.2.2 = r.1 ++ _ ++ '\n' :: x.2
        rw [List.append_assoc, ← j2]

end Srcml
