import Verif.Model.CommentText
set_option linter.unusedSimpArgs false
/-
The tokens of the text lexer together: where a token ends does not matter for where the text ends.
-/
namespace Srcml

/-- The text that is consumed until the lexer gives back control, in which mode it does, and the rest. -/
def TextLexer.scan (l : TextLexer) (prev : Char) (s : Str) : Str × Option TextMode × Str :=
  match s with
  | [] => ([], none, [])
  | c :: rest =>
    let r := l.alt prev c rest
    match r.2.2.2.1.after r.2.1 r.2.2.1 with
    | .ended m => (c :: r.1, some m, r.2.1)
    | _ =>
      let x := TextLexer.scan r.2.2.2.1 r.2.2.2.2 r.2.1
      (c :: r.1 ++ x.1, x.2)
termination_by s.length
decreasing_by
  all_goals
    have := alt_rest l prev c rest
    simp only [List.length_cons]
    omega

theorem alt_congr (l : TextLexer) {p q : Char} (h1 : p = '\\' ↔ q = '\\') (h2 : p = '*' ↔ q = '*') (c : Char) (rest : Str) :
    l.alt p c rest = l.alt q c rest := by
  unfold TextLexer.alt
  simp only [ne_eq, h1, h2]

theorem alt_control (l : TextLexer) {c : Char} (h : controlChar c = true) (p : Char) (rest : Str) :
    l.alt p c rest = ([], rest, .control, l, c) := by
  unfold TextLexer.alt
  rw [if_pos h]

theorem scan_congr (l : TextLexer) {p q : Char} (h1 : p = '\\' ↔ q = '\\') (h2 : p = '*' ↔ q = '*') (s : Str) :
    l.scan p s = l.scan q s := by
  cases s with
  | nil => unfold TextLexer.scan; rfl
  | cons c rest => rw [TextLexer.scan, TextLexer.scan, alt_congr l h1 h2]

theorem scan_control (l : TextLexer) {c : Char} (h : controlChar c = true) (p q : Char) (rest : Str) :
    l.scan p (c :: rest) = l.scan q (c :: rest) := by
  rw [TextLexer.scan, TextLexer.scan, alt_control l h, alt_control l h]

theorem after_cases (l : TextLexer) (rest : Str) (t : TextType) : l.after rest t = t ∨ l.after rest t = .ended l.mode := by
  unfold TextLexer.after
  split
  · right; rfl
  · left; rfl

theorem after_control (l : TextLexer) (rest : Str) : l.after rest .control = .control := by
  unfold TextLexer.after
  simp

theorem control_ne {c : Char} (h : controlChar c = true) : c ≠ '\\' ∧ c ≠ '*' := by
  constructor <;> rintro rfl <;> exact absurd h (by decide)

theorem alt_is_control {l : TextLexer} {p c : Char} {rest : Str} (h : (l.alt p c rest).2.2.1 = .control) : controlChar c = true := by
  cases hc : controlChar c with
  | true => rfl
  | false =>
    exfalso
    unfold TextLexer.alt at h
    rw [if_neg (by simp [hc])] at h
    repeat' (split at h)
    all_goals first
      | (cases h; done)
      | (simp only [] at h; split at h <;> cases h)

/-- One token and then the rest. -/
theorem loop_scan (l : TextLexer) (prev : Char) (first : Bool) (s : Str) :
    l.scan prev s = (match (l.loop prev first s).2.1 with
      | .ended m => ((l.loop prev first s).1, some m, (l.loop prev first s).2.2.2)
      | _ => ((l.loop prev first s).1 ++ ((l.loop prev first s).2.2.1.scan (Char.ofNat 0) (l.loop prev first s).2.2.2).1,
          ((l.loop prev first s).2.2.1.scan (Char.ofNat 0) (l.loop prev first s).2.2.2).2)) := by
  fun_induction TextLexer.loop l prev first s with
  | case1 => simp [TextLexer.scan]
  | case2 l prev first c rest h =>
    simp only [Bool.and_eq_true] at h
    simp only [List.nil_append]
    exact scan_control l h.1 _ _ _
  | case3 l prev first c rest h r t ht x ih =>
    rw [TextLexer.scan]
    simp only
    have : r.2.2.2.1.after r.2.1 r.2.2.1 = .text := ht
    have hr : l.alt prev c rest = r := rfl
    rw [hr, this]
    simp only [ih]
    show _ = (match x.2.1 with
      | .ended m => ((c :: r.1 ++ x.1), some m, x.2.2.2)
      | _ => ((c :: r.1 ++ x.1) ++ (x.2.2.1.scan (Char.ofNat 0) x.2.2.2).1, (x.2.2.1.scan (Char.ofNat 0) x.2.2.2).2))
    have hx : TextLexer.loop r.2.2.2.1 r.2.2.2.2 false r.2.1 = x := rfl
    rw [hx]
    generalize x = y
    cases hq : y.2.1 <;> simp
  | case4 l prev first c rest h r t ht =>
    rw [TextLexer.scan]
    simp only
    have hr : l.alt prev c rest = r := rfl
    have hd : r.2.2.2.1.after r.2.1 r.2.2.1 = t := rfl
    rw [hr, hd]
    cases hq : t with
    | text => exact absurd hq ht
    | ended m => rfl
    | control =>
      simp only
      have hk : r.2.2.1 = .control := by
        rcases after_cases r.2.2.2.1 r.2.1 r.2.2.1 with h | h
        · rw [hd, hq] at h; exact h.symm
        · rw [hd, hq] at h; cases h
      have hcc : controlChar c = true := alt_is_control hk
      have hrr : r = ([], rest, .control, l, c) := alt_control l hcc prev rest
      rw [hrr]
      simp only
      rw [scan_congr l (p := c) (q := Char.ofNat 0)]
      · simp [(control_ne hcc).1]
      · simp [(control_ne hcc).2]

/-- All tokens: their texts, the rest, and the type of the last one. -/
theorem tokens_scan (l : TextLexer) (s : Str) :
    (l.tokens s).1.flatMap (·.1) = (l.scan (Char.ofNat 0) s).1 ∧ (l.tokens s).2 = (l.scan (Char.ofNat 0) s).2.2 ∧
      (∀ m, (l.scan (Char.ofNat 0) s).2.1 = some m → ∃ ts x, (l.tokens s).1 = ts ++ [(x, .ended m)] ∧ ∀ t ∈ ts, ∀ n, t.2 ≠ .ended n) ∧
      ((l.scan (Char.ofNat 0) s).2.1 = none → ∀ t ∈ (l.tokens s).1, ∀ n, t.2 ≠ .ended n) := by
  fun_induction TextLexer.tokens l s with
  | case1 => simp [TextLexer.scan]
  | case2 l c rest r m hm =>
    have := loop_scan l (Char.ofNat 0) true (c :: rest)
    have hr : l.loop (Char.ofNat 0) true (c :: rest) = r := rfl
    rw [hr, hm] at this
    rw [this]
    refine ⟨by simp, rfl, ?_, by simp⟩
    intro n hn
    cases hn
    exact ⟨[], r.1, rfl, by simp⟩
  | case3 l c rest r x hm ih =>
    have := loop_scan l (Char.ofNat 0) true (c :: rest)
    have hr : l.loop (Char.ofNat 0) true (c :: rest) = r := rfl
    rw [hr] at this
    obtain ⟨i1, i2, i3, i4⟩ := ih
    have hs : l.scan (Char.ofNat 0) (c :: rest) = (r.1 ++ (r.2.2.1.scan (Char.ofNat 0) r.2.2.2).1, (r.2.2.1.scan (Char.ofNat 0) r.2.2.2).2) := by
      rw [this]
      cases hq : r.2.1 with
      | text => rfl
      | control => rfl
      | ended m => exact absurd hq (hm m)
    rw [hs]
    refine ⟨by simp [← i1, x], i2, ?_, ?_⟩
    · intro m h
      obtain ⟨ts, y, e1, e2⟩ := i3 m h
      refine ⟨(r.1, r.2.1) :: ts, y, by simp [x, e1], ?_⟩
      intro t ht n
      rcases List.mem_cons.mp ht with rfl | ht
      · exact hm n
      · exact e2 t ht n
    · intro h t ht n
      rcases List.mem_cons.mp ht with rfl | ht
      · exact hm n
      · exact i4 h t ht n

end Srcml
