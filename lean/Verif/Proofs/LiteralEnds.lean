import Verif.Proofs.CommentEnds
set_option linter.unusedSimpArgs false
/-
Where strings and characters end.
-/
namespace Srcml
open Spec

/-- A newline may be read in this text: not on a preprocessor line. -/
def TextLexer.Spans (l : TextLexer) (s : Str) : Prop := l.onpreprocline = false ∨ '\n' ∉ s

theorem TextLexer.Spans.tail {l : TextLexer} {a s : Str} (h : l.Spans (a ++ s)) : l.Spans s := by
  rcases h with h | h
  · exact .inl h
  · exact .inr (fun e => h (by simp [e]))

/-- Not at the end, and no newline next on a preprocessor line: the token goes on. -/
theorem after_string (l : TextLexer) (hl : l.mode = .string ∨ l.mode = .char) (rest : Str) (t : TextType) (hr : rest ≠ [])
    (h : l.onpreprocline = false ∨ rest.head? ≠ some '\n') : l.after rest t = t := by
  unfold TextLexer.after
  rw [if_neg]
  rintro ⟨-, h1, h2⟩
  rcases h1 with h1 | h1
  · rcases h2 with h2 | h2
    · rcases h2.2 with h3 | h3
      · rcases h with h | h
        · rw [h] at h3; cases h3
        · exact h h1.1
      · exact h1.2 h3
    · rcases hl with e | e <;> simp [e, TextMode.isLine] at h2
  · exact hr h1

theorem spans_head {l : TextLexer} {s : Str} (h : l.Spans s) : l.onpreprocline = false ∨ s.head? ≠ some '\n' := by
  rcases h with h | h
  · exact .inl h
  · right
    intro e
    cases s with
    | nil => cases e
    | cons c s => cases e; exact h (by simp)

theorem scan_step {l : TextLexer} {prev c : Char} {rest run rest' : Str} {t : TextType} {p : Char}
    (ha : l.alt prev c rest = (run, rest', t, l, p)) (hk : l.after rest' t = t) (ht : ∀ m, t ≠ .ended m) :
    l.scan prev (c :: rest) = (c :: run ++ (l.scan p rest').1, (l.scan p rest').2) := by
  rw [TextLexer.scan, ha]
  simp only [hk]

/-- A character in a string or character that is not the quote, and not a quote or backslash. -/
theorem alt_plain (l : TextLexer) (hl : l.mode = .string ∨ l.mode = .char) (prev c : Char) (rest : Str) (h1 : c ≠ '"')
    (h2 : c = '\'' → l.mode = .string) (h3 : c ≠ '\\') (hn : c = '\n' → l.onpreprocline = false) :
    ∃ t, (∀ m, t ≠ .ended m) ∧ l.alt prev c rest = ([], rest, t, l, c) := by
  have hline : l.mode.isLine = false := by rcases hl with h | h <;> rw [h] <;> rfl
  have hb : l.mode.isBlock = false := by rcases hl with h | h <;> rw [h] <;> rfl
  have hr : l.mode ≠ .rawString := by rcases hl with h | h <;> rw [h] <;> decide
  unfold TextLexer.alt
  by_cases hc : controlChar c = true
  · exact ⟨.control, by simp, by rw [if_pos hc]⟩
  rw [if_neg hc]
  by_cases h4 : c = '\n'
  · subst h4
    exact ⟨.text, by simp, by simp [hline, hn rfl]⟩
  rw [if_neg h4, if_neg h1]
  by_cases h5 : c = '\''
  · subst h5
    exact ⟨.text, by simp, by simp [h2 rfl]⟩
  rw [if_neg h5, if_neg (fun h => hr h.2)]
  by_cases h6 : c = '/'
  · subst h6
    exact ⟨.text, by simp, by simp [hb]⟩
  rw [if_neg h6, if_neg h3]
  exact ⟨.text, by simp, rfl⟩

/-- A backslash that is not escaped. -/
theorem alt_backslash (l : TextLexer) (prev : Char) (rest : Str) (hp : prev ≠ '\\') : l.alt prev '\\' rest = ([], rest, .text, l, '\\') := by
  unfold TextLexer.alt
  simp [controlChar, hp]

/-- The character behind it. -/
theorem alt_escaped (l : TextLexer) (hl : l.mode = .string ∨ l.mode = .char) (hn : l.noescape = false) (c : Char) (rest : Str)
    (hn' : c = '\n' → l.onpreprocline = false) :
    ∃ t p, (∀ m, t ≠ .ended m) ∧ p ≠ '\\' ∧ l.alt '\\' c rest = ([], rest, t, l, p) := by
  by_cases h1 : c = '"'
  · subst h1
    exact ⟨.text, '"', by simp, by decide, by unfold TextLexer.alt; simp [controlChar, hn]⟩
  by_cases h2 : c = '\''
  · subst h2
    exact ⟨.text, '\'', by simp, by decide, by unfold TextLexer.alt; simp [controlChar, hn]⟩
  by_cases h3 : c = '\\'
  · subst h3
    exact ⟨.text, Char.ofNat 0, by simp, by decide, by unfold TextLexer.alt; simp [controlChar, hn]⟩
  obtain ⟨t, ht, e⟩ := alt_plain l hl '\\' c rest h1 (fun h => absurd h h2) h3 hn'
  exact ⟨t, c, ht, h3, e⟩

/-- With all the quotes that follow on the one that ends the string. -/
theorem scan_string_run (l : TextLexer) (hl : l.mode = .string) (hn : l.noescape = false) {b : Str} (hb : Body '"' b) (post : Str)
    (prev : Char) (hp : prev ≠ '\\') (hs : l.Spans b) :
    l.scan prev (b ++ '"' :: post) = (b ++ '"' :: post.takeWhile (· = '"'), some .string, post.drop (post.takeWhile (· = '"')).length) := by
  have head : ∀ {b : Str}, l.Spans b → l.onpreprocline = false ∨ (b ++ '"' :: post).head? ≠ some '\n' := by
    intro b h
    rcases spans_head h with h | h
    · exact .inl h
    · right
      cases b with
      | nil => simp
      | cons c b => exact h
  induction hb generalizing prev with
  | nil =>
    have ha : l.alt prev '"' post = (post.takeWhile (· = '"'), post.drop (post.takeWhile (· = '"')).length, .ended .string, l, '"') := by
      unfold TextLexer.alt
      simp [controlChar, hp, hn, hl]
    have hk : ∀ rest, l.after rest (.ended .string) = .ended .string := by
      intro rest
      unfold TextLexer.after
      simp
    rw [List.nil_append, TextLexer.scan, ha]
    simp only [hk, List.nil_append]
  | plain c s h1 h2 _ ih =>
    obtain ⟨t, ht, e⟩ := alt_plain l (.inl hl) prev c (s ++ '"' :: post) h1 (fun _ => hl) h2 (by
      rintro rfl
      rcases hs with h | h
      · exact h
      · exact absurd (by simp) h)
    have hs' : l.Spans s := TextLexer.Spans.tail (a := [c]) hs
    rw [List.cons_append, scan_step e (after_string l (.inl hl) _ _ (by simp) (head hs')) ht, ih c h2 hs']
    simp
  | escape c s _ ih =>
    obtain ⟨t, p, ht, hpp, e⟩ := alt_escaped l (.inl hl) hn c (s ++ '"' :: post) (by
      rintro rfl
      rcases hs with h | h
      · exact h
      · exact absurd (by simp) h)
    have hs' : l.Spans s := TextLexer.Spans.tail (a := ['\\', c]) hs
    have hs1 : l.Spans (c :: s) := TextLexer.Spans.tail (a := ['\\']) hs
    rw [List.cons_append, scan_step (alt_backslash l prev _ hp) (after_string l (.inl hl) _ _ (by simp) (head hs1)) (by simp), List.cons_append (a := c),
      scan_step e (after_string l (.inl hl) _ _ (by simp) (head hs')) ht, ih p hpp hs']
    simp

theorem scan_string (l : TextLexer) (hl : l.mode = .string) (hn : l.noescape = false) {b : Str} (hb : Body '"' b) (post : Str)
    (hpost : post.head? ≠ some '"') (prev : Char) (hp : prev ≠ '\\') (hs : l.Spans b) :
    l.scan prev (b ++ '"' :: post) = (b ++ ['"'], some .string, post) := by
  have : post.takeWhile (· = '"') = [] := by
    cases post with
    | nil => rfl
    | cons c post =>
      have : c ≠ '"' := by simpa using hpost
      simp [this]
  rw [scan_string_run l hl hn hb post prev hp hs, this]
  rfl

/-- A text between quotes, without the quotes at its start. -/
theorem Body.quotes {q u : Str} (hq : ∀ c ∈ q, c = '"') (h : Body '\'' (q ++ u)) : Body '\'' u := by
  induction q with
  | nil => exact h
  | cons c q ih =>
    have := hq c (by simp)
    subst this
    rw [List.cons_append] at h
    cases h with
    | plain _ _ _ _ h => exact ih (fun c h => hq c (by simp [h])) h

theorem takeWhile_append_quote (s post : Str) :
    (s ++ '\'' :: post).takeWhile (· = '"') = s.takeWhile (· = '"') := by
  induction s with
  | nil => simp
  | cons c s ih =>
    by_cases h : c = '"'
    · simp [h]
      exact ih
    · simp [h]

theorem drop_takeWhile_append (s post : Str) :
    (s ++ '\'' :: post).drop (s.takeWhile (· = '"')).length = s.drop (s.takeWhile (· = '"')).length ++ '\'' :: post := by
  rw [List.drop_append_of_le_length]
  have := congrArg List.length (quotes_split s)
  rw [List.length_append] at this
  omega

theorem scan_char (l : TextLexer) (hl : l.mode = .char) (hn : l.noescape = false) {b : Str} (hb : Body '\'' b) (post : Str)
    (prev : Char) (hp : prev ≠ '\\') (hs : l.Spans b) :
    l.scan prev (b ++ '\'' :: post) = (b ++ ['\''], some .char, post) := by
  have head : ∀ {b : Str}, l.Spans b → l.onpreprocline = false ∨ (b ++ '\'' :: post).head? ≠ some '\n' := by
    intro b h
    rcases spans_head h with h | h
    · exact .inl h
    · right
      cases b with
      | nil => simp
      | cons c b => exact h
  induction hk : b.length using Nat.strongRecOn generalizing prev b with
  | _ k ih =>
  subst hk
  cases hb with
  | nil =>
    have ha : l.alt prev '\'' post = ([], post, .ended .char, l, '\'') := by
      unfold TextLexer.alt
      simp [controlChar, hp, hn, hl]
    have hk : l.after post (.ended .char) = .ended .char := by
      unfold TextLexer.after
      simp
    rw [List.nil_append, TextLexer.scan, ha]
    simp [hk]
  | plain c s h1 h2 hb' =>
    by_cases hq : c = '"'
    · subst hq
      have ha : l.alt prev '"' (s ++ '\'' :: post) = (s.takeWhile (· = '"'), s.drop (s.takeWhile (· = '"')).length ++ '\'' :: post, .text, l, '"') := by
        unfold TextLexer.alt
        simp only [hp, ne_eq, not_false_eq_true, if_true, takeWhile_append_quote, drop_takeWhile_append]
        simp [controlChar, hn, hl]
      have hs' : l.Spans (s.drop (s.takeWhile (· = '"')).length) := by
        apply TextLexer.Spans.tail (a := '"' :: s.takeWhile (· = '"'))
        rw [List.cons_append, ← quotes_split]
        exact hs
      have hbb : Body '\'' (s.drop (s.takeWhile (· = '"')).length) := by
        apply Body.quotes (takeWhile_quotes s)
        rw [← quotes_split]
        exact hb'
      rw [List.cons_append, scan_step ha (after_string l (.inr hl) _ _ (by simp) (head hs')) (by simp),
        ih _ (by simp only [List.length_cons, List.length_drop]; omega) hbb '"' (by decide) hs' rfl]
      simp only [Prod.mk.injEq, List.cons_append, List.cons.injEq, true_and, and_true]
      rw [← List.append_assoc, ← quotes_split]
    · obtain ⟨t, ht, e⟩ := alt_plain l (.inr hl) prev c (s ++ '\'' :: post) hq (fun h => absurd h h1) h2 (by
        rintro rfl
        rcases hs with h | h
        · exact h
        · exact absurd (by simp) h)
      have hs' : l.Spans s := TextLexer.Spans.tail (a := [c]) hs
      rw [List.cons_append, scan_step e (after_string l (.inr hl) _ _ (by simp) (head hs')) ht, ih _ (by simp) hb' c h2 hs' rfl]
      simp
  | escape c s hb' =>
    obtain ⟨t, p, ht, hpp, e⟩ := alt_escaped l (.inr hl) hn c (s ++ '\'' :: post) (by
      rintro rfl
      rcases hs with h | h
      · exact h
      · exact absurd (by simp) h)
    have hs' : l.Spans s := TextLexer.Spans.tail (a := ['\\', c]) hs
    have hs1 : l.Spans (c :: s) := TextLexer.Spans.tail (a := ['\\']) hs
    rw [List.cons_append, scan_step (alt_backslash l prev _ hp) (after_string l (.inr hl) _ _ (by simp) (head hs1)) (by simp), List.cons_append (a := c),
      scan_step e (after_string l (.inr hl) _ _ (by simp) (head hs')) ht, ih _ (by simp; omega) hb' p hpp hs' rfl]
    simp

/-! ### No end -/

theorem after_open (l : TextLexer) (hl : l.mode = .string ∨ l.mode = .char) (hp : l.onpreprocline = false) (rest : Str) (t : TextType) :
    l.after rest t = t := by
  unfold TextLexer.after
  rw [if_neg]
  rintro ⟨-, -, h2⟩
  rcases hl with e | e <;> simp [e, TextMode.isLine, TextMode.isLiteral, hp] at h2

theorem scan_string_open (l : TextLexer) (hl : l.mode = .string) (hn : l.noescape = false) (ho : l.onpreprocline = false) (s : Str)
    (h : ∀ b post, Body '"' b → s ≠ b ++ '"' :: post) (prev : Char) (hp : prev ≠ '\\') : l.scan prev s = (s, none, []) := by
  induction hk : s.length using Nat.strongRecOn generalizing prev s with
  | _ k ih =>
  subst hk
  cases s with
  | nil => simp [TextLexer.scan]
  | cons c s =>
    by_cases h1 : c = '"'
    · subst h1
      exact absurd rfl (h [] s .nil)
    by_cases h2 : c = '\\'
    · subst h2
      rw [scan_step (alt_backslash l prev _ hp) (after_open l (.inl hl) ho _ _) (by simp)]
      cases s with
      | nil => simp [TextLexer.scan]
      | cons d s =>
        obtain ⟨t, p, ht, hpp, e⟩ := alt_escaped l (.inl hl) hn d s (fun _ => ho)
        rw [scan_step e (after_open l (.inl hl) ho _ _) ht,
          ih s.length (by simp only [List.length_cons]; omega) s (fun b post hb e => h _ post (.escape d b hb) (by simp [e])) p hpp rfl]
        simp
    · obtain ⟨t, ht, e⟩ := alt_plain l (.inl hl) prev c s h1 (fun _ => hl) h2 (fun _ => ho)
      rw [scan_step e (after_open l (.inl hl) ho _ _) ht,
        ih s.length (by simp) s (fun b post hb e => h _ post (.plain c b h1 h2 hb) (by simp [e])) c h2 rfl]
      simp

/-! ### Verbatim strings -/

theorem Verbatim.split {b : Str} (h : Verbatim b) :
    ∃ k b', b = List.replicate (2 * k) '"' ++ b' ∧ Verbatim b' ∧ b'.head? ≠ some '"' := by
  induction h with
  | nil => exact ⟨0, [], rfl, .nil, by simp⟩
  | plain c s hc hs _ => exact ⟨0, c :: s, rfl, .plain c s hc hs, by simpa using hc⟩
  | pair s _ ih =>
    obtain ⟨k, b', e, h1, h2⟩ := ih
    refine ⟨k + 1, b', ?_, h1, h2⟩
    rw [e, show 2 * (k + 1) = (2 * k + 1) + 1 from by omega, List.replicate_succ, List.replicate_succ]
    rfl

theorem takeWhile_run (n : Nat) (u : Str) (hu : u.head? ≠ some '"') :
    (List.replicate n '"' ++ u).takeWhile (· = '"') = List.replicate n '"' := by
  induction n with
  | zero =>
    cases u with
    | nil => rfl
    | cons c u =>
      have : c ≠ '"' := by simpa using hu
      simp [this]
  | succ n ih =>
    rw [List.replicate_succ, List.cons_append, List.takeWhile_cons, if_pos (by simp), ih]

theorem scan_verbatim (l : TextLexer) (hl : l.mode = .string) (hn : l.noescape = true) {b : Str} (hb : Verbatim b) (post : Str)
    (hpost : post.head? ≠ some '"') (hno : ∀ a r, b ≠ a ++ ['\\', '"', '"'] ++ r) (prev : Char)
    (hp : prev = '\\' → b.head? ≠ some '"') (hs : l.Spans b) :
    l.scan prev (b ++ '"' :: post) = (b ++ ['"'], some .string, post) := by
  have head : ∀ {b : Str}, l.Spans b → l.onpreprocline = false ∨ (b ++ '"' :: post).head? ≠ some '\n' := by
    intro b h
    rcases spans_head h with h | h
    · exact .inl h
    · right
      cases b with
      | nil => simp
      | cons c b => exact h
  have hpt : post.takeWhile (· = '"') = [] := by simpa using takeWhile_run 0 post hpost
  induction hk : b.length using Nat.strongRecOn generalizing prev b with
  | _ k ih =>
  subst hk
  cases hb with
  | nil =>
    have ha : l.alt prev '"' post = ([], post, .ended .string, l, '"') := by
      unfold TextLexer.alt
      by_cases hp' : prev = '\\' <;> simp [controlChar, hp', hn, hl, hpt]
    have hk : l.after post (.ended .string) = .ended .string := by
      unfold TextLexer.after
      simp
    rw [List.nil_append, TextLexer.scan, ha]
    simp [hk]
  | plain c s hc hb' =>
    have hs' : l.Spans s := TextLexer.Spans.tail (a := [c]) hs
    have hno' : ∀ a r, s ≠ a ++ ['\\', '"', '"'] ++ r := fun a r e => hno (c :: a) r (by simp [e])
    by_cases h2 : c = '\\'
    · subst h2
      by_cases hq : prev = '\\'
      · have ha : l.alt prev '\\' (s ++ '"' :: post) = ([], s ++ '"' :: post, .text, l, Char.ofNat 0) := by
          unfold TextLexer.alt
          simp [controlChar, hq]
        rw [List.cons_append, scan_step ha (after_string l (.inl hl) _ _ (by simp) (head hs')) (by simp),
          ih _ (by simp) hb' hno' _ (fun h => absurd h (by decide)) hs' rfl]
        simp
      · rw [List.cons_append, scan_step (alt_backslash l prev _ hq) (after_string l (.inl hl) _ _ (by simp) (head hs')) (by simp),
          ih _ (by simp) hb' hno' _ (fun _ e => ?_) hs' rfl]
        · simp
        · cases hb' with
          | nil => cases e
          | plain d s hd _ => exact hd (by simpa using e)
          | pair s _ => exact hno [] s rfl
    · obtain ⟨t, ht, e⟩ := alt_plain l (.inl hl) prev c (s ++ '"' :: post) hc (fun _ => hl) h2 (by
        rintro rfl
        rcases hs with h | h
        · exact h
        · exact absurd (by simp) h)
      rw [List.cons_append, scan_step e (after_string l (.inl hl) _ _ (by simp) (head hs')) ht,
        ih _ (by simp) hb' hno' c (fun h => absurd h h2) hs' rfl]
      simp
  | pair s hb' =>
    have hp' : prev ≠ '\\' := fun h => hp h rfl
    obtain ⟨k, b', e, h1, h2⟩ := Verbatim.split (.pair s hb')
    have hk0 : k ≠ 0 := by
      rintro rfl
      rw [Nat.mul_zero, List.replicate_zero, List.nil_append] at e
      rw [← e] at h2
      exact h2 rfl
    obtain ⟨n, rfl⟩ : ∃ n, k = n + 1 := ⟨k - 1, by omega⟩
    rw [e] at hs hno ih ⊢
    have e2 : 2 * (n + 1) = (2 * n + 1) + 1 := by omega
    rw [e2, List.replicate_succ] at hs hno ih ⊢
    by_cases hb0 : b' = []
    · subst hb0
      have ht : (List.replicate (2 * n + 1) '"' ++ '"' :: post).takeWhile (· = '"') = List.replicate (2 * n + 2) '"' := by
        have := takeWhile_run (2 * n + 2) post hpost
        rw [List.replicate_succ', List.append_assoc] at this
        rw [List.replicate_succ' (n := 2 * n + 1)]
        exact this
      have ha : l.alt prev '"' (List.replicate (2 * n + 1) '"' ++ '"' :: post) = (List.replicate (2 * n + 2) '"', post, .ended .string, l, '"') := by
        unfold TextLexer.alt
        simp only [hp', ne_eq, not_false_eq_true, if_true, ht]
        have hd : (List.replicate (2 * n + 1) '"' ++ '"' :: post).drop (List.replicate (2 * n + 2) '"').length = post := by
          rw [List.length_replicate, show List.replicate (2 * n + 1) '"' ++ '"' :: post = List.replicate (2 * n + 2) '"' ++ post from by
            rw [List.replicate_succ' (n := 2 * n + 1), List.append_assoc]; rfl]
          rw [List.drop_append_of_le_length (by simp)]
          simp
        rw [hd]
        have : (1 + (2 * n + 2)) % 2 = 1 := by omega
        simp [controlChar, hn, hl, this]
      have hk : l.after post (.ended .string) = .ended .string := by
        unfold TextLexer.after
        simp
      rw [List.append_nil, List.cons_append, TextLexer.scan, ha]
      simp only [hk]
      rw [List.replicate_succ']
      rfl
    · have hh : (b' ++ '"' :: post).head? ≠ some '"' := by
        cases b' with
        | nil => exact absurd rfl hb0
        | cons c b' => exact h2
      have ht := takeWhile_run (2 * n + 1) (b' ++ '"' :: post) hh
      have ha : l.alt prev '"' (List.replicate (2 * n + 1) '"' ++ (b' ++ '"' :: post)) =
          (List.replicate (2 * n + 1) '"', b' ++ '"' :: post, .text, l, '"') := by
        unfold TextLexer.alt
        simp only [hp', ne_eq, not_false_eq_true, if_true, ht]
        have hd : (List.replicate (2 * n + 1) '"' ++ (b' ++ '"' :: post)).drop (List.replicate (2 * n + 1) '"').length = b' ++ '"' :: post := by
          rw [List.length_replicate, List.drop_append_of_le_length (by simp)]
          simp
        rw [hd]
        have : (1 + (2 * n + 1)) % 2 = 0 := by omega
        simp [controlChar, hn, hl, this]
      have hs' : l.Spans b' := TextLexer.Spans.tail (a := '"' :: List.replicate (2 * n + 1) '"') hs
      have hno' : ∀ a r, b' ≠ a ++ ['\\', '"', '"'] ++ r := fun a r e =>
        hno ('"' :: List.replicate (2 * n + 1) '"' ++ a) r (by rw [e]; simp)
      rw [List.append_assoc, List.cons_append, scan_step ha (after_string l (.inl hl) _ _ (by simp) (head hs')) (by simp),
        ih _ (by simp; omega) h1 hno' '"' (fun h => absurd h (by decide)) hs' rfl]
      simp

/-! ### Raw strings -/

theorem First.drop {pat u s pre post : Str} (h : First pat (u ++ s) (u ++ pre) post) : First pat s pre post where
  split := by
    have := h.split
    rw [List.append_assoc, List.append_assoc] at this
    rw [List.append_cancel_left this, List.append_assoc]
  first := by
    intro a b e
    have := h.first (u ++ a) b (by rw [e]; simp)
    simp only [List.length_append] at this
    omega

theorem takeDelimiter_prefix (n : Nat) (s : Str) : takeDelimiter n s ++ s.drop (takeDelimiter n s).length = s := by
  induction n generalizing s with
  | zero => cases s <;> rfl
  | succ n ih =>
    cases s with
    | nil => rfl
    | cons c s =>
      by_cases h : delimiterChar c = true
      · simp [takeDelimiter, h, ih s]
      · simp [takeDelimiter, h]

theorem takeDelimiter_chars (n : Nat) (s : Str) : ∀ c ∈ takeDelimiter n s, delimiterChar c = true := by
  induction n generalizing s with
  | zero => cases s <;> simp [takeDelimiter]
  | succ n ih =>
    cases s with
    | nil => simp [takeDelimiter]
    | cons c s =>
      by_cases h : delimiterChar c = true
      · simp only [takeDelimiter, h, if_true, List.mem_cons]
        rintro d (rfl | hd)
        · exact h
        · exact ih s d hd
      · simp [takeDelimiter, h]

theorem takeDelimiter_all (d s : Str) (hd : ∀ c ∈ d, delimiterChar c = true) : takeDelimiter d.length (d ++ s) = d := by
  induction d with
  | nil => cases s <;> rfl
  | cons c d ih =>
    simp only [List.length_cons, List.cons_append, takeDelimiter]
    rw [if_pos (hd c (by simp)), ih (fun c h => hd c (by simp [h]))]

theorem split_paren {e u s v : Str} (he : ')' ∉ e) (h : e ++ u = s ++ ')' :: v) : ∃ s', s = e ++ s' ∧ u = s' ++ ')' :: v := by
  induction e generalizing s with
  | nil => exact ⟨s, rfl, h⟩
  | cons c e ih =>
    cases s with
    | nil =>
      simp only [List.cons_append, List.nil_append, List.cons.injEq] at h
      exact absurd (by simp [h.1]) he
    | cons d s =>
      simp only [List.cons_append, List.cons.injEq] at h
      obtain ⟨s', e1, e2⟩ := ih (fun m => he (by simp [m])) h.2
      exact ⟨s', by rw [h.1, e1]; rfl, e2⟩

theorem after_raw (l : TextLexer) (hl : l.mode = .rawString) (rest : Str) (t : TextType) (hr : rest ≠ []) : l.after rest t = t := by
  unfold TextLexer.after
  rw [if_neg]
  rintro ⟨-, h1, -⟩
  rcases h1 with h1 | h1
  · exact h1.2 hl
  · exact hr h1

theorem takeWhile_append_paren (s v : Str) : (s ++ ')' :: v).takeWhile (· = '"') = s.takeWhile (· = '"') := by
  induction s with
  | nil => simp
  | cons c s ih =>
    by_cases h : c = '"'
    · simp [h]
      exact ih
    · simp [h]

theorem drop_takeWhile_paren (s v : Str) :
    (s ++ ')' :: v).drop (s.takeWhile (· = '"')).length = s.drop (s.takeWhile (· = '"')).length ++ ')' :: v := by
  rw [List.drop_append_of_le_length]
  have := congrArg List.length (quotes_split s)
  rw [List.length_append] at this
  omega

/-- Like `scan_step`, where the lexer changes. -/
theorem scan_step' {l l' : TextLexer} {prev c : Char} {rest run rest' : Str} {t : TextType} {p : Char}
    (ha : l.alt prev c rest = (run, rest', t, l', p)) (hk : l'.after rest' t = t) (ht : ∀ m, t ≠ .ended m) :
    l.scan prev (c :: rest) = (c :: run ++ (l'.scan p rest').1, (l'.scan p rest').2) := by
  rw [TextLexer.scan, ha]
  simp only [hk]

theorem scan_raw (l : TextLexer) (hl : l.mode = .rawString) (hn : l.noescape = false) (hd : ∀ c ∈ l.delimiter1, delimiterChar c = true)
    (s body post : Str) (h : First (')' :: l.delimiter1 ++ ['"']) s body post) (hpost : post.head? ≠ some '"')
    (prev : Char) (hs : l.Spans body) :
    l.scan prev s = (body ++ ')' :: l.delimiter1 ++ ['"'], some .string, post) := by
  induction hk : body.length using Nat.strongRecOn generalizing prev body s l with
  | _ k ih =>
  subst hk
  have hsp := h.split
  cases body with
  | nil =>
    rw [List.nil_append] at hsp
    have ha : l.alt prev ')' (l.delimiter1 ++ '"' :: post) =
        (l.delimiter1, '"' :: post, .text, { l with delimiter := l.delimiter1, mode := .string }, ')') := by
      unfold TextLexer.alt
      simp only [takeDelimiter_all l.delimiter1 ('"' :: post) hd, hl]
      have : (l.delimiter1 ++ '"' :: post).drop l.delimiter1.length = '"' :: post := by simp
      rw [this]
      simp [controlChar]
    have hf : ({ l with delimiter := l.delimiter1, mode := .string } : TextLexer).after ('"' :: post) .text = .text :=
      after_string _ (.inl rfl) _ _ (by simp) (.inr (by simp))
    have hst := scan_string { l with delimiter := l.delimiter1, mode := .string } rfl hn .nil post hpost ')' (by decide) (.inr (by simp))
    rw [hsp, show ')' :: l.delimiter1 ++ ['"'] ++ post = ')' :: (l.delimiter1 ++ '"' :: post) from by simp, scan_step' ha hf (by simp)]
    rw [List.nil_append] at hst
    rw [hst]
    simp
  | cons c s' =>
    have hsp' : s = c :: (s' ++ ')' :: (l.delimiter1 ++ '"' :: post)) := by rw [hsp]; simp
    have hF : First (')' :: l.delimiter1 ++ ['"']) (s' ++ ')' :: (l.delimiter1 ++ '"' :: post)) s' post :=
      First.drop (u := [c]) (by rw [List.singleton_append, ← hsp']; exact h)
    have hs' : l.Spans s' := TextLexer.Spans.tail (a := [c]) hs
    by_cases hc : c = ')'
    · subst hc
      have he := takeDelimiter_prefix l.delimiter1.length (s' ++ ')' :: (l.delimiter1 ++ '"' :: post))
      have hch := takeDelimiter_chars l.delimiter1.length (s' ++ ')' :: (l.delimiter1 ++ '"' :: post))
      generalize hg : takeDelimiter l.delimiter1.length (s' ++ ')' :: (l.delimiter1 ++ '"' :: post)) = e at he hch
      obtain ⟨s2, e1, e2⟩ := split_paren (fun m => absurd (hch _ m) (by decide)) he
      have hnot : ¬ (e = l.delimiter1 ∧ ((s' ++ ')' :: (l.delimiter1 ++ '"' :: post)).drop e.length).head? = some '"') := by
        rintro ⟨rfl, h2⟩
        rw [e2] at h2
        cases hq : s2 ++ ')' :: (l.delimiter1 ++ '"' :: post) with
        | nil => rw [hq] at h2; cases h2
        | cons q r =>
          rw [hq] at h2
          cases h2
          have := h.first [] r (by
            rw [hsp', e1, List.append_assoc, hq]
            simp)
          simp at this
      have ha : l.alt prev ')' (s' ++ ')' :: (l.delimiter1 ++ '"' :: post)) =
          (e, s2 ++ ')' :: (l.delimiter1 ++ '"' :: post), .text, { l with delimiter := e }, ')') := by
        unfold TextLexer.alt
        simp only [hl, hg, if_neg hnot]
        rw [e2]
        simp [controlChar, hl]
      have hF2 : First (')' :: l.delimiter1 ++ ['"']) (s2 ++ ')' :: (l.delimiter1 ++ '"' :: post)) s2 post := by
        apply First.drop (u := e)
        rw [← e1, ← List.append_assoc, ← e1]
        exact hF
      rw [hsp', scan_step' ha (after_raw _ hl _ _ (by simp)) (by simp),
        ih s2.length (by rw [e1]; simp; omega) { l with delimiter := e } hl hn hd _ s2 hF2 ')' (TextLexer.Spans.tail (a := e) (by rw [← e1]; exact hs')) rfl]
      simp [e1]
    · by_cases hq : c = '"' ∧ prev ≠ '\\'
      · obtain ⟨rfl, hp⟩ := hq
        have ha : l.alt prev '"' (s' ++ ')' :: (l.delimiter1 ++ '"' :: post)) =
            (s'.takeWhile (· = '"'), s'.drop (s'.takeWhile (· = '"')).length ++ ')' :: (l.delimiter1 ++ '"' :: post), .text, l, '"') := by
          unfold TextLexer.alt
          simp only [hp, ne_eq, not_false_eq_true, if_true, takeWhile_append_paren, drop_takeWhile_paren]
          simp [controlChar, hn, hl]
        have hF2 : First (')' :: l.delimiter1 ++ ['"']) (s'.drop (s'.takeWhile (· = '"')).length ++ ')' :: (l.delimiter1 ++ '"' :: post))
            (s'.drop (s'.takeWhile (· = '"')).length) post := by
          apply First.drop (u := s'.takeWhile (· = '"'))
          rw [← List.append_assoc, ← quotes_split]
          exact hF
        rw [hsp', scan_step ha (after_raw _ hl _ _ (by simp)) (by simp),
          ih _ (by simp only [List.length_cons, List.length_drop]; omega) l hl hn hd _ _ hF2 '"'
            (TextLexer.Spans.tail (a := s'.takeWhile (· = '"')) (by rw [← quotes_split]; exact hs')) rfl]
        simp only [Prod.mk.injEq, and_true]
        rw [List.cons_append, List.cons_append, List.cons_append, ← List.append_assoc, ← List.append_assoc, ← quotes_split]
      · have hpl : ∃ t p, (∀ m, t ≠ .ended m) ∧ l.alt prev c (s' ++ ')' :: (l.delimiter1 ++ '"' :: post)) =
            ([], s' ++ ')' :: (l.delimiter1 ++ '"' :: post), t, l, p) := by
          unfold TextLexer.alt
          by_cases hcc : controlChar c = true
          · exact ⟨.control, c, by simp, by rw [if_pos hcc]⟩
          rw [if_neg hcc]
          by_cases h4 : c = '\n'
          · subst h4
            have : l.onpreprocline = false := by
              rcases hs with h | h
              · exact h
              · exact absurd (by simp) h
            exact ⟨.text, '\n', by simp, by simp [this, hl, TextMode.isLine]⟩
          rw [if_neg h4]
          by_cases h5 : c = '"'
          · subst h5
            have hp : prev = '\\' := Classical.byContradiction (fun h => hq ⟨rfl, h⟩)
            exact ⟨.text, '"', by simp, by simp [hp, hn]⟩
          rw [if_neg h5]
          by_cases h6 : c = '\''
          · subst h6
            exact ⟨.text, '\'', by simp, by simp [hl]⟩
          rw [if_neg h6, if_neg (fun h => hc h.1)]
          by_cases h7 : c = '/'
          · subst h7
            exact ⟨.text, '/', by simp, by simp [hl, TextMode.isBlock]⟩
          rw [if_neg h7]
          by_cases h8 : c = '\\'
          · subst h8
            exact ⟨.text, _, by simp, by simp; rfl⟩
          rw [if_neg h8]
          exact ⟨.text, c, by simp, rfl⟩
        obtain ⟨t, p, ht, ha⟩ := hpl
        rw [hsp', scan_step ha (after_raw _ hl _ _ (by simp)) ht, ih _ (by simp) l hl hn hd _ s' hF p hs' rfl]
        simp

end Srcml
