import Verif.Proofs.Lexer
/-
The lexer with bounds on the number of steps, to compute with.
-/
namespace Srcml

set_option linter.unusedSimpArgs false

/-- `loop` with a bound. -/
def loopF : Nat → TextLexer → Char → Bool → Str → Str × TextType × TextLexer × Str
  | 0, l, _, _, s => ([], .text, l, s)
  | _ + 1, l, _, _, [] => ([], .text, l, [])
  | n + 1, l, prev, first, c :: rest =>
    if controlChar c && !first then ([], .text, l, c :: rest)
    else
      let r := l.alt prev c rest
      let t := r.2.2.2.1.after r.2.1 r.2.2.1
      if t = .text then
        let x := loopF n r.2.2.2.1 r.2.2.2.2 false r.2.1
        (c :: r.1 ++ x.1, x.2)
      else (c :: r.1, t, r.2.2.2.1, r.2.1)

theorem loopF_eq (l : TextLexer) (prev : Char) (first : Bool) (s : Str) : ∀ n, s.length ≤ n → loopF n l prev first s = l.loop prev first s := by
  fun_induction TextLexer.loop l prev first s with
  | case1 => intro n _; cases n <;> rfl
  | case2 l prev first c rest h =>
    intro n hn
    cases n with
    | zero => simp at hn
    | succ n => simp only [loopF]; rw [if_pos h]
  | case3 l prev first c rest h r t ht x ih =>
    intro n hn
    cases n with
    | zero => simp at hn
    | succ n =>
      simp only [loopF]
      rw [if_neg h]
      have ht' : (r.2.2.2.1).after r.2.1 r.2.2.1 = .text := ht
      rw [if_pos ht']
      have hl := alt_rest l prev c rest
      have hx := ih n (by simp at hn; show (l.alt prev c rest).2.1.length ≤ n; omega)
      rw [hx]
  | case4 l prev first c rest h r t ht =>
    intro n hn
    cases n with
    | zero => simp at hn
    | succ n =>
      simp only [loopF]
      rw [if_neg h]
      have ht' : ¬ (r.2.2.2.1).after r.2.1 r.2.2.1 = .text := ht
      rw [if_neg ht']

/-- `tokens` with a bound. -/
def tokensF : Nat → TextLexer → Str → List (Str × TextType) × Str
  | 0, _, s => ([], s)
  | _ + 1, _, [] => ([], [])
  | n + 1, l, c :: rest =>
    let r := loopF (n + 1) l (Char.ofNat 0) true (c :: rest)
    match r.2.1 with
    | .ended m => ([(r.1, .ended m)], r.2.2.2)
    | t =>
      let x := tokensF n r.2.2.1 r.2.2.2
      ((r.1, t) :: x.1, x.2)

theorem tokensF_eq (l : TextLexer) (s : Str) : ∀ n, s.length ≤ n → tokensF n l s = l.tokens s := by
  fun_induction TextLexer.tokens l s with
  | case1 => intro n _; cases n <;> rfl
  | case2 l c rest r m hm =>
    intro n hn
    cases n with
    | zero => simp at hn
    | succ n =>
      have h : loopF (n + 1) l (Char.ofNat 0) true (c :: rest) = r := loopF_eq l _ _ _ _ hn
      simp only [tokensF]
      rw [h, hm]
  | case3 l c rest r t h ih =>
    intro n hn
    cases n with
    | zero => simp at hn
    | succ n =>
      have h1 : loopF (n + 1) l (Char.ofNat 0) true (c :: rest) = r := loopF_eq l _ _ _ _ hn
      have h2 := ih n (by have := token_rest l c rest; simp at hn; show (l.token (c :: rest)).2.2.2.length ≤ n; omega)
      simp only [tokensF]
      rw [h1]
      split
      · rename_i m hm; exact absurd hm (h m)
      · rw [h2]

/-- `lexWith` with a bound for the texts. -/
def lexF (c : LexConf) : Nat → LexState → Str → Lexed
  | 0, st, s => ⟨[], st.line, st.column, s⟩
  | _ + 1, st, [] => ⟨[], st.line, st.column, []⟩
  | fuel + 1, st, ch :: s =>
    match mainTok c st ch s with
    | none => ⟨[], st.line, st.column, ch :: s⟩
    | some t =>
      let st' := st.after c ch t
      let rest := (ch :: s).drop t.text.length
      let tok : Tok := { type := t.type, text := t.text, line := st.line, column := st.column }
      match t.enters with
      | none =>
        let r := lexF c fuel st' rest
        { r with toks := tok :: r.toks }
      | some l =>
        let x := tokensF rest.length l rest
        let p := c.moves (st'.line, st'.column) (x.1.flatMap (·.1))
        let r := lexF c fuel { st' with line := p.1, column := p.2 } x.2
        { r with toks := tok :: (textToks c (st'.line, st'.column) x.1 ++ r.toks) }

theorem lexF_eq (c : LexConf) (n : Nat) (st : LexState) (s : Str) : lexF c n st s = lexWith c n st s := by
  induction n generalizing st s with
  | zero => rfl
  | succ n ih =>
    cases s with
    | nil => rfl
    | cons ch s =>
      simp only [lexF, lexWith]
      cases mainTok c st ch s with
      | none => rfl
      | some t =>
        dsimp only
        cases t.enters with
        | none => dsimp only; rw [ih]
        | some l => dsimp only; rw [ih, tokensF_eq _ _ _ (Nat.le_refl _)]

/-- To compute with. -/
theorem lex_eq (c : LexConf) (s : Str) : lex c s = lexF c s.length { line := if c.lineOption then 65537 else 1 } s := (lexF_eq _ _ _ _).symm

end Srcml
