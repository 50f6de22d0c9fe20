import Verif.Spec.Lexemes
import Verif.Proofs.LexerTypes
import Verif.Proofs.LexerClean
import Verif.Props.CommentText
import Verif.Props.Lexer
/-
The lexer on the parts of a source.
-/
namespace Srcml

open Spec

set_option linter.unusedSimpArgs false

/-! ### One step of the lexer -/

/-- The token that `lexWith` makes. -/
def mkTok (st : LexState) (m : MainTok) : Tok := { type := m.type, text := m.text, line := st.line, column := st.column }

/-- The lexer takes `x` in the state `st` as the tokens `g`, and goes on. -/
def Takes (c : LexConf) (st : LexState) (x rest : Str) (g : List Tok) : Prop :=
  ∃ ch r m, x = ch :: r ∧ mainTok c st ch (r ++ rest) = some m ∧
    ∀ n, x.length + rest.length ≤ n → ∃ n' st', rest.length ≤ n' ∧ (lexWith c n st (x ++ rest)).toks = g ++ (lexWith c n' st' rest).toks ∧
      (lexWith c n st (x ++ rest)).left = (lexWith c n' st' rest).left ∧
      st'.startline = (st.after c ch m).startline ∧ st'.onpreprocline = (st.after c ch m).onpreprocline

theorem takes_one {c : LexConf} {st : LexState} {ch : Char} {r rest : Str} {m : MainTok} (h : mainTok c st ch (r ++ rest) = some m)
    (he : m.enters = none) (ht : m.text = ch :: r) : Takes c st (ch :: r) rest [mkTok st m] := by
  refine ⟨ch, r, m, rfl, h, ?_⟩
  intro n hn
  cases n with
  | zero => simp at hn
  | succ n =>
    refine ⟨n, st.after c ch m, by simp at hn; omega, ?_⟩
    rw [List.cons_append, lexWith]
    simp only [h, he, ht]
    have : (ch :: (r ++ rest)).drop (ch :: r).length = rest := by simp
    rw [this]
    refine ⟨?_, by first | rfl | trivial, by first | rfl | trivial, by first | rfl | trivial⟩
    show _ :: _ = _
    simp [mkTok, ht]

theorem takes_text {c : LexConf} {st : LexState} {ch : Char} {r y rest : Str} {m : MainTok} {l : TextLexer} {ts : List (Str × TextType)}
    (h : mainTok c st ch (r ++ (y ++ rest)) = some m) (he : m.enters = some l) (ht : m.text = ch :: r) (hl : l.tokens (y ++ rest) = (ts, rest)) :
    ∃ p, Takes c st (ch :: r ++ y) rest (mkTok st m :: textToks c p ts) := by
  refine ⟨((st.after c ch m).line, (st.after c ch m).column), ch, r ++ y, m, rfl, by rw [List.append_assoc]; exact h, ?_⟩
  intro n hn
  cases n with
  | zero => simp at hn
  | succ n =>
    refine ⟨n, ?_⟩
    rw [List.cons_append, List.cons_append, List.append_assoc, lexWith]
    simp only [h, he, ht]
    have : (ch :: (r ++ (y ++ rest))).drop (ch :: r).length = y ++ rest := by simp
    rw [this, hl]
    refine ⟨_, by simp at hn; omega, ?_, rfl, by first | rfl | trivial, by first | rfl | trivial⟩
    simp [mkTok, ht]

theorem newline_or {b : Bool} {p : Prop} (h : b = true → p) : b = false ∨ p := by
  cases b with
  | false => exact .inl rfl
  | true => exact .inr (h rfl)

/-- The type of an operator that is no `#`. -/
theorem operatorType {c : LexConf} {f : Bool} {x : Str} {ty : TokType} (h : x ≠ ['#']) (ht : LiteralType c x (chars! "OPERATORS") ty) :
    LiteralType c x (if x = ['#'] ∧ f = true then chars! "PREPROC" else chars! "OPERATORS") ty := by
  rw [if_neg (fun hx => h hx.1)]
  exact ht

/-! ### Characters -/

theorem isDigit_eq (ch : Char) : isDigit ch = lexDigit ch := by
  unfold isDigit lexDigit
  have e : ∀ a b : Char, decide (a ≤ b) = decide (a.toNat ≤ b.toNat) := fun a b => rfl
  rw [e, e]
  rfl

theorem wordStart_eq (ch : Char) : isWord.wordStart ch = nameStart ch := by
  unfold isWord.wordStart nameStart
  have e : ∀ a b : Char, decide (a ≤ b) = decide (a.toNat ≤ b.toNat) := fun a b => rfl
  rw [e, e, e, e]
  show ((decide (97 ≤ ch.toNat) && decide (ch.toNat ≤ 122)) || (decide (65 ≤ ch.toNat) && decide (ch.toNat ≤ 90)) || _ || _ || _) = _
  cases (decide (97 ≤ ch.toNat) && decide (ch.toNat ≤ 122)) <;> cases (decide (65 ≤ ch.toNat) && decide (ch.toNat ≤ 90)) <;>
    cases decide (ch = '_') <;> cases decide (ch = '$') <;> cases (decide (128 ≤ ch.toNat) && decide (ch.toNat ≤ 255)) <;> rfl

theorem isWordChar_eq (ch : Char) : isWordChar ch = nameChar ch := by
  unfold isWordChar nameChar
  rw [wordStart_eq, isDigit_eq, Bool.or_comm]

theorem nameStart_not {ch : Char} (h : nameStart ch = true) : ch ≠ '"' ∧ ch ≠ '\'' ∧ lexDigit ch = false := by
  refine ⟨?_, ?_, ?_⟩
  · rintro rfl; exact absurd h (by decide)
  · rintro rfl; exact absurd h (by decide)
  · cases hd : lexDigit ch with
    | false => rfl
    | true =>
      exfalso
      unfold lexDigit at hd
      unfold nameStart at h
      simp at hd h
      rcases h with (((h | h) | rfl) | h) | rfl
      · omega
      · omega
      · exact absurd hd (by decide)
      · omega
      · exact absurd hd (by decide)

theorem takeWhile_stop {p : Char → Bool} {a b : Str} (ha : ∀ x ∈ a, p x = true) (hb : ∀ ch, b.head? = some ch → p ch = false) :
    (a ++ b).takeWhile p = a := by
  induction a with
  | nil =>
    cases b with
    | nil => rfl
    | cons x b => simp [hb x rfl]
  | cons x a ih =>
    rw [List.cons_append, List.takeWhile_cons, if_pos (ha x (by simp)), ih (fun y hy => ha y (by simp [hy]))]

theorem opt_none {s : Str} {p : Char → Bool} (h : ∀ ch, s.head? = some ch → p ch = false) : opt s p = [] := by
  cases s with
  | nil => rfl
  | cons x s => simp [opt, h x rfl]

theorem opt_some {s : Str} {ch : Char} {p : Char → Bool} (h : p ch = true) : opt (ch :: s) p = [ch] := by
  simp [opt, h]

/-! ### Types -/

theorem literalType (c : LexConf) (x : Str) (d : TokType) : LiteralType c x d (c.testLiterals x d) := by
  unfold LiteralType
  rw [testLiterals_eq]
  cases hr : lastRow c.language x with
  | some k => exact .inl (lastRow_some hr)
  | none =>
    refine .inr ⟨lastRow_none.1 hr, ?_⟩
    have hf := find_macro (registered c.userMacros) x
    rw [userLiterals_registered]
    dsimp only
    cases hm : (((registered c.userMacros).filterMap (fun p => (macroToken p.2).map (fun k => (p.1, k)))).find? (fun p => p.1 = x)).map (·.2) with
    | some k => exact .inl (hf.1 k hm)
    | none =>
      refine .inr ⟨?_, rfl⟩
      rintro k ⟨newer, older, type, h1, h2, _⟩
      exact hf.2 hm type (by rw [h1]; simp) k h2

/-! ### Words -/

theorem takes_word {c : LexConf} (st : LexState) {x rest : Str} (hx : isWord x = true) (hr : NotThen rest isWordChar)
    (hq : rest.head? = some '"' → x ∉ stringPrefixes ∧ (c.language = 2 → x ∉ rawPrefixes)) (hl : c.language ∈ languageNumbers) :
    ∃ g, Takes c st x rest g ∧ TokensOf c st.startline .word x g := by
  obtain ⟨ch, r, e, h1, h2⟩ := (isWord_iff x).1 hx
  subst e
  have hn := nameStart_not h1
  have hm : mainTok c st ch (r ++ rest) = some (lexName c st (ch :: (r ++ rest))) := by
    unfold mainTok
    rw [if_neg hn.1, if_neg hn.2.1, if_neg (by rw [hn.2.2]; decide), if_pos h1]
  have htw : (ch :: (r ++ rest)).takeWhile nameChar = ch :: r := by
    rw [← List.cons_append]
    refine takeWhile_stop ?_ (fun k hk => by rw [← isWordChar_eq]; exact hr k hk)
    intro y hy
    rcases List.mem_cons.1 hy with rfl | hy
    · simp [nameChar, h1]
    · exact h2 y hy
  have hdr : (ch :: (r ++ rest)).drop (ch :: r).length = rest := by simp
  have hname : lexName c st (ch :: (r ++ rest)) = ⟨ch :: r, c.testLiterals (ch :: r) (chars! "NAME"), none⟩ := by
    unfold lexName
    simp only [htw, hdr]
    by_cases hh : rest.head? = some '"'
    · obtain ⟨q1, q2⟩ := hq hh
      rw [if_pos hh, if_neg, if_neg]
      · rintro ⟨g1, g2⟩
        have hc : c.language = 2 := by
          unfold LexConf.inLanguage at g1
          simp only [languageNumbers, List.mem_cons, List.not_mem_nil, or_false] at hl
          rcases hl with hl | hl | hl | hl | hl <;> rw [hl] at g1 <;> first | exact hl | exact absurd g1 (by decide)
        apply q2 hc
        rcases g2 with g2 | g2 | g2 | g2 | g2 <;> rw [g2] <;> decide
      · intro g
        apply q1
        rcases g with g | g | g | g <;> rw [g] <;> decide
    · rw [if_neg hh]
  refine ⟨_, takes_one hm (by rw [hname]) (by rw [hname]), ?_⟩
  rw [hname]
  exact .word (mkTok st ⟨ch :: r, c.testLiterals (ch :: r) (chars! "NAME"), none⟩) (literalType c (ch :: r) _)

/-! ### Numbers -/

theorem constantText_number (n : NumberParts) (rest : Str) (h : n.Good rest) :
    constantText (n.text ++ rest) = (n.text, decide (n.imaginary ≠ [])) := by
  obtain ⟨w, f, e, im, sf⟩ := n
  obtain ⟨h1, h2, h3, h4, h5, h6, h7, h8⟩ := h
  dsimp only at h1 h2 h3 h4 h5 h6 h7 h8
  have hrest : ∀ ch, rest.head? = some ch → nameChar ch = false := fun ch hc => by rw [← isWordChar_eq]; exact h7 ch hc
  have hnd : ∀ ch, nameChar ch = false → lexDigit ch = false ∧ nameStart ch = false ∧ ch ≠ '_' ∧ ch ≠ 'e' ∧ ch ≠ 'i' := by
    intro ch hc
    have hc' := hc
    unfold nameChar at hc
    simp only [Bool.or_eq_false_iff] at hc
    refine ⟨hc.1, hc.2, ?_, ?_, ?_⟩ <;> (rintro rfl; exact absurd hc' (by decide))
  -- what a suffix starts with
  have hsf : sf = [] ∨ ∃ ch r, sf = ch :: r ∧ nameStart ch = true ∧ ∀ y ∈ sf, nameChar y = true := by
    rcases h5 with h5 | h5
    · exact .inl h5
    · obtain ⟨ch, r, q1, q2, q3⟩ := (isWord_iff sf).1 h5
      refine .inr ⟨ch, r, q1, q2, ?_⟩
      rw [q1]
      intro y hy
      rcases List.mem_cons.1 hy with rfl | hy
      · simp [nameChar, q2]
      · exact q3 y hy
  have hstart : ∀ ch, nameStart ch = true → lexDigit ch = false ∧ ch ≠ '.' ∧ ch ≠ '+' ∧ ch ≠ '-' := by
    intro ch hc
    refine ⟨(nameStart_not hc).2.2, ?_, ?_, ?_⟩ <;> (rintro rfl; exact absurd hc (by decide))
  -- the head of suffix and rest
  have htail : ∀ ch, (sf ++ rest).head? = some ch → (lexDigit ch = false) ∧ ch ≠ 'i' ∧ (e = [] → im = [] → ch ≠ 'e' ∧ ch ≠ '.') ∧
      (f = [] → e = [] → im = [] → ch ≠ '_') := by
    intro ch hc
    rcases hsf with hsf | ⟨k, r, q1, q2, q3⟩
    · subst hsf
      rw [List.nil_append] at hc
      obtain ⟨g1, g2, g3, g4, g5⟩ := hnd ch (hrest ch hc)
      refine ⟨g1, g5, fun a b => ⟨g4, ?_⟩, fun _ _ _ => g3⟩
      rintro rfl; exact h8 a b rfl hc
    · subst q1
      simp at hc
      subst hc
      obtain ⟨g1, g2, _, _⟩ := hstart k q2
      refine ⟨g1, ?_, fun a b => ⟨?_, g2⟩, fun a b d => ?_⟩
      · rintro rfl; exact h6.1 rfl
      · rintro rfl; exact h6.2.1 a b rfl
      · rintro rfl; exact h6.2.2 a b d rfl
  have him : ∀ ch, (im ++ (sf ++ rest)).head? = some ch → (lexDigit ch = false) ∧ (e = [] → ch ≠ 'e' ∧ ch ≠ '.') ∧ (f = [] → e = [] → ch ≠ '_') := by
    intro ch hc
    rcases h4 with h4 | h4
    · subst h4
      obtain ⟨g1, _, g3, g4⟩ := htail ch hc
      exact ⟨g1, fun a => g3 a rfl, fun a b => g4 a b rfl⟩
    · subst h4
      simp at hc
      subst hc
      exact ⟨by decide, fun _ => by decide, fun _ _ => by decide⟩
  have hex : ∀ ch, (e ++ (im ++ (sf ++ rest))).head? = some ch → (lexDigit ch = false) ∧ ch ≠ '.' ∧ (f = [] → ch ≠ '_') := by
    intro ch hc
    rcases h3 with h3 | ⟨sg, k, r, q1, _⟩
    · subst h3
      obtain ⟨g1, g2, g3⟩ := him ch hc
      exact ⟨g1, (g2 rfl).2, fun a => g3 a rfl⟩
    · subst q1
      simp at hc
      subst hc
      exact ⟨by decide, by decide, fun _ => by decide⟩
  have hfr : ∀ ch, (f ++ (e ++ (im ++ (sf ++ rest)))).head? = some ch → (lexDigit ch || ch = '_') = false := by
    intro ch hc
    rcases h2 with h2 | ⟨r, q1, _⟩
    · subst h2
      obtain ⟨g1, _, g3⟩ := hex ch hc
      simp [g1, g3 rfl]
    · subst q1
      simp at hc
      subst hc
      decide
  -- the steps
  have ew : (w ++ (f ++ (e ++ (im ++ (sf ++ rest))))).takeWhile (fun c => lexDigit c || c = '_') = w := by
    refine takeWhile_stop ?_ hfr
    obtain ⟨ch, r, q1, q2, q3⟩ := h1
    subst q1
    intro y hy
    rcases List.mem_cons.1 hy with rfl | hy
    · rw [isDigit_eq] at q2; simp [q2]
    · rcases q3 y hy with g | g
      · rw [isDigit_eq] at g; simp [g]
      · simp [g]
  have ef : (f ++ (e ++ (im ++ (sf ++ rest)))).takeWhile (fun c => c = '.' || lexDigit c) = f := by
    refine takeWhile_stop ?_ (fun ch hc => by obtain ⟨g1, g2, _⟩ := hex ch hc; simp [g1, g2])
    rcases h2 with h2 | ⟨r, q1, q2⟩
    · subst h2; simp
    · subst q1
      intro y hy
      rcases List.mem_cons.1 hy with rfl | hy
      · simp
      · have := q2 y hy; rw [isDigit_eq] at this; simp [this]
  have dr : ∀ a b : Str, (a ++ b).drop a.length = b := fun a b => by simp
  have ei : (im ++ (sf ++ rest)).takeWhile (· = 'i') = im := by
    refine takeWhile_stop ?_ (fun ch hc => by simp [(htail ch hc).2.1])
    rcases h4 with h4 | h4 <;> subst h4 <;> simp
  have en : (if opt (sf ++ rest) nameStart = [] then [] else (sf ++ rest).takeWhile nameChar) = sf := by
    rcases hsf with hsf | ⟨k, r, q1, q2, q3⟩
    · subst hsf
      rw [if_pos]
      exact opt_none (fun ch hc => (hnd ch (hrest ch hc)).2.1)
    · subst q1
      rw [if_neg (by rw [List.cons_append, opt_some q2]; simp)]
      exact takeWhile_stop q3 hrest
  have ht : NumberParts.text ⟨w, f, e, im, sf⟩ ++ rest = w ++ (f ++ (e ++ (im ++ (sf ++ rest)))) := by simp [NumberParts.text]
  rw [ht]
  unfold constantText
  simp only [ew, dr, ef]
  rcases h3 with h3 | ⟨sg, k, r, q1, q2, q3, q4⟩
  · subst h3
    have : opt (([] : Str) ++ (im ++ (sf ++ rest))) (fun x => decide (x = 'e')) = [] :=
      opt_none (fun ch hc => by simp [((him ch hc).2.1 rfl).1])
    simp only [this]
    simp only [List.length_nil, List.drop_zero, if_true, List.nil_append, ei, dr]
    rw [en]
    simp [NumberParts.text]
  · subst q1
    rw [isDigit_eq] at q3
    have o1 : opt ('e' :: (sg ++ k :: r) ++ (im ++ (sf ++ rest))) (fun x => decide (x = 'e')) = ['e'] := opt_some (by decide)
    have hkr : ∀ y ∈ k :: r, lexDigit y = true := by
      intro y hy
      rcases List.mem_cons.1 hy with rfl | hy
      · exact q3
      · rw [← isDigit_eq]; exact q4 y hy
    have o2 : (sg ++ ((k :: r) ++ (im ++ (sf ++ rest)))).takeWhile (fun c => c = '+' || c = '-') = sg := by
      refine takeWhile_stop ?_ ?_
      · rcases q2 with q2 | q2 | q2 <;> subst q2 <;> simp
      · intro ch hc
        simp at hc
        subst hc
        have : k ≠ '+' ∧ k ≠ '-' := by constructor <;> (rintro rfl; exact absurd q3 (by decide))
        simp [this]
    have o3 : ((k :: r) ++ (im ++ (sf ++ rest))).takeWhile lexDigit = k :: r := takeWhile_stop hkr (fun ch hc => (him ch hc).1)
    have d1 : ('e' :: (sg ++ k :: r) ++ (im ++ (sf ++ rest))).drop ['e'].length = sg ++ ((k :: r) ++ (im ++ (sf ++ rest))) := by simp
    simp only [o1, d1]
    simp only [show (['e'] : Str) ≠ [] from by simp, if_false, o2, dr, o3, ei]
    rw [en]
    simp [NumberParts.text]

theorem takes_number {c : LexConf} (st : LexState) (n : NumberParts) {rest : Str} (h : n.Good rest) :
    ∃ g, Takes c st n.text rest g ∧ TokensOf c st.startline (if n.imaginary = [] then .number else .imaginary) n.text g := by
  have ht := constantText_number n rest h
  obtain ⟨ch, r, q1, q2, q3⟩ := h.whole
  rw [isDigit_eq] at q2
  have hx : n.text = ch :: (r ++ n.fraction ++ n.exponent ++ n.imaginary ++ n.suffix) := by simp [NumberParts.text, q1]
  rw [hx] at ht ⊢
  generalize r ++ n.fraction ++ n.exponent ++ n.imaginary ++ n.suffix = r' at *
  have hne : ch ≠ '"' ∧ ch ≠ '\'' := by constructor <;> (rintro rfl; exact absurd q2 (by decide))
  have hm : mainTok c st ch (r' ++ rest) = some ⟨ch :: r', if decide (n.imaginary ≠ []) then chars! "COMPLEX_NUMBER" else chars! "CONSTANTS", none⟩ := by
    unfold mainTok
    rw [if_neg hne.1, if_neg hne.2, if_pos q2, ← List.cons_append, ht]
  refine ⟨_, takes_one hm rfl rfl, ?_⟩
  by_cases hi : n.imaginary = []
  · rw [if_pos hi]
    exact .number (mkTok st ⟨ch :: r', _, none⟩) (by simp [mkTok, hi])
  · rw [if_neg hi]
    exact .imaginary (mkTok st ⟨ch :: r', _, none⟩) (by simp [mkTok, hi])

/-! ### Blanks -/

theorem takes_blank {c : LexConf} (st : LexState) {x rest : Str} (hx : x ≠ []) (h : ∀ ch ∈ x, ch = ' ' ∨ ch = '\t') (h1 : rest.head? ≠ some ' ')
    (h2 : rest.head? ≠ some '\t') : ∃ g, Takes c st x rest g ∧ TokensOf c st.startline .blank x g := by
  cases x with
  | nil => exact absurd rfl hx
  | cons ch r =>
    have hm : mainTok c st ch (r ++ rest) = some ⟨ch :: r, chars! "WS", none⟩ := by
      have htw : (ch :: (r ++ rest)).takeWhile (fun x => x = ' ' || x = '\t') = ch :: r := by
        rw [← List.cons_append]
        refine takeWhile_stop (fun y hy => by simpa using h y hy) (fun k hk => ?_)
        have : k ≠ ' ' ∧ k ≠ '\t' := by
          constructor <;> (rintro rfl; first | exact h1 hk | exact h2 hk)
        simp [this]
      have hc := h ch (by simp)
      unfold mainTok
      rw [if_neg (by rcases hc with rfl | rfl <;> decide), if_neg (by rcases hc with rfl | rfl <;> decide),
        if_neg (by rcases hc with rfl | rfl <;> decide), if_neg (by rcases hc with rfl | rfl <;> decide),
        if_neg (by rcases hc with rfl | rfl <;> decide), if_pos hc, htw]
    exact ⟨_, takes_one hm rfl rfl, .blank (mkTok st ⟨ch :: r, chars! "WS", none⟩) rfl⟩

theorem takes_newline {c : LexConf} (st : LexState) (rest : Str) : ∃ g, Takes c st ['\n'] rest g ∧ TokensOf c st.startline .newline ['\n'] g := by
  have hm : mainTok c st '\n' ([] ++ rest) = some ⟨['\n'], chars! "EOL", none⟩ := by
    unfold mainTok
    rw [if_neg (by decide), if_neg (by decide), if_neg (by decide), if_neg (by decide), if_neg (by decide), if_neg (by decide), if_pos rfl]
  exact ⟨_, takes_one hm rfl rfl, .newline (mkTok st ⟨['\n'], chars! "EOL", none⟩) rfl⟩

theorem takes_continuation {c : LexConf} (st : LexState) {rest : Str} (h : rest.head? ≠ some '\n') :
    ∃ g, Takes c st ['\\', '\n'] rest g ∧ TokensOf c st.startline .continuation ['\\', '\n'] g := by
  have htw : ('\n' :: rest).takeWhile (· = '\n') = ['\n'] := by
    have : rest.takeWhile (· = '\n') = [] := by
      cases rest with
      | nil => rfl
      | cons k r => simp at h; simp [h]
    simp [this]
  have hm : mainTok c st '\\' (['\n'] ++ rest) = some ⟨['\\', '\n'], c.testLiterals ['\\', '\n'] (chars! "EOL_BACKSLASH"), none⟩ := by
    unfold mainTok
    rw [if_neg (by decide), if_neg (by decide), if_neg (by decide), if_neg (by decide), if_neg (by decide), if_neg (by decide), if_neg (by decide),
      if_neg (by decide), if_neg (by decide), if_neg (by decide), if_pos rfl]
    unfold lexBackslash
    simp only [List.cons_append, List.nil_append, htw]
    rfl
  exact ⟨_, takes_one hm rfl rfl, .continuation (mkTok st ⟨['\\', '\n'], _, none⟩) (literalType c _ _)⟩

end Srcml
