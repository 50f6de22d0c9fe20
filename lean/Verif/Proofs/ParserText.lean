import Verif.Spec.Parser
import Verif.Proofs.Escape
/-
Proofs about the text carried by the buffers of the parser (C14).
-/
set_option linter.unusedSimpArgs false
namespace Srcml
open Srcml.Spec

/-- What a token contributes: whether it is the end of file, and its source text. -/
def keyOf (t : Tok) : List (Bool × Str) :=
  match t.category with
  | .text => [(isEof t, t.text)]
  | .empty => if t.type = chars! "CONTROL_CHAR" then [(false, [lowByte (strtol0 t.text)])] else []
  | _ => []

def keys (ps : List PTok) : List (Bool × Str) := ps.flatMap (fun p => keyOf p.tok)

@[simp] theorem keys_append (a b : List PTok) : keys (a ++ b) = keys a ++ keys b := by simp [keys]
@[simp] theorem keys_nil : keys [] = [] := rfl
@[simp] theorem keys_cons (p : PTok) (a : List PTok) : keys (p :: a) = keyOf p.tok ++ keys a := by simp [keys]

/-- The contributions of the first `n` tokens of the source (and the end-of-file tokens after it). -/
def srcKeys (c : PConf) (n : Nat) : List (Bool × Str) :=
  (List.range n).map (fun i => let t := (c.src[i]?).getD c.eof; (isEof t, t.text))

/-- Buffers of skipped lines are empty outside of them. -/
def WF (s : PState) : Prop := s.inskip = false → s.pretb = [] ∧ s.skippretb = []

/-- A step that changes no text. -/
def Neutral (s s' : PState) : Prop :=
  s'.pos = s.pos ∧ s'.guessing = s.guessing ∧ s'.inskip = s.inskip ∧ keys s'.queue = keys s.queue ∧ (WF s → WF s')

theorem Neutral.refl (s : PState) : Neutral s s := ⟨rfl, rfl, rfl, rfl, id⟩
theorem Neutral.trans {a b d : PState} (h1 : Neutral a b) (h2 : Neutral b d) : Neutral a d :=
  ⟨h2.1.trans h1.1, h2.2.1.trans h1.2.1, h2.2.2.1.trans h1.2.2.1, h2.2.2.2.1.trans h1.2.2.2.1,
    h2.2.2.2.2 ∘ h1.2.2.2.2⟩

/-- A step that does not touch the buffers. -/
theorem Neutral.same {s s' : PState} (h1 : s'.pos = s.pos) (h2 : s'.guessing = s.guessing) (h3 : s'.inskip = s.inskip)
    (h4 : s'.tb = s.tb) (h5 : s'.skiptb = s.skiptb) (h6 : s'.pretb = s.pretb) (h7 : s'.skippretb = s.skippretb)
    (h8 : s'.out = s.out) : Neutral s s' :=
  ⟨h1, h2, h3, by unfold PState.queue; rw [h4, h5, h6, h7, h8], by unfold WF; rw [h3, h6, h7]; exact id⟩

theorem neutral_flushSkip (s : PState) : Neutral s s.flushSkip := by
  unfold PState.flushSkip
  split
  · rename_i h
    refine ⟨rfl, rfl, rfl, ?_, ?_⟩
    · simp [PState.queue]
    · intro _ h2; rw [h] at h2; cases h2
  · refine ⟨rfl, rfl, rfl, by simp [PState.queue], fun h => h⟩

theorem neutral_emplace (s : PState) (t : PTok) (ht : keyOf t.tok = []) : Neutral s (s.emplace t) := by
  unfold PState.emplace
  split
  · rename_i h
    refine ⟨rfl, rfl, rfl, by simp [PState.queue, ht], ?_⟩
    intro _ h2; rw [h] at h2; cases h2
  · exact ⟨rfl, rfl, rfl, by simp [PState.queue, ht], fun h => h⟩

theorem neutral_pushToken (s : PState) (t : PTok) (ht : keyOf t.tok = []) : Neutral s (s.pushToken t) := by
  unfold PState.pushToken
  split
  · exact .refl s
  · exact neutral_emplace s t ht

theorem neutral_pushTokenFlush (s : PState) (t : PTok) (ht : keyOf t.tok = []) : Neutral s (s.pushTokenFlush t) := by
  unfold PState.pushTokenFlush
  split
  · exact .refl s
  · exact (neutral_flushSkip s).trans (neutral_emplace _ t ht)

theorem neutral_pushSkipToken (s : PState) (t : PTok) (ht : keyOf t.tok = []) : Neutral s (s.pushSkipToken t) := by
  unfold PState.pushSkipToken
  split
  · exact .refl s
  · split
    · rename_i h
      refine ⟨rfl, rfl, rfl, by simp [PState.queue, ht], ?_⟩
      intro _ h2; rw [h] at h2; cases h2
    · exact ⟨rfl, rfl, rfl, by simp [PState.queue, ht], fun h => h⟩

theorem neutral_fresh (s : PState) : Neutral s s.fresh := .same rfl rfl rfl rfl rfl rfl rfl rfl

theorem neutral_pushEnds (s : PState) (c : PConf) (u : Nat) : Neutral s (s.pushEnds c u) := by
  unfold PState.pushEnds; split
  · exact .same rfl rfl rfl rfl rfl rfl rfl rfl
  · exact .refl s

theorem neutral_noteType (s : PState) (c : PConf) (id : TokType) : Neutral s (s.noteType c id) := by
  unfold PState.noteType; split
  · exact .same rfl rfl rfl rfl rfl rfl rfl rfl
  · exact .refl s

theorem neutral_mapTok (s : PState) (u : Nat) (f : Tok → Tok) (hf : ∀ t, keyOf (f t) = keyOf t) :
    Neutral s (s.mapTok u f) := by
  have hk : ∀ ps : List PTok,
      keys (ps.map (fun p => if p.uid = u then { p with tok := f p.tok } else p)) = keys ps := by
    intro ps
    induction ps with
    | nil => rfl
    | cons p ps ih =>
      simp only [List.map_cons, keys_cons, ih]
      split
      · rw [hf]
      · rfl
  refine ⟨rfl, rfl, rfl, ?_, ?_⟩
  · simp only [PState.queue, PState.mapTok, keys_append, hk]
  · intro h h2
    obtain ⟨ha, hb⟩ := h h2
    simp [PState.mapTok, ha, hb]

theorem keyOf_setEnd (l col : Nat) (t : Tok) : keyOf (PState.setEnd l col t) = keyOf t := by
  unfold keyOf PState.setEnd isEof
  rfl

theorem neutral_endPosition (s : PState) (c : PConf) (id : TokType) : Neutral s (s.endPosition c id) := by
  unfold PState.endPosition
  split
  · split
    · exact .same rfl rfl rfl rfl rfl rfl rfl rfl
    · rename_i u us _
      generalize hs1 : (if id = chars! "STYPE" then
        ({ s with lasttypeendline := s.lastline, lasttypeendcolumn := s.lastcolumn } : PState) else s) = s1
      have h1 : Neutral s s1 := by
        rw [← hs1]; split
        · exact .same rfl rfl rfl rfl rfl rfl rfl rfl
        · exact .refl s
      refine h1.trans ?_
      refine Neutral.trans (b := if id = chars! "STYPEPREV" then
        s1.mapTok u (PState.setEnd s1.lasttypeendline s1.lasttypeendcolumn)
        else s1.mapTok u (PState.setEnd s1.lastline s1.lastcolumn)) ?_ (.same rfl rfl rfl rfl rfl rfl rfl rfl)
      split
      · exact neutral_mapTok _ _ _ (keyOf_setEnd _ _)
      · exact neutral_mapTok _ _ _ (keyOf_setEnd _ _)
  · exact .refl s

theorem keyOf_start (t : Tok) (h : t.category = .start) : keyOf t = [] := by unfold keyOf; rw [h]
theorem keyOf_end (t : Tok) (h : t.category = .end_) : keyOf t = [] := by unfold keyOf; rw [h]
theorem keyOf_empty (t : Tok) (h : t.category = .empty) (h2 : t.type ≠ chars! "CONTROL_CHAR") : keyOf t = [] := by
  unfold keyOf; rw [h]; simp [h2]

theorem startTokFlush_category (s : PState) (c : PConf) (id : TokType) : (s.startTokFlush c id).category = .start := by
  unfold PState.startTokFlush; split <;> rfl

theorem neutral_pushSToken (s : PState) (c : PConf) (id : TokType) : Neutral s (s.pushSToken c id) :=
  ((neutral_pushEnds s c _).trans (neutral_pushToken _ _ (keyOf_start _ rfl))).trans (neutral_fresh _)

theorem neutral_pushSSkipToken (s : PState) (c : PConf) (id : TokType) : Neutral s (s.pushSSkipToken c id) :=
  ((neutral_pushEnds s c _).trans (neutral_pushSkipToken _ _ (keyOf_start _ rfl))).trans (neutral_fresh _)

theorem neutral_pushSTokenFlush (s : PState) (c : PConf) (id : TokType) : Neutral s (s.pushSTokenFlush c id) :=
  (((neutral_noteType s c id).trans (neutral_pushEnds _ c _)).trans
    (neutral_pushTokenFlush _ _ (keyOf_start _ (startTokFlush_category _ _ _)))).trans (neutral_fresh _)

theorem neutral_pushEToken (s : PState) (c : PConf) (id : TokType) (e : Nat) : Neutral s (s.pushEToken c id e) :=
  ((neutral_pushToken s _ (keyOf_end _ rfl)).trans (neutral_fresh _)).trans (neutral_endPosition _ _ _)

theorem neutral_pushESkipToken (s : PState) (c : PConf) (id : TokType) : Neutral s (s.pushESkipToken c id) := by
  unfold PState.pushESkipToken
  have h1 : Neutral s ((s.pushSkipToken ⟨s.next, { type := id, category := .end_ }, 0⟩).fresh) :=
    (neutral_pushSkipToken s _ (keyOf_end _ rfl)).trans (neutral_fresh _)
  generalize (s.pushSkipToken ⟨s.next, { type := id, category := .end_ }, 0⟩).fresh = s1 at h1 ⊢
  refine h1.trans ?_
  dsimp only
  split
  · split
    · exact .same rfl rfl rfl rfl rfl rfl rfl rfl
    · exact Neutral.trans (neutral_mapTok s1 _ _ (keyOf_setEnd _ _)) (.same rfl rfl rfl rfl rfl rfl rfl rfl)
  · exact .refl _

theorem neutral_endTop (s : PState) (c : PConf) : Neutral s (s.endTop c) := by
  unfold PState.endTop
  split
  · rename_i m st h1
    split
    · rename_i id u es h2
      refine Neutral.trans (b := if decide (m.flags &&& MODE_ISSUE_EMPTY_AT_POP ≠ 0) then s.pushSToken c id else s) ?_ ?_
      · split
        · exact neutral_pushSToken s c id
        · exact .refl s
      · exact (neutral_pushEToken _ _ _ _).trans (.same rfl rfl rfl rfl rfl rfl rfl rfl)
    · exact .refl s
  · exact .refl s

theorem neutral_endTops (c : PConf) (n : Nat) : ∀ s : PState, Neutral s (PState.endTops c n s) := by
  induction n with
  | zero => exact fun s => .refl s
  | succ n ih => exact fun s => (neutral_endTop s c).trans (ih _)

theorem neutral_popMode (s : PState) (c : PConf) : Neutral s (s.popMode c) :=
  (neutral_endTops c _ s).trans (.same rfl rfl rfl rfl rfl rfl rfl rfl)

theorem neutral_completeSkip (s : PState) (c : PConf) : Neutral s (s.completeSkip c) := by
  unfold PState.completeSkip
  split
  · exact .refl s
  · rename_i id ids _
    exact Neutral.trans (b := ({ s with slastcolumn := (s.lt c).column - 1, slastline := (s.lt c).line } : PState))
      (.same rfl rfl rfl rfl rfl rfl rfl rfl)
      ((neutral_pushESkipToken _ c id).trans (.same rfl rfl rfl rfl rfl rfl rfl rfl))

theorem neutral_retype (s : PState) (u : Nat) (id : TokType) : Neutral s (s.retype u id) := by
  unfold PState.retype
  split
  · refine Neutral.trans (neutral_mapTok s u (fun t => if t.category = .start then { t with type := id } else t) ?_)
      (.same rfl rfl rfl rfl rfl rfl rfl rfl)
    intro t
    split
    · rename_i h
      rw [keyOf_start _ h, keyOf_start _ (by exact h)]
    · rfl
  · exact .refl s

theorem keyOf_nopTok (t : Tok) : keyOf (PState.nopTok t) = keyOf t := by
  unfold PState.nopTok
  split
  · rename_i h
    rcases h with h | h
    · rw [keyOf_start _ h, keyOf_start _ (by exact h)]
    · rw [keyOf_end _ h, keyOf_end _ (by exact h)]
  · rfl

theorem neutral_act (c : PConf) (s : PState) (a : Act) (hv : a.Valid) : Neutral s (a.run c s) := by
  cases a with
  | startElement id =>
    simp only [Act.run, PState.startElement]
    split
    · rename_i s1 h
      unfold PState.pushOpen at h
      cases hp : ModeStack.push s.st (id, s.next) with
      | none => rw [hp] at h; cases h
      | some st' =>
        rw [hp] at h
        simp only [Option.map_some, Option.some.injEq] at h
        subst h
        exact Neutral.trans (.same rfl rfl rfl rfl rfl rfl rfl rfl) (neutral_pushSTokenFlush _ c id)
    · exact .refl s
  | startNoSkipElement id =>
    simp only [Act.run, PState.startNoSkipElement]
    split
    · rename_i s1 h
      unfold PState.pushOpen at h
      cases hp : ModeStack.push s.st (id, s.next) with
      | none => rw [hp] at h; cases h
      | some st' =>
        rw [hp] at h
        simp only [Option.map_some, Option.some.injEq] at h
        subst h
        exact Neutral.trans (.same rfl rfl rfl rfl rfl rfl rfl rfl) (neutral_pushSToken _ c id)
    · exact .refl s
  | addElement id =>
    simp only [Act.run, PState.addElement, PState.pushOpen]
    cases ModeStack.push s.st (id, 0) with
    | none => exact .refl s
    | some st' => exact .same rfl rfl rfl rfl rfl rfl rfl rfl
  | emptyElement id =>
    exact (neutral_pushTokenFlush s _ (keyOf_empty _ rfl hv.2)).trans (neutral_fresh _)
  | endTop => exact neutral_endTop s c
  | newMode m => exact .same rfl rfl rfl rfl rfl rfl rfl rfl
  | endMode =>
    simp only [Act.run, PState.endMode]
    split
    · exact .refl s
    · exact neutral_popMode s c
  | endLastMode => exact neutral_popMode s c
  | setMode m => exact .same rfl rfl rfl rfl rfl rfl rfl rfl
  | clearMode m => exact .same rfl rfl rfl rfl rfl rfl rfl rfl
  | flushSkip => exact neutral_flushSkip s
  | completeSkip => exact neutral_completeSkip s c
  | retype u id => exact neutral_retype s u id
  | pause =>
    simp only [Act.run, PState.pauseStream]
    split <;> exact .same rfl rfl rfl rfl rfl rfl rfl rfl
  | resume => exact .same rfl rfl rfl rfl rfl rfl rfl rfl
  | nop =>
    simp only [Act.run, PState.nopStreamStart]
    split
    · split
      · exact ((neutral_mapTok s _ _ keyOf_nopTok).trans (neutral_mapTok _ _ _ keyOf_nopTok)).trans
          (.same rfl rfl rfl rfl rfl rfl rfl rfl)
      · exact .refl s
    · exact .refl s

/-! ### Steps that consume -/

/-- A step that consumes the next source token. -/
def Eats (c : PConf) (s s' : PState) : Prop :=
  s'.pos = s.pos + 1 ∧ s'.guessing = s.guessing ∧ s'.inskip = s.inskip ∧ (WF s → WF s') ∧
  (WF s → keys s'.queue = keys s.queue ++ if s.guessing = 0 then [(isEof (s.lt c), (s.lt c).text)] else [])

theorem Neutral.eats {c : PConf} {a b d : PState} (h1 : Neutral a b) (h2 : Eats c b d) (hl : b.lt c = a.lt c) :
    Eats c a d :=
  ⟨by rw [h2.1, h1.1], h2.2.1.trans h1.2.1, h2.2.2.1.trans h1.2.2.1, h2.2.2.2.1 ∘ h1.2.2.2.2,
    fun w => by rw [h2.2.2.2.2 (h1.2.2.2.2 w), h1.2.2.2.1, h1.2.1, hl]⟩

theorem Eats.neutral {c : PConf} {a b d : PState} (h1 : Eats c a b) (h2 : Neutral b d) : Eats c a d :=
  ⟨by rw [h2.1, h1.1], h2.2.1.trans h1.2.1, h2.2.2.1.trans h1.2.2.1, h2.2.2.2.2 ∘ h1.2.2.2.1,
    fun w => by rw [h2.2.2.2.1, h1.2.2.2.2 w]⟩

theorem Neutral.lt {c : PConf} {a b : PState} (h : Neutral a b) : b.lt c = a.lt c := by
  unfold PState.lt; rw [h.1]

theorem advance_fresh_pushSkip (c : PConf) (s : PState) (t : PTok)
    (ht : keyOf t.tok = [(isEof (s.lt c), (s.lt c).text)]) :
    Eats c s (((s.pushSkipToken t).fresh).advance) := by
  unfold PState.pushSkipToken PState.fresh PState.advance
  by_cases hg : s.guessing = 0
  · simp only [hg, ne_eq, not_true_eq_false, if_false]
    by_cases hi : s.inskip = true
    · simp only [hi, if_true]
      refine ⟨rfl, hg.symm, hi.symm, fun _ h2 => ?_, fun w => ?_⟩
      · cases h2
      · simp [PState.queue, ht, hg, List.append_assoc]
    · have hi' : s.inskip = false := by simpa using hi
      simp only [hi', Bool.false_eq_true, if_false]
      refine ⟨rfl, hg.symm, hi'.symm, fun h => fun _ => h hi', fun w => ?_⟩
      obtain ⟨w1, w2⟩ := w hi'
      simp [PState.queue, ht, hg, w1, w2, List.append_assoc]
  · simp only [ne_eq, hg, not_false_eq_true, if_true]
    exact ⟨rfl, rfl, rfl, fun h => h, fun _ => by simp [PState.queue, hg]⟩

theorem advance_fresh_pushFlush (c : PConf) (s : PState) (t : PTok)
    (ht : keyOf t.tok = [(isEof (s.lt c), (s.lt c).text)]) :
    Eats c s (((s.pushTokenFlush t).fresh).advance) := by
  unfold PState.pushTokenFlush PState.fresh PState.advance PState.flushSkip PState.emplace
  by_cases hg : s.guessing = 0
  · simp only [hg, ne_eq, not_true_eq_false, if_false]
    by_cases hi : s.inskip = true
    · simp only [hi, if_true]
      refine ⟨rfl, hg.symm, hi.symm, fun _ h2 => ?_, fun w => ?_⟩
      · cases h2
      · simp [PState.queue, ht, hg, List.append_assoc]
    · have hi' : s.inskip = false := by simpa using hi
      simp only [hi', Bool.false_eq_true, if_false]
      refine ⟨rfl, hg.symm, hi'.symm, fun h => fun _ => h hi', fun w => ?_⟩
      obtain ⟨w1, w2⟩ := w hi'
      simp [PState.queue, ht, hg, w1, w2, List.append_assoc]
  · simp only [ne_eq, hg, not_false_eq_true, if_true]
    exact ⟨rfl, rfl, rfl, fun h => h, fun _ => by simp [PState.queue, hg]⟩

theorem lt_mem {c : PConf} (s : PState) : s.lt c ∈ c.src ∨ s.lt c = c.eof := by
  unfold PState.lt
  cases h : c.src[s.pos]? with
  | none => right; rfl
  | some t => left; exact List.mem_of_getElem? h

theorem lt_text {c : PConf} (hs : LexerTokens c.src) (he : EofToken c.eof) (s : PState) : (s.lt c).category = .text := by
  rcases lt_mem (c := c) s with h | h
  · exact (hs _ h).1
  · rw [h]; exact he.1

theorem keyOf_lt {c : PConf} (hs : LexerTokens c.src) (he : EofToken c.eof) (s : PState) :
    keyOf (s.lt c) = [(isEof (s.lt c), (s.lt c).text)] := by
  unfold keyOf; rw [lt_text hs he s]

theorem eats_skipCur {c : PConf} (hs : LexerTokens c.src) (he : EofToken c.eof) (s : PState) :
    Eats c s (s.skipCur c) :=
  advance_fresh_pushSkip c s _ (keyOf_lt hs he s)

theorem eats_consumeHead {c : PConf} (hs : LexerTokens c.src) (he : EofToken c.eof) (s : PState) :
    Eats c s (s.consumeHead c) := by
  unfold PState.consumeHead
  split
  · exact (advance_fresh_pushSkip c s (s.cur c) (keyOf_lt hs he s)).neutral (.same rfl rfl rfl rfl rfl rfl rfl rfl)
  · exact (advance_fresh_pushFlush c s (s.cur c) (keyOf_lt hs he s)).neutral (.same rfl rfl rfl rfl rfl rfl rfl rfl)

theorem neutral_popComment (s : PState) : Neutral s s.popComment := by
  unfold PState.popComment; split <;> exact .same rfl rfl rfl rfl rfl rfl rfl rfl

theorem neutral_noteSkipPos (s : PState) (c : PConf) : Neutral s (s.noteSkipPos c) :=
  .same rfl rfl rfl rfl rfl rfl rfl rfl

theorem keyOf_controlTok {t : Tok} (h : t.type = chars! "CONTROL_CHAR") {ch : Char} (ht : t.text = [ch])
    (hc : ch.toNat < 32) : keyOf (PState.controlTok t) = [(isEof t, t.text)] := by
  have he : isEof t = false := by unfold isEof; rw [h]; rfl
  unfold keyOf PState.controlTok
  simp only [h, if_true, ht, List.head?_cons, Option.getD_some]
  rw [strtol_control _ (by omega), he]
  have : lowByte (ch.toNat : Int) = ch := by
    unfold lowByte
    have : ((ch.toNat : Int) % 256).toNat = ch.toNat := by omega
    rw [this, Char.ofNat_toNat]
  rw [this]

theorem eats_skipToken {c : PConf} (hs : LexerTokens c.src) (he : EofToken c.eof) (s : PState) :
    Eats c s (s.skipToken c) := by
  have hlt := lt_mem (c := c) s
  have hcur := fun s => eats_skipCur hs he (c := c) s
  unfold PState.skipToken
  dsimp only
  split
  · rename_i hc
    apply advance_fresh_pushSkip
    rcases hlt with h | h
    · obtain ⟨ch, h1, h2⟩ := (hs _ h).2.2 hc
      exact keyOf_controlTok hc h1 h2
    · rw [h] at hc
      have := he.2.1
      unfold isEof at this
      rw [hc] at this
      simp at this
  · split
    · rename_i el _
      have h1 := neutral_pushSSkipToken s c el
      exact ((h1.eats (hcur _) h1.lt).neutral (neutral_noteSkipPos _ c)).neutral (neutral_pushESkipToken _ c el)
    · rename_i el _
      have h1 := neutral_pushSSkipToken s c el
      exact (h1.eats (hcur _) h1.lt).neutral (.same rfl rfl rfl rfl rfl rfl rfl rfl)
    · rename_i el _ _ _ _ _
      have h0 := neutral_popComment s
      split
      · have h1 := (h0.trans (neutral_noteSkipPos _ c)).trans (neutral_pushESkipToken _ c el)
        exact h1.eats (hcur _) h1.lt
      · exact ((h0.eats (hcur _) h0.lt).neutral (neutral_noteSkipPos _ c)).neutral (neutral_pushESkipToken _ c _)
    · exact hcur s

theorem srcKeys_succ (c : PConf) (s : PState) :
    srcKeys c (s.pos + 1) = srcKeys c s.pos ++ [(isEof (s.lt c), (s.lt c).text)] := by
  unfold srcKeys PState.lt
  rw [List.range_succ, List.map_append]
  rfl

/-- The buffers carry the source up to some point, up to the current token if not guessing. -/
def TextInv (c : PConf) (s : PState) : Prop :=
  ∃ p, keys s.queue = srcKeys c p ∧ (s.guessing = 0 → p = s.pos)

/-- What every run keeps. -/
structure Keeps (c : PConf) (s s' : PState) : Prop where
  wf : WF s'
  guess : s.guessing ≤ s'.guessing
  inert : 0 < s.guessing → keys s'.queue = keys s.queue
  inv : TextInv c s → TextInv c s'

theorem Neutral.keeps {c : PConf} {s s' : PState} (h : Neutral s s') (w : WF s) : Keeps c s s' where
  wf := h.2.2.2.2 w
  guess := by rw [h.2.1]; exact Nat.le_refl _
  inert := fun _ => h.2.2.2.1
  inv := fun ⟨p, h1, h2⟩ => ⟨p, by rw [h.2.2.2.1]; exact h1, by rw [h.2.1, h.1]; exact h2⟩

theorem Eats.keeps {c : PConf} {s s' : PState} (h : Eats c s s') (w : WF s) : Keeps c s s' where
  wf := h.2.2.2.1 w
  guess := by rw [h.2.1]; exact Nat.le_refl _
  inert := fun hg => by
    rw [h.2.2.2.2 w, if_neg (by omega), List.append_nil]
  inv := fun ⟨p, h1, h2⟩ => by
    by_cases hg : s.guessing = 0
    · refine ⟨s.pos + 1, ?_, fun _ => h.1.symm⟩
      rw [h.2.2.2.2 w, if_pos hg, h1, h2 hg, srcKeys_succ]
    · refine ⟨p, ?_, fun h0 => absurd (h.2.1.symm.trans h0) hg⟩
      rw [h.2.2.2.2 w, if_neg hg, List.append_nil, h1]

theorem Keeps.trans {c : PConf} {a b d : PState} (h1 : Keeps c a b) (h2 : Keeps c b d) : Keeps c a d where
  wf := h2.wf
  guess := Nat.le_trans h1.guess h2.guess
  inert := fun h => by rw [h2.inert (Nat.lt_of_lt_of_le h h1.guess), h1.inert h]
  inv := h2.inv ∘ h1.inv

theorem Keeps.refl {c : PConf} {s : PState} (w : WF s) : Keeps c s s := (Neutral.refl s).keeps w

/-- Every run of the parser, whatever the grammar does, keeps the text. -/
theorem exec_keeps {c : PConf} (hs : LexerTokens c.src) (he : EofToken c.eof) {strict : Bool} {k : Kind} {s s' : PState}
    (h : Exec c strict k s s') (w : WF s) : Keeps c s s' := by
  induction h with
  | done => exact .refl w
  | act a hv hr _ ih =>
    have h1 := (neutral_act c _ a hv).keeps (c := c) w
    exact h1.trans (ih h1.wf)
  | consume _ _ ih1 ih2 => exact (ih1 w).trans (ih2 (ih1 w).wf)
  | @guess b s s1 s' _ _ ih1 ih2 =>
    have h1 := ih1 w
    have hq : keys (s1.endGuess s.pos).queue = keys s.queue := h1.inert (Nat.succ_pos _)
    have hg : s.guessing ≤ (s1.endGuess s.pos).guessing := by
      have h2 : s.guessing + 1 ≤ s1.guessing := h1.guess
      show s.guessing ≤ s1.guessing - 1
      omega
    have k1 : Keeps c s (s1.endGuess s.pos) :=
      ⟨h1.wf, hg, fun _ => hq, fun ⟨p, e1, e2⟩ => ⟨p, by rw [hq]; exact e1, fun h0 => by
        have h0' : s.guessing = 0 := by omega
        exact e2 h0'⟩⟩
    exact k1.trans (ih2 k1.wf)
  | @escape b s s1 s' _ _ _ ih1 ih2 =>
    have h1 := ih1 w
    have hq : keys s1.queue = keys s.queue := h1.inert (Nat.succ_pos _)
    have hg : s.guessing + 1 ≤ s1.guessing := h1.guess
    have k1 : Keeps c s s1 :=
      ⟨h1.wf, by omega, fun _ => hq, fun ⟨p, e1, e2⟩ => ⟨p, by rw [hq]; exact e1, fun h0 => by omega⟩⟩
    exact k1.trans (ih2 k1.wf)
  | eat _ _ ih =>
    have h1 := (eats_consumeHead hs he _).keeps w
    exact h1.trans (ih h1.wf)
  | stop _ _ => exact .refl w
  | more _ _ ih1 ih2 => exact (ih1 w).trans (ih2 (ih1 w).wf)
  | @abort s s' _ _ hi _ ih =>
    have w1 : WF s.enterSkip := fun h => by cases h
    have k1 : Keeps c s s.enterSkip := ⟨w1, Nat.le_refl _, fun _ => rfl, fun h => h⟩
    exact k1.trans (ih w1)
  | token _ => exact (eats_skipToken hs he _).keeps w
  | @special s s1 _ _ _ _ ih =>
    have w1 : WF s.enterSkip := fun h => by cases h
    have k1 : Keeps c s s.enterSkip := ⟨w1, Nat.le_refl _, fun _ => rfl, fun h => h⟩
    have hq : s1.leaveSkip.queue = s1.queue := by
      simp [PState.queue, PState.leaveSkip]
    have k2 : Keeps c s1 s1.leaveSkip :=
      ⟨fun _ => ⟨rfl, rfl⟩, Nat.le_refl _, fun _ => by rw [hq], fun ⟨p, e1, e2⟩ => ⟨p, by rw [hq]; exact e1, e2⟩⟩
    exact (k1.trans (ih w1)).trans k2
  | fillSkip _ ih => exact (ih w).trans ((neutral_flushSkip _).keeps (ih w).wf)
  | fillStart _ _ _ ih => exact ih w
  | fillError _ _ _ _ ih =>
    exact (ih w).trans (((neutral_pushTokenFlush _ _ (keyOf_empty _ rfl
      (show (chars! "SERROR_PARSE") ≠ chars! "CONTROL_CHAR" by decide))).trans
      (neutral_fresh _)).keeps (ih w).wf)
  | idle => exact .refl w
  | workFill _ _ ih1 ih2 => exact (ih1 w).trans (ih2 (ih1 w).wf)
  | workConsume _ _ ih1 ih2 => exact (ih1 w).trans (ih2 (ih1 w).wf)
  | @next s s' t rest h _ _ _ _ ih =>
    have w1 : WF { s with out := s.out ++ [t], tb := rest } := w
    have hq : (PState.queue { s with out := s.out ++ [t], tb := rest }) = s.queue := by
      simp [PState.queue, h]
    have k1 : Keeps c s { s with out := s.out ++ [t], tb := rest } :=
      ⟨w1, Nat.le_refl _, fun _ => by rw [hq], fun ⟨p, e1, e2⟩ => ⟨p, by rw [hq]; exact e1, e2⟩⟩
    exact k1.trans (ih w1)
  | finish => exact .refl w
  | again _ _ ih1 ih2 => exact (ih1 w).trans (ih2 (ih1 w).wf)

/-- Regular grammar code leaves speculative parsing and skipped lines as it found them. -/
theorem strict_restores {c : PConf} (hs : LexerTokens c.src) (he : EofToken c.eof) {k : Kind} {s s' : PState}
    (h : Exec c true k s s') : s'.guessing = s.guessing ∧ s'.inskip = s.inskip := by
  generalize hst : true = strict at h
  induction h with
  | done => exact ⟨rfl, rfl⟩
  | @act b s s' a hv hr _ ih =>
    have h1 := neutral_act c s a hv
    exact ⟨ih.1.trans h1.2.1, ih.2.trans h1.2.2.1⟩
  | consume _ _ ih1 ih2 => exact ⟨ih2.1.trans ih1.1, ih2.2.trans ih1.2⟩
  | @guess b s s1 s' _ _ ih1 ih2 =>
    refine ⟨ih2.1.trans ?_, ih2.2.trans ih1.2⟩
    show s1.guessing - 1 = s.guessing
    have : s1.guessing = s.guessing + 1 := ih1.1
    omega
  | escape hf => rw [← hst] at hf; cases hf
  | @eat s s' _ _ ih =>
    have h1 := eats_consumeHead hs he (c := c) s
    exact ⟨ih.1.trans h1.2.1, ih.2.trans h1.2.2.1⟩
  | stop _ _ => exact ⟨rfl, rfl⟩
  | more _ _ ih1 ih2 => exact ⟨ih2.1.trans ih1.1, ih2.2.trans ih1.2⟩
  | abort hf => rw [← hst] at hf; cases hf
  | @token s _ =>
    have h1 := eats_skipToken hs he (c := c) s
    exact ⟨h1.2.1, h1.2.2.1⟩
  | @special s s1 _ h _ _ ih =>
    have hi : s.inskip = false := by
      unfold PState.entersSkip at h
      cases hi : s.inskip with
      | false => rfl
      | true => rw [hi] at h; simp at h
    exact ⟨ih.1, hi.symm⟩
  | @fillSkip s s1 _ ih =>
    have h1 := neutral_flushSkip s1
    exact ⟨h1.2.1.trans ih.1, h1.2.2.1.trans ih.2⟩
  | fillStart _ _ _ ih => exact ih
  | @fillError s s' _ _ _ _ ih =>
    have h1 := (neutral_pushTokenFlush s' ⟨s'.next, { type := chars! "SERROR_PARSE", category := .empty }, 0⟩
      (keyOf_empty _ rfl (show (chars! "SERROR_PARSE") ≠ chars! "CONTROL_CHAR" by decide))).trans (neutral_fresh _)
    exact ⟨h1.2.1.trans ih.1, h1.2.2.1.trans ih.2⟩
  | idle => exact ⟨rfl, rfl⟩
  | workFill _ _ ih1 ih2 => exact ⟨ih2.1.trans ih1.1, ih2.2.trans ih1.2⟩
  | workConsume _ _ ih1 ih2 => exact ⟨ih2.1.trans ih1.1, ih2.2.trans ih1.2⟩
  | next _ _ _ _ _ ih => exact ih
  | finish => exact ⟨rfl, rfl⟩
  | again _ _ ih1 ih2 => exact ⟨ih2.1.trans ih1.1, ih2.2.trans ih1.2⟩

end Srcml
