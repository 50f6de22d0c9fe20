import Verif.Props.ParserNest
/-
C54: positions of elements.
-/
set_option linter.unusedSimpArgs false
namespace Srcml
open Srcml.Spec

/-- A state in which grammar code (not in a nested rule for a skipped line) is running. -/
def InCode (c : PConf) (s : PState) : Prop :=
  ∃ s0 t rest s1, Exec c true .driver (PState.init c) s0 ∧ s0.tb = t :: rest ∧
    Exec c true .work { s0 with out := s0.out ++ [t], tb := rest } s1 ∧
    isSkipType s1.inskip (s1.lt c).type = false ∧ Exec c true (.code 0) s1 s

theorem InCode.co {c : PConf} (hs : LexerTokens c.src) (he : EofToken c.eof) (hc : CommentsClosed c) {s : PState}
    (h : InCode c s) : Co c 0 s := by
  obtain ⟨s0, t, rest, s1, h1, _, h3, h4, h5⟩ := h
  obtain ⟨_, hlo, _⟩ := run_facts hs he hc h1
  have hlo1 : Lo c s1 := exec_layer1 hs he hc h3 (hlo.same rfl rfl rfl rfl)
  exact (exec_layer1 hs he hc h5 ⟨hlo1, h4, Nat.zero_le _⟩).1

/-- The stack of positions holds the start tokens of the open elements, innermost first. -/
theorem InCode.ends {c : PConf} (hs : LexerTokens c.src) (he : EofToken c.eof) (hc : CommentsClosed c)
    (hp : c.position = true) {s : PState} (h : InCode c s) : s.ends = (opensOf s.st).map (·.2) := by
  have hco := h.co hs he hc
  obtain ⟨D, h1, h2⟩ := hco.ends hp
  rw [hco.token.closed hc hco.comments] at h1
  have : D = [] := List.length_eq_zero_iff.1 h1
  rw [h2, this]; rfl

theorem emplace_bufs (s : PState) (t : PTok) (p : PTok) : p ∈ (s.emplace t).queue ↔ p ∈ s.queue ∨ p = t := by
  unfold PState.emplace PState.queue
  split <;> simp only [List.mem_append, List.mem_singleton] <;> grind

/-- The tokens that can still be changed. -/
def PState.buffered (s : PState) : List PTok := s.tb ++ s.skiptb ++ s.pretb ++ s.skippretb

/-- C54: ending the innermost open element sets the end position of the start token of that very element - to the
place right after the token consumed last, for a repeated type to the end of the type - and changes no other token;
what is new is the end token. (For every state of grammar code; while the start token is buffered.) -/
theorem C54_end_position_partial {c : PConf} (hs : LexerTokens c.src) (he : EofToken c.eof) (hc : CommentsClosed c)
    (hp : c.position = true) {s : PState} (h : InCode c s) (hg : s.guessing = 0) {m : ModeState} {st : ModeStack}
    {id : TokType} {u : Nat} {es : List (TokType × Nat)} (hst : s.st = m :: st) (ho : m.opens = (id, u) :: es) :
    ∃ e : PTok, e.tok.category = .end_ ∧ e.tok.type = id ∧ e.elem = u ∧
      (s.endTop c).buffered.Perm ((s.buffered ++ [e]).map (fun p => if p.uid = u then
        { p with tok := { p.tok with
            endline := if id = chars! "STYPEPREV" then s.lasttypeendline else s.lastline,
            endcolumn := if id = chars! "STYPEPREV" then s.lasttypeendcolumn else s.lastcolumn } } else p)) ∧
      (s.endTop c).ends = s.ends.drop 1 ∧ (s.endTop c).out = s.out := by
  have hends := h.ends hs he hc hp
  have hco := h.co hs he hc
  have hni : m.flags &&& MODE_ISSUE_EMPTY_AT_POP = 0 := hco.noIssue m (by rw [hst]; simp)
  have hends1 : s.ends = u :: ((es ++ opensOf st).map (·.2)) := by
    rw [hends, hst, opensOf_cons, ho]; rfl
  refine ⟨⟨s.next, { type := id, category := .end_ }, u⟩, rfl, rfl, rfl, ?_, endTop_ends hst ho hni hp, (endTop_other s).2.2.2.2.1⟩
  unfold PState.endTop
  rw [hst]
  dsimp only
  rw [ho]
  dsimp only
  rw [if_neg (by simp [hni]), if_neg (by simp [hni])]
  unfold PState.buffered PState.pushEToken PState.endPosition
  rw [if_pos hp]
  have e1 : ((s.pushToken ⟨s.next, { type := id, category := .end_ }, u⟩).fresh).ends = s.ends := by simp
  rw [e1, hends1]
  dsimp only
  have hpt : s.pushToken ⟨s.next, { type := id, category := .end_ }, u⟩ =
      s.emplace ⟨s.next, { type := id, category := .end_ }, u⟩ := by
    unfold PState.pushToken; rw [if_neg (by simp [hg])]
  rw [hpt]
  have hl : (s.emplace ⟨s.next, { type := id, category := .end_ }, u⟩).lastline = s.lastline ∧
      (s.emplace ⟨s.next, { type := id, category := .end_ }, u⟩).lastcolumn = s.lastcolumn ∧
      (s.emplace ⟨s.next, { type := id, category := .end_ }, u⟩).lasttypeendline = s.lasttypeendline ∧
      (s.emplace ⟨s.next, { type := id, category := .end_ }, u⟩).lasttypeendcolumn = s.lasttypeendcolumn := by
    unfold PState.emplace; split <;> exact ⟨rfl, rfl, rfl, rfl⟩
  have hperm : ((s.emplace ⟨s.next, { type := id, category := .end_ }, u⟩).tb ++
      (s.emplace ⟨s.next, { type := id, category := .end_ }, u⟩).skiptb ++
      (s.emplace ⟨s.next, { type := id, category := .end_ }, u⟩).pretb ++
      (s.emplace ⟨s.next, { type := id, category := .end_ }, u⟩).skippretb).Perm
      (s.tb ++ s.skiptb ++ s.pretb ++ s.skippretb ++ [⟨s.next, { type := id, category := .end_ }, u⟩]) := by
    unfold PState.emplace
    split
    · simp only [List.append_assoc]
      refine List.Perm.append_left _ (List.Perm.append_left _ (List.Perm.append_left _ ?_))
      exact List.perm_append_comm
    · simp only [List.append_assoc]
      refine List.Perm.append_left _ ?_
      refine List.perm_append_comm.trans ?_
      simp
  generalize s.emplace ⟨s.next, { type := id, category := .end_ }, u⟩ = s1 at hl hperm ⊢
  obtain ⟨l1, l2, l3, l4⟩ := hl
  refine List.Perm.trans ?_ (hperm.map _)
  by_cases ht : id = chars! "STYPE"
  · have hne : ¬ id = chars! "STYPEPREV" := by rw [ht]; decide
    simp only [if_pos ht, if_neg hne]
    simp only [PState.mapTok, PState.setEnd, PState.fresh, List.map_append, l1, l2]
    exact List.Perm.refl _
  · simp only [if_neg ht]
    by_cases hq : id = chars! "STYPEPREV"
    · simp only [if_pos hq]
      simp only [PState.mapTok, PState.setEnd, PState.fresh, List.map_append, l3, l4]
      exact List.Perm.refl _
    · simp only [if_neg hq]
      simp only [PState.mapTok, PState.setEnd, PState.fresh, List.map_append, l1, l2]
      exact List.Perm.refl _

/-- C54: consuming a token sets the place that elements ended next get: the line of the following token (also one
that is skipped) and the column before it. Skipped tokens leave it. -/
theorem C54_last_position (c : PConf) (s : PState) :
    ((s.consumeHead c).lastline = (tokAt c (s.pos + 1)).line ∧
      (s.consumeHead c).lastcolumn = (tokAt c (s.pos + 1)).column - 1) ∧
    ((s.skipToken c).lastline = s.lastline ∧ (s.skipToken c).lastcolumn = s.lastcolumn) := by
  constructor
  · have hq : ∀ x : PState, x.pos = s.pos → ((x.fresh.advance).lt c) = tokAt c (s.pos + 1) := by
      intro x hx
      show (c.src[x.pos + 1]?).getD c.eof = _
      rw [hx]; rfl
    unfold PState.consumeHead
    dsimp only
    split
    · rw [hq _ (by simp)]; exact ⟨rfl, rfl⟩
    · rw [hq _ (by simp)]; exact ⟨rfl, rfl⟩
  · have k1 : ∀ (s : PState) t, (s.pushSkipToken t).lastline = s.lastline ∧ (s.pushSkipToken t).lastcolumn = s.lastcolumn := by
      intro s t; unfold PState.pushSkipToken; split
      · exact ⟨rfl, rfl⟩
      · split <;> exact ⟨rfl, rfl⟩
    have k2 : ∀ (s : PState) u, (s.pushEnds c u).lastline = s.lastline ∧ (s.pushEnds c u).lastcolumn = s.lastcolumn := by
      intro s u; unfold PState.pushEnds; split <;> exact ⟨rfl, rfl⟩
    have k3 : ∀ (s : PState) id, (s.pushSSkipToken c id).lastline = s.lastline ∧ (s.pushSSkipToken c id).lastcolumn = s.lastcolumn := by
      intro s id
      exact ⟨(k1 _ _).1.trans (k2 _ _).1, (k1 _ _).2.trans (k2 _ _).2⟩
    have k4 : ∀ (s : PState), (s.skipCur c).lastline = s.lastline ∧ (s.skipCur c).lastcolumn = s.lastcolumn :=
      fun s => k1 s _
    have k5 : ∀ (s : PState) id, (s.pushESkipToken c id).lastline = s.lastline ∧ (s.pushESkipToken c id).lastcolumn = s.lastcolumn := by
      intro s id
      unfold PState.pushESkipToken
      have := k1 s ⟨s.next, { type := id, category := .end_ }, 0⟩
      generalize s.pushSkipToken ⟨s.next, { type := id, category := .end_ }, 0⟩ = s1 at this ⊢
      dsimp only
      split
      · split <;> exact this
      · exact this
    have k6 : s.popComment.lastline = s.lastline ∧ s.popComment.lastcolumn = s.lastcolumn := by
      unfold PState.popComment; split <;> exact ⟨rfl, rfl⟩
    unfold PState.skipToken
    dsimp only
    split
    · exact k1 s _
    · split
      · rename_i el _
        exact ⟨(k5 _ _).1.trans ((k4 _).1.trans (k3 s el).1), (k5 _ _).2.trans ((k4 _).2.trans (k3 s el).2)⟩
      · rename_i el _
        exact ⟨(k4 _).1.trans (k3 s el).1, (k4 _).2.trans (k3 s el).2⟩
      · split
        · exact ⟨(k4 _).1.trans ((k5 _ _).1.trans k6.1), (k4 _).2.trans ((k5 _ _).2.trans k6.2)⟩
        · exact ⟨(k5 _ _).1.trans ((k4 _).1.trans k6.1), (k5 _ _).2.trans ((k4 _).2.trans k6.2)⟩
      · exact k4 s

theorem driver_trans {c : PConf} {strict : Bool} {a b d : PState} (h : Exec c strict .driver a b)
    (h2 : Exec c strict .driver b d) : Exec c strict .driver a d := by
  generalize hk : Kind.driver = k at h
  induction h with
  | finish => exact h2
  | again h1 _ _ ih => exact .again h1 (ih h2 hk)
  | _ => cases hk

/-- C54: a token is only returned when, of all elements, at most one is still without its end (with positions): the
unit. So the start token of every other element is still buffered when the element ends. -/
theorem C54_returned_after_end {c : PConf} (hs : LexerTokens c.src) (he : EofToken c.eof) (hc : CommentsClosed c)
    (hp : c.position = true) {s s' : PState} (h : Exec c true .driver (PState.init c) s)
    (h1 : Exec c true .next s s') : (opensOf s'.st).length ≤ 1 := by
  obtain ⟨_, hlo, _⟩ := run_facts hs he hc (driver_trans h (.again h1 .finish))
  obtain ⟨D, d1, d2⟩ := hlo.ends hp
  cases h1 with
  | next _ _ _ hen _ =>
    have := hen hp
    rw [d2, List.length_append, List.length_map] at this
    omega

/-! ### Runs -/

/-- The end positions of the elements with a name, in the buffers. -/
def endPositions (s : PState) : List (Nat × Nat) :=
  (s.queue.filter (fun p => p.tok.category = .start ∧ p.tok.type = chars! "SNAME")).map
    (fun p => (p.tok.endline, p.tok.endcolumn))

/-- `abc` with a space after it, `;`. -/
def exPos : PConf where
  src := [{ type := chars! "NAME", text := chars! "abc", line := 1, column := 1 },
          { type := chars! "WS", text := chars! " ", line := 1, column := 4 },
          { type := chars! "TERMINATE", text := chars! ";", line := 1, column := 5 }]
  eof := { type := chars! "EOF", line := 1, column := 6 }
  position := true
  cpp := true

/-- The name ends where its text ends, before the space. -/
theorem C54_witness : ∃ s, Exec exPos true (.code 0) (PState.init exPos) s ∧ endPositions s = [(1, 3)] := by
  have h : (Script.run exPos true (.act (.startElement (chars! "SNAME")) (.eat (.skip .stop) (.act .endTop .done))) false 0
      (PState.init exPos)).map endPositions = some [(1, 3)] := by decide +kernel
  cases hs : Script.run exPos true (.act (.startElement (chars! "SNAME")) (.eat (.skip .stop) (.act .endTop .done)))
      false 0 (PState.init exPos) with
  | none => rw [hs] at h; cases h
  | some s => rw [hs] at h; exact ⟨s, Script.run_sound _ _ _ _ _ _ _ hs, by simpa using h⟩

/-- Finding: a speculative parse moves the place too, and it is not put back: the same name, ended after a
speculative look at the next token, ends at column 5. -/
theorem C54_finding_guess : ∃ s, Exec exPos true (.code 0) (PState.init exPos) s ∧ endPositions s = [(1, 5)] := by
  have h : (Script.run exPos true (.act (.startElement (chars! "SNAME")) (.eat (.skip .stop)
      (.guess (.eat .stop .done) (.act .endTop .done)))) false 0
      (PState.init exPos)).map endPositions = some [(1, 5)] := by decide +kernel
  cases hs : Script.run exPos true (.act (.startElement (chars! "SNAME")) (.eat (.skip .stop)
      (.guess (.eat .stop .done) (.act .endTop .done)))) false 0 (PState.init exPos) with
  | none => rw [hs] at h; cases h
  | some s => rw [hs] at h; exact ⟨s, Script.run_sound _ _ _ _ _ _ _ hs, by simpa using h⟩

/-- `abc` and a preprocessor line on its own. -/
def exPosCpp : PConf where
  src := [{ type := chars! "NAME", text := chars! "abc", line := 1, column := 1 },
          { type := chars! "EOL", text := ['\n'], line := 1, column := 4 },
          { type := chars! "PREPROC", text := chars! "#", line := 2, column := 1 },
          { type := chars! "EOL", text := ['\n'], line := 2, column := 2 },
          { type := chars! "TERMINATE", text := chars! ";", line := 3, column := 1 }]
  eof := { type := chars! "EOF", line := 3, column := 2 }
  position := true
  cpp := true

/-- Finding: a preprocessor line after a token moves the place to that line: the name before it, ended after it was
consumed, is given an end on line 2. -/
theorem C54_finding_preprocessor : ∃ s, Exec exPosCpp true (.code 0) (PState.init exPosCpp) s ∧
    endPositions s = [(2, 1)] := by
  have h : (Script.run exPosCpp true (.act (.startElement (chars! "SNAME")) (.eat (.skip (.special
      (.act (.newMode 1) (.act (.startElement (chars! "SCPP_EMPTY")) (.eat .stop (.act .endMode .done)))) (.skip .stop)))
      (.act .endTop .done))) false 0 (PState.init exPosCpp)).map endPositions = some [(2, 1)] := by decide +kernel
  cases hs : Script.run exPosCpp true (.act (.startElement (chars! "SNAME")) (.eat (.skip (.special
      (.act (.newMode 1) (.act (.startElement (chars! "SCPP_EMPTY")) (.eat .stop (.act .endMode .done)))) (.skip .stop)))
      (.act .endTop .done))) false 0 (PState.init exPosCpp) with
  | none => rw [hs] at h; cases h
  | some s => rw [hs] at h; exact ⟨s, Script.run_sound _ _ _ _ _ _ _ hs, by simpa using h⟩

theorem commentsClosed_none {c : PConf} (h : ∀ n, commentRole (tokAt c n).type = none) : CommentsClosed c := by
  intro n
  refine ⟨[], ?_, fun _ => rfl⟩
  induction n with
  | zero => rfl
  | succ n ih =>
    show (commentsAt c n).bind _ = _
    rw [ih]
    show commentStep [] (tokAt c n).type = _
    unfold commentStep
    rw [h n]

/-- The hypotheses of `C54_end_position_partial` are met in a run. -/
example : ∃ s m, InCode exPos s ∧ LexerTokens exPos.src ∧ EofToken exPos.eof ∧ CommentsClosed exPos ∧ s.guessing = 0 ∧
    s.st = [m] ∧ m.opens = [(chars! "SNAME", 3), (chars! "SUNIT", 1)] := by
  have h : (Script.run exPos true (.act (.startElement (chars! "SNAME")) (.eat (.skip .stop) .done)) false 0
      { PState.init exPos with out := (PState.init exPos).out ++ (PState.init exPos).tb.take 1, tb := (PState.init exPos).tb.drop 1 }).map
      (fun s => (s.guessing, s.st.map (·.opens))) = some (0, [[(chars! "SNAME", 3), (chars! "SUNIT", 1)]]) := by
    decide +kernel
  cases hs : Script.run exPos true (.act (.startElement (chars! "SNAME")) (.eat (.skip .stop) .done)) false 0
      { PState.init exPos with out := (PState.init exPos).out ++ (PState.init exPos).tb.take 1, tb := (PState.init exPos).tb.drop 1 } with
  | none => rw [hs] at h; cases h
  | some s =>
    rw [hs] at h
    simp only [Option.map_some, Option.some.injEq, Prod.mk.injEq] at h
    cases hst : s.st with
    | nil => rw [hst] at h; cases h.2
    | cons m st =>
      rw [hst] at h
      simp only [List.map_cons, List.cons.injEq, List.map_eq_nil_iff] at h
      obtain ⟨h1, h2, h3⟩ := h
      refine ⟨s, m, ⟨PState.init exPos, _, _, _, .finish, rfl, .idle, by decide, Script.run_sound _ _ _ _ _ _ _ hs⟩, ?_,
        ⟨by decide, by decide, rfl⟩, ?_, h1, by rw [hst, h3], h2⟩
      · intro t ht
        simp only [exPos, List.mem_cons, List.not_mem_nil, or_false] at ht
        rcases ht with rfl | rfl | rfl <;> exact ⟨rfl, by decide, fun h => absurd h (by decide)⟩
      · refine commentsClosed_none ?_
        intro n
        match n with
        | 0 => decide
        | 1 => decide
        | 2 => decide
        | n + 3 =>
          have : tokAt exPos (n + 3) = exPos.eof := by
            unfold tokAt; rw [List.getElem?_eq_none (by show 3 ≤ n + 3; omega)]; rfl
          rw [this]; decide

end Srcml
