import Verif.Proofs.ParserStack
/-
Identities of the buffered tokens: all different, for any grammar code.
-/
set_option linter.unusedSimpArgs false
namespace Srcml
open Srcml.Spec

/-- Identities of the tokens in the buffers. -/
def uidsOf (s : PState) : List Nat := s.queue.map (·.uid)

/-- Only new token objects are added. -/
def Uq (s s' : PState) : Prop :=
  s.next ≤ s'.next ∧ ∃ new : List Nat, (uidsOf s').Perm (uidsOf s ++ new) ∧ new.Nodup ∧ ∀ x ∈ new, s.next ≤ x ∧ x < s'.next

/-- The identities are all different, positive and used up. -/
structure Uids (s : PState) : Prop where
  nodup : (uidsOf s).Nodup
  bound : ∀ x ∈ uidsOf s, 0 < x ∧ x < s.next
  pos : 0 < s.next

theorem Uq.refl (s : PState) : Uq s s := ⟨Nat.le_refl _, [], by simp, List.nodup_nil, by simp⟩

theorem Uq.trans {a b d : PState} (h1 : Uq a b) (h2 : Uq b d) : Uq a d := by
  obtain ⟨l1, n1, p1, q1, r1⟩ := h1
  obtain ⟨l2, n2, p2, q2, r2⟩ := h2
  refine ⟨Nat.le_trans l1 l2, n1 ++ n2, ?_, ?_, ?_⟩
  · rw [← List.append_assoc]; exact p2.trans (p1.append_right n2)
  · rw [List.nodup_append]
    refine ⟨q1, q2, ?_⟩
    intro x hx y hy e
    subst e
    have := (r1 x hx).2; have := (r2 x hy).1
    omega
  · intro x hx
    rcases List.mem_append.1 hx with h | h
    · have := r1 x h; omega
    · have := r2 x h; omega

theorem Uq.same {s s' : PState} (h1 : s'.next = s.next) (h2 : uidsOf s' = uidsOf s) : Uq s s' :=
  ⟨by omega, [], by rw [h2]; simp, List.nodup_nil, by simp⟩

theorem Uq.perm {s s' : PState} (h1 : s.next ≤ s'.next) (h2 : (uidsOf s').Perm (uidsOf s)) : Uq s s' :=
  ⟨h1, [], by simpa using h2, List.nodup_nil, by simp⟩

theorem Uq.one {s s' : PState} (h1 : s'.next = s.next + 1) (h2 : (uidsOf s').Perm (uidsOf s ++ [s.next])) : Uq s s' :=
  ⟨by omega, [s.next], h2, by simp, by intro x hx; simp at hx; omega⟩

theorem Uq.uids {s s' : PState} (h : Uq s s') (u : Uids s) : Uids s' := by
  obtain ⟨l, n, p, q, r⟩ := h
  refine ⟨?_, ?_, Nat.lt_of_lt_of_le u.pos l⟩
  · rw [p.nodup_iff, List.nodup_append]
    refine ⟨u.nodup, q, ?_⟩
    intro x hx y hy e
    subst e
    have := (u.bound x hx).2; have := (r x hy).1
    omega
  · intro x hx
    have hx := p.mem_iff.1 hx
    have := u.pos
    rcases List.mem_append.1 hx with h | h
    · have := u.bound x h; omega
    · have := r x h; omega

theorem uidsOf_eq (s : PState) : uidsOf s = s.out.map (·.uid) ++ s.tb.map (·.uid) ++ s.skiptb.map (·.uid) ++
    s.pretb.map (·.uid) ++ s.skippretb.map (·.uid) := by
  simp [uidsOf, PState.queue]

theorem uq_flushSkip (s : PState) : Uq s s.flushSkip := by
  unfold PState.flushSkip; split
  · exact .same rfl (by simp [uidsOf_eq])
  · exact .same rfl (by simp [uidsOf_eq])

theorem perm_insert (a b : List Nat) (x : Nat) : (a ++ ([x] ++ b)).Perm (a ++ b ++ [x]) := by
  rw [List.append_assoc]
  exact List.Perm.append_left a List.perm_append_comm

theorem uids_emplace (s : PState) (t : PTok) : (uidsOf (s.emplace t)).Perm (uidsOf s ++ [t.uid]) := by
  unfold PState.emplace; split
  · simp only [uidsOf_eq, List.map_append, List.map_cons, List.map_nil]
    have := perm_insert (s.out.map (·.uid) ++ s.tb.map (·.uid) ++ s.skiptb.map (·.uid) ++ s.pretb.map (·.uid))
      (s.skippretb.map (·.uid)) t.uid
    simpa [List.append_assoc] using this
  · simp only [uidsOf_eq, List.map_append, List.map_cons, List.map_nil]
    have := perm_insert (s.out.map (·.uid) ++ s.tb.map (·.uid))
      (s.skiptb.map (·.uid) ++ s.pretb.map (·.uid) ++ s.skippretb.map (·.uid)) t.uid
    simpa [List.append_assoc] using this

theorem emplace_next (s : PState) (t : PTok) : (s.emplace t).next = s.next := by unfold PState.emplace; split <;> rfl
theorem flushSkip_next (s : PState) : s.flushSkip.next = s.next := by unfold PState.flushSkip; split <;> rfl

theorem uq_of_fresh {s s' : PState} (h : s'.next = s.next) (h2 : uidsOf s' = uidsOf s ∨
    (uidsOf s').Perm (uidsOf s ++ [s.next])) : Uq s s'.fresh := by
  have e : uidsOf s'.fresh = uidsOf s' := rfl
  rcases h2 with h2 | h2
  · refine .perm ?_ ?_
    · show s.next ≤ s'.next + 1; omega
    · rw [e, h2]
  · refine .one ?_ ?_
    · show s'.next + 1 = _; omega
    · rw [e]; exact h2

theorem uq_pushToken (s : PState) (t : PTok) (h : t.uid = s.next) : Uq s (s.pushToken t).fresh := by
  unfold PState.pushToken; split
  · exact uq_of_fresh rfl (.inl rfl)
  · exact uq_of_fresh (emplace_next s t) (.inr (by rw [← h]; exact uids_emplace s t))

theorem uq_pushTokenFlush (s : PState) (t : PTok) (h : t.uid = s.next) : Uq s (s.pushTokenFlush t).fresh := by
  unfold PState.pushTokenFlush; split
  · exact uq_of_fresh rfl (.inl rfl)
  · have e : s.flushSkip.next = s.next := by simp [flushSkip_next]
    have h1 := uq_flushSkip s
    refine h1.trans ?_
    refine uq_of_fresh (emplace_next _ t) (.inr ?_)
    rw [e, ← h]; exact uids_emplace _ t

theorem uq_pushSkipToken (s : PState) (t : PTok) (h : t.uid = s.next) : Uq s (s.pushSkipToken t).fresh := by
  unfold PState.pushSkipToken; split
  · exact uq_of_fresh rfl (.inl rfl)
  · split
    · refine uq_of_fresh rfl (.inr ?_)
      simp [uidsOf_eq, h]
    · refine uq_of_fresh rfl (.inr ?_)
      simp only [uidsOf_eq, List.map_append, List.map_cons, List.map_nil, h]
      have := perm_insert (s.out.map (·.uid) ++ s.tb.map (·.uid) ++ s.skiptb.map (·.uid))
        (s.pretb.map (·.uid) ++ s.skippretb.map (·.uid)) s.next
      simpa [List.append_assoc] using this

theorem uq_mapTok (s : PState) (u : Nat) (f : Tok → Tok) : Uq s (s.mapTok u f) := by
  have key : ∀ l : List PTok, (l.map (fun p : PTok => if p.uid = u then { p with tok := f p.tok } else p)).map (·.uid) =
      l.map (·.uid) := by
    intro l
    rw [List.map_map]
    apply List.map_congr_left
    intro p _
    simp only [Function.comp]
    split <;> rfl
  refine .same rfl ?_
  simp only [uidsOf_eq, PState.mapTok, key]

theorem uq_pushEnds (s : PState) (c : PConf) (u : Nat) : Uq s (s.pushEnds c u) := by
  unfold PState.pushEnds; split <;> exact .same rfl rfl
theorem pushEnds_next (s : PState) (c : PConf) (u : Nat) : (s.pushEnds c u).next = s.next := by
  unfold PState.pushEnds; split <;> rfl
theorem uq_noteType (s : PState) (c : PConf) (id : TokType) : Uq s (s.noteType c id) := by
  unfold PState.noteType; split <;> exact .same rfl rfl
theorem noteType_next (s : PState) (c : PConf) (id : TokType) : (s.noteType c id).next = s.next := by
  unfold PState.noteType; split <;> rfl

theorem uq_pushSToken (s : PState) (c : PConf) (id : TokType) : Uq s (s.pushSToken c id) :=
  (uq_pushEnds s c _).trans (uq_pushToken _ _ (by rw [pushEnds_next]))
theorem uq_pushSSkipToken (s : PState) (c : PConf) (id : TokType) : Uq s (s.pushSSkipToken c id) :=
  (uq_pushEnds s c _).trans (uq_pushSkipToken _ _ (by rw [pushEnds_next]))
theorem uq_pushSTokenFlush (s : PState) (c : PConf) (id : TokType) : Uq s (s.pushSTokenFlush c id) :=
  ((uq_noteType s c id).trans (uq_pushEnds _ c _)).trans (uq_pushTokenFlush _ _ (by rw [pushEnds_next, noteType_next]))

theorem uq_endPosition (s : PState) (c : PConf) (id : TokType) : Uq s (s.endPosition c id) := by
  unfold PState.endPosition
  split
  · split
    · exact .same rfl rfl
    · rename_i u us _
      generalize hs1 : (if id = chars! "STYPE" then
        ({ s with lasttypeendline := s.lastline, lasttypeendcolumn := s.lastcolumn } : PState) else s) = s1
      have h1 : Uq s s1 := by rw [← hs1]; split <;> exact .same rfl rfl
      refine h1.trans ?_
      refine Uq.trans (b := if id = chars! "STYPEPREV" then
        s1.mapTok u (PState.setEnd s1.lasttypeendline s1.lasttypeendcolumn)
        else s1.mapTok u (PState.setEnd s1.lastline s1.lastcolumn)) ?_ (.same rfl rfl)
      split <;> exact uq_mapTok _ _ _
  · exact .refl s

theorem uq_pushEToken (s : PState) (c : PConf) (id : TokType) (e : Nat) : Uq s (s.pushEToken c id e) :=
  (uq_pushToken s ⟨s.next, { type := id, category := .end_ }, e⟩ rfl).trans (uq_endPosition _ _ _)

theorem uq_pushESkipToken (s : PState) (c : PConf) (id : TokType) : Uq s (s.pushESkipToken c id) := by
  unfold PState.pushESkipToken
  have h1 : Uq s ((s.pushSkipToken ⟨s.next, { type := id, category := .end_ }, 0⟩).fresh) :=
    uq_pushSkipToken s _ rfl
  generalize (s.pushSkipToken ⟨s.next, { type := id, category := .end_ }, 0⟩).fresh = s1 at h1 ⊢
  refine h1.trans ?_
  dsimp only
  split
  · split
    · exact .same rfl rfl
    · exact Uq.trans (uq_mapTok s1 _ (PState.setEnd s1.slastline s1.slastcolumn)) (.same rfl rfl)
  · exact .refl _

theorem uq_endTop (s : PState) (c : PConf) : Uq s (s.endTop c) := by
  unfold PState.endTop
  split
  · rename_i m st h1
    split
    · rename_i id u es h2
      refine Uq.trans (b := if decide (m.flags &&& MODE_ISSUE_EMPTY_AT_POP ≠ 0) then s.pushSToken c id else s) ?_ ?_
      · split
        · exact uq_pushSToken s c id
        · exact .refl s
      · exact (uq_pushEToken _ _ _ _).trans (.same rfl rfl)
    · exact .refl s
  · exact .refl s

theorem uq_endTops (c : PConf) (n : Nat) : ∀ s : PState, Uq s (PState.endTops c n s) := by
  induction n with
  | zero => exact fun s => .refl s
  | succ n ih => exact fun s => (uq_endTop s c).trans (ih _)

theorem uq_popMode (s : PState) (c : PConf) : Uq s (s.popMode c) := (uq_endTops c _ s).trans (.same rfl rfl)

theorem uq_act (c : PConf) (s : PState) (a : Act) : Uq s (a.run c s) := by
  cases a with
  | startElement id =>
    simp only [Act.run, PState.startElement, PState.pushOpen]
    cases ModeStack.push s.st (id, s.next) with
    | none => exact .refl s
    | some st' => exact Uq.trans (.same rfl rfl) (uq_pushSTokenFlush { s with st := st' } c id)
  | startNoSkipElement id =>
    simp only [Act.run, PState.startNoSkipElement, PState.pushOpen]
    cases ModeStack.push s.st (id, s.next) with
    | none => exact .refl s
    | some st' => exact Uq.trans (.same rfl rfl) (uq_pushSToken { s with st := st' } c id)
  | addElement id =>
    simp only [Act.run, PState.addElement, PState.pushOpen]
    cases ModeStack.push s.st (id, 0) with
    | none => exact .refl s
    | some st' => exact .same rfl rfl
  | emptyElement id => exact uq_pushTokenFlush s ⟨s.next, { type := id, category := .empty }, 0⟩ rfl
  | endTop => exact uq_endTop s c
  | newMode m => exact .same rfl rfl
  | endMode =>
    simp only [Act.run, PState.endMode]
    split
    · exact .refl s
    · exact uq_popMode s c
  | endLastMode => exact uq_popMode s c
  | setMode m => exact .same rfl rfl
  | clearMode m => exact .same rfl rfl
  | flushSkip => exact uq_flushSkip s
  | completeSkip =>
    simp only [Act.run, PState.completeSkip]
    split
    · exact .refl s
    · exact Uq.trans (b := ({ s with slastcolumn := (s.lt c).column - 1, slastline := (s.lt c).line } : PState))
        (.same rfl rfl) ((uq_pushESkipToken _ c _).trans (.same rfl rfl))
  | retype u id =>
    simp only [Act.run, PState.retype]
    split
    · exact Uq.trans (uq_mapTok s u (fun t => if t.category = .start then { t with type := id } else t)) (.same rfl rfl)
    · exact .refl s
  | pause => simp only [Act.run, PState.pauseStream]; split <;> exact .same rfl rfl
  | resume => exact .same rfl rfl
  | nop =>
    simp only [Act.run, PState.nopStreamStart]
    split
    · split
      · exact ((uq_mapTok s _ _).trans (uq_mapTok _ _ _)).trans (.same rfl rfl)
      · exact .refl s
    · exact .refl s

theorem uq_skipCur (s : PState) (c : PConf) : Uq s (s.skipCur c) :=
  (uq_pushSkipToken s (s.cur c) rfl).trans (.same rfl rfl)

theorem uq_consumeHead (s : PState) (c : PConf) : Uq s (s.consumeHead c) := by
  unfold PState.consumeHead
  dsimp only
  split
  · exact (uq_pushSkipToken s (s.cur c) rfl).trans (.same rfl rfl)
  · exact (uq_pushTokenFlush s (s.cur c) rfl).trans (.same rfl rfl)

theorem uq_popComment (s : PState) : Uq s s.popComment := by
  unfold PState.popComment; split <;> exact .same rfl rfl

theorem uq_noteSkipPos (s : PState) (c : PConf) : Uq s (s.noteSkipPos c) := .same rfl rfl

theorem uq_skipToken (s : PState) (c : PConf) : Uq s (s.skipToken c) := by
  unfold PState.skipToken
  dsimp only
  split
  · exact (uq_pushSkipToken s ⟨s.next, PState.controlTok (s.lt c), 0⟩ rfl).trans (.same rfl rfl)
  · split
    · rename_i el _
      have h1 := (uq_pushSSkipToken s c el).trans (uq_skipCur _ c)
      exact (h1.trans (uq_noteSkipPos _ c)).trans (uq_pushESkipToken _ c el)
    · rename_i el _
      exact ((uq_pushSSkipToken s c el).trans (uq_skipCur _ c)).trans (.same rfl rfl)
    · rename_i el _ _ _ _ _
      split
      · exact (((uq_popComment s).trans (uq_noteSkipPos _ c)).trans (uq_pushESkipToken _ c el)).trans
          (uq_skipCur _ c)
      · exact (((uq_popComment s).trans (uq_skipCur _ c)).trans (uq_noteSkipPos _ c)).trans
          (uq_pushESkipToken _ c el)
    · exact uq_skipCur s c

theorem uq_leaveSkip (s : PState) : Uq s s.leaveSkip := by
  refine .same rfl ?_
  simp [uidsOf_eq, PState.leaveSkip]

theorem exec_uq {c : PConf} {strict : Bool} {k : Kind} {s s' : PState} (h : Exec c strict k s s') : Uq s s' := by
  induction h with
  | done => exact .refl _
  | act a hv hr _ ih => exact (uq_act c _ a).trans ih
  | consume _ _ ih1 ih2 => exact ih1.trans ih2
  | guess _ _ ih1 ih2 => exact Uq.trans (.same rfl rfl) (ih1.trans (Uq.trans (.same rfl rfl) ih2))
  | escape _ _ _ ih1 ih2 => exact Uq.trans (.same rfl rfl) (ih1.trans ih2)
  | eat _ _ ih => exact (uq_consumeHead _ c).trans ih
  | stop _ _ => exact .refl _
  | more _ _ ih1 ih2 => exact ih1.trans ih2
  | abort _ _ _ _ ih => exact Uq.trans (.same rfl rfl) ih
  | token _ => exact uq_skipToken _ c
  | special _ _ _ _ ih => exact Uq.trans (.same rfl rfl) (ih.trans (uq_leaveSkip _))
  | fillSkip _ ih => exact ih.trans (uq_flushSkip _)
  | fillStart _ _ _ ih => exact ih
  | fillError _ _ _ _ ih =>
    exact ih.trans (uq_pushTokenFlush _ ⟨_, { type := chars! "SERROR_PARSE", category := .empty }, 0⟩ rfl)
  | idle => exact .refl _
  | workFill _ _ ih1 ih2 => exact ih1.trans ih2
  | workConsume _ _ ih1 ih2 => exact ih1.trans ih2
  | @next s s' t rest h _ _ _ _ ih =>
    refine Uq.trans ?_ ih
    refine .same rfl ?_
    simp [uidsOf_eq, h]
  | finish => exact .refl _
  | again _ _ ih1 ih2 => exact ih1.trans ih2

/-! ### Tokens already taken stay as they are, and the stream is paused on a buffered token -/

/-- Code changes neither the tokens already taken nor, unless it pauses anew, the paused token. -/
def Kind.inner : Kind → Prop
  | .next | .driver => False
  | _ => True

theorem endTops_frame {c : PConf} (n : Nat) : ∀ s : PState, (PState.endTops c n s).out = s.out ∧
    (PState.endTops c n s).paused = s.paused ∧ (PState.endTops c n s).pausetoken = s.pausetoken := by
  induction n with
  | zero => exact fun s => ⟨rfl, rfl, rfl⟩
  | succ n ih =>
    intro s
    obtain ⟨_, _, _, _, h1, h2, h3⟩ := endTop_other (c := c) s
    obtain ⟨g1, g2, g3⟩ := ih (s.endTop c)
    exact ⟨g1.trans h1, g2.trans h2, g3.trans h3⟩

/-- While paused, the token is one of those not yet taken. -/
def PauseOk (s : PState) : Prop :=
  s.paused = true → ∀ u, s.pausetoken = some u → 0 < u ∧ ∀ p ∈ s.out, p.uid ≠ u

theorem act_out (c : PConf) (s : PState) (a : Act) : (a.run c s).out = s.out := by
  cases a with
  | startElement id =>
    simp only [Act.run, PState.startElement, PState.pushOpen]
    cases ModeStack.push s.st (id, s.next) <;> simp
  | startNoSkipElement id =>
    simp only [Act.run, PState.startNoSkipElement, PState.pushOpen]
    cases ModeStack.push s.st (id, s.next) <;> simp
  | addElement id =>
    simp only [Act.run, PState.addElement, PState.pushOpen]
    cases ModeStack.push s.st (id, 0) <;> rfl
  | emptyElement id => simp [Act.run, PState.emptyElement]
  | endTop => exact (endTop_other s).2.2.2.2.1
  | newMode m => rfl
  | endMode =>
    simp only [Act.run, PState.endMode]
    split
    · rfl
    · exact (endTops_frame _ s).1
  | endLastMode => exact (endTops_frame _ s).1
  | setMode m => rfl
  | clearMode m => rfl
  | flushSkip => simp [Act.run]
  | completeSkip =>
    simp only [Act.run, PState.completeSkip]
    split <;> simp
  | retype u id => simp only [Act.run, PState.retype]; split <;> rfl
  | pause => simp only [Act.run, PState.pauseStream]; split <;> rfl
  | resume => rfl
  | nop =>
    simp only [Act.run, PState.nopStreamStart]
    split
    · split <;> rfl
    · rfl

theorem mem_uidsOf_tb {s : PState} {p : PTok} (h : p ∈ s.queue) : p.uid ∈ uidsOf s := List.mem_map_of_mem h

theorem output_mem {s : PState} {t : PTok} (h : s.output.getLast? = some t) : t ∈ s.tb ++ s.skiptb ++ s.pretb ++ s.skippretb := by
  have := List.mem_of_getLast? h
  unfold PState.output at this
  split at this <;> simp [this]

theorem uids_out_ne {s : PState} (hu : Uids s) {t : PTok} (h : t ∈ s.tb ++ s.skiptb ++ s.pretb ++ s.skippretb) :
    ∀ p ∈ s.out, p.uid ≠ t.uid := by
  intro p hp e
  have := hu.nodup
  have hq : uidsOf s = s.out.map (·.uid) ++ (s.tb ++ s.skiptb ++ s.pretb ++ s.skippretb).map (·.uid) := by
    simp [uidsOf_eq]
  rw [hq, List.nodup_append] at this
  exact this.2.2 p.uid (List.mem_map_of_mem hp) t.uid (List.mem_map_of_mem h) e

theorem PauseOk.same {s s' : PState} (h : PauseOk s) (h1 : s'.out = s.out) (h2 : s'.paused = s.paused)
    (h3 : s'.pausetoken = s.pausetoken) : PauseOk s' := by
  unfold PauseOk; rw [h1, h2, h3]; exact h

theorem pauseOk_act {c : PConf} {s : PState} {a : Act} (hu : Uids s) (h : PauseOk s) : PauseOk (a.run c s) := by
  cases a with
  | startElement id =>
    simp only [Act.run, PState.startElement, PState.pushOpen]
    cases ModeStack.push s.st (id, s.next) with
    | none => exact h
    | some st' => exact h.same (by simp) (by simp) (by simp)
  | startNoSkipElement id =>
    simp only [Act.run, PState.startNoSkipElement, PState.pushOpen]
    cases ModeStack.push s.st (id, s.next) with
    | none => exact h
    | some st' => exact h.same (by simp) (by simp) (by simp)
  | addElement id =>
    simp only [Act.run, PState.addElement, PState.pushOpen]
    cases ModeStack.push s.st (id, 0) with
    | none => exact h
    | some st' => exact h.same rfl rfl rfl
  | emptyElement id =>
    exact h.same (by simp [Act.run, PState.emptyElement]) (by simp [Act.run, PState.emptyElement])
      (by simp [Act.run, PState.emptyElement])
  | endTop =>
    obtain ⟨_, _, _, _, h1, h2, h3⟩ := endTop_other (c := c) s
    exact h.same h1 h2 h3
  | newMode m => exact h.same rfl rfl rfl
  | endMode =>
    simp only [Act.run, PState.endMode]
    split
    · exact h
    · obtain ⟨h1, h2, h3⟩ := endTops_frame (c := c) s.topSize s
      exact h.same h1 h2 h3
  | endLastMode =>
    obtain ⟨h1, h2, h3⟩ := endTops_frame (c := c) s.topSize s
    exact h.same h1 h2 h3
  | setMode m => exact h.same rfl rfl rfl
  | clearMode m => exact h.same rfl rfl rfl
  | flushSkip => exact h.same (by simp [Act.run]) (by simp [Act.run]) (by simp [Act.run])
  | completeSkip =>
    simp only [Act.run, PState.completeSkip]
    split
    · exact h
    · exact h.same (by simp) (by simp) (by simp)
  | retype u id =>
    simp only [Act.run, PState.retype]
    split
    · exact h.same rfl rfl rfl
    · exact h
  | pause =>
    simp only [Act.run, PState.pauseStream]
    split
    · rename_i t ht
      intro _ u hu'
      cases hu'
      have hm := output_mem ht
      refine ⟨?_, uids_out_ne hu hm⟩
      refine (hu.bound t.uid ?_).1
      apply mem_uidsOf_tb
      unfold PState.queue
      simp only [List.mem_append] at hm ⊢
      grind
    · exact h.same rfl rfl rfl
  | resume => intro hp; cases hp
  | nop =>
    simp only [Act.run, PState.nopStreamStart]
    split
    · split
      · intro hp; cases hp
      · exact h
    · exact h

theorem skipCur_out (s : PState) (c : PConf) : (s.skipCur c).out = s.out ∧ (s.skipCur c).paused = s.paused ∧
    (s.skipCur c).pausetoken = s.pausetoken := by
  unfold PState.skipCur PState.advance
  exact ⟨by simp, by simp, by simp⟩

theorem consumeHead_out (s : PState) (c : PConf) : (s.consumeHead c).out = s.out ∧
    (s.consumeHead c).paused = s.paused ∧ (s.consumeHead c).pausetoken = s.pausetoken := by
  unfold PState.consumeHead PState.advance
  dsimp only
  split
  · exact ⟨by simp, by simp, by simp⟩
  · exact ⟨by simp, by simp, by simp⟩

theorem popComment_out (s : PState) : s.popComment.out = s.out ∧ s.popComment.paused = s.paused ∧
    s.popComment.pausetoken = s.pausetoken := by
  unfold PState.popComment; split <;> exact ⟨rfl, rfl, rfl⟩

theorem skipToken_out (s : PState) (c : PConf) : (s.skipToken c).out = s.out ∧ (s.skipToken c).paused = s.paused ∧
    (s.skipToken c).pausetoken = s.pausetoken := by
  unfold PState.skipToken
  dsimp only
  split
  · simp [PState.advance]
  · split
    · simp [skipCur_out]
    · simp [skipCur_out]
    · split
      · simp [skipCur_out, popComment_out]
      · simp [skipCur_out, popComment_out]
    · simp [skipCur_out]

theorem exec_out {c : PConf} {strict : Bool} {k : Kind} {s s' : PState} (h : Exec c strict k s s') (hk : k.inner) :
    s'.out = s.out := by
  induction h with
  | done => rfl
  | act a hv hr _ ih => exact (ih trivial).trans (act_out c _ a)
  | consume _ _ ih1 ih2 => exact (ih2 trivial).trans (ih1 trivial)
  | guess _ _ ih1 ih2 => exact (ih2 trivial).trans (ih1 trivial)
  | escape _ _ _ ih1 ih2 => exact (ih2 trivial).trans (ih1 trivial)
  | eat _ _ ih => exact (ih trivial).trans (consumeHead_out _ c).1
  | stop _ _ => rfl
  | more _ _ ih1 ih2 => exact (ih2 trivial).trans (ih1 trivial)
  | abort _ _ _ _ ih => exact ih trivial
  | token _ => exact (skipToken_out _ c).1
  | special _ _ _ _ ih => exact ih trivial
  | fillSkip _ ih => exact (PState.flushSkip_out _).trans (ih trivial)
  | fillStart _ _ _ ih => exact ih trivial
  | fillError _ _ _ _ ih => exact Eq.trans (by simp [PState.emptyElement]) (ih trivial)
  | idle => rfl
  | workFill _ _ ih1 ih2 => exact (ih2 trivial).trans (ih1 trivial)
  | workConsume _ _ ih1 ih2 => exact (ih2 trivial).trans (ih1 trivial)
  | next => cases hk
  | finish => cases hk
  | again => cases hk

theorem exec_pauseOk {c : PConf} {strict : Bool} {k : Kind} {s s' : PState} (h : Exec c strict k s s') (hk : k.inner)
    (hu : Uids s) (hp : PauseOk s) : PauseOk s' := by
  induction h with
  | done => exact hp
  | act a hv hr _ ih => exact ih trivial ((uq_act c _ a).uids hu) (pauseOk_act hu hp)
  | consume h1 _ ih1 ih2 => exact ih2 trivial ((exec_uq h1).uids hu) (ih1 trivial hu hp)
  | @guess b s s1 s' h1 _ ih1 ih2 =>
    have hb : Uids s.beginGuess := ⟨hu.nodup, hu.bound, hu.pos⟩
    have h2 := (exec_uq h1).uids hb
    exact ih2 trivial ⟨h2.nodup, h2.bound, h2.pos⟩ ((ih1 trivial hb (hp.same rfl rfl rfl)).same rfl rfl rfl)
  | @escape b s s1 s' _ h1 _ ih1 ih2 =>
    have hb : Uids s.beginGuess := ⟨hu.nodup, hu.bound, hu.pos⟩
    exact ih2 trivial ((exec_uq h1).uids hb) (ih1 trivial hb (hp.same rfl rfl rfl))
  | @eat s s' _ _ ih =>
    obtain ⟨h1, h2, h3⟩ := consumeHead_out s c
    exact ih trivial ((uq_consumeHead s c).uids hu) (hp.same h1 h2 h3)
  | stop _ _ => exact hp
  | more h1 _ ih1 ih2 => exact ih2 trivial ((exec_uq h1).uids hu) (ih1 trivial hu hp)
  | abort _ _ _ _ ih => exact ih trivial ⟨hu.nodup, hu.bound, hu.pos⟩ (hp.same rfl rfl rfl)
  | @token s _ =>
    obtain ⟨h1, h2, h3⟩ := skipToken_out s c
    exact hp.same h1 h2 h3
  | special _ _ _ _ ih => exact (ih trivial ⟨hu.nodup, hu.bound, hu.pos⟩ (hp.same rfl rfl rfl)).same rfl rfl rfl
  | fillSkip _ ih => exact (ih trivial hu hp).same (by simp) (by simp) (by simp)
  | fillStart _ _ _ ih => exact ih trivial hu hp
  | fillError _ _ _ _ ih =>
    exact (ih trivial hu hp).same (by simp [PState.emptyElement]) (by simp [PState.emptyElement])
      (by simp [PState.emptyElement])
  | idle => exact hp
  | workFill h1 _ ih1 ih2 => exact ih2 trivial ((exec_uq h1).uids hu) (ih1 trivial hu hp)
  | workConsume h1 _ ih1 ih2 => exact ih2 trivial ((exec_uq h1).uids hu) (ih1 trivial hu hp)
  | next => cases hk
  | finish => cases hk
  | again => cases hk

end Srcml
