import Verif.Proofs.ParserNest3
/-
Regular grammar code: what kinds of tokens are in the buffers.
-/
set_option linter.unusedSimpArgs false
namespace Srcml
open Srcml.Spec

/-- What is known of the texts of the tokens of a lexer. -/
structure LexX (X : Str → Prop) (src : List Tok) : Prop where
  types : LexerTypes src
  nil : X []
  text : ∀ t ∈ src, t.type ≠ chars! "CONTROL_CHAR" → X t.text

/-- A token as the output expects it. -/
def GoodTok (X : Str → Prop) (t : Tok) : Prop :=
  match t.category with
  | .text => elementOf t.type = none ∧ t.type ≠ chars! "SUNIT" ∧ X t.text
  | .empty => (t.type ≠ chars! "CONTROL_CHAR" ∧ t.text = []) ∨
      (t.type = chars! "CONTROL_CHAR" ∧ ∃ ch : Char, ch.toNat < 32 ∧ t.text = controlText ch.toNat)
  | _ => t.text = [] ∧ t.type ≠ chars! "CONTROL_CHAR"

structure TGood (X : Str → Prop) (s : PState) : Prop where
  toks : ∀ p ∈ s.queue, GoodTok X p.tok
  opens : ∀ e ∈ opensOf s.st, e.1 ≠ chars! "CONTROL_CHAR"
  comments : ∀ x ∈ s.comments, x ≠ chars! "CONTROL_CHAR"

variable {X : Str → Prop}

theorem TGood.of {s s' : PState} (h : TGood X s) (h1 : ∀ p ∈ s'.queue, p ∈ s.queue ∨ GoodTok X p.tok)
    (h2 : s'.st = s.st) (h3 : s'.comments = s.comments) : TGood X s' :=
  ⟨fun p hp => (h1 p hp).elim (h.toks p) id, by rw [h2]; exact h.opens, by rw [h3]; exact h.comments⟩

theorem TGood.same {s s' : PState} (h : TGood X s) (h1 : s'.queue = s.queue) (h2 : s'.st = s.st)
    (h3 : s'.comments = s.comments) : TGood X s' := h.of (fun p hp => .inl (h1 ▸ hp)) h2 h3

theorem tgood_flushSkip {s : PState} (h : TGood X s) : TGood X s.flushSkip := by
  refine h.of ?_ (by simp) (by simp)
  unfold PState.flushSkip PState.queue; intro p hp; left
  split at hp
  · simp only [List.mem_append] at hp ⊢; grind
  · simp only [List.mem_append] at hp ⊢; grind

theorem tgood_emplace {s : PState} {t : PTok} (h : TGood X s) (ht : GoodTok X t.tok) : TGood X (s.emplace t) := by
  refine h.of ?_ (by simp) (by simp)
  unfold PState.emplace PState.queue; intro p hp
  split at hp
  · simp only [List.mem_append, List.mem_singleton] at hp ⊢; grind
  · simp only [List.mem_append, List.mem_singleton] at hp ⊢; grind

theorem tgood_pushToken {s : PState} {t : PTok} (h : TGood X s) (ht : GoodTok X t.tok) : TGood X (s.pushToken t) := by
  unfold PState.pushToken; split
  · exact h
  · exact tgood_emplace h ht

theorem tgood_pushTokenFlush {s : PState} {t : PTok} (h : TGood X s) (ht : GoodTok X t.tok) : TGood X (s.pushTokenFlush t) := by
  unfold PState.pushTokenFlush; split
  · exact h
  · exact tgood_emplace (tgood_flushSkip h) ht

theorem tgood_pushSkipToken {s : PState} {t : PTok} (h : TGood X s) (ht : GoodTok X t.tok) : TGood X (s.pushSkipToken t) := by
  refine h.of ?_ (by simp) (by simp)
  unfold PState.pushSkipToken PState.queue; intro p hp
  split at hp
  · exact .inl hp
  · split at hp
    · simp only [List.mem_append, List.mem_singleton] at hp ⊢; grind
    · simp only [List.mem_append, List.mem_singleton] at hp ⊢; grind

theorem tgood_fresh {s : PState} (h : TGood X s) : TGood X s.fresh := h.same rfl rfl rfl

theorem tgood_pushEnds {s : PState} (c : PConf) (u : Nat) (h : TGood X s) : TGood X (s.pushEnds c u) := by
  unfold PState.pushEnds; split
  · exact h.same rfl rfl rfl
  · exact h

theorem tgood_noteType {s : PState} (c : PConf) (id : TokType) (h : TGood X s) : TGood X (s.noteType c id) := by
  unfold PState.noteType; split
  · exact h.same rfl rfl rfl
  · exact h

theorem tgood_mapTok {s : PState} (u : Nat) (f : Tok → Tok) (hf : ∀ t, GoodTok X t → GoodTok X (f t)) (h : TGood X s) :
    TGood X (s.mapTok u f) := by
  have key : ∀ (l : List PTok), (∀ p ∈ l, GoodTok X p.tok) →
      ∀ p ∈ l.map (fun p : PTok => if p.uid = u then { p with tok := f p.tok } else p), GoodTok X p.tok := by
    intro l hl p hp
    obtain ⟨q, hq, rfl⟩ := List.mem_map.1 hp
    split
    · exact hf _ (hl q hq)
    · exact hl q hq
  refine ⟨?_, h.opens, h.comments⟩
  intro p hp
  have hq := h.toks
  unfold PState.queue PState.mapTok at hp
  unfold PState.queue at hq
  simp only [List.mem_append] at hp hq
  rcases hp with (((hp | hp) | hp) | hp) | hp
  · exact hq p (by simp [hp])
  · exact key s.tb (fun p hp => hq p (by simp [hp])) p hp
  · exact key s.skiptb (fun p hp => hq p (by simp [hp])) p hp
  · exact key s.pretb (fun p hp => hq p (by simp [hp])) p hp
  · exact key s.skippretb (fun p hp => hq p (by simp [hp])) p hp

theorem tgood_setEnd (l col : Nat) (t : Tok) (h : GoodTok X t) : GoodTok X (PState.setEnd l col t) := h

theorem tgood_endPosition {s : PState} (c : PConf) (id : TokType) (h : TGood X s) : TGood X (s.endPosition c id) := by
  unfold PState.endPosition
  split
  · split
    · exact h.same rfl rfl rfl
    · rename_i u us _
      generalize hs1 : (if id = chars! "STYPE" then
        ({ s with lasttypeendline := s.lastline, lasttypeendcolumn := s.lastcolumn } : PState) else s) = s1
      have h1 : TGood X s1 := by
        rw [← hs1]; split
        · exact h.same rfl rfl rfl
        · exact h
      refine TGood.same (s := if id = chars! "STYPEPREV" then
        s1.mapTok u (PState.setEnd s1.lasttypeendline s1.lasttypeendcolumn)
        else s1.mapTok u (PState.setEnd s1.lastline s1.lastcolumn)) ?_ rfl rfl rfl
      split <;> exact tgood_mapTok _ _ (tgood_setEnd _ _) h1
  · exact h

theorem tgood_start (t : Tok) (h : t.category = .start ∨ t.category = .end_) (h1 : t.text = [])
    (h2 : t.type ≠ chars! "CONTROL_CHAR") : GoodTok X t := by
  unfold GoodTok
  rcases h with h | h <;> rw [h] <;> exact ⟨h1, h2⟩

theorem tgood_pushSToken {s : PState} (c : PConf) {id : TokType} (hid : id ≠ chars! "CONTROL_CHAR") (h : TGood X s) :
    TGood X (s.pushSToken c id) :=
  tgood_fresh (tgood_pushToken (tgood_pushEnds c _ h) (tgood_start _ (.inl rfl) rfl hid))

theorem tgood_pushSSkipToken {s : PState} (c : PConf) {id : TokType} (hid : id ≠ chars! "CONTROL_CHAR") (h : TGood X s) :
    TGood X (s.pushSSkipToken c id) :=
  tgood_fresh (tgood_pushSkipToken (tgood_pushEnds c _ h) (tgood_start _ (.inl rfl) rfl hid))

theorem startTokFlush_text (s : PState) (c : PConf) (id : TokType) : (s.startTokFlush c id).text = [] := by
  unfold PState.startTokFlush; split <;> rfl

theorem tgood_pushSTokenFlush {s : PState} (c : PConf) {id : TokType} (hid : id ≠ chars! "CONTROL_CHAR") (h : TGood X s) :
    TGood X (s.pushSTokenFlush c id) :=
  tgood_fresh (tgood_pushTokenFlush (tgood_pushEnds c _ (tgood_noteType c id h))
    (tgood_start _ (.inl (startTokFlush_category _ _ _)) (startTokFlush_text _ _ _)
      (by rw [startTokFlush_type]; exact hid)))

theorem tgood_pushEToken {s : PState} (c : PConf) {id : TokType} (e : Nat) (hid : id ≠ chars! "CONTROL_CHAR") (h : TGood X s) :
    TGood X (s.pushEToken c id e) :=
  tgood_endPosition c id (tgood_fresh (tgood_pushToken h (tgood_start _ (.inr rfl) rfl hid)))

theorem tgood_pushESkipToken {s : PState} (c : PConf) {id : TokType} (hid : id ≠ chars! "CONTROL_CHAR") (h : TGood X s) :
    TGood X (s.pushESkipToken c id) := by
  unfold PState.pushESkipToken
  have h1 : TGood X ((s.pushSkipToken ⟨s.next, { type := id, category := .end_ }, 0⟩).fresh) :=
    tgood_fresh (tgood_pushSkipToken h (tgood_start _ (.inr rfl) rfl hid))
  generalize (s.pushSkipToken ⟨s.next, { type := id, category := .end_ }, 0⟩).fresh = s1 at h1 ⊢
  dsimp only
  split
  · split
    · exact h1.same rfl rfl rfl
    · exact (tgood_mapTok _ _ (tgood_setEnd _ _) h1).same rfl rfl rfl
  · exact h1

theorem TGood.withSt {s : PState} (h : TGood X s) (st : ModeStack) (hst : ∀ e ∈ opensOf st, e.1 ≠ chars! "CONTROL_CHAR") :
    TGood X { s with st := st } := ⟨h.toks, hst, h.comments⟩

theorem tgood_endTop {s : PState} (c : PConf) (h : TGood X s) : TGood X (s.endTop c) := by
  unfold PState.endTop
  split
  · rename_i m st h1
    split
    · rename_i id u es h2
      have ho : ∀ e ∈ opensOf (m :: st), e.1 ≠ chars! "CONTROL_CHAR" := h1 ▸ h.opens
      have hid : id ≠ chars! "CONTROL_CHAR" := ho (id, u) (by rw [opensOf_cons, h2]; simp)
      have hg : TGood X (if decide (m.flags &&& MODE_ISSUE_EMPTY_AT_POP ≠ 0) then s.pushSToken c id else s) := by
        split
        · exact tgood_pushSToken c hid h
        · exact h
      refine (tgood_pushEToken c _ hid hg).withSt _ ?_
      intro e he
      refine ho e ?_
      rw [opensOf_cons] at he ⊢
      rw [h2]
      rcases List.mem_append.1 he with h | h
      · simp [show e ∈ es from h]
      · simp [h]
    · exact h
  · exact h

theorem tgood_endTops (c : PConf) (n : Nat) : ∀ {s : PState}, TGood X s → TGood X (PState.endTops c n s) := by
  induction n with
  | zero => exact fun h => h
  | succ n ih => exact fun h => ih (tgood_endTop c h)

theorem tgood_popMode {s : PState} (c : PConf) (h : TGood X s) : TGood X (s.popMode c) := by
  refine (tgood_endTops c s.topSize h).withSt _ ?_
  intro e he
  refine (tgood_endTops c s.topSize h).opens e ?_
  obtain ⟨m, hm, hx⟩ := List.mem_flatMap.1 he
  exact List.mem_flatMap.2 ⟨m, List.mem_of_mem_drop hm, hx⟩

theorem tgood_emptyElement {s : PState} {id : TokType} (hid : id ≠ chars! "CONTROL_CHAR") (h : TGood X s) : TGood X (s.emptyElement id) :=
  tgood_fresh (tgood_pushTokenFlush h (.inl ⟨hid, rfl⟩))

theorem tgood_pushOpen {s : PState} {id : TokType} {u : Nat} {st : ModeStack} (hid : id ≠ chars! "CONTROL_CHAR") (h : TGood X s)
    (hp : ModeStack.push s.st (id, u) = some st) : TGood X { s with st := st } := by
  refine h.withSt _ ?_
  cases hs : s.st with
  | nil => rw [hs] at hp; cases hp
  | cons m r =>
    rw [hs] at hp
    cases hp
    intro e he
    have ho := h.opens
    rw [hs] at ho
    rw [opensOf_cons] at he ho
    rcases List.mem_append.1 he with h1 | h1
    · rcases List.mem_cons.1 (show e ∈ (id, u) :: m.opens from h1) with rfl | h1
      · exact hid
      · exact ho e (by simp [h1])
    · exact ho e (by simp [h1])

theorem tgood_act {c : PConf} {s : PState} {a : Act} (hv : a.Valid) (h : TGood X s) : TGood X (a.run c s) := by
  cases a with
  | startElement id =>
    simp only [Act.run, PState.startElement, PState.pushOpen]
    cases hp : ModeStack.push s.st (id, s.next) with
    | none => exact h
    | some st' => exact tgood_pushSTokenFlush c hv.2 (tgood_pushOpen hv.2 h hp)
  | startNoSkipElement id =>
    simp only [Act.run, PState.startNoSkipElement, PState.pushOpen]
    cases hp : ModeStack.push s.st (id, s.next) with
    | none => exact h
    | some st' => exact tgood_pushSToken c hv.2 (tgood_pushOpen hv.2 h hp)
  | addElement id =>
    simp only [Act.run, PState.addElement, PState.pushOpen]
    cases hp : ModeStack.push s.st (id, 0) with
    | none => exact h
    | some st' => exact tgood_pushOpen hv.2 h hp
  | emptyElement id => exact tgood_emptyElement hv.2 h
  | endTop => exact tgood_endTop c h
  | newMode m =>
    refine h.withSt _ ?_
    intro e he
    exact h.opens e (by simpa [ModeStack.startNewMode, opensOf] using he)
  | endMode =>
    simp only [Act.run, PState.endMode]
    split
    · exact h
    · exact tgood_popMode c h
  | endLastMode => exact tgood_popMode c h
  | setMode m =>
    refine h.withSt _ ?_
    intro e he
    cases hs : s.st with
    | nil => rw [hs] at he; simp [ModeStack.setMode, opensOf] at he
    | cons x st =>
      rw [hs] at he
      have := h.opens
      rw [hs] at this
      exact this e (by simpa [ModeStack.setMode] using he)
  | clearMode m =>
    refine h.withSt _ ?_
    intro e he
    cases hs : s.st with
    | nil => rw [hs] at he; simp [ModeStack.clearMode, opensOf] at he
    | cons x st =>
      rw [hs] at he
      have := h.opens
      rw [hs] at this
      exact this e (by simpa [ModeStack.clearMode] using he)
  | flushSkip => exact tgood_flushSkip h
  | completeSkip =>
    simp only [Act.run, PState.completeSkip]
    split
    · exact h
    · rename_i id ids hc
      have hcm := h.comments
      rw [hc] at hcm
      have h1 : TGood X ({ s with slastcolumn := (s.lt c).column - 1, slastline := (s.lt c).line } : PState) :=
        h.same rfl rfl rfl
      have h2 := tgood_pushESkipToken c (hcm id (by simp)) h1
      exact ⟨h2.toks, h2.opens, fun x hx => hcm x (List.mem_cons_of_mem _ hx)⟩
  | retype u id =>
    simp only [Act.run, PState.retype]
    split
    · refine (tgood_mapTok u _ ?_ h).withSt _ ?_
      · intro t ht
        split
        · rename_i hc
          unfold GoodTok at ht ⊢
          rw [hc] at ht
          simp only [hc]
          exact ⟨ht.1, hv.2⟩
        · exact ht
      · intro e he
        obtain ⟨m, hm, hx⟩ := List.mem_flatMap.1 he
        obtain ⟨m0, hm0, rfl⟩ := List.mem_map.1 hm
        obtain ⟨e0, he0, rfl⟩ := List.mem_map.1 hx
        split
        · exact hv.2
        · exact h.opens e0 (List.mem_flatMap.2 ⟨m0, hm0, he0⟩)
    · exact h
  | pause =>
    simp only [Act.run, PState.pauseStream]
    split <;> exact h.same rfl rfl rfl
  | resume => exact h.same rfl rfl rfl
  | nop =>
    have hn : ∀ t, GoodTok X t → GoodTok X (PState.nopTok t) := by
      intro t ht
      unfold PState.nopTok
      split
      · rename_i hc
        unfold GoodTok at ht ⊢
        rcases hc with hc | hc <;> rw [hc] at ht <;> simp only [hc] <;> exact ⟨ht.1, by decide⟩
      · exact ht
    simp only [Act.run, PState.nopStreamStart]
    split
    · split
      · exact (tgood_mapTok _ _ hn (tgood_mapTok _ _ hn h)).same rfl rfl rfl
      · exact h
    · exact h

theorem tgood_lt {c : PConf} (hs : LexerTokens c.src) (he : EofToken c.eof) (hl : LexX X c.src) (s : PState)
    (hne : (s.lt c).type ≠ chars! "CONTROL_CHAR") : GoodTok X (s.lt c) := by
  have ht := lt_text hs he s
  unfold GoodTok; rw [ht]
  rcases lt_mem s (c := c) with h | h
  · rcases hl.types _ h with h1 | h1
    · exact absurd h1 hne
    · exact ⟨h1.1, h1.2, hl.text _ h hne⟩
  · rw [h]
    have h2 := he.2.1
    unfold isEof at h2
    simp only [Bool.and_eq_true, decide_eq_true_eq] at h2
    rw [h2.1]
    exact ⟨by decide +kernel, by decide, by rw [he.2.2]; exact hl.nil⟩

theorem tgood_skipCur {c : PConf} (hs : LexerTokens c.src) (he : EofToken c.eof) (hl : LexX X c.src) {s : PState}
    (hne : (s.lt c).type ≠ chars! "CONTROL_CHAR") (h : TGood X s) : TGood X (s.skipCur c) :=
  (tgood_fresh (tgood_pushSkipToken (t := s.cur c) h (tgood_lt hs he hl s hne))).same rfl rfl rfl

theorem ite_some {α : Type} {p : Prop} [Decidable p] {a b : α} {o : Option α}
    (h : (if p then some a else o) = some b) : a = b ∨ o = some b := by
  by_cases hp : p
  · rw [if_pos hp] at h; exact Or.inl (Option.some.inj h)
  · rw [if_neg hp] at h; exact Or.inr h

theorem commentRole_element {t : TokType} {el : TokType} {b1 b2 : Bool} (h : commentRole t = some (el, b1, b2)) :
    el ≠ chars! "CONTROL_CHAR" := by
  have key : ∀ (x : TokType × Bool × Bool), x = (el, b1, b2) → x.1 ≠ chars! "CONTROL_CHAR" →
      el ≠ chars! "CONTROL_CHAR" := by
    intro x hx hne; rw [hx] at hne; exact hne
  rcases ite_some h with h | h
  · exact key _ h (by decide)
  iterate 9
    rcases ite_some h with h | h
    · exact key _ h (by decide)
  rcases ite_some h with h | h
  · exact key _ h (by decide)
  · cases h

theorem tgood_popComment {s : PState} (h : TGood X s) : TGood X s.popComment := by
  unfold PState.popComment
  split
  · exact h.same rfl rfl rfl
  · rename_i hc
    have := h.comments
    rw [hc] at this
    exact ⟨h.toks, h.opens, fun x hx => this x (List.mem_cons_of_mem _ hx)⟩

theorem lt_same {c : PConf} {s s' : PState} (h : s'.pos = s.pos) : s'.lt c = s.lt c := by unfold PState.lt; rw [h]

theorem tgood_skipToken {c : PConf} (hs : LexerTokens c.src) (he : EofToken c.eof) (hl : LexX X c.src) {s : PState}
    (h : TGood X s) : TGood X (s.skipToken c) := by
  unfold PState.skipToken
  dsimp only
  by_cases hctl : (s.lt c).type = chars! "CONTROL_CHAR"
  · rw [if_pos hctl]
    refine (tgood_fresh (tgood_pushSkipToken h ?_)).same rfl rfl rfl
    show GoodTok X (PState.controlTok (s.lt c))
    refine .inr ⟨hctl, ?_⟩
    rcases lt_mem s (c := c) with hm | hm
    · obtain ⟨ch, h1, h2⟩ := (hs _ hm).2.2 hctl
      exact ⟨ch, h2, by simp [PState.controlTok, h1]⟩
    · exfalso
      have h2 := he.2.1
      unfold isEof at h2
      simp only [Bool.and_eq_true, decide_eq_true_eq] at h2
      rw [hm, h2.1] at hctl
      exact absurd hctl (by decide)
  · rw [if_neg hctl]
    split
    · rename_i el hr
      have hel := commentRole_element hr
      have h1 := tgood_pushSSkipToken c hel h
      have h2 := tgood_skipCur hs he hl (by rw [lt_same (s := s) (by simp)]; exact hctl) h1
      exact tgood_pushESkipToken c hel (h2.same rfl rfl rfl)
    · rename_i el hr
      have hel := commentRole_element hr
      have h1 := tgood_pushSSkipToken c hel h
      have h2 := tgood_skipCur hs he hl (by rw [lt_same (s := s) (by simp)]; exact hctl) h1
      refine ⟨h2.toks, h2.opens, ?_⟩
      intro x hx
      rcases List.mem_cons.1 hx with rfl | hx
      · exact hel
      · exact h2.comments x hx
    · rename_i el _ _ _ _ hr
      have hel := commentRole_element hr
      have h0 := tgood_popComment h
      have hlt : (s.popComment.lt c).type ≠ chars! "CONTROL_CHAR" := by
        rw [lt_same (s := s) (PState.popComment_frame s).1]; exact hctl
      split
      · have h1 : TGood X (s.popComment.noteSkipPos c) := h0.same rfl rfl rfl
        refine tgood_skipCur hs he hl ?_ (tgood_pushESkipToken c hel h1)
        rw [lt_same (s := s.popComment) (by simp)]; exact hlt
      · exact tgood_pushESkipToken c hel ((tgood_skipCur hs he hl hlt h0).same rfl rfl rfl)
    · exact tgood_skipCur hs he hl hctl h

theorem exec_good {c : PConf} (hs : LexerTokens c.src) (he : EofToken c.eof) (hl : LexX X c.src) {k : Kind}
    {s s' : PState} (h : Exec c true k s s') (hG : TGood X s) : TGood X s' := by
  generalize hst : true = strict at h
  induction h with
  | done => exact hG
  | act a hv hr _ ih => exact ih (tgood_act hv hG)
  | consume _ _ ih1 ih2 => exact ih2 (ih1 hG)
  | guess _ _ ih1 ih2 => exact ih2 ((ih1 (hG.same rfl rfl rfl)).same rfl rfl rfl)
  | escape hf => rw [← hst] at hf; cases hf
  | @eat s s' hk _ ih =>
    refine ih ?_
    have hsk := hk hst.symm
    have hne : (s.lt c).type ≠ chars! "CONTROL_CHAR" := by
      intro e; rw [e] at hsk
      revert hsk
      cases s.inskip <;> decide
    unfold PState.consumeHead
    dsimp only
    rw [hsk]
    exact (tgood_fresh (tgood_pushTokenFlush (t := s.cur c) hG (tgood_lt hs he hl s hne))).same rfl rfl rfl
  | stop _ _ => exact hG
  | more _ _ ih1 ih2 => exact ih2 (ih1 hG)
  | abort hf => rw [← hst] at hf; cases hf
  | token _ => exact tgood_skipToken hs he hl hG
  | @special s s1 _ _ _ _ ih =>
    refine (ih (hG.same rfl rfl rfl)).same ?_ rfl rfl
    simp [PState.queue, PState.leaveSkip]
  | fillSkip _ ih => exact tgood_flushSkip (ih hG)
  | fillStart _ _ _ ih => exact ih hG
  | fillError _ _ _ _ ih => exact tgood_emptyElement (by decide) (ih hG)
  | idle => exact hG
  | workFill _ _ ih1 ih2 => exact ih2 (ih1 hG)
  | workConsume _ _ ih1 ih2 => exact ih2 (ih1 hG)
  | @next s s' t rest h _ _ _ _ ih =>
    refine ih (hG.same ?_ rfl rfl)
    simp [PState.queue, h]
  | finish => exact hG
  | again _ _ ih1 ih2 => exact ih2 (ih1 hG)

end Srcml
