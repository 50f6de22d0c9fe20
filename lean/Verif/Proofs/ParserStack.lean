import Verif.Spec.Parser
import Verif.Proofs.ParserText
import Verif.Proofs.ParserFrames
/-
Regular grammar code: the stack of modes, the open comments and the stack of positions.
-/
set_option linter.unusedSimpArgs false
namespace Srcml
open Srcml.Spec

/-- The bottom `b` levels. -/
def baseOf (b : Nat) (st : ModeStack) : ModeStack := st.drop (st.length - b)
/-- The elements open at the levels above, innermost first. -/
def aboveOf (b : Nat) (st : ModeStack) : List (TokType × Nat) := (st.take (st.length - b)).flatMap (·.opens)
/-- All open elements. -/
def opensOf (st : ModeStack) : List (TokType × Nat) := st.flatMap (·.opens)

theorem opensOf_split (b : Nat) (st : ModeStack) : opensOf st = aboveOf b st ++ opensOf (baseOf b st) := by
  unfold opensOf aboveOf baseOf
  conv => lhs; rw [← List.take_append_drop (st.length - b) st, List.flatMap_append]

theorem baseOf_cons {b : Nat} {m : ModeState} {st : ModeStack} (h : b ≤ st.length) : baseOf b (m :: st) = baseOf b st := by
  unfold baseOf
  rw [List.length_cons, show st.length + 1 - b = (st.length - b) + 1 by omega, List.drop_succ_cons]

theorem aboveOf_cons {b : Nat} {m : ModeState} {st : ModeStack} (h : b ≤ st.length) :
    aboveOf b (m :: st) = m.opens ++ aboveOf b st := by
  unfold aboveOf
  rw [List.length_cons, show st.length + 1 - b = (st.length - b) + 1 by omega, List.take_succ_cons, List.flatMap_cons]

@[simp] theorem opensOf_cons (m : ModeState) (st : ModeStack) : opensOf (m :: st) = m.opens ++ opensOf st := by
  simp [opensOf]

theorem baseOf_length {b : Nat} {st : ModeStack} (h : b ≤ st.length) : (baseOf b st).length = b := by
  unfold baseOf; rw [List.length_drop]; omega

theorem baseOf_self {st : ModeStack} : baseOf st.length st = st := by
  unfold baseOf; simp

theorem aboveOf_self {st : ModeStack} : aboveOf st.length st = [] := by
  unfold aboveOf; simp

theorem aboveOf_zero {st : ModeStack} : aboveOf 0 st = opensOf st := by
  unfold aboveOf opensOf; simp

/-- The comments of the source that are open here. -/
def AtComments (c : PConf) (s : PState) : Prop := commentsAt c s.pos = some s.comments

/-- The next token is not skipped. -/
def AtToken (c : PConf) (s : PState) : Prop := isSkipType s.inskip (s.lt c).type = false

/-- The stack of positions: the open comments and the open elements. -/
def EndsOk (c : PConf) (s : PState) : Prop :=
  c.position = true → ∃ D : List Nat, D.length = s.comments.length ∧ s.ends = D ++ (opensOf s.st).map (·.2)

/-- No mode asks for an empty element. -/
def NoIssue (st : ModeStack) : Prop := ∀ m ∈ st, m.flags &&& MODE_ISSUE_EMPTY_AT_POP = 0

/-- Good states outside of code. -/
structure Lo (c : PConf) (s : PState) : Prop where
  comments : AtComments c s
  ends : EndsOk c s
  noIssue : NoIssue s.st

/-- Good states of code with `b` levels below. -/
structure Co (c : PConf) (b : Nat) (s : PState) : Prop extends Lo c s where
  token : AtToken c s
  base : b ≤ s.st.length

theorem AtToken.closed {c : PConf} {s : PState} (hc : CommentsClosed c) (h : AtToken c s) (hk : AtComments c s) :
    s.comments = [] := by
  obtain ⟨cs, h1, h2⟩ := hc s.pos
  unfold AtComments at hk
  rw [hk] at h1
  cases h1
  refine h2 ?_
  intro hw
  unfold AtToken isSkipType at h
  have : (s.lt c).type ∈ whitespaceTokens := hw
  simp [this] at h

/-- What code leaves of the stack: the base, and all open elements while speculating. -/
structure Keep (b : Nat) (s s' : PState) : Prop where
  base : baseOf b s'.st = baseOf b s.st
  above : 0 < s.guessing → aboveOf b s'.st = aboveOf b s.st

theorem Keep.refl (b : Nat) (s : PState) : Keep b s s := ⟨rfl, fun _ => rfl⟩
theorem Keep.same {b : Nat} {s s' : PState} (h : s'.st = s.st) : Keep b s s' := ⟨by rw [h], fun _ => by rw [h]⟩
theorem Keep.trans {b : Nat} {a d e : PState} (h1 : Keep b a d) (h2 : Keep b d e) (hg : d.guessing = a.guessing) :
    Keep b a e :=
  ⟨h2.base.trans h1.base, fun h => (h2.above (by omega)).trans (h1.above h)⟩

theorem Lo.same {c : PConf} {s s' : PState} (h : Lo c s) (h1 : s'.pos = s.pos) (h2 : s'.comments = s.comments)
    (h3 : s'.ends = s.ends) (h4 : s'.st = s.st) : Lo c s' :=
  ⟨by unfold AtComments; rw [h1, h2]; exact h.comments,
   by unfold EndsOk; rw [h2, h3, h4]; exact h.ends, by rw [h4]; exact h.noIssue⟩

theorem AtToken.same {c : PConf} {s s' : PState} (h : AtToken c s) (h1 : s'.pos = s.pos) (h2 : s'.inskip = s.inskip) :
    AtToken c s' := by
  unfold AtToken PState.lt at h ⊢; rw [h1, h2]; exact h

theorem Co.same {c : PConf} {b : Nat} {s s' : PState} (h : Co c b s) (h1 : s'.pos = s.pos) (h0 : s'.inskip = s.inskip)
    (h2 : s'.comments = s.comments) (h3 : s'.ends = s.ends) (h4 : s'.st = s.st) : Co c b s' :=
  ⟨h.toLo.same h1 h2 h3 h4, h.token.same h1 h0, by rw [h4]; exact h.base⟩

/-! ### The stack of positions under the token functions -/

namespace PState

@[simp] theorem flushSkip_ends (s : PState) : s.flushSkip.ends = s.ends := by unfold flushSkip; split <;> rfl
@[simp] theorem emplace_ends (s : PState) (t : PTok) : (s.emplace t).ends = s.ends := by unfold emplace; split <;> rfl
@[simp] theorem pushToken_ends (s : PState) (t : PTok) : (s.pushToken t).ends = s.ends := by
  unfold pushToken; split <;> simp
@[simp] theorem pushTokenFlush_ends (s : PState) (t : PTok) : (s.pushTokenFlush t).ends = s.ends := by
  unfold pushTokenFlush; split <;> simp
@[simp] theorem pushSkipToken_ends (s : PState) (t : PTok) : (s.pushSkipToken t).ends = s.ends := by
  unfold pushSkipToken; split
  · rfl
  · split <;> rfl
@[simp] theorem fresh_ends (s : PState) : s.fresh.ends = s.ends := rfl
@[simp] theorem mapTok_ends (s : PState) (u : Nat) (f : Tok → Tok) : (s.mapTok u f).ends = s.ends := rfl
@[simp] theorem noteType_ends (s : PState) (c : PConf) (id : TokType) : (s.noteType c id).ends = s.ends := by
  unfold noteType; split <;> rfl

theorem pushEnds_ends (s : PState) (c : PConf) (u : Nat) (h : c.position = true) : (s.pushEnds c u).ends = u :: s.ends := by
  unfold pushEnds; rw [if_pos h]

theorem pushSToken_ends (s : PState) (c : PConf) (id : TokType) (h : c.position = true) :
    (s.pushSToken c id).ends = s.next :: s.ends := by
  unfold pushSToken; simp [pushEnds_ends _ _ _ h]

theorem pushSSkipToken_ends (s : PState) (c : PConf) (id : TokType) (h : c.position = true) :
    (s.pushSSkipToken c id).ends = s.next :: s.ends := by
  unfold pushSSkipToken; simp [pushEnds_ends _ _ _ h]

theorem pushSTokenFlush_ends (s : PState) (c : PConf) (id : TokType) (h : c.position = true) :
    (s.pushSTokenFlush c id).ends = s.next :: s.ends := by
  unfold pushSTokenFlush; simp [pushEnds_ends _ _ _ h]

theorem endPosition_ends (s : PState) (c : PConf) (id : TokType) (h : c.position = true) :
    (s.endPosition c id).ends = s.ends.drop 1 := by
  unfold endPosition; rw [if_pos h]
  split
  · rename_i he; rw [he]; rfl
  · rename_i he; rw [he]; rfl

theorem pushEToken_ends (s : PState) (c : PConf) (id : TokType) (e : Nat) (h : c.position = true) :
    (s.pushEToken c id e).ends = s.ends.drop 1 := by
  unfold pushEToken; rw [endPosition_ends _ _ _ h]; simp

theorem pushESkipToken_ends (s : PState) (c : PConf) (id : TokType) (h : c.position = true) :
    (s.pushESkipToken c id).ends = s.ends.drop 1 := by
  unfold pushESkipToken; dsimp only
  rw [if_pos h]
  split
  · rename_i he
    simp only [fresh_ends, pushSkipToken_ends] at he
    rw [he]; simpa using he
  · rename_i he
    simp only [fresh_ends, pushSkipToken_ends] at he
    rw [he]; rfl

end PState

/-! ### The actions -/

theorem endTop_st {c : PConf} {s : PState} {m : ModeState} {st : ModeStack} {e : TokType × Nat} {es : List (TokType × Nat)}
    (hs : s.st = m :: st) (ho : m.opens = e :: es) : (s.endTop c).st = { m with opens := es } :: st := by
  unfold PState.endTop
  rw [hs]; dsimp only; rw [ho]

theorem endTop_other {c : PConf} (s : PState) : (s.endTop c).pos = s.pos ∧ (s.endTop c).inskip = s.inskip ∧
    (s.endTop c).comments = s.comments ∧ (s.endTop c).guessing = s.guessing ∧ (s.endTop c).out = s.out ∧
    (s.endTop c).paused = s.paused ∧ (s.endTop c).pausetoken = s.pausetoken := by
  unfold PState.endTop
  split
  · split
    · dsimp only; split <;> simp
    · simp
  · simp

theorem endTop_ends {c : PConf} {s : PState} {m : ModeState} {st : ModeStack} {e : TokType × Nat} {es : List (TokType × Nat)}
    (hs : s.st = m :: st) (ho : m.opens = e :: es) (hi : m.flags &&& MODE_ISSUE_EMPTY_AT_POP = 0)
    (hp : c.position = true) : (s.endTop c).ends = s.ends.drop 1 := by
  unfold PState.endTop
  rw [hs]; dsimp only; rw [ho]; dsimp only
  rw [if_neg (by simp [hi])]
  exact PState.pushEToken_ends _ _ _ _ hp

theorem co_endTop {c : PConf} {b : Nat} {s : PState} (hc : CommentsClosed c) (h : Co c b s) (hb : b < s.st.length) :
    Co c b (s.endTop c) ∧ baseOf b (s.endTop c).st = baseOf b s.st := by
  obtain ⟨o1, o2, o3, _⟩ := endTop_other (c := c) s
  have hcom := h.token.closed hc h.comments
  cases hs : s.st with
  | nil => rw [hs] at hb; simp at hb
  | cons m st =>
    cases ho : m.opens with
    | nil =>
      have : s.endTop c = s := by unfold PState.endTop; rw [hs]; dsimp only; rw [ho]
      rw [this, hs]; exact ⟨h, rfl⟩
    | cons e es =>
      have e1 := endTop_st (c := c) hs ho
      have hi := h.noIssue m (by rw [hs]; simp)
      have hlen : b ≤ st.length := by rw [hs] at hb; simp at hb; omega
      refine ⟨⟨⟨?_, ?_, ?_⟩, h.token.same o1 o2, ?_⟩, ?_⟩
      · unfold AtComments; rw [o1, o3]; exact h.comments
      · intro hp
        obtain ⟨D, d1, d2⟩ := h.ends hp
        rw [hcom] at d1
        cases D with
        | cons x D => cases d1
        | nil =>
          refine ⟨[], by rw [o3, hcom]; rfl, ?_⟩
          rw [endTop_ends hs ho hi hp, d2, hs, e1]
          simp [ho]
      · rw [e1]
        intro x hx
        rcases List.mem_cons.1 hx with rfl | hx
        · exact hi
        · exact h.noIssue x (by rw [hs]; exact List.mem_cons_of_mem _ hx)
      · rw [e1]; simp; omega
      · rw [e1, baseOf_cons hlen, baseOf_cons hlen]

theorem endTop_length {c : PConf} (s : PState) : (s.endTop c).st.length = s.st.length := by
  cases hs : s.st with
  | nil => unfold PState.endTop; rw [hs]; dsimp only; rw [hs]
  | cons m st =>
    cases ho : m.opens with
    | nil => unfold PState.endTop; rw [hs]; dsimp only; rw [ho]; dsimp only; rw [hs]
    | cons e es => rw [endTop_st hs ho]; rfl

theorem co_endTops {c : PConf} {b : Nat} (hc : CommentsClosed c) (n : Nat) : ∀ {s : PState}, Co c b s → b < s.st.length →
    Co c b (PState.endTops c n s) ∧ baseOf b (PState.endTops c n s).st = baseOf b s.st ∧
      (PState.endTops c n s).st.length = s.st.length := by
  induction n with
  | zero => intro s h _; exact ⟨h, rfl, rfl⟩
  | succ n ih =>
    intro s h hb
    obtain ⟨h1, h2⟩ := co_endTop hc h hb
    obtain ⟨h3, h4, h5⟩ := ih h1 (by rw [endTop_length]; exact hb)
    exact ⟨h3, h4.trans h2, h5.trans (endTop_length s)⟩

/-- Ending all elements of the top level leaves none. -/
theorem endTops_st {c : PConf} : ∀ (n : Nat) (s : PState) (m : ModeState) (st : ModeStack), s.st = m :: st →
    n = m.opens.length → (PState.endTops c n s).st = { m with opens := [] } :: st := by
  intro n
  induction n with
  | zero =>
    intro s m st hs hn
    have : m.opens = [] := List.length_eq_zero_iff.1 hn.symm
    show s.st = _
    rw [hs]
    cases m; simp_all
  | succ n ih =>
    intro s m st hs hn
    cases ho : m.opens with
    | nil => rw [ho] at hn; cases hn
    | cons e es =>
      have := ih (s.endTop c) _ st (endTop_st hs ho) (by rw [ho] at hn; simpa using hn)
      exact this

theorem topSize_cons {s : PState} {m : ModeState} {st : ModeStack} (hs : s.st = m :: st) : s.topSize = m.opens.length := by
  unfold PState.topSize; rw [hs]; rfl

theorem popMode_st {c : PConf} {s : PState} {m : ModeState} {st : ModeStack} (hs : s.st = m :: st) :
    (s.popMode c).st = st := by
  unfold PState.popMode
  dsimp only
  rw [endTops_st _ s m st hs (topSize_cons hs)]
  rfl

theorem co_popMode {c : PConf} {b : Nat} {s : PState} (hc : CommentsClosed c) (h : Co c b s) (hb : b < s.st.length)
    (hg : s.guessing = 0 ∨ s.topSize = 0) : Co c b (s.popMode c) ∧ Keep b s (s.popMode c) := by
  cases hs : s.st with
  | nil => rw [hs] at hb; simp at hb
  | cons m st =>
    have hlen : b ≤ st.length := by rw [hs] at hb; simp at hb; omega
    obtain ⟨h1, h2, h3⟩ := co_endTops hc s.topSize h hb
    have e1 := endTops_st (c := c) _ s m st hs (topSize_cons hs)
    have e2 := popMode_st (c := c) hs
    refine ⟨⟨⟨h1.comments, ?_, ?_⟩, h1.token, ?_⟩, ⟨?_, ?_⟩⟩
    · intro hp
      obtain ⟨D, d1, d2⟩ := h1.ends hp
      refine ⟨D, d1, ?_⟩
      rw [e2]
      rw [e1] at d2
      show (PState.endTops c s.topSize s).ends = _
      simpa using d2
    · rw [e2]; intro x hx
      exact h.noIssue x (by rw [hs]; exact List.mem_cons_of_mem _ hx)
    · rw [e2]; exact hlen
    · rw [e2, hs, baseOf_cons hlen]
    · intro hgt
      rcases hg with hg | hg
      · omega
      · rw [topSize_cons hs] at hg
        rw [e2, hs, aboveOf_cons hlen, List.length_eq_zero_iff.1 hg, List.nil_append]

theorem baseOf_map {b : Nat} {st : ModeStack} {f : ModeState → ModeState} (h : ∀ m ∈ baseOf b st, f m = m) :
    baseOf b (st.map f) = baseOf b st := by
  unfold baseOf at h ⊢
  rw [List.length_map, ← List.map_drop]
  conv => rhs; rw [← List.map_id (List.drop (st.length - b) st)]
  exact List.map_congr_left h

theorem opensOf_map_uids (st : ModeStack) (f : TokType × Nat → TokType × Nat) (hf : ∀ e, (f e).2 = e.2) :
    (opensOf (st.map (fun m => { m with opens := m.opens.map f }))).map (·.2) = (opensOf st).map (·.2) := by
  induction st with
  | nil => rfl
  | cons m st ih =>
    simp only [List.map_cons, opensOf_cons, List.map_append, ih, List.map_map]
    congr 1
    apply List.map_congr_left
    intro e _
    exact hf e

theorem co_start {c : PConf} {b : Nat} {s s' : PState} {id : TokType} (hc : CommentsClosed c) (h : Co c b s)
    (hb : b < s.st.length) (h1 : s'.pos = s.pos) (h2 : s'.inskip = s.inskip) (h3 : s'.comments = s.comments)
    (h4 : ∀ m st, s.st = m :: st → s'.st = { m with opens := (id, s.next) :: m.opens } :: st)
    (h5 : c.position = true → s'.ends = s.next :: s.ends) : Co c b s' ∧ baseOf b s'.st = baseOf b s.st := by
  have hcom := h.token.closed hc h.comments
  cases hs : s.st with
  | nil => rw [hs] at hb; simp at hb
  | cons m st =>
    have hlen : b ≤ st.length := by rw [hs] at hb; simp at hb; omega
    have e1 := h4 m st hs
    refine ⟨⟨⟨?_, ?_, ?_⟩, h.token.same h1 h2, ?_⟩, ?_⟩
    · unfold AtComments; rw [h1, h3]; exact h.comments
    · intro hp
      obtain ⟨D, d1, d2⟩ := h.ends hp
      rw [hcom] at d1
      cases D with
      | cons x D => cases d1
      | nil =>
        refine ⟨[], by rw [h3, hcom]; rfl, ?_⟩
        rw [h5 hp, d2, hs, e1]; simp
    · rw [e1]; intro x hx
      rcases List.mem_cons.1 hx with rfl | hx
      · exact h.noIssue m (by rw [hs]; simp)
      · exact h.noIssue x (by rw [hs]; exact List.mem_cons_of_mem _ hx)
    · rw [e1]; simp; omega
    · rw [e1, baseOf_cons hlen, baseOf_cons hlen]

/-- A regular action keeps good states. -/
theorem co_act {c : PConf} {b : Nat} {s : PState} {a : Act} (hc : CommentsClosed c) (h : Co c b s)
    (hr : a.Regular b s) : Co c b (a.run c s) ∧ Keep b s (a.run c s) := by
  have zero : ∀ {s' : PState}, s.guessing = 0 → baseOf b s'.st = baseOf b s.st → Keep b s s' :=
    fun h0 hb => ⟨hb, fun hg => by omega⟩
  cases a with
  | startElement id =>
    obtain ⟨h0, hb⟩ := hr
    cases hs : s.st with
    | nil => rw [hs] at hb; simp at hb
    | cons m st =>
      have hrun : Act.run c s (.startElement id) =
          ({ s with st := { m with opens := (id, s.next) :: m.opens } :: st } : PState).pushSTokenFlush c id := by
        simp only [Act.run, PState.startElement, PState.pushOpen, hs, ModeStack.push, Option.map_some]
      rw [hrun]
      have := co_start (s' := ({ s with st := { m with opens := (id, s.next) :: m.opens } :: st } : PState).pushSTokenFlush c id)
        (id := id) hc h hb (by simp) (by simp) (by simp)
        (fun m' st' e => by rw [hs] at e; cases e; simp) (fun hp => PState.pushSTokenFlush_ends _ _ _ hp)
      exact ⟨this.1, zero h0 this.2⟩
  | startNoSkipElement id =>
    obtain ⟨h0, hb⟩ := hr
    cases hs : s.st with
    | nil => rw [hs] at hb; simp at hb
    | cons m st =>
      have hrun : Act.run c s (.startNoSkipElement id) =
          ({ s with st := { m with opens := (id, s.next) :: m.opens } :: st } : PState).pushSToken c id := by
        simp only [Act.run, PState.startNoSkipElement, PState.pushOpen, hs, ModeStack.push, Option.map_some]
      rw [hrun]
      have := co_start (s' := ({ s with st := { m with opens := (id, s.next) :: m.opens } :: st } : PState).pushSToken c id)
        (id := id) hc h hb (by simp) (by simp) (by simp)
        (fun m' st' e => by rw [hs] at e; cases e; simp) (fun hp => PState.pushSToken_ends _ _ _ hp)
      exact ⟨this.1, zero h0 this.2⟩
  | addElement id => exact hr.elim
  | emptyElement id =>
    exact ⟨h.same (by simp [Act.run, PState.emptyElement]) (by simp [Act.run, PState.emptyElement])
      (by simp [Act.run, PState.emptyElement]) (by simp [Act.run, PState.emptyElement])
      (by simp [Act.run, PState.emptyElement]), .same (by simp [Act.run, PState.emptyElement])⟩
  | endTop =>
    have := co_endTop hc h hr.2
    exact ⟨this.1, zero hr.1 this.2⟩
  | newMode m =>
    have hb := h.base
    refine ⟨⟨⟨h.comments, ?_, ?_⟩, h.token, ?_⟩, ⟨?_, fun _ => ?_⟩⟩
    · intro hp
      obtain ⟨D, d1, d2⟩ := h.ends hp
      exact ⟨D, d1, by simpa [Act.run, ModeStack.startNewMode] using d2⟩
    · intro x hx
      rcases List.mem_cons.1 hx with rfl | hx
      · exact hr
      · exact h.noIssue x hx
    · show b ≤ s.st.length + 1; omega
    · exact baseOf_cons hb
    · exact aboveOf_cons hb
  | endMode =>
    simp only [Act.run, PState.endMode]
    split
    · exact ⟨h, .refl b s⟩
    · exact co_popMode hc h hr.1 hr.2
  | endLastMode => exact co_popMode hc h hr.1 hr.2
  | setMode m =>
    obtain ⟨hm, hb⟩ := hr
    cases hs : s.st with
    | nil => rw [hs] at hb; simp at hb
    | cons x st =>
      have hlen : b ≤ st.length := by rw [hs] at hb; simp at hb; omega
      have e1 : (Act.run c s (.setMode m)).st = { x with flags := x.flags ||| m, all := x.all ||| m } :: st := by
        simp [Act.run, ModeStack.setMode, hs]
      refine ⟨⟨⟨h.comments, ?_, ?_⟩, h.token, ?_⟩, ⟨?_, fun _ => ?_⟩⟩
      · intro hp
        obtain ⟨D, d1, d2⟩ := h.ends hp
        refine ⟨D, d1, ?_⟩
        rw [e1]; rw [hs] at d2; show s.ends = _; simpa using d2
      · rw [e1]; intro y hy
        rcases List.mem_cons.1 hy with rfl | hy
        · have h1 := h.noIssue x (by rw [hs]; simp)
          show (x.flags ||| m) &&& MODE_ISSUE_EMPTY_AT_POP = 0
          rw [BitVec.and_comm, BitVec.and_or_distrib_left, BitVec.and_comm _ x.flags, BitVec.and_comm _ m, h1, hm]
          rfl
        · exact h.noIssue y (by rw [hs]; exact List.mem_cons_of_mem _ hy)
      · rw [e1]; simp; omega
      · rw [e1, hs, baseOf_cons hlen, baseOf_cons hlen]
      · rw [e1, hs, aboveOf_cons hlen, aboveOf_cons hlen]
  | clearMode m =>
    have hb : b < s.st.length := hr
    cases hs : s.st with
    | nil => rw [hs] at hb; simp at hb
    | cons x st =>
      have hlen : b ≤ st.length := by rw [hs] at hb; simp at hb; omega
      have e1 : (Act.run c s (.clearMode m)).st = { x with flags := x.flags &&& ~~~m, all := x.all &&& ~~~m } :: st := by
        simp [Act.run, ModeStack.clearMode, hs]
      refine ⟨⟨⟨h.comments, ?_, ?_⟩, h.token, ?_⟩, ⟨?_, fun _ => ?_⟩⟩
      · intro hp
        obtain ⟨D, d1, d2⟩ := h.ends hp
        refine ⟨D, d1, ?_⟩
        rw [e1]; rw [hs] at d2; show s.ends = _; simpa using d2
      · rw [e1]; intro y hy
        rcases List.mem_cons.1 hy with rfl | hy
        · have h1 := h.noIssue x (by rw [hs]; simp)
          show (x.flags &&& ~~~m) &&& MODE_ISSUE_EMPTY_AT_POP = 0
          rw [BitVec.and_assoc, BitVec.and_comm (~~~m), ← BitVec.and_assoc, h1]
          simp
        · exact h.noIssue y (by rw [hs]; exact List.mem_cons_of_mem _ hy)
      · rw [e1]; simp; omega
      · rw [e1, hs, baseOf_cons hlen, baseOf_cons hlen]
      · rw [e1, hs, aboveOf_cons hlen, aboveOf_cons hlen]
  | flushSkip =>
    exact ⟨h.same (by simp [Act.run]) (by simp [Act.run]) (by simp [Act.run]) (by simp [Act.run]) (by simp [Act.run]),
      .same (by simp [Act.run])⟩
  | completeSkip =>
    have hcom := h.token.closed hc h.comments
    have : Act.run c s .completeSkip = s := by simp only [Act.run, PState.completeSkip, hcom]
    rw [this]; exact ⟨h, .refl b s⟩
  | retype u id =>
    simp only [Act.run, PState.retype]
    split
    · obtain ⟨h0, hu, _⟩ := hr
      have hbase : baseOf b (s.st.map (fun m => { m with opens := m.opens.map (fun e => if e.2 = u then (id, u) else e) }))
          = baseOf b s.st := by
        apply baseOf_map
        intro m hm
        have : m.opens.map (fun e => if e.2 = u then (id, u) else e) = m.opens := by
          conv => rhs; rw [← List.map_id m.opens]
          apply List.map_congr_left
          intro e he
          rw [if_neg (hu m hm e he)]; rfl
        rw [this]
      refine ⟨⟨⟨h.comments, ?_, ?_⟩, h.token, ?_⟩, zero h0 hbase⟩
      · intro hp
        obtain ⟨D, d1, d2⟩ := h.ends hp
        refine ⟨D, d1, ?_⟩
        show s.ends = _
        rw [d2]
        congr 1
        exact (opensOf_map_uids s.st (fun e => if e.2 = u then (id, u) else e) (by
          intro e; split
          · rename_i h; exact h.symm
          · rfl)).symm
      · intro x hx
        obtain ⟨m, hm, rfl⟩ := List.mem_map.1 hx
        exact h.noIssue m hm
      · show b ≤ (s.st.map _).length
        rw [List.length_map]; exact h.base
    · exact ⟨h, .refl b s⟩
  | pause =>
    simp only [Act.run, PState.pauseStream]
    split
    · exact ⟨h.same rfl rfl rfl rfl rfl, .same rfl⟩
    · exact ⟨h.same rfl rfl rfl rfl rfl, .same rfl⟩
  | resume => exact ⟨h.same rfl rfl rfl rfl rfl, .same rfl⟩
  | nop =>
    simp only [Act.run, PState.nopStreamStart]
    split
    · split
      · exact ⟨h.same rfl rfl rfl rfl rfl, .same rfl⟩
      · exact ⟨h, .refl b s⟩
    · exact ⟨h, .refl b s⟩

/-! ### Consuming -/

namespace PState

theorem skipCur_frame (s : PState) (c : PConf) : (s.skipCur c).pos = s.pos + 1 ∧ (s.skipCur c).guessing = s.guessing ∧
    (s.skipCur c).inskip = s.inskip ∧ (s.skipCur c).st = s.st ∧ (s.skipCur c).comments = s.comments ∧
    (s.skipCur c).ends = s.ends := by
  unfold skipCur advance
  exact ⟨by simp, by simp, by simp, by simp, by simp, by simp⟩

theorem consumeHead_frame (s : PState) (c : PConf) : (s.consumeHead c).pos = s.pos + 1 ∧
    (s.consumeHead c).guessing = s.guessing ∧ (s.consumeHead c).inskip = s.inskip ∧ (s.consumeHead c).st = s.st ∧
    (s.consumeHead c).comments = s.comments ∧ (s.consumeHead c).ends = s.ends := by
  unfold consumeHead advance
  dsimp only
  split
  · exact ⟨by simp, by simp, by simp, by simp, by simp, by simp⟩
  · exact ⟨by simp, by simp, by simp, by simp, by simp, by simp⟩

@[simp] theorem noteSkipPos_ends (s : PState) (c : PConf) : (s.noteSkipPos c).ends = s.ends := rfl

theorem popComment_frame (s : PState) : s.popComment.pos = s.pos ∧ s.popComment.guessing = s.guessing ∧
    s.popComment.inskip = s.inskip ∧ s.popComment.st = s.st ∧ s.popComment.comments = s.comments.drop 1 ∧
    s.popComment.ends = s.ends := by
  unfold popComment
  split
  · rename_i h; simp [h]
  · rename_i h; simp [h]

end PState

theorem commentsAt_succ {c : PConf} {s : PState} (h : AtComments c s) :
    commentsAt c (s.pos + 1) = commentStep s.comments (s.lt c).type := by
  show (commentsAt c s.pos).bind _ = _
  rw [h]; rfl

theorem Lo.step {c : PConf} {s s' : PState} (h : Lo c s) (h1 : commentsAt c s'.pos = some s'.comments)
    (h2 : c.position = true → ∃ D : List Nat, D.length = s'.comments.length ∧ s'.ends = D ++ (opensOf s.st).map (·.2))
    (h3 : s'.st = s.st) : Lo c s' :=
  ⟨h1, by intro hp; rw [h3]; exact h2 hp, by rw [h3]; exact h.noIssue⟩

theorem commentRole_control : commentRole (chars! "CONTROL_CHAR") = none := by decide

/-- A skipped token. -/
theorem lo_skipToken {c : PConf} {s : PState} (hc : CommentsClosed c) (h : Lo c s) :
    Lo c (s.skipToken c) ∧ (s.skipToken c).st = s.st := by
  have hsucc := commentsAt_succ h.comments
  obtain ⟨cs, hcs, _⟩ := hc (s.pos + 1)
  rw [hsucc] at hcs
  unfold PState.skipToken
  dsimp only
  by_cases hctl : (s.lt c).type = chars! "CONTROL_CHAR"
  · rw [if_pos hctl]
    have hst : (((s.pushSkipToken ⟨s.next, PState.controlTok (s.lt c), 0⟩).fresh).advance).st = s.st := by
      simp [PState.advance]
    refine ⟨h.step ?_ ?_ hst, hst⟩
    · simp only [PState.advance, PState.fresh_pos, PState.fresh_comments, PState.pushSkipToken_pos,
        PState.pushSkipToken_comments]
      rw [hsucc, hctl]; unfold commentStep; rw [commentRole_control]
    · intro hp
      have := h.ends hp
      simpa [PState.advance] using this
  · rw [if_neg hctl]
    cases hrole : commentRole (s.lt c).type with
    | none =>
      obtain ⟨f1, f2, f3, f4, f5, f6⟩ := PState.skipCur_frame s c
      refine ⟨h.step ?_ ?_ f4, f4⟩
      · rw [f1, f5, hsucc]; unfold commentStep; rw [hrole]
      · intro hp; rw [f5, f6]; exact h.ends hp
    | some r =>
      obtain ⟨el, b1, b2⟩ := r
      unfold commentStep at hsucc hcs
      rw [hrole] at hsucc hcs
      cases b1 with
      | true =>
        obtain ⟨f1, f2, f3, f4, f5, f6⟩ := PState.skipCur_frame (s.pushSSkipToken c el) c
        cases b2 with
        | true =>
          dsimp only at hsucc ⊢
          have hst : ((((s.pushSSkipToken c el).skipCur c).noteSkipPos c).pushESkipToken c el).st = s.st := by
            simp [f4]
          refine ⟨h.step ?_ ?_ hst, hst⟩
          · simp only [PState.pushESkipToken_pos, PState.pushESkipToken_comments, PState.noteSkipPos_pos,
              PState.noteSkipPos_comments, f1, f5, PState.pushSSkipToken_pos, PState.pushSSkipToken_comments]
            exact hsucc
          · intro hp
            rw [PState.pushESkipToken_ends _ _ _ hp]
            simp only [PState.pushESkipToken_comments, PState.noteSkipPos_comments, f5, PState.pushSSkipToken_comments,
              PState.noteSkipPos_ends, f6, PState.pushSSkipToken_ends _ _ _ hp, List.drop_succ_cons, List.drop_zero]
            exact h.ends hp
        | false =>
          dsimp only at hsucc ⊢
          have hst : ((s.pushSSkipToken c el).skipCur c).st = s.st := by simp [f4]
          refine ⟨h.step ?_ ?_ hst, hst⟩
          · show commentsAt c ((s.pushSSkipToken c el).skipCur c).pos = some (el :: ((s.pushSSkipToken c el).skipCur c).comments)
            rw [f1, f5]; simpa using hsucc
          · intro hp
            obtain ⟨D, d1, d2⟩ := h.ends hp
            refine ⟨s.next :: D, ?_, ?_⟩
            · show D.length + 1 = ((s.pushSSkipToken c el).skipCur c).comments.length + 1
              rw [f5, d1]; simp
            · show ((s.pushSSkipToken c el).skipCur c).ends = _
              rw [f6, PState.pushSSkipToken_ends _ _ _ hp, d2]; rfl
      | false =>
        -- the end of the innermost comment
        obtain ⟨r, hr⟩ : ∃ r, s.comments = el :: r ∧ commentsAt c (s.pos + 1) = some r := by
          cases hk : s.comments with
          | nil => rw [hk] at hcs; simp at hcs
          | cons e r =>
            rw [hk] at hcs hsucc
            by_cases he : e = el
            · subst he; simp at hsucc; exact ⟨r, rfl, hsucc⟩
            · simp [he] at hcs
        obtain ⟨g1, g2, g3, g4, g5, g6⟩ := PState.popComment_frame s
        rw [hr.1] at g5
        have hends : c.position = true → ∃ D : List Nat, D.length = r.length ∧
            s.ends.drop 1 = D ++ (opensOf s.st).map (·.2) := by
          intro hp
          obtain ⟨D, d1, d2⟩ := h.ends hp
          rw [hr.1] at d1
          cases D with
          | nil => cases d1
          | cons x D => exact ⟨D, by simpa using d1, by rw [d2]; rfl⟩
        dsimp only
        split
        · obtain ⟨f1, f2, f3, f4, f5, f6⟩ := PState.skipCur_frame (((s.popComment).noteSkipPos c).pushESkipToken c el) c
          have hst : (((s.popComment.noteSkipPos c).pushESkipToken c el).skipCur c).st = s.st := by rw [f4]; simp [g4]
          refine ⟨h.step ?_ ?_ hst, hst⟩
          · rw [f1, f5]; simpa [g1, g5] using hr.2
          · intro hp
            rw [f5, f6, PState.pushESkipToken_ends _ _ _ hp]
            simpa [g5, g6] using hends hp
        · obtain ⟨f1, f2, f3, f4, f5, f6⟩ := PState.skipCur_frame s.popComment c
          have hst : (((s.popComment.skipCur c).noteSkipPos c).pushESkipToken c el).st = s.st := by simp [f4, g4]
          refine ⟨h.step ?_ ?_ hst, hst⟩
          · simp only [PState.pushESkipToken_pos, PState.pushESkipToken_comments, PState.noteSkipPos_pos,
              PState.noteSkipPos_comments, f1, f5, g1, g5]
            exact hr.2
          · intro hp
            rw [PState.pushESkipToken_ends _ _ _ hp]
            simp only [PState.pushESkipToken_comments, PState.noteSkipPos_comments, PState.noteSkipPos_ends, f5, f6, g5, g6]
            exact hends hp

/-- What layer 1 says of each kind of code. -/
def Layer1 (c : PConf) (k : Kind) (s s' : PState) : Prop :=
  match k with
  | .code b => Co c b s → Co c b s' ∧ Keep b s s'
  | .consume => Lo c s → AtToken c s → Lo c s' ∧ AtToken c s' ∧ s'.st = s.st
  | .skips => Lo c s → Lo c s' ∧ AtToken c s' ∧ s'.st = s.st
  | .skipped => Lo c s → Lo c s' ∧ s'.st = s.st
  | _ => Lo c s → Lo c s'

theorem commentRole_skip {t : TokType} (h : t ∉ whitespaceTokens) : commentRole t = none := by
  unfold commentRole
  have hh : ∀ x, x ∈ whitespaceTokens → t ≠ x := fun x hx e => h (e ▸ hx)
  rw [if_neg (hh _ (by decide)), if_neg (hh _ (by decide)), if_neg (hh _ (by decide)), if_neg (hh _ (by decide)),
    if_neg (hh _ (by decide)), if_neg (hh _ (by decide)), if_neg (hh _ (by decide)), if_neg (hh _ (by decide)),
    if_neg (hh _ (by decide)), if_neg (hh _ (by decide)), if_neg (hh _ (by decide))]

theorem AtToken.notWhite {c : PConf} {s : PState} (h : AtToken c s) : (s.lt c).type ∉ whitespaceTokens := by
  intro hw
  unfold AtToken isSkipType at h
  simp [hw] at h

theorem entersSkip_inskip {c : PConf} {s : PState} (h : s.entersSkip c = true) : s.inskip = false := by
  unfold PState.entersSkip at h
  cases hi : s.inskip with
  | false => rfl
  | true => rw [hi] at h; simp at h

theorem entersSkip_token {c : PConf} {s : PState} (h : s.entersSkip c = true) (b : Bool) :
    isSkipType b (s.lt c).type = false := by
  unfold PState.entersSkip at h
  simp only [Bool.and_eq_true, Bool.or_eq_true, decide_eq_true_eq] at h
  rcases h.2 with (⟨_, h⟩ | h) | h <;> rw [h] <;> cases b <;> decide

theorem exec_layer1 {c : PConf} (hs : LexerTokens c.src) (he : EofToken c.eof) (hc : CommentsClosed c)
    {k : Kind} {s s' : PState} (h : Exec c true k s s') : Layer1 c k s s' := by
  generalize hst : true = strict at h
  induction h with
  | done => exact fun h => ⟨h, .refl _ _⟩
  | @act b s s' a hv hr _ ih =>
    intro h
    obtain ⟨h1, h2⟩ := co_act hc h (hr hst.symm)
    obtain ⟨h3, h4⟩ := ih h1
    exact ⟨h3, h2.trans h4 (neutral_act c s a hv).2.1⟩
  | @consume b s s1 s' hx _ ih1 ih2 =>
    intro h
    obtain ⟨h1, h2, h3⟩ := ih1 h.toLo h.token
    obtain ⟨h4, h5⟩ := ih2 ⟨h1, h2, by rw [h3]; exact h.base⟩
    exact ⟨h4, (Keep.same h3).trans h5 (strict_restores hs he (hst ▸ hx)).1⟩
  | @guess b s s1 s' hx _ ih1 ih2 =>
    intro h
    obtain ⟨h1, h2⟩ := ih1 (h.same (s' := s.beginGuess) rfl rfl rfl rfl rfl)
    obtain ⟨r1, r2⟩ := strict_restores hs he (hst ▸ hx)
    have hcom := h.token.closed hc h.comments
    have hcom1 := h1.token.closed hc h1.comments
    have hco : Co c b (s1.endGuess s.pos) := by
      refine ⟨⟨?_, h1.ends, h1.noIssue⟩, ?_, h1.base⟩
      · show commentsAt c s.pos = some s1.comments
        rw [hcom1, ← hcom]; exact h.comments
      · exact AtToken.same (s := s) h.token rfl r2
    obtain ⟨h3, h4⟩ := ih2 hco
    refine ⟨h3, ⟨h4.base.trans h2.base, fun hg => ?_⟩⟩
    have e2 : aboveOf b s1.st = aboveOf b s.st := h2.above (by show 0 < s.guessing + 1; omega)
    have hg' : 0 < (s1.endGuess s.pos).guessing := by
      show 0 < s1.guessing - 1
      have : s1.guessing = s.guessing + 1 := r1
      omega
    exact (h4.above hg').trans e2
  | escape hf => rw [← hst] at hf; cases hf
  | @eat s s' _ _ ih =>
    intro h ht
    obtain ⟨f1, f2, f3, f4, f5, f6⟩ := PState.consumeHead_frame s c
    have h1 : Lo c (s.consumeHead c) := by
      refine h.step ?_ ?_ f4
      · rw [f1, f5, commentsAt_succ h.comments]
        unfold commentStep; rw [commentRole_skip ht.notWhite]
      · intro hp; rw [f5, f6]; exact h.ends hp
    obtain ⟨h2, h3, h4⟩ := ih h1
    exact ⟨h2, h3, h4.trans f4⟩
  | stop h1 _ => exact fun h => ⟨h, h1, rfl⟩
  | more _ _ ih1 ih2 =>
    intro h
    obtain ⟨h1, h2⟩ := ih1 h
    obtain ⟨h3, h4, h5⟩ := ih2 h1
    exact ⟨h3, h4, h5.trans h2⟩
  | abort hf => rw [← hst] at hf; cases hf
  | @token s _ => exact fun h => lo_skipToken hc h
  | @special s s1 h1 h2 hb hx ih =>
    intro h
    have hco : Co c s.st.length s.enterSkip :=
      ⟨h.same rfl rfl rfl rfl, entersSkip_token h2 true, Nat.le_refl _⟩
    obtain ⟨h3, h4⟩ := ih hco
    have hlen := hb hst.symm
    have e : s1.st = s.st := by
      have h5 : baseOf s.st.length s1.st = baseOf s.st.length s.st := h4.base
      rw [baseOf_self, ← hlen, baseOf_self] at h5
      exact h5
    exact ⟨h3.toLo.same rfl rfl rfl rfl, e⟩
  | @fillSkip s s1 _ ih =>
    intro h
    exact (ih h).1.same (by simp) (by simp) (by simp) (by simp)
  | fillStart h1 _ _ ih => exact fun h => (ih ⟨h, h1, Nat.zero_le _⟩).1.toLo
  | @fillError s s' h1 _ _ _ ih =>
    intro h
    exact (ih ⟨h, h1, Nat.zero_le _⟩).1.toLo.same (by simp [PState.emptyElement]) (by simp [PState.emptyElement])
      (by simp [PState.emptyElement]) (by simp [PState.emptyElement])
  | idle => exact id
  | workFill _ _ ih1 ih2 => exact fun h => ih2 (ih1 h)
  | @workConsume s s1 s' hx _ ih1 ih2 =>
    intro h
    refine ih2 (ih1 h ?_).1
    cases hx with
    | eat hh _ => exact hh hst.symm
  | next _ _ _ _ _ ih => exact fun h => ih (h.same rfl rfl rfl rfl)
  | finish => exact id
  | again _ _ ih1 ih2 => exact fun h => ih2 (ih1 h)

end Srcml
