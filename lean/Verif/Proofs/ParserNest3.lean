import Verif.Proofs.ParserNest2
/-
Regular grammar code: the elements in the buffers nest (the induction over runs).
-/
set_option linter.unusedSimpArgs false
namespace Srcml
open Srcml.Spec

theorem nc_start {b : Nat} {s s' : PState} {id : TokType} (h : Nc b s) (hb : b < s.st.length)
    (hi : s'.inskip = s.inskip) (h4 : ∀ m st, s.st = m :: st → s'.st = { m with opens := (id, s.next) :: m.opens } :: st)
    (hv : view s' = ⟨(view s).o ++ (view s).k ++ [⟨s.next, id, .start, 0⟩], [], (view s).x⟩ ∨
      view s' = ⟨(view s).o ++ [⟨s.next, id, .start, 0⟩], (view s).k, (view s).x⟩) :
    Nc b s' ∧ (view s').x = (view s).x := by
  cases hs : s.st with
  | nil => rw [hs] at hb; simp at hb
  | cons m st =>
    have e1 := h4 m st hs
    have e2 := aboveOf_push (e := (id, s.next)) hs hb
    rcases hv with hv | hv
    · refine ⟨⟨by rw [hi]; exact h.base, ?_, by rw [hv]; rfl⟩, by rw [hv]⟩
      rw [hv, nestK_snoc h.flush, e1, e2]; rfl
    · refine ⟨⟨by rw [hi]; exact h.base, ?_, by rw [hv]; exact h.skip⟩, by rw [hv]⟩
      rw [hv, nestK_snoc h.out, e1, e2]; rfl

theorem nc_emptyElement {b : Nat} {s : PState} {id : TokType} (h : Nc b s) (hg : s.guessing = 0) :
    Nc b (s.emptyElement id) ∧ (view (s.emptyElement id)).x = (view s).x := by
  have hv : view (s.emptyElement id) = ⟨(view s).o ++ (view s).k ++ [⟨s.next, id, .empty, 0⟩], [], (view s).x⟩ := by
    unfold PState.emptyElement; rw [view_fresh, view_pushTokenFlush _ _ hg]; rfl
  refine ⟨⟨?_, ?_, by rw [hv]; rfl⟩, by rw [hv]⟩
  · have : (s.emptyElement id).inskip = s.inskip := by simp [PState.emptyElement]
    rw [this]; exact h.base
  · have : (s.emptyElement id).st = s.st := by simp [PState.emptyElement]
    rw [hv, nestK_snoc h.flush, this]; rfl

theorem nc_flushSkip {b : Nat} {s : PState} (h : Nc b s) : Nc b s.flushSkip ∧ (view s.flushSkip).x = (view s).x := by
  refine ⟨⟨by simp only [PState.flushSkip_inskip]; exact h.base, ?_, by rw [view_flushSkip]; rfl⟩, by rw [view_flushSkip]⟩
  rw [view_flushSkip, PState.flushSkip_st]; exact h.flush

/-- A regular action, not speculating. -/
theorem nc_act {c : PConf} {b : Nat} {s : PState} {a : Act} (hc : CommentsClosed c) (hco : Co c b s) (h : Nc b s)
    (hu : Uids s) (hp : PauseOk s) (hg : s.guessing = 0) (hr : a.Regular b s) :
    Nc b (a.run c s) ∧ (view (a.run c s)).x = (view s).x := by
  have hcom := hco.token.closed hc hco.comments
  cases a with
  | startElement id =>
    obtain ⟨_, hb⟩ := hr
    cases hs : s.st with
    | nil => rw [hs] at hb; simp at hb
    | cons m st =>
      have hrun : Act.run c s (.startElement id) =
          ({ s with st := { m with opens := (id, s.next) :: m.opens } :: st } : PState).pushSTokenFlush c id := by
        simp only [Act.run, PState.startElement, PState.pushOpen, hs, ModeStack.push, Option.map_some]
      rw [hrun]
      refine nc_start (id := id) h hb (by simp) (fun m' st' e => by rw [hs] at e; cases e; simp) (.inl ?_)
      rw [view_pushSTokenFlush _ _ _ (by exact hg)]; rfl
  | startNoSkipElement id =>
    obtain ⟨_, hb⟩ := hr
    cases hs : s.st with
    | nil => rw [hs] at hb; simp at hb
    | cons m st =>
      have hrun : Act.run c s (.startNoSkipElement id) =
          ({ s with st := { m with opens := (id, s.next) :: m.opens } :: st } : PState).pushSToken c id := by
        simp only [Act.run, PState.startNoSkipElement, PState.pushOpen, hs, ModeStack.push, Option.map_some]
      rw [hrun]
      refine nc_start (id := id) h hb (by simp) (fun m' st' e => by rw [hs] at e; cases e; simp) (.inr ?_)
      rw [view_pushSToken _ _ _ (by exact hg)]; rfl
  | addElement id => exact hr.elim
  | emptyElement id => exact nc_emptyElement h hg
  | endTop => exact nc_endTop hco h hg hr.2
  | newMode m => exact ⟨h.same rfl rfl (aboveOf_cons hco.base), rfl⟩
  | endMode =>
    simp only [Act.run, PState.endMode]
    split
    · exact ⟨h, rfl⟩
    · exact nc_popMode hc hco h hg hr.1
  | endLastMode => exact nc_popMode hc hco h hg hr.1
  | setMode m =>
    obtain ⟨hm, hb⟩ := hr
    cases hs : s.st with
    | nil => rw [hs] at hb; simp at hb
    | cons x st =>
      have hlen : b ≤ st.length := by rw [hs] at hb; simp at hb; omega
      have e1 : (Act.run c s (.setMode m)).st = { x with flags := x.flags ||| m, all := x.all ||| m } :: st := by
        simp [Act.run, ModeStack.setMode, hs]
      exact ⟨h.same rfl rfl (by rw [e1, hs, aboveOf_cons hlen, aboveOf_cons hlen]), rfl⟩
  | clearMode m =>
    have hb : b < s.st.length := hr
    cases hs : s.st with
    | nil => rw [hs] at hb; simp at hb
    | cons x st =>
      have hlen : b ≤ st.length := by rw [hs] at hb; simp at hb; omega
      have e1 : (Act.run c s (.clearMode m)).st = { x with flags := x.flags &&& ~~~m, all := x.all &&& ~~~m } :: st := by
        simp [Act.run, ModeStack.clearMode, hs]
      exact ⟨h.same rfl rfl (by rw [e1, hs, aboveOf_cons hlen, aboveOf_cons hlen]), rfl⟩
  | flushSkip => exact nc_flushSkip h
  | completeSkip =>
    have : Act.run c s .completeSkip = s := by simp only [Act.run, PState.completeSkip, hcom]
    rw [this]; exact ⟨h, rfl⟩
  | retype u id => exact nc_retype hr hu h
  | pause =>
    simp only [Act.run, PState.pauseStream]
    split
    · exact ⟨h.same rfl rfl rfl, rfl⟩
    · exact ⟨h.same rfl rfl rfl, rfl⟩
  | resume => exact ⟨h.same rfl rfl rfl, rfl⟩
  | nop => exact nc_nop hr hu hp h

/-- A skipped token, not speculating. -/
theorem nl_skipToken {c : PConf} {b : Nat} {A : Opens} {s : PState} (hs : LexerTokens c.src) (he : EofToken c.eof)
    (hc : CommentsClosed c) (hlo : Lo c s) (hg : s.guessing = 0) (h : Nl b A s) :
    Nl b A (s.skipToken c) ∧ (view (s.skipToken c)).x = (view s).x := by
  have hlt : ∀ s : PState, (s.lt c).category = .text := fun s => lt_text hs he s
  have hin : (s.skipToken c).inskip = s.inskip := (eats_skipToken hs he (c := c) s).2.2.1
  have hst := (lo_skipToken hc hlo).2
  obtain ⟨C, k1, k2⟩ := h.skip
  have fin : ∀ {r : List UKey} {C' : Opens}, view (s.skipToken c) = ⟨(view s).o, (view s).k ++ r, (view s).x⟩ →
      nestK C r = some C' → C'.map (·.1) = (s.skipToken c).comments →
      Nl b A (s.skipToken c) ∧ (view (s.skipToken c)).x = (view s).x := by
    intro r C' hv hn hcm
    refine ⟨⟨by rw [hin]; exact h.base, by rw [hv, hst]; exact h.out, C', ?_, hcm⟩, by rw [hv]⟩
    rw [hv, nestK_append, k1]; exact hn
  have hsucc := commentsAt_succ hlo.comments
  obtain ⟨cs, hcs, _⟩ := hc (s.pos + 1)
  rw [hsucc] at hcs
  by_cases hctl : (s.lt c).type = chars! "CONTROL_CHAR"
  · have e : s.skipToken c = ((s.pushSkipToken ⟨s.next, PState.controlTok (s.lt c), 0⟩).fresh).advance := by
      unfold PState.skipToken; dsimp only; rw [if_pos hctl]
    refine fin (r := [⟨s.next, (s.lt c).type, .empty, 0⟩]) (C' := C) ?_ rfl ?_
    · rw [e, view_advance, view_fresh, view_pushSkipToken _ _ hg]; rfl
    · rw [e]; simp only [PState.advance, PState.fresh_comments, PState.pushSkipToken_comments]; exact k2
  · cases hrole : commentRole (s.lt c).type with
    | none =>
      have e : s.skipToken c = s.skipCur c := by
        unfold PState.skipToken; dsimp only; rw [if_neg hctl, hrole]
      refine fin (r := [⟨s.next, (s.lt c).type, .text, 0⟩]) (C' := C) ?_ rfl ?_
      · rw [e, view_skipCur _ _ hg (hlt s)]
      · rw [e, (PState.skipCur_frame s c).2.2.2.2.1]; exact k2
    | some r =>
      obtain ⟨el, b1, b2⟩ := r
      unfold commentStep at hcs
      rw [hrole] at hcs
      cases b1 with
      | true =>
        obtain ⟨f1, f2, f3, f4, f5, f6⟩ := PState.skipCur_frame (s.pushSSkipToken c el) c
        have hg1 : (s.pushSSkipToken c el).guessing = 0 := by simp [hg]
        have hv1 := view_skipCur (s.pushSSkipToken c el) c hg1 (hlt _)
        rw [view_pushSSkipToken _ _ _ hg] at hv1
        cases b2 with
        | true =>
          have e : s.skipToken c = (((s.pushSSkipToken c el).skipCur c).noteSkipPos c).pushESkipToken c el := by
            unfold PState.skipToken; dsimp only; rw [if_neg hctl, hrole]
          have hv := view_pushESkipToken (((s.pushSSkipToken c el).skipCur c).noteSkipPos c) c el (by simp [f2, hg])
          rw [view_noteSkipPos, hv1] at hv
          refine fin (r := [⟨s.next, el, .start, 0⟩] ++ [⟨(s.pushSSkipToken c el).next, ((s.pushSSkipToken c el).lt c).type, .text, 0⟩] ++
            [⟨(((s.pushSSkipToken c el).skipCur c).noteSkipPos c).next, el, .end_, 0⟩]) (C' := C) ?_ ?_ ?_
          · rw [e, hv]; simp only [List.append_assoc]
          · simp [nestK]
          · rw [e]; simpa [f5] using k2
        | false =>
          have e : s.skipToken c = { (s.pushSSkipToken c el).skipCur c with
              comments := el :: ((s.pushSSkipToken c el).skipCur c).comments } := by
            unfold PState.skipToken; dsimp only; rw [if_neg hctl, hrole]
          refine fin (r := [⟨s.next, el, .start, 0⟩] ++ [⟨(s.pushSSkipToken c el).next, ((s.pushSSkipToken c el).lt c).type, .text, 0⟩])
            (C' := (el, s.next) :: C) ?_ ?_ ?_
          · rw [e]
            show view ((s.pushSSkipToken c el).skipCur c) = _
            rw [hv1]; simp only [List.append_assoc]
          · simp [nestK]
          · rw [e]
            show _ = el :: ((s.pushSSkipToken c el).skipCur c).comments
            rw [f5]; simp [k2]
      | false =>
        obtain ⟨r, hr⟩ : ∃ r, s.comments = el :: r := by
          cases hk : s.comments with
          | nil => rw [hk] at hcs; simp at hcs
          | cons e r =>
            rw [hk] at hcs
            by_cases he : e = el
            · subst he; exact ⟨r, rfl⟩
            · simp [he] at hcs
        obtain ⟨g1, g2, g3, g4, g5, g6⟩ := PState.popComment_frame s
        rw [hr] at g5 k2
        have hg1 : s.popComment.guessing = 0 := by rw [g2]; exact hg
        obtain ⟨d, C', hC, hd, hC'⟩ : ∃ d C', C = d :: C' ∧ d.1 = el ∧ C'.map (·.1) = r := by
          cases C with
          | nil => cases k2
          | cons d C' => simp at k2; exact ⟨d, C', rfl, k2.1, k2.2⟩
        by_cases hline : ((s.lt c).type = chars! "LINE_COMMENT_END" ∨ (s.lt c).type = chars! "LINE_DOXYGEN_COMMENT_END") ∧
            (s.lt c).text.getLast? = some '\n'
        · have e : s.skipToken c = ((s.popComment.noteSkipPos c).pushESkipToken c el).skipCur c := by
            unfold PState.skipToken; dsimp only; rw [if_neg hctl, hrole]; dsimp only; rw [if_pos hline]
          obtain ⟨f1, f2, f3, f4, f5, f6⟩ := PState.skipCur_frame (((s.popComment).noteSkipPos c).pushESkipToken c el) c
          have hv := view_skipCur ((s.popComment.noteSkipPos c).pushESkipToken c el) c (by simp [hg1]) (hlt _)
          rw [view_pushESkipToken _ _ _ (by simp [hg1]), view_noteSkipPos, view_popComment] at hv
          refine fin (r := [⟨(s.popComment.noteSkipPos c).next, el, .end_, 0⟩] ++
            [⟨((s.popComment.noteSkipPos c).pushESkipToken c el).next,
              (((s.popComment.noteSkipPos c).pushESkipToken c el).lt c).type, .text, 0⟩]) (C' := C') ?_ ?_ ?_
          · rw [e, hv]; simp only [List.append_assoc]
          · rw [hC]; simp [nestK, hd]
          · rw [e, f5]; simp [g5, hC']
        · have e : s.skipToken c = ((s.popComment.skipCur c).noteSkipPos c).pushESkipToken c el := by
            unfold PState.skipToken; dsimp only; rw [if_neg hctl, hrole]; dsimp only; rw [if_neg hline]
          obtain ⟨f1, f2, f3, f4, f5, f6⟩ := PState.skipCur_frame s.popComment c
          have hv := view_pushESkipToken ((s.popComment.skipCur c).noteSkipPos c) c el (by simp [f2, hg1])
          rw [view_noteSkipPos, view_skipCur _ _ hg1 (hlt _), view_popComment] at hv
          refine fin (r := [⟨s.popComment.next, (s.popComment.lt c).type, .text, 0⟩] ++
            [⟨((s.popComment.skipCur c).noteSkipPos c).next, el, .end_, 0⟩]) (C' := C') ?_ ?_ ?_
          · rw [e, hv]; simp only [List.append_assoc]
          · rw [hC]; simp [nestK, hd]
          · rw [e]; simp [f5, g5, hC']

/-- Nesting between the calls of the driver: the comments `A` may be open at the end of the output. -/
structure Nd (s : PState) : Prop where
  inskip : s.inskip = false
  nest : ∃ A, (A = [] ∨ (view s).k = []) ∧ Nl 0 A s

/-- What layer 3 says of each kind of code, run without speculating. -/
def Layer3 (c : PConf) (k : Kind) (s s' : PState) : Prop :=
  s.guessing = 0 → Uids s → WF s → Lo c s →
  match k with
  | .code b => PauseOk s → AtToken c s → b ≤ s.st.length → Nc b s → Nc b s' ∧ (view s').x = (view s).x
  | .consume => PauseOk s → AtToken c s → ∀ b, Nc b s → Nc b s' ∧ (view s').x = (view s).x
  | .skips => PauseOk s → ∀ b, Nl b [] s → Nc b s' ∧ (view s').x = (view s).x
  | .skipped => PauseOk s → ∀ b A, (A = [] ∨ (view s).k = []) → Nl b A s → Nl b A s' ∧ (view s').x = (view s).x
  | .fill => PauseOk s → Nd s → Nd s'
  | .work => PauseOk s → Nd s → Nd s'
  | .next => s.paused = false → Nd s → Nd s' ∧ s'.paused = false
  | .driver => s.paused = false → Nd s → Nd s' ∧ s'.paused = false

theorem Nd.code {c : PConf} {s : PState} (hc : CommentsClosed c) (hlo : Lo c s) (h : Nd s) (ht : AtToken c s) : Nc 0 s := by
  obtain ⟨A, hA, hn⟩ := h.nest
  exact (hn.code hA (ht.closed hc hlo.comments)).2

theorem Nc.nd {s : PState} {c : PConf} (hc : CommentsClosed c) (hlo : Lo c s) (ht : AtToken c s) (h : Nc 0 s)
    (hi : s.inskip = false) : Nd s :=
  ⟨hi, [], .inl rfl, h.nl (ht.closed hc hlo.comments)⟩

theorem exec_layer3 {c : PConf} (hs : LexerTokens c.src) (he : EofToken c.eof) (hc : CommentsClosed c)
    {k : Kind} {s s' : PState} (h : Exec c true k s s') : Layer3 c k s s' := by
  generalize hst : true = strict at h
  have l1 : ∀ {k s s'}, Exec c strict k s s' → Layer1 c k s s' := fun h => exec_layer1 hs he hc (hst ▸ h)
  have rs : ∀ {k s s'}, Exec c strict k s s' → s'.guessing = s.guessing ∧ s'.inskip = s.inskip :=
    fun h => strict_restores hs he (hst ▸ h)
  have wf : ∀ {k s s'}, Exec c strict k s s' → WF s → WF s' := fun h w => (exec_keeps hs he h w).wf
  induction h with
  | done => exact fun _ _ _ _ _ _ _ h => ⟨h, rfl⟩
  | @act b s s' a hv hr hx ih =>
    intro hg hu hw hlo hp ht hb hn
    have hco : Co c b s := ⟨hlo, ht, hb⟩
    obtain ⟨_, n2, n3, _, n5⟩ := neutral_act c s a hv
    obtain ⟨h1, h2⟩ := nc_act hc hco hn hu hp hg (hr hst.symm)
    have hco1 := (co_act hc hco (hr hst.symm)).1
    obtain ⟨h3, h4⟩ := ih (by rw [n2]; exact hg) ((uq_act c s a).uids hu) (n5 hw) hco1.toLo (pauseOk_act hu hp) hco1.token
      hco1.base h1
    exact ⟨h3, h4.trans h2⟩
  | @consume b s s1 s' hx _ ih1 ih2 =>
    intro hg hu hw hlo hp ht hb hn
    obtain ⟨h1, h2⟩ := ih1 hg hu hw hlo hp ht b hn
    obtain ⟨k1, k2, k3⟩ := l1 hx hlo ht
    obtain ⟨h3, h4⟩ := ih2 (by rw [(rs hx).1]; exact hg) ((exec_uq hx).uids hu) (wf hx hw) k1
      (exec_pauseOk hx trivial hu hp) k2 (by rw [k3]; exact hb) h1
    exact ⟨h3, h4.trans h2⟩
  | @guess b s s1 s' hx hy ih1 ih2 =>
    intro hg hu hw hlo hp ht hb hn
    have hco0 : Co c b s.beginGuess := ⟨hlo.same rfl rfl rfl rfl, ht.same rfl rfl, hb⟩
    obtain ⟨k1, k2⟩ := l1 hx hco0
    obtain ⟨r1, r2⟩ := rs hx
    have hx' : Exec c true (.code b) s.beginGuess s1 := hst ▸ hx
    have hb' : bufs s1 = bufs s.beginGuess := exec_frozen hs he hx' (by show 0 < s.guessing + 1; omega) hw trivial
    have hv : view (s1.endGuess s.pos) = view s := view_bufs hb' r2
    have hu0 : Uids s.beginGuess := ⟨hu.nodup, hu.bound, hu.pos⟩
    have hu1 := (exec_uq hx).uids hu0
    have hw1 : WF s1 := wf hx (s := s.beginGuess) hw
    have hab : aboveOf b s1.st = aboveOf b s.st := k2.above (by show 0 < s.guessing + 1; omega)
    have hcom := ht.closed hc hlo.comments
    have hcom1 := k1.token.closed hc k1.comments
    have hlo1 : Lo c (s1.endGuess s.pos) := by
      refine ⟨?_, k1.ends, k1.noIssue⟩
      show commentsAt c s.pos = some s1.comments
      rw [hcom1, ← hcom]; exact hlo.comments
    obtain ⟨h3, h4⟩ := ih2 (by show s1.guessing - 1 = 0; rw [r1]; show s.guessing + 1 - 1 = 0; omega)
      ⟨hu1.nodup, hu1.bound, hu1.pos⟩ hw1 hlo1
      ((exec_pauseOk hx trivial hu0 (hp.same rfl rfl rfl)).same rfl rfl rfl)
      (AtToken.same (s := s) ht rfl r2) k1.base (hn.same hv r2 hab)
    exact ⟨h3, h4.trans (by rw [hv])⟩
  | escape hf => rw [← hst] at hf; cases hf
  | @eat s s' _ hx ih =>
    intro hg hu hw hlo hp ht b hn
    obtain ⟨f1, f2, f3, f4, f5, f6⟩ := PState.consumeHead_frame s c
    obtain ⟨o1, o2, o3⟩ := consumeHead_out s c
    have hv := view_consumeHead s c hg (lt_text hs he s) ht
    have hcom := ht.closed hc hlo.comments
    have hlo1 : Lo c (s.consumeHead c) := by
      refine hlo.step ?_ ?_ f4
      · rw [f1, f5, commentsAt_succ hlo.comments]
        unfold commentStep; rw [commentRole_skip ht.notWhite]
      · intro hp; rw [f5, f6]; exact hlo.ends hp
    have hn1 : Nl b [] (s.consumeHead c) := by
      refine ⟨by rw [f3]; exact hn.base, ?_, [], by rw [hv]; rfl, by rw [f5, hcom]; rfl⟩
      rw [hv, nestK_snoc hn.flush, f4]; rfl
    obtain ⟨h3, h4⟩ := ih (by rw [f2]; exact hg) ((uq_consumeHead s c).uids hu)
      ((eats_consumeHead hs he (c := c) s).keeps hw).wf hlo1 (hp.same o1 o2 o3) b hn1
    exact ⟨h3, h4.trans (by rw [hv])⟩
  | @stop s h1 _ =>
    intro hg hu hw hlo hp b hn
    exact ⟨(hn.code (.inl rfl) (AtToken.closed hc h1 hlo.comments)).2, rfl⟩
  | @more s s1 s' hx _ ih1 ih2 =>
    intro hg hu hw hlo hp b hn
    obtain ⟨h1, h2⟩ := ih1 hg hu hw hlo hp b [] (.inl rfl) hn
    obtain ⟨h3, h4⟩ := ih2 (by rw [(rs hx).1]; exact hg) ((exec_uq hx).uids hu) (wf hx hw) (l1 hx hlo).1
      (exec_pauseOk hx trivial hu hp) b h1
    exact ⟨h3, h4.trans h2⟩
  | abort hf => rw [← hst] at hf; cases hf
  | token _ => exact fun hg hu hw hlo hp b A _ hn => nl_skipToken hs he hc hlo hg hn
  | @special s s1 h1 h2 hb hx ih =>
    intro hg hu hw hlo hp b A hA hn
    have hi := entersSkip_inskip h2
    obtain ⟨w1, w2⟩ := hw hi
    have hcom := AtToken.closed hc h1 hlo.comments
    obtain ⟨rfl, hn0⟩ := hn.code hA hcom
    have hb0 : b = 0 := hn.base hi
    subst hb0
    have hvE : view s.enterSkip = ⟨[], [], ((view s).o, (view s).k)⟩ := by
      unfold view PState.enterSkip; simp [w1, w2, hi]
    have hcoE : Co c s.st.length s.enterSkip :=
      ⟨hlo.same rfl rfl rfl rfl, entersSkip_token h2 true, Nat.le_refl _⟩
    have hncE : Nc s.st.length s.enterSkip := by
      refine ⟨(fun hc => by cases hc), ?_, by rw [hvE]; rfl⟩
      rw [hvE]
      show some [] = some (aboveOf s.st.length s.st)
      rw [aboveOf_self]
    obtain ⟨h3, h4⟩ := ih (by exact hg) ⟨hu.nodup, hu.bound, hu.pos⟩ (by intro hc; cases hc) hcoE.toLo
      (hp.same rfl rfl rfl) hcoE.token (Nat.le_refl _) hncE
    obtain ⟨k1, k2⟩ := l1 hx hcoE
    have est : s1.st = s.st := by
      have h5 : baseOf s.st.length s1.st = baseOf s.st.length s.st := k2.base
      rw [baseOf_self, ← hb hst.symm, baseOf_self] at h5
      exact h5
    have hi1 : s1.inskip = true := (rs hx).2
    have hcom1 := k1.token.closed hc k1.comments
    rw [hvE] at h4
    have hv1 : view s1 = ⟨s1.pretb.map keyU, s1.skippretb.map keyU, ((s1.out ++ s1.tb).map keyU, s1.skiptb.map keyU)⟩ := by
      unfold view; rw [hi1]; rfl
    rw [hv1] at h4
    simp only [Prod.mk.injEq] at h4
    have hvL : view s1.leaveSkip = ⟨(view s).o, (view s).k ++ (s1.pretb.map keyU ++ s1.skippretb.map keyU), ([], [])⟩ := by
      unfold PState.leaveSkip
      rw [view]
      simp only [Bool.false_eq_true, if_false, List.map_append]
      rw [← h4.1, ← h4.2, List.map_append]
    have hx0 : (view s).x = ([], []) := by unfold view; rw [hi]; rfl
    have q1 := h3.out
    have q2 := h3.skip
    rw [hv1, est, aboveOf_self] at q1
    rw [hv1] at q2
    refine ⟨⟨fun _ => rfl, ?_, [], ?_, ?_⟩, by rw [hvL, hx0]⟩
    · show _ = some ([] ++ aboveOf 0 s1.st)
      rw [hvL, est]; exact hn0.out
    · rw [hvL, nestK_append, hn0.skip]
      show nestK [] _ = _
      rw [nestK_append, q1]; exact q2
    · show [] = s1.comments; exact hcom1.symm
  | @fillSkip s s1 hx ih =>
    intro hg hu hw hlo hp hn
    obtain ⟨A, hA, hnl⟩ := hn.nest
    obtain ⟨h1, _⟩ := ih hg hu hw hlo hp 0 A hA hnl
    obtain ⟨C, k1, k2⟩ := h1.skip
    have hi1 : s1.inskip = false := (rs hx).2.trans hn.inskip
    refine ⟨by simpa using hi1, C, .inr (by rw [view_flushSkip]), fun _ => rfl, ?_, C, ?_, ?_⟩
    · rw [view_flushSkip, PState.flushSkip_st, nestK_append, h1.out]
      exact nestK_stack _ _ k1
    · rw [view_flushSkip]; rfl
    · rw [PState.flushSkip_comments]; exact k2
  | @fillStart s s' h1 _ hx ih =>
    intro hg hu hw hlo hp hn
    have hco : Co c 0 s := ⟨hlo, h1, Nat.zero_le _⟩
    have h2 := (ih hg hu hw hlo hp h1 (Nat.zero_le _) (hn.code hc hlo h1)).1
    have hco' := (l1 hx hco).1
    exact h2.nd hc hco'.toLo hco'.token ((rs hx).2.trans hn.inskip)
  | @fillError s s' h1 _ _ hx ih =>
    intro hg hu hw hlo hp hn
    have hco : Co c 0 s := ⟨hlo, h1, Nat.zero_le _⟩
    have h2 := (ih hg hu hw hlo hp h1 (Nat.zero_le _) (hn.code hc hlo h1)).1
    have hco' := (l1 hx hco).1
    have h3 := (nc_emptyElement (id := chars! "SERROR_PARSE") h2 (by rw [(rs hx).1]; exact hg)).1
    have hco2 : Co c 0 (s'.emptyElement (chars! "SERROR_PARSE")) :=
      hco'.same (by simp [PState.emptyElement]) (by simp [PState.emptyElement]) (by simp [PState.emptyElement])
        (by simp [PState.emptyElement]) (by simp [PState.emptyElement])
    refine h3.nd hc hco2.toLo hco2.token ?_
    have : (s'.emptyElement (chars! "SERROR_PARSE")).inskip = s'.inskip := by simp [PState.emptyElement]
    rw [this]; exact (rs hx).2.trans hn.inskip
  | idle => exact fun _ _ _ _ _ h => h
  | @workFill s s1 s' hx _ ih1 ih2 =>
    intro hg hu hw hlo hp hn
    exact ih2 (by rw [(rs hx).1]; exact hg) ((exec_uq hx).uids hu) (wf hx hw) (l1 hx hlo)
      (exec_pauseOk hx trivial hu hp) (ih1 hg hu hw hlo hp hn)
  | @workConsume s s1 s' hx _ ih1 ih2 =>
    intro hg hu hw hlo hp hn
    have ht : AtToken c s := by cases hx with | eat hh _ => exact hh hst.symm
    obtain ⟨k1, k2, k3⟩ := l1 hx hlo ht
    have h1 := (ih1 hg hu hw hlo hp ht 0 (hn.code hc hlo ht)).1
    exact ih2 (by rw [(rs hx).1]; exact hg) ((exec_uq hx).uids hu) (wf hx hw) k1
      (exec_pauseOk hx trivial hu hp) (h1.nd hc k1 k2 ((rs hx).2.trans hn.inskip))
  | @next s s' t rest h hne hpd hen hx ih =>
    intro hg hu hw hlo hp hn
    have hu1 : Uids { s with out := s.out ++ [t], tb := rest } := by
      have e : uidsOf { s with out := s.out ++ [t], tb := rest } = uidsOf s := by simp [uidsOf_eq, h]
      exact ⟨by rw [e]; exact hu.nodup, by rw [e]; exact hu.bound, hu.pos⟩
    have hv : view { s with out := s.out ++ [t], tb := rest } = view s := by
      unfold view; rw [hn.inskip]; simp [h, hn.inskip]
    refine ⟨ih hg hu1 hw (hlo.same rfl rfl rfl rfl) (by intro h2; rw [show s.paused = true from h2] at hp; cases hp) ?_, hpd⟩
    obtain ⟨A, hA, hnl⟩ := hn.nest
    refine ⟨hn.inskip, A, by rw [hv]; exact hA, hnl.base, by rw [hv]; exact hnl.out, ?_⟩
    obtain ⟨C, q1, q2⟩ := hnl.skip
    exact ⟨C, by rw [hv]; exact q1, q2⟩
  | finish => exact fun _ _ _ _ hp h => ⟨h, hp⟩
  | @again s s1 s' hx _ ih1 ih2 =>
    intro hg hu hw hlo hp hn
    obtain ⟨h1, h2⟩ := ih1 hg hu hw hlo hp hn
    exact ih2 (by rw [(rs hx).1]; exact hg) ((exec_uq hx).uids hu) (wf hx hw) (l1 hx hlo) h2 h1

end Srcml
