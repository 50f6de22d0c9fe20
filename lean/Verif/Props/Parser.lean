import Verif.Proofs.ParserText
import Verif.Proofs.ParserRun
/-
C14: the parser keeps every source token exactly once and in order, whatever the grammar does.
-/
set_option linter.unusedSimpArgs false
namespace Srcml
open Srcml.Spec

/-- The text of the source. -/
def PConf.text (c : PConf) : Str := c.src.flatMap (·.text)

theorem flatMap_carried (ps : List PTok) :
    (ps.map (·.tok)).flatMap carried = (keys ps).flatMap (·.2) := by
  induction ps with
  | nil => rfl
  | cons p ps ih =>
    simp only [List.map_cons, List.flatMap_cons, keys_cons, List.flatMap_append, ih]
    congr 1
    unfold carried keyOf
    cases p.tok.category with
    | text => simp
    | empty => dsimp only; split <;> simp
    | start => rfl
    | end_ => rfl

theorem srcKeys_text {c : PConf} (he : EofToken c.eof) (n : Nat) :
    (srcKeys c n).flatMap (·.2) = (c.src.take n).flatMap (·.text) := by
  induction n with
  | zero => rfl
  | succ n ih =>
    unfold srcKeys at ih ⊢
    rw [List.range_succ, List.map_append, List.flatMap_append, ih, List.take_add_one, List.flatMap_append]
    congr 1
    cases h : c.src[n]? with
    | none => simp [h, he.2.2]
    | some t => simp [h]

/-- The parser starts with nothing carried. -/
theorem init_wf (c : PConf) : WF (PState.init c) ∧ TextInv c (PState.init c) ∧ (PState.init c).guessing = 0 := by
  cases c with
  | mk src eof position cpp => cases position <;> exact ⟨fun _ => ⟨rfl, rfl⟩, ⟨0, rfl, fun _ => rfl⟩, rfl⟩

/-- What has been returned is the beginning of the buffers. -/
theorem taken_prefix (s : PState) : s.out ++ s.tb.take 1 <+: s.queue := by
  unfold PState.queue
  refine ⟨s.tb.drop 1 ++ s.skiptb ++ s.pretb ++ s.skippretb, ?_⟩
  conv => rhs; rw [← List.take_append_drop 1 s.tb]
  simp only [List.append_assoc]

/-- The categories of the tokens in the output and its buffer. -/
def cats (s : PState) : List Category := (s.out ++ s.tb).map (·.tok.category)

/-- The output only grows, up to changes of tokens that keep their categories. -/
def Grows (s s' : PState) : Prop := cats s <+: cats s'

theorem Grows.refl (s : PState) : Grows s s := List.prefix_refl _
theorem Grows.trans {a b d : PState} (h1 : Grows a b) (h2 : Grows b d) : Grows a d := List.IsPrefix.trans h1 h2
theorem Grows.same {s s' : PState} (h1 : s'.tb = s.tb) (h2 : s'.out = s.out) : Grows s s' := by
  unfold Grows cats; rw [h1, h2]; exact List.prefix_refl _

theorem grows_append {s s' : PState} (r : List PTok) (h1 : s'.tb = s.tb ++ r) (h2 : s'.out = s.out) : Grows s s' := by
  unfold Grows cats; rw [h1, h2, ← List.append_assoc, List.map_append (l₁ := s.out ++ s.tb)]; exact List.prefix_append _ _

theorem grows_flushSkip (s : PState) : Grows s s.flushSkip := by
  unfold PState.flushSkip; split
  · exact .same rfl rfl
  · exact grows_append _ rfl rfl

theorem grows_emplace (s : PState) (t : PTok) : Grows s (s.emplace t) := by
  unfold PState.emplace; split
  · exact .same rfl rfl
  · exact grows_append _ rfl rfl

theorem grows_pushToken (s : PState) (t : PTok) : Grows s (s.pushToken t) := by
  unfold PState.pushToken; split
  · exact .refl s
  · exact grows_emplace s t

theorem grows_pushTokenFlush (s : PState) (t : PTok) : Grows s (s.pushTokenFlush t) := by
  unfold PState.pushTokenFlush; split
  · exact .refl s
  · exact (grows_flushSkip s).trans (grows_emplace _ t)

theorem grows_pushSkipToken (s : PState) (t : PTok) : Grows s (s.pushSkipToken t) := by
  unfold PState.pushSkipToken; split
  · exact .refl s
  · split <;> exact .same rfl rfl

theorem grows_fresh (s : PState) : Grows s s.fresh := .same rfl rfl

theorem grows_pushEnds (s : PState) (c : PConf) (u : Nat) : Grows s (s.pushEnds c u) := by
  unfold PState.pushEnds; split <;> exact .same rfl rfl

theorem grows_noteType (s : PState) (c : PConf) (id : TokType) : Grows s (s.noteType c id) := by
  unfold PState.noteType; split <;> exact .same rfl rfl

theorem grows_mapTok (s : PState) (u : Nat) (f : Tok → Tok) (hf : ∀ t, (f t).category = t.category) :
    Grows s (s.mapTok u f) := by
  have : cats (s.mapTok u f) = cats s := by
    unfold cats PState.mapTok
    simp only [List.map_append, List.map_map]
    congr 1
    apply List.map_congr_left
    intro p _
    simp only [Function.comp]
    split
    · exact hf _
    · rfl
  unfold Grows; rw [this]; exact List.prefix_refl _

theorem grows_endPosition (s : PState) (c : PConf) (id : TokType) : Grows s (s.endPosition c id) := by
  unfold PState.endPosition
  split
  · split
    · exact .same rfl rfl
    · rename_i u us _
      generalize hs1 : (if id = chars! "STYPE" then
        ({ s with lasttypeendline := s.lastline, lasttypeendcolumn := s.lastcolumn } : PState) else s) = s1
      have h1 : Grows s s1 := by rw [← hs1]; split <;> exact .same rfl rfl
      refine h1.trans ?_
      refine Grows.trans (b := if id = chars! "STYPEPREV" then
        s1.mapTok u (PState.setEnd s1.lasttypeendline s1.lasttypeendcolumn)
        else s1.mapTok u (PState.setEnd s1.lastline s1.lastcolumn)) ?_ (.same rfl rfl)
      split <;> exact grows_mapTok _ _ _ (fun _ => rfl)
  · exact .refl s

theorem grows_pushSToken (s : PState) (c : PConf) (id : TokType) : Grows s (s.pushSToken c id) :=
  ((grows_pushEnds s c _).trans (grows_pushToken _ _)).trans (grows_fresh _)

theorem grows_pushSSkipToken (s : PState) (c : PConf) (id : TokType) : Grows s (s.pushSSkipToken c id) :=
  ((grows_pushEnds s c _).trans (grows_pushSkipToken _ _)).trans (grows_fresh _)

theorem grows_pushSTokenFlush (s : PState) (c : PConf) (id : TokType) : Grows s (s.pushSTokenFlush c id) :=
  (((grows_noteType s c id).trans (grows_pushEnds _ c _)).trans (grows_pushTokenFlush _ _)).trans (grows_fresh _)

theorem grows_pushEToken (s : PState) (c : PConf) (id : TokType) (e : Nat) : Grows s (s.pushEToken c id e) :=
  ((grows_pushToken s _).trans (grows_fresh _)).trans (grows_endPosition _ _ _)

theorem grows_pushESkipToken (s : PState) (c : PConf) (id : TokType) : Grows s (s.pushESkipToken c id) := by
  unfold PState.pushESkipToken
  have h1 : Grows s ((s.pushSkipToken ⟨s.next, { type := id, category := .end_ }, 0⟩).fresh) :=
    (grows_pushSkipToken s _).trans (grows_fresh _)
  generalize (s.pushSkipToken ⟨s.next, { type := id, category := .end_ }, 0⟩).fresh = s1 at h1 ⊢
  refine h1.trans ?_
  dsimp only
  split
  · split
    · exact .same rfl rfl
    · exact Grows.trans (grows_mapTok s1 _ (PState.setEnd s1.slastline s1.slastcolumn) (fun _ => rfl)) (.same rfl rfl)
  · exact .refl _

theorem grows_endTop (s : PState) (c : PConf) : Grows s (s.endTop c) := by
  unfold PState.endTop
  split
  · rename_i m st h1
    split
    · rename_i id u es h2
      refine Grows.trans (b := if decide (m.flags &&& MODE_ISSUE_EMPTY_AT_POP ≠ 0) then s.pushSToken c id else s) ?_ ?_
      · split
        · exact grows_pushSToken s c id
        · exact .refl s
      · exact (grows_pushEToken _ _ _ _).trans (.same rfl rfl)
    · exact .refl s
  · exact .refl s

theorem grows_endTops (c : PConf) (n : Nat) : ∀ s : PState, Grows s (PState.endTops c n s) := by
  induction n with
  | zero => exact fun s => .refl s
  | succ n ih => exact fun s => (grows_endTop s c).trans (ih _)

theorem grows_popMode (s : PState) (c : PConf) : Grows s (s.popMode c) := (grows_endTops c _ s).trans (.same rfl rfl)

theorem grows_act (c : PConf) (s : PState) (a : Act) : Grows s (a.run c s) := by
  cases a with
  | startElement id =>
    simp only [Act.run, PState.startElement, PState.pushOpen]
    cases ModeStack.push s.st (id, s.next) with
    | none => exact .refl s
    | some st' => exact Grows.trans (.same rfl rfl) (grows_pushSTokenFlush { s with st := st' } c id)
  | startNoSkipElement id =>
    simp only [Act.run, PState.startNoSkipElement, PState.pushOpen]
    cases ModeStack.push s.st (id, s.next) with
    | none => exact .refl s
    | some st' => exact Grows.trans (.same rfl rfl) (grows_pushSToken { s with st := st' } c id)
  | addElement id =>
    simp only [Act.run, PState.addElement, PState.pushOpen]
    cases ModeStack.push s.st (id, 0) with
    | none => exact .refl s
    | some st' => exact .same rfl rfl
  | emptyElement id => exact (grows_pushTokenFlush s _).trans (grows_fresh _)
  | endTop => exact grows_endTop s c
  | newMode m => exact .same rfl rfl
  | endMode =>
    simp only [Act.run, PState.endMode]
    split
    · exact .refl s
    · exact grows_popMode s c
  | endLastMode => exact grows_popMode s c
  | setMode m => exact .same rfl rfl
  | clearMode m => exact .same rfl rfl
  | flushSkip => exact grows_flushSkip s
  | completeSkip =>
    simp only [Act.run, PState.completeSkip]
    split
    · exact .refl s
    · exact Grows.trans (b := ({ s with slastcolumn := (s.lt c).column - 1, slastline := (s.lt c).line } : PState))
        (.same rfl rfl) ((grows_pushESkipToken _ c _).trans (.same rfl rfl))
  | retype u id =>
    simp only [Act.run, PState.retype]
    split
    · refine Grows.trans (grows_mapTok s u (fun t => if t.category = .start then { t with type := id } else t) ?_)
        (.same rfl rfl)
      intro t; split <;> rfl
    · exact .refl s
  | pause => simp only [Act.run, PState.pauseStream]; split <;> exact .same rfl rfl
  | resume => exact .same rfl rfl
  | nop =>
    have hn : ∀ t, (PState.nopTok t).category = t.category := by
      intro t; unfold PState.nopTok; split <;> rfl
    simp only [Act.run, PState.nopStreamStart]
    split
    · split
      · exact ((grows_mapTok s _ _ hn).trans (grows_mapTok _ _ _ hn)).trans (.same rfl rfl)
      · exact .refl s
    · exact .refl s

theorem grows_skipCur (s : PState) (c : PConf) : Grows s (s.skipCur c) :=
  ((grows_pushSkipToken s _).trans (grows_fresh _)).trans (.same rfl rfl)

theorem grows_consumeHead (s : PState) (c : PConf) : Grows s (s.consumeHead c) := by
  unfold PState.consumeHead
  split
  · exact ((grows_pushSkipToken s _).trans (grows_fresh _)).trans (.same rfl rfl)
  · exact ((grows_pushTokenFlush s _).trans (grows_fresh _)).trans (.same rfl rfl)

theorem grows_popComment (s : PState) : Grows s s.popComment := by
  unfold PState.popComment; split <;> exact .same rfl rfl

theorem grows_noteSkipPos (s : PState) (c : PConf) : Grows s (s.noteSkipPos c) := .same rfl rfl

theorem grows_skipToken (s : PState) (c : PConf) : Grows s (s.skipToken c) := by
  unfold PState.skipToken
  dsimp only
  split
  · exact ((grows_pushSkipToken s _).trans (grows_fresh _)).trans (.same rfl rfl)
  · split
    · rename_i el _
      have h1 := (grows_pushSSkipToken s c el).trans (grows_skipCur _ c)
      exact (h1.trans (grows_noteSkipPos _ c)).trans (grows_pushESkipToken _ c el)
    · rename_i el _
      exact ((grows_pushSSkipToken s c el).trans (grows_skipCur _ c)).trans (.same rfl rfl)
    · rename_i el _ _ _ _ _
      split
      · exact (((grows_popComment s).trans (grows_noteSkipPos _ c)).trans (grows_pushESkipToken _ c el)).trans
          (grows_skipCur _ c)
      · exact (((grows_popComment s).trans (grows_skipCur _ c)).trans (grows_noteSkipPos _ c)).trans
          (grows_pushESkipToken _ c el)
    · exact grows_skipCur s c

theorem exec_grows {c : PConf} {strict : Bool} {k : Kind} {s s' : PState} (h : Exec c strict k s s') : Grows s s' := by
  induction h with
  | done => exact .refl _
  | act a hv hr _ ih => exact (grows_act c _ a).trans ih
  | consume _ _ ih1 ih2 => exact ih1.trans ih2
  | guess _ _ ih1 ih2 => exact Grows.trans (.same rfl rfl) (ih1.trans (Grows.trans (.same rfl rfl) ih2))
  | escape _ _ _ ih1 ih2 => exact Grows.trans (.same rfl rfl) (ih1.trans ih2)
  | eat _ _ ih => exact (grows_consumeHead _ c).trans ih
  | stop _ _ => exact .refl _
  | more _ _ ih1 ih2 => exact ih1.trans ih2
  | abort _ _ _ _ ih => exact Grows.trans (.same rfl rfl) ih
  | token _ => exact grows_skipToken _ c
  | special _ _ _ _ ih => exact Grows.trans (.same rfl rfl) (ih.trans (.same rfl rfl))
  | fillSkip _ ih => exact ih.trans (grows_flushSkip _)
  | fillStart _ _ _ ih => exact ih
  | fillError _ _ _ _ ih => exact ih.trans ((grows_pushTokenFlush _ _).trans (grows_fresh _))
  | idle => exact .refl _
  | workFill _ _ ih1 ih2 => exact ih1.trans ih2
  | workConsume _ _ ih1 ih2 => exact ih1.trans ih2
  | @next s s' t rest h _ _ _ _ ih =>
    refine Grows.trans ?_ ih
    unfold Grows cats
    rw [h]
    simp
  | finish => exact .refl _
  | again _ _ ih1 ih2 => exact ih1.trans ih2

theorem keyOf_start' (t : Tok) (h : t.category = .start) : carried t = [] := by unfold carried; rw [h]

/-- The token taken off by the first call carries nothing. -/
theorem returned_carried {c : PConf} {strict : Bool} {s : PState} (h : Exec c strict .driver (PState.init c) s) :
    (returned s).flatMap carried = ((s.out ++ s.tb.take 1).map (·.tok)).flatMap carried := by
  have h1 := exec_grows h
  have h0 : cats (PState.init c) = [.start, .empty] := by
    cases c with | mk a b p q => cases p <;> rfl
  unfold Grows at h1
  rw [h0] at h1
  obtain ⟨r, hr⟩ := h1
  unfold returned
  have hfst : ∀ l : List PTok, l <+: s.out ++ s.tb → ∀ t r, l = t :: r → t.tok.category = .start := by
    intro l hl t r' e
    obtain ⟨z, hz⟩ := hl
    unfold cats at hr
    rw [← hz, e] at hr
    simp only [List.cons_append, List.map_cons, List.cons.injEq] at hr
    exact hr.1.symm
  have hl : s.out ++ s.tb.take 1 <+: s.out ++ s.tb := ⟨s.tb.drop 1, by rw [List.append_assoc, List.take_append_drop]⟩
  cases hq : s.out ++ s.tb.take 1 with
  | nil => rfl
  | cons t r' =>
    have := hfst _ hl t r' hq
    simp [List.map_cons, List.flatMap_cons, keyOf_start' _ this]

/-- C14: what has come out of the parser, at any time and whatever the grammar did (regular or not, also after
any failure), carries a beginning of the source text: nothing is lost in between, nothing is duplicated or
reordered. -/
theorem C14_output_is_prefix {c : PConf} (hs : LexerTokens c.src) (he : EofToken c.eof) {strict : Bool} {s : PState}
    (h : Exec c strict .driver (PState.init c) s) :
    (returned s).flatMap carried <+: c.text := by
  obtain ⟨w, hi, _⟩ := init_wf c
  obtain ⟨p, h1, _⟩ := (exec_keeps hs he h w).inv hi
  have hp : (returned s).flatMap carried <+: (s.queue.map (·.tok)).flatMap carried := by
    rw [returned_carried h]
    obtain ⟨r, hr⟩ := taken_prefix s
    rw [← hr, List.map_append (l₁ := s.out ++ s.tb.take 1), List.flatMap_append]
    exact List.prefix_append _ _
  refine hp.trans ?_
  rw [flatMap_carried, h1, srcKeys_text he]
  unfold PConf.text
  conv => rhs; rw [← List.take_append_drop p c.src, List.flatMap_append]
  exact List.prefix_append _ _

/-- C14: at any time, the tokens that came out and the buffers together carry exactly the text of the source
tokens passed so far (when the parser is not left inside a speculative parse). -/
theorem C14_nothing_lost_partial {c : PConf} (hs : LexerTokens c.src) (he : EofToken c.eof) {strict : Bool} {s : PState}
    (h : Exec c strict .driver (PState.init c) s) (hg : s.guessing = 0) :
    (s.queue.map (·.tok)).flatMap carried = (c.src.take s.pos).flatMap (·.text) := by
  obtain ⟨w, hi, _⟩ := init_wf c
  obtain ⟨p, h1, h2⟩ := (exec_keeps hs he h w).inv hi
  rw [flatMap_carried, h1, h2 hg, srcKeys_text he]

theorem takeWhile_prefix_of_mem {α : Type} (f : α → Bool) {a b : List α} (h : a <+: b) (hx : ∃ x ∈ a, f x = false) :
    a.takeWhile f = b.takeWhile f := by
  obtain ⟨r, rfl⟩ := h
  induction a with
  | nil => obtain ⟨x, hx, _⟩ := hx; cases hx
  | cons y a ih =>
    simp only [List.cons_append, List.takeWhile_cons]
    cases hy : f y with
    | false => rfl
    | true =>
      simp only [if_true]
      rw [ih]
      obtain ⟨x, hm, hf⟩ := hx
      rcases List.mem_cons.1 hm with rfl | hm
      · rw [hy] at hf; cases hf
      · exact ⟨x, hm, hf⟩

theorem carriedText_keys (ps : List PTok) :
    carriedText (ps.map (·.tok)) = ((keys ps).takeWhile (fun k => !k.1)).flatMap (·.2) := by
  unfold carriedText
  induction ps with
  | nil => rfl
  | cons p ps ih =>
    simp only [List.map_cons, keys_cons, List.takeWhile_cons (a := p.tok)]
    unfold keyOf
    cases hc : p.tok.category with
    | text =>
      simp only [List.cons_append, List.nil_append, List.takeWhile_cons]
      cases h : isEof p.tok with
      | true => rfl
      | false => simp [ih, carried, hc]
    | empty =>
      have h : isEof p.tok = false := by unfold isEof; rw [hc]; simp
      by_cases ht : p.tok.type = chars! "CONTROL_CHAR"
      · simp [h, ih, carried, hc, ht]
      · simp [h, ih, carried, hc, ht]
    | start =>
      have h : isEof p.tok = false := by unfold isEof; rw [hc]; simp
      simp [h, ih, carried, hc]
    | end_ =>
      have h : isEof p.tok = false := by unfold isEof; rw [hc]; simp
      simp [h, ih, carried, hc]

theorem srcKeys_eof {c : PConf} (hs : LexerTokens c.src) (n : Nat)
    (hx : ∃ x ∈ srcKeys c n, x.1 = true) :
    ((srcKeys c n).takeWhile (fun k => !k.1)).flatMap (·.2) = c.text := by
  have hn : c.src.length < n := by
    rcases Nat.lt_or_ge c.src.length n with h | h
    · exact h
    · exfalso
      obtain ⟨x, hm, hf⟩ := hx
      unfold srcKeys at hm
      obtain ⟨i, hi, rfl⟩ := List.mem_map.1 hm
      have hi' : i < c.src.length := by have := List.mem_range.1 hi; omega
      have : (c.src[i]?).getD c.eof ∈ c.src := by
        rw [List.getElem?_eq_getElem hi']; exact List.getElem_mem hi'
      dsimp only at hf
      rw [(hs _ this).2.1] at hf; cases hf
  obtain ⟨k, rfl⟩ : ∃ k, n = c.src.length + k := ⟨n - c.src.length, by omega⟩
  have h1 : srcKeys c c.src.length = c.src.map (fun t => (false, t.text)) := by
    unfold srcKeys
    apply List.ext_getElem
    · simp
    · intro i h1 h2
      have hi : i < c.src.length := by simpa using h2
      simp only [List.getElem_map, List.getElem_range, List.getElem?_eq_getElem hi, Option.getD_some]
      rw [(hs _ (List.getElem_mem hi)).2.1]
  have h2 : srcKeys c (c.src.length + k) = srcKeys c c.src.length ++
      (List.range k).map (fun i => let t := (c.src[c.src.length + i]?).getD c.eof; (isEof t, t.text)) := by
    unfold srcKeys
    rw [List.range_add, List.map_append, List.map_map]
    rfl
  have h3 : ∀ (l : List Tok) (r : List (Bool × Str)), (∀ x ∈ r, x.1 = true) →
      ((l.map (fun t => (false, t.text)) ++ r).takeWhile (fun k => !k.1)).flatMap (·.2) = l.flatMap (·.text) := by
    intro l r hr
    induction l with
    | nil =>
      cases r with
      | nil => rfl
      | cons x r => simp [List.takeWhile_cons, hr x (by simp)]
    | cons t l ih => simpa [List.takeWhile_cons] using ih
  rw [h2, h1]
  by_cases hE : isEof c.eof = true
  · refine h3 _ _ ?_
    intro x hx
    obtain ⟨i, _, rfl⟩ := List.mem_map.1 hx
    dsimp only
    rw [List.getElem?_eq_none (by omega)]
    exact hE
  · exfalso
    obtain ⟨x, hm, hf⟩ := hx
    rw [h2, h1] at hm
    rcases List.mem_append.1 hm with hm | hm
    · obtain ⟨t, _, rfl⟩ := List.mem_map.1 hm
      cases hf
    · obtain ⟨i, _, rfl⟩ := List.mem_map.1 hm
      dsimp only at hf
      rw [List.getElem?_eq_none (by omega)] at hf
      exact hE hf

/-- C14: once the end of file has been returned, the whole source text has, exactly. -/
theorem C14_complete_output {c : PConf} (hs : LexerTokens c.src) (he : EofToken c.eof) {strict : Bool} {s : PState}
    (h : Exec c strict .driver (PState.init c) s) (hend : ∃ t ∈ returned s, isEof t = true) :
    carriedText (returned s) = c.text := by
  obtain ⟨w, hi, _⟩ := init_wf c
  obtain ⟨p, h1, _⟩ := (exec_keeps hs he h w).inv hi
  have hfirst : carriedText (returned s) = carriedText ((s.out ++ s.tb.take 1).map (·.tok)) := by
    have h1 := exec_grows h
    have h0 : cats (PState.init c) = [.start, .empty] := by
      cases c with | mk a b p q => cases p <;> rfl
    unfold Grows at h1
    rw [h0] at h1
    obtain ⟨r, hr⟩ := h1
    unfold returned
    cases hq : s.out ++ s.tb.take 1 with
    | nil => rfl
    | cons t r' =>
      have ht : t.tok.category = .start := by
        have e : s.out ++ s.tb = t :: (r' ++ s.tb.drop 1) := by
          rw [← List.cons_append, ← hq, List.append_assoc, List.take_append_drop]
        unfold cats at hr
        rw [e] at hr
        simp only [List.cons_append, List.map_cons, List.cons.injEq] at hr
        exact hr.1.symm
      have hne : isEof t.tok = false := by unfold isEof; rw [ht]; simp
      simp [carriedText, List.takeWhile_cons (a := t.tok), hne, carried, ht]
  rw [hfirst, carriedText_keys]
  have hpre : keys (s.out ++ s.tb.take 1) <+: srcKeys c p := by
    rw [← h1]
    obtain ⟨r, hr⟩ := taken_prefix s
    rw [← hr, keys_append (s.out ++ s.tb.take 1)]
    exact List.prefix_append _ _
  obtain ⟨t0, ht0, hx⟩ := hend
  obtain ⟨t, ht, rfl⟩ := List.mem_map.1 ht0
  replace ht := List.mem_of_mem_drop ht
  have hk : ∃ x ∈ keys (s.out ++ s.tb.take 1), x.1 = true := by
    refine ⟨(isEof t.tok, t.tok.text), ?_, hx⟩
    unfold keys
    refine List.mem_flatMap.2 ⟨t, ht, ?_⟩
    unfold keyOf
    have : t.tok.category = .text := by unfold isEof at hx; simp at hx; exact hx.2
    rw [this]; simp
  rw [takeWhile_prefix_of_mem _ hpre]
  · obtain ⟨x, hm, hf⟩ := hk
    exact srcKeys_eof hs p ⟨x, hpre.subset hm, hf⟩
  · obtain ⟨x, hm, hf⟩ := hk
    exact ⟨x, hm, by rw [hf]; rfl⟩

/-! ### Regular grammar code -/

/-- C14: while the grammar is regular, the text of every token passed is in the output or in the two buffers that
are written next (none is stuck in the buffers of a skipped line). -/
theorem C14_regular_nothing_lost {c : PConf} (hs : LexerTokens c.src) (he : EofToken c.eof) {s : PState}
    (h : Exec c true .driver (PState.init c) s) :
    ((s.out ++ s.tb ++ s.skiptb).map (·.tok)).flatMap carried = (c.src.take s.pos).flatMap (·.text) := by
  obtain ⟨w, hi, hg⟩ := init_wf c
  obtain ⟨h1, h2⟩ := strict_restores hs he h
  have hin : s.inskip = false := by rw [h2]; cases c with | mk a b p q => cases p <;> rfl
  have := C14_nothing_lost_partial hs he h (h1.trans hg)
  obtain ⟨e1, e2⟩ := (exec_keeps hs he h w).wf hin
  unfold PState.queue at this
  rw [e1, e2, List.append_nil, List.append_nil] at this
  exact this

/-! ### Runs -/

/-- `x`, a control character, `;` -/
def exConf : PConf where
  src := [{ type := chars! "NAME", text := chars! "x", line := 1, column := 1 },
          { type := chars! "CONTROL_CHAR", text := ['\x01'], line := 1, column := 2 },
          { type := chars! "TERMINATE", text := chars! ";", line := 1, column := 3 }]
  eof := { type := chars! "EOF", line := 1, column := 4 }
  position := true
  cpp := false

theorem exConf_clean : LexerTokens exConf.src ∧ EofToken exConf.eof := by
  refine ⟨?_, by decide, by decide, rfl⟩
  intro t ht
  simp only [exConf, List.mem_cons, List.not_mem_nil, or_false] at ht
  rcases ht with rfl | rfl | rfl
  · exact ⟨rfl, by decide, fun h => absurd h (by decide)⟩
  · exact ⟨rfl, by decide, fun _ => ⟨'\x01', rfl, by decide⟩⟩
  · exact ⟨rfl, by decide, fun h => absurd h (by decide)⟩

/-- The grammar looks ahead over the name, parses it as a name, ends all, and then the tokens are taken. -/
def exScript : List (Option Script) :=
  some (.act (.startElement (chars! "SNAME"))
    (.guess (.eat (.skip .stop) (.eat .stop .done))
    (.eat (.skip .stop)
    (.act .endTop
    (.eat .stop
    (.act .flushSkip (.act .endLastMode
    (.eat .stop .done)))))))) :: List.replicate 7 none

/-- The hypotheses of the C14 theorems are met by a run to the end of the file, with a speculative parse and a
control character. -/
theorem C14_witness : ∃ s, Exec exConf true .driver (PState.init exConf) s ∧
    (∃ t ∈ returned s, isEof t = true) ∧ carriedText (returned s) = ['x', '\x01', ';'] := by
  have h : (Script.drive exConf true exScript (PState.init exConf)).map (fun s => (returned s).any isEof)
      = some true := by decide +kernel
  cases hs : Script.drive exConf true exScript (PState.init exConf) with
  | none => rw [hs] at h; cases h
  | some s =>
    rw [hs] at h
    simp only [Option.map_some, Option.some.injEq, List.any_eq_true] at h
    have hx := Script.drive_sound exConf true exScript _ s hs
    exact ⟨s, hx, h, C14_complete_output exConf_clean.1 exConf_clean.2 hx h⟩

/-- `x`, a macro name, `;` -/
def exMacro : PConf where
  src := [{ type := chars! "NAME", text := chars! "x" }, { type := chars! "MACRO_NAME", text := chars! "M" },
          { type := chars! "TERMINATE", text := chars! ";" }]
  eof := { type := chars! "EOF" }
  position := false
  cpp := false

/-- Finding: the rule for a macro call has no exception handler around it, unlike that for preprocessor lines.
When it is left by an exception, the parser goes on writing to the buffers of the skipped line: here everything is
passed, including the end of file, and the output buffer has none of it but the first name. -/
theorem C14_finding_macro_exception : ∃ s, Exec exMacro false (.code 0) (PState.init exMacro) s ∧
    s.guessing = 0 ∧ s.pos = exMacro.src.length + 1 ∧ s.inskip = true ∧
    ((s.out ++ s.tb ++ s.skiptb).map (·.tok)).flatMap carried = chars! "x" ∧
    exMacro.text = chars! "xM;" := by
  have h : (Script.run exMacro false (.eat (.abort (.eat .stop .done)) (.eat .stop (.eat .stop .done))) false 0
      (PState.init exMacro)).map (fun s => (s.guessing, s.pos, s.inskip,
        ((s.out ++ s.tb ++ s.skiptb).map (·.tok)).flatMap carried)) = some (0, 4, true, chars! "x") := by decide +kernel
  cases hs : Script.run exMacro false (.eat (.abort (.eat .stop .done)) (.eat .stop (.eat .stop .done))) false 0
      (PState.init exMacro) with
  | none => rw [hs] at h; cases h
  | some s =>
    rw [hs] at h
    simp only [Option.map_some, Option.some.injEq, Prod.mk.injEq] at h
    exact ⟨s, Script.run_sound exMacro false _ false 0 _ s hs, h.1, h.2.1, h.2.2.1, h.2.2.2, by decide⟩

/-- Finding: an exception that leaves a speculative parse done by hand leaves the parser speculating, and all
that follows is dropped. -/
theorem C14_finding_guess_exception : ∃ s, Exec exMacro false (.code 0) (PState.init exMacro) s ∧
    s.pos = exMacro.src.length + 1 ∧ (s.queue.map (·.tok)).flatMap carried = [] := by
  have h : (Script.run exMacro false (.escape .done (.eat (.abort (.eat .stop .done)) (.eat .stop (.eat .stop .done))))
      false 0 (PState.init exMacro)).map (fun s => (s.pos, (s.queue.map (·.tok)).flatMap carried)) = some (4, []) := by
    decide +kernel
  cases hs : Script.run exMacro false (.escape .done (.eat (.abort (.eat .stop .done)) (.eat .stop (.eat .stop .done))))
      false 0 (PState.init exMacro) with
  | none => rw [hs] at h; cases h
  | some s =>
    rw [hs] at h
    simp only [Option.map_some, Option.some.injEq, Prod.mk.injEq] at h
    exact ⟨s, Script.run_sound exMacro false _ false 0 _ s hs, h.1, h.2⟩

end Srcml
