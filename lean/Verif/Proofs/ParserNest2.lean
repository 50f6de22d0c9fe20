import Verif.Proofs.ParserNest
/-
Regular grammar code: the elements in the buffers nest (continued).
-/
set_option linter.unusedSimpArgs false
namespace Srcml
open Srcml.Spec

/-- The current output, the current skip buffer, and the buffers set aside by a nested rule. -/
structure View where
  o : List UKey
  k : List UKey
  x : List UKey × List UKey

def view (s : PState) : View :=
  if s.inskip then ⟨s.pretb.map keyU, s.skippretb.map keyU, ((s.out ++ s.tb).map keyU, s.skiptb.map keyU)⟩
  else ⟨(s.out ++ s.tb).map keyU, s.skiptb.map keyU, ([], [])⟩

theorem view_bufs {s s' : PState} (h : bufs s' = bufs s) (hi : s'.inskip = s.inskip) : view s' = view s := by
  unfold bufs at h
  simp only [Prod.mk.injEq] at h
  obtain ⟨h1, h2, h3, h4, h5⟩ := h
  unfold view
  simp only [hi, List.map_append, h1, h2, h3, h4, h5]

theorem view_same {s s' : PState} (h1 : s'.out = s.out) (h2 : s'.tb = s.tb) (h3 : s'.skiptb = s.skiptb)
    (h4 : s'.pretb = s.pretb) (h5 : s'.skippretb = s.skippretb) (hi : s'.inskip = s.inskip) : view s' = view s :=
  view_bufs (by simp only [bufs, h1, h2, h3, h4, h5]) hi

theorem view_st (s : PState) (st : ModeStack) : view { s with st := st } = view s := rfl

theorem view_flushSkip (s : PState) : view s.flushSkip = ⟨(view s).o ++ (view s).k, [], (view s).x⟩ := by
  unfold view PState.flushSkip
  cases h : s.inskip <;> simp [h]

theorem view_emplace (s : PState) (t : PTok) : view (s.emplace t) = ⟨(view s).o ++ [keyU t], (view s).k, (view s).x⟩ := by
  unfold view PState.emplace
  cases h : s.inskip <;> simp [h]

theorem view_pushToken (s : PState) (t : PTok) (hg : s.guessing = 0) :
    view (s.pushToken t) = ⟨(view s).o ++ [keyU t], (view s).k, (view s).x⟩ := by
  unfold PState.pushToken; rw [if_neg (by simp [hg])]; exact view_emplace s t

theorem view_pushTokenFlush (s : PState) (t : PTok) (hg : s.guessing = 0) :
    view (s.pushTokenFlush t) = ⟨(view s).o ++ (view s).k ++ [keyU t], [], (view s).x⟩ := by
  unfold PState.pushTokenFlush; rw [if_neg (by simp [hg]), view_emplace, view_flushSkip]

theorem view_pushSkipToken (s : PState) (t : PTok) (hg : s.guessing = 0) :
    view (s.pushSkipToken t) = ⟨(view s).o, (view s).k ++ [keyU t], (view s).x⟩ := by
  unfold PState.pushSkipToken; rw [if_neg (by simp [hg])]
  unfold view
  cases h : s.inskip <;> simp [h]

@[simp] theorem view_fresh (s : PState) : view s.fresh = view s := rfl
@[simp] theorem view_advance (s : PState) : view s.advance = view s := rfl
@[simp] theorem view_noteSkipPos (s : PState) (c : PConf) : view (s.noteSkipPos c) = view s := rfl
@[simp] theorem view_pushEnds (s : PState) (c : PConf) (u : Nat) : view (s.pushEnds c u) = view s := by
  unfold PState.pushEnds; split <;> rfl
@[simp] theorem view_noteType (s : PState) (c : PConf) (id : TokType) : view (s.noteType c id) = view s := by
  unfold PState.noteType; split <;> rfl
@[simp] theorem view_popComment (s : PState) : view s.popComment = view s := by
  unfold PState.popComment; split <;> rfl
theorem view_setEnd (s : PState) (u l col : Nat) : view (s.mapTok u (PState.setEnd l col)) = view s :=
  view_bufs (bufs_mapTok s u _ (fun _ => ⟨rfl, rfl⟩)) rfl
@[simp] theorem view_endPosition (s : PState) (c : PConf) (id : TokType) : view (s.endPosition c id) = view s := by
  unfold PState.endPosition
  split
  · split
    · rfl
    · rename_i u us _
      have h2 : ∀ s2 : PState, view { s2 with ends := us } = view s2 := fun _ => rfl
      rw [h2]
      split <;> split <;> rw [view_setEnd]
      · rfl
      · rfl
  · rfl

theorem view_pushSToken (s : PState) (c : PConf) (id : TokType) (hg : s.guessing = 0) :
    view (s.pushSToken c id) = ⟨(view s).o ++ [⟨s.next, id, .start, 0⟩], (view s).k, (view s).x⟩ := by
  unfold PState.pushSToken
  rw [view_fresh, view_pushToken _ _ (by simp [hg]), view_pushEnds]; rfl

theorem view_pushSSkipToken (s : PState) (c : PConf) (id : TokType) (hg : s.guessing = 0) :
    view (s.pushSSkipToken c id) = ⟨(view s).o, (view s).k ++ [⟨s.next, id, .start, 0⟩], (view s).x⟩ := by
  unfold PState.pushSSkipToken
  rw [view_fresh, view_pushSkipToken _ _ (by simp [hg]), view_pushEnds]; rfl

theorem startTokFlush_type (s : PState) (c : PConf) (id : TokType) : (s.startTokFlush c id).type = id := by
  unfold PState.startTokFlush; split <;> rfl

theorem view_pushSTokenFlush (s : PState) (c : PConf) (id : TokType) (hg : s.guessing = 0) :
    view (s.pushSTokenFlush c id) = ⟨(view s).o ++ (view s).k ++ [⟨s.next, id, .start, 0⟩], [], (view s).x⟩ := by
  unfold PState.pushSTokenFlush
  rw [view_fresh, view_pushTokenFlush _ _ (by simp [hg]), view_pushEnds, view_noteType]
  simp only [keyU, startTokFlush_type, startTokFlush_category]

theorem view_pushEToken (s : PState) (c : PConf) (id : TokType) (e : Nat) (hg : s.guessing = 0) :
    view (s.pushEToken c id e) = ⟨(view s).o ++ [⟨s.next, id, .end_, e⟩], (view s).k, (view s).x⟩ := by
  unfold PState.pushEToken
  rw [view_endPosition, view_fresh, view_pushToken _ _ hg]; rfl

theorem view_pushESkipToken (s : PState) (c : PConf) (id : TokType) (hg : s.guessing = 0) :
    view (s.pushESkipToken c id) = ⟨(view s).o, (view s).k ++ [⟨s.next, id, .end_, 0⟩], (view s).x⟩ := by
  unfold PState.pushESkipToken
  have h1 : view ((s.pushSkipToken ⟨s.next, { type := id, category := .end_ }, 0⟩).fresh) =
      ⟨(view s).o, (view s).k ++ [⟨s.next, id, .end_, 0⟩], (view s).x⟩ := by
    rw [view_fresh, view_pushSkipToken _ _ hg]; rfl
  generalize (s.pushSkipToken ⟨s.next, { type := id, category := .end_ }, 0⟩).fresh = s1 at h1 ⊢
  dsimp only
  split
  · split
    · exact h1
    · rw [← h1]; exact view_setEnd s1 _ _ _
  · exact h1

theorem view_skipCur (s : PState) (c : PConf) (hg : s.guessing = 0) (ht : (s.lt c).category = .text) :
    view (s.skipCur c) = ⟨(view s).o, (view s).k ++ [⟨s.next, (s.lt c).type, .text, 0⟩], (view s).x⟩ := by
  unfold PState.skipCur
  rw [view_advance, view_fresh, view_pushSkipToken _ _ hg]
  simp only [PState.cur, keyU, ht]

theorem view_consumeHead (s : PState) (c : PConf) (hg : s.guessing = 0) (ht : (s.lt c).category = .text)
    (hk : isSkipType s.inskip (s.lt c).type = false) :
    view (s.consumeHead c) = ⟨(view s).o ++ (view s).k ++ [⟨s.next, (s.lt c).type, .text, 0⟩], [], (view s).x⟩ := by
  have : view (s.consumeHead c) = view (s.pushTokenFlush (s.cur c)) := by
    unfold PState.consumeHead
    dsimp only
    rw [hk]
    rfl
  rw [this, view_pushTokenFlush _ _ hg]
  simp only [PState.cur, keyU, ht]

/-! ### Nesting, outside of and in code -/

/-- Outside of code, with the open comments `A` at the end of the output. -/
structure Nl (b : Nat) (A : Opens) (s : PState) : Prop where
  base : s.inskip = false → b = 0
  out : nestK [] (view s).o = some (A ++ aboveOf b s.st)
  skip : ∃ C, nestK A (view s).k = some C ∧ C.map (·.1) = s.comments

/-- In code: no comment is open. -/
structure Nc (b : Nat) (s : PState) : Prop where
  base : s.inskip = false → b = 0
  out : nestK [] (view s).o = some (aboveOf b s.st)
  skip : nestK [] (view s).k = some []

theorem Nl.code {b : Nat} {A : Opens} {s : PState} (h : Nl b A s) (hA : A = [] ∨ (view s).k = []) (hc : s.comments = []) :
    A = [] ∧ Nc b s := by
  obtain ⟨C, h1, h2⟩ := h.skip
  rw [hc] at h2
  have hC : C = [] := by simpa using h2
  have hA' : A = [] := by
    rcases hA with hA | hA
    · exact hA
    · rw [hA] at h1; cases h1; exact hC
  subst hA' hC
  exact ⟨rfl, h.base, h.out, h1⟩

theorem Nc.nl {b : Nat} {s : PState} (h : Nc b s) (hc : s.comments = []) : Nl b [] s :=
  ⟨h.base, h.out, [], h.skip, by rw [hc]; rfl⟩

/-- The output with the skip buffer flushed. -/
theorem Nc.flush {b : Nat} {s : PState} (h : Nc b s) : nestK [] ((view s).o ++ (view s).k) = some (aboveOf b s.st) := by
  rw [nestK_append, h.out]
  have := nestK_stack _ (aboveOf b s.st) h.skip
  simpa using this

theorem Nc.same {b : Nat} {s s' : PState} (h : Nc b s) (h1 : view s' = view s) (h2 : s'.inskip = s.inskip)
    (h3 : aboveOf b s'.st = aboveOf b s.st) : Nc b s' :=
  ⟨by rw [h2]; exact h.base, by rw [h1, h3]; exact h.out, by rw [h1]; exact h.skip⟩

theorem nestK_snoc {S S' : Opens} {l : List UKey} {k : UKey} (h : nestK S l = some S') :
    nestK S (l ++ [k]) = nestK S' [k] := by rw [nestK_append, h]; rfl

theorem aboveOf_push {b : Nat} {s : PState} {m : ModeState} {st : ModeStack} {e : TokType × Nat} (hs : s.st = m :: st)
    (hb : b < s.st.length) : aboveOf b ({ m with opens := e :: m.opens } :: st) = e :: aboveOf b s.st := by
  have hlen : b ≤ st.length := by rw [hs] at hb; simp at hb; omega
  rw [hs, aboveOf_cons hlen, aboveOf_cons hlen]; rfl

theorem nc_endTop {c : PConf} {b : Nat} {s : PState} (hco : Co c b s) (h : Nc b s) (hg : s.guessing = 0)
    (hb : b < s.st.length) : Nc b (s.endTop c) ∧ (view (s.endTop c)).x = (view s).x := by
  cases hs : s.st with
  | nil => rw [hs] at hb; simp at hb
  | cons m st =>
    have hlen : b ≤ st.length := by rw [hs] at hb; simp at hb; omega
    cases ho : m.opens with
    | nil =>
      have : s.endTop c = s := by unfold PState.endTop; rw [hs]; dsimp only; rw [ho]
      rw [this]; exact ⟨h, rfl⟩
    | cons e es =>
      have hi := hco.noIssue m (by rw [hs]; simp)
      have e1 := endTop_st (c := c) hs ho
      have hv : view (s.endTop c) = ⟨(view s).o ++ [⟨s.next, e.1, .end_, e.2⟩], (view s).k, (view s).x⟩ := by
        have hv2 : view (s.endTop c) = view (s.pushEToken c e.1 e.2) := by
          unfold PState.endTop
          rw [hs]; dsimp only; rw [ho]; dsimp only
          rw [if_neg (by simp [hi]), if_neg (by simp [hi])]
          rfl
        rw [hv2, view_pushEToken _ _ _ _ hg]
      refine ⟨⟨?_, ?_, ?_⟩, by rw [hv]⟩
      · rw [(endTop_other s).2.1]; exact h.base
      · rw [hv, nestK_snoc h.out, e1, hs, aboveOf_cons hlen, aboveOf_cons hlen, ho]
        simp [nestK]
      · rw [hv]; exact h.skip

theorem nc_endTops {c : PConf} {b : Nat} (hc : CommentsClosed c) (n : Nat) : ∀ {s : PState}, Co c b s → Nc b s →
    s.guessing = 0 → b < s.st.length →
    Nc b (PState.endTops c n s) ∧ (view (PState.endTops c n s)).x = (view s).x := by
  induction n with
  | zero => intro s _ h _ _; exact ⟨h, rfl⟩
  | succ n ih =>
    intro s hco h hg hb
    obtain ⟨h1, h2⟩ := nc_endTop hco h hg hb
    obtain ⟨h3, h4⟩ := ih (co_endTop hc hco hb).1 h1 (by rw [(endTop_other s).2.2.2.1]; exact hg)
      (by rw [endTop_length]; exact hb)
    exact ⟨h3, h4.trans h2⟩

theorem nc_popMode {c : PConf} {b : Nat} {s : PState} (hc : CommentsClosed c) (hco : Co c b s) (h : Nc b s)
    (hg : s.guessing = 0) (hb : b < s.st.length) : Nc b (s.popMode c) ∧ (view (s.popMode c)).x = (view s).x := by
  cases hs : s.st with
  | nil => rw [hs] at hb; simp at hb
  | cons m st =>
    have hlen : b ≤ st.length := by rw [hs] at hb; simp at hb; omega
    obtain ⟨h1, h2⟩ := nc_endTops hc s.topSize hco h hg hb
    have e1 := endTops_st (c := c) _ s m st hs (topSize_cons hs)
    have e2 := popMode_st (c := c) hs
    have hv : view (s.popMode c) = view (PState.endTops c s.topSize s) := rfl
    refine ⟨⟨h1.base, ?_, by rw [hv]; exact h1.skip⟩, by rw [hv]; exact h2⟩
    rw [hv, h1.out, e1, e2, aboveOf_cons hlen]; rfl

/-- Disjointness of the buffers. -/
theorem uids_disj {s : PState} (hu : Uids s) :
    ((view s).o.map (·.uid)).Nodup ∧ ∀ u ∈ (view s).o.map (·.uid),
      u ∉ (view s).k.map (·.uid) ∧ u ∉ (view s).x.1.map (·.uid) ∧ u ∉ (view s).x.2.map (·.uid) := by
  have hn := hu.nodup
  rw [uidsOf_eq] at hn
  have hk : ∀ l : List PTok, (l.map keyU).map (·.uid) = l.map (·.uid) := fun l => by rw [List.map_map]; rfl
  unfold view
  cases s.inskip
  · simp only [Bool.false_eq_true, if_false, hk, List.map_nil, List.not_mem_nil, not_false_eq_true, and_true]
    simp only [List.nodup_append, List.mem_append, List.map_append] at hn ⊢
    refine ⟨⟨hn.1.1.1.1, hn.1.1.1.2.1, hn.1.1.1.2.2⟩, ?_⟩
    intro u hu hu2
    exact hn.1.1.2.2 u hu u hu2 rfl
  · simp only [if_true, hk]
    simp only [List.nodup_append, List.mem_append, List.map_append] at hn ⊢
    refine ⟨hn.1.2.1, ?_⟩
    intro u hu
    refine ⟨fun h2 => hn.2.2 u (.inr hu) u h2 rfl, fun h2 => hn.1.2.2 u (.inl h2) u hu rfl,
      fun h2 => hn.1.2.2 u (.inr h2) u hu rfl⟩

/-- A change of the token objects with one identity, on the keys. -/
def chg (u : Nat) (g : TokType → Category → TokType) (k : UKey) : UKey :=
  if k.uid = u then { k with type := g k.type k.cat } else k

theorem chg_id {u : Nat} {g : TokType → Category → TokType} {l : List UKey} (h : u ∉ l.map (·.uid)) : l.map (chg u g) = l := by
  conv => rhs; rw [← List.map_id l]
  apply List.map_congr_left
  intro k hk
  have : k.uid ≠ u := fun e => h (e ▸ List.mem_map_of_mem hk)
  simp [chg, this]

theorem keys_change (u : Nat) (f : Tok → Tok) (g : TokType → Category → TokType)
    (hf : ∀ t, (f t).category = t.category ∧ (f t).type = g t.type t.category) (l : List PTok) :
    (l.map (fun p : PTok => if p.uid = u then { p with tok := f p.tok } else p)).map keyU = (l.map keyU).map (chg u g) := by
  simp only [List.map_map]
  apply List.map_congr_left
  intro p _
  simp only [Function.comp, chg, keyU]
  by_cases h : p.uid = u
  · simp only [h, if_true, (hf p.tok).1, (hf p.tok).2]
  · simp only [h, if_false]

theorem view_mapTok {s : PState} {u : Nat} {f : Tok → Tok} {g : TokType → Category → TokType}
    (hf : ∀ t, (f t).category = t.category ∧ (f t).type = g t.type t.category) (ho : ∀ p ∈ s.out, p.uid ≠ u) :
    view (s.mapTok u f) = ⟨(view s).o.map (chg u g), (view s).k.map (chg u g),
      ((view s).x.1.map (chg u g), (view s).x.2.map (chg u g))⟩ := by
  have hout : (s.out.map keyU).map (chg u g) = s.out.map keyU := by
    apply chg_id
    intro h
    simp only [List.map_map, List.mem_map, Function.comp] at h
    obtain ⟨p, hp, e⟩ := h
    exact ho p hp e
  unfold view PState.mapTok
  cases s.inskip
  · simp only [Bool.false_eq_true, if_false, List.map_append, keys_change u f g hf, hout, List.map_nil]
  · simp only [if_true, List.map_append, keys_change u f g hf, hout]

/-- A change of one token of the current output. -/
theorem view_mapTok_out {s : PState} (hu : Uids s) {u : Nat} {f : Tok → Tok} {g : TokType → Category → TokType}
    (hf : ∀ t, (f t).category = t.category ∧ (f t).type = g t.type t.category) (ho : ∀ p ∈ s.out, p.uid ≠ u)
    (hm : u ∈ (view s).o.map (·.uid)) :
    view (s.mapTok u f) = ⟨(view s).o.map (chg u g), (view s).k, (view s).x⟩ := by
  obtain ⟨d1, d2, d3⟩ := (uids_disj hu).2 u hm
  rw [view_mapTok hf ho, chg_id d1, chg_id d2, chg_id d3]

theorem aboveOf_map {b : Nat} {st : ModeStack} (u : Nat) (id : TokType) :
    aboveOf b (st.map (fun m => { m with opens := m.opens.map (fun e => if e.2 = u then (id, u) else e) })) =
      (aboveOf b st).map (renE u id) := by
  unfold aboveOf
  rw [List.length_map, ← List.map_take]
  generalize st.take (st.length - b) = l
  induction l with
  | nil => rfl
  | cons m l ih =>
    simp only [List.map_cons, List.flatMap_cons, List.map_append, ih]
    rfl

theorem nc_retype {b : Nat} {s : PState} {u : Nat} {id : TokType} (hr : (Act.retype u id).Regular b s)
    (hu : Uids s) (h : Nc b s) : Nc b (s.retype u id) ∧ (view (s.retype u id)).x = (view s).x := by
  obtain ⟨_, hbase, hout⟩ := hr
  unfold PState.retype
  split
  · rename_i hany
    have hab : u ∈ (aboveOf b s.st).map (·.2) := by
      simp only [List.any_eq_true, decide_eq_true_eq] at hany
      obtain ⟨m, hm, e, he, hue⟩ := hany
      have : e ∈ opensOf s.st := List.mem_flatMap.2 ⟨m, hm, he⟩
      rw [opensOf_split b] at this
      rcases List.mem_append.1 this with h1 | h1
      · exact hue ▸ List.mem_map_of_mem h1
      · obtain ⟨m', hm', he'⟩ := List.mem_flatMap.1 h1
        exact absurd hue (hbase m' hm' e he')
    have hmem : u ∈ (view s).o.map (·.uid) := by
      obtain ⟨e, he, rfl⟩ := List.mem_map.1 hab
      rcases nestK_mem _ h.out e he with h1 | h1
      · cases h1
      · exact h1
    let g : TokType → Category → TokType := fun t ct => if ct = .start then id else t
    have hv : view (s.mapTok u (fun t => if t.category = .start then { t with type := id } else t)) =
        ⟨(view s).o.map (chg u g), (view s).k, (view s).x⟩ := by
      refine view_mapTok_out hu ?_ hout hmem
      intro t
      dsimp only [g]
      split <;> exact ⟨rfl, rfl⟩
    dsimp only
    refine ⟨⟨h.base, ?_, ?_⟩, ?_⟩
    · rw [view_st, hv, aboveOf_map]
      have := nestK_rename u id (chg u g) (fun k hk => by simp [chg, hk])
        (fun k hk hc => by simp [chg, hk, hc, g]) (view s).o (S := []) (by simpa using (uids_disj hu).1) h.out hab
      exact this
    · rw [view_st, hv]; exact h.skip
    · rw [view_st, hv]
  · exact ⟨h, rfl⟩

theorem output_view {s : PState} {b : PTok} (h : s.output.getLast? = some b) : ∃ l, (view s).o = l ++ [keyU b] := by
  unfold PState.output at h
  unfold view
  cases hi : s.inskip
  · rw [hi] at h
    simp only [Bool.false_eq_true, if_false] at h ⊢
    obtain ⟨l, hl⟩ := List.getLast?_eq_some_iff.1 h
    exact ⟨(s.out ++ l).map keyU, by rw [hl]; simp⟩
  · rw [hi] at h
    simp only [if_true] at h ⊢
    obtain ⟨l, hl⟩ := List.getLast?_eq_some_iff.1 h
    exact ⟨l.map keyU, by rw [hl]; simp⟩

theorem nc_nop {b : Nat} {s : PState} (hr : Act.nop.Regular b s) (hu : Uids s) (hp : PauseOk s)
    (h : Nc b s) : Nc b s.nopStreamStart ∧ (view s.nopStreamStart).x = (view s).x := by
  unfold PState.nopStreamStart
  split
  · rename_i u t h1 h2 h3
    split
    · obtain ⟨hcat, helem⟩ := hr.2 u t h2 h3
      obtain ⟨hu0, hout⟩ := hp h1 u h2
      obtain ⟨l, hl⟩ := output_view h3
      have htmem := output_mem h3
      have htout := uids_out_ne hu htmem
      have hnd := (uids_disj hu).1
      rw [hl, List.map_append, List.nodup_append] at hnd
      have htl : (keyU t).uid ∉ l.map (·.uid) := fun hm => hnd.2.2 _ hm (keyU t).uid (by simp) rfl
      -- before the last token the paused element is the innermost open one
      have hn := h.out
      rw [hl, nestK_append] at hn
      cases hS : nestK [] l with
      | none => rw [hS] at hn; cases hn
      | some S =>
        rw [hS] at hn
        simp only [Option.bind_some, nestK, keyU, hcat, helem] at hn
        cases S with
        | nil => cases hn
        | cons e S =>
          dsimp only at hn
          split at hn
          · rename_i hcond
            have he2 : e.2 = u := by rcases hcond.2 with h5 | h5 <;> omega
            have hS' : S = aboveOf b s.st := by simpa using hn
            have hul : u ∈ l.map (·.uid) := by
              rcases nestK_mem _ hS e (by simp) with h5 | h5
              · cases h5
              · rwa [he2] at h5
            have htu : (keyU t).uid ≠ u := fun e => htl (e ▸ hul)
            have huo : u ∈ (view s).o.map (·.uid) := by rw [hl]; simp only [List.map_append, List.mem_append]; exact .inl hul
            have hto : t.uid ∈ (view s).o.map (·.uid) := by rw [hl]; simp [keyU]
            let g : TokType → Category → TokType := fun x ct => if ct = .start ∨ ct = .end_ then chars! "SNOP" else x
            have hg : ∀ x, (PState.nopTok x).category = x.category ∧ (PState.nopTok x).type = g x.type x.category := by
              intro x; unfold PState.nopTok; dsimp only [g]; split <;> exact ⟨rfl, rfl⟩
            have hv1 := view_mapTok_out hu hg hout huo
            have hu1 : Uids (s.mapTok u PState.nopTok) := (uq_mapTok s u PState.nopTok).uids hu
            have hv2 := view_mapTok_out (s := s.mapTok u PState.nopTok) (u := t.uid) hu1 hg htout (by
              rw [hv1]
              simp only [List.map_map]
              have : ((fun x => x.uid) ∘ chg u g) = (fun x : UKey => x.uid) := by
                funext k; simp only [Function.comp, chg]; split <;> rfl
              rw [this]; exact hto)
            have hv : view (((s.mapTok u PState.nopTok).mapTok t.uid PState.nopTok).resumeStream) =
                ⟨((view s).o.map (chg u g)).map (chg t.uid g), (view s).k, (view s).x⟩ := by
              have : view (((s.mapTok u PState.nopTok).mapTok t.uid PState.nopTok).resumeStream) =
                view ((s.mapTok u PState.nopTok).mapTok t.uid PState.nopTok) := rfl
              rw [this, hv2, hv1]
            refine ⟨⟨h.base, ?_, by rw [hv]; exact h.skip⟩, by rw [hv]⟩
            show nestK [] (view (((s.mapTok u PState.nopTok).mapTok t.uid PState.nopTok).resumeStream)).o =
              some (aboveOf b s.st)
            rw [hv]
            dsimp only
            rw [hl]
            have hren := nestK_rename u (chars! "SNOP") (chg u g) (fun k hk => by simp [chg, hk])
              (fun k hk hc => by simp [chg, hk, hc, g]) l (S := []) (by simpa using hnd.1) hS (by simp [he2])
            have hnoS : u ∉ S.map (·.2) := by
              intro hm
              -- the stack has no element twice
              have key : ∀ (l : List UKey) (S0 S1 : Opens), (S0.map (·.2) ++ l.map (·.uid)).Nodup → nestK S0 l = some S1 →
                  (S1.map (·.2)).Nodup := by
                intro l
                induction l with
                | nil => intro S0 S1 hn h; cases h; simpa using hn
                | cons k l ih =>
                  intro S0 S1 hn h
                  rw [nestK.eq_def] at h
                  dsimp only at h
                  rw [List.map_cons, List.nodup_append, List.nodup_cons] at hn
                  obtain ⟨n1, ⟨n2, n3⟩, n4⟩ := hn
                  split at h
                  · refine ih ((k.type, k.uid) :: S0) S1 ?_ h
                    rw [List.map_cons, List.cons_append, List.nodup_cons, List.nodup_append]
                    refine ⟨?_, n1, n3, fun x hx y hy => n4 x hx y (List.mem_cons_of_mem _ hy)⟩
                    rw [List.mem_append]; rintro (hm | hm)
                    · exact n4 _ hm k.uid (by simp) rfl
                    · exact n2 hm
                  · split at h
                    · cases h
                    · rename_i e0 S2
                      split at h
                      · rw [List.map_cons, List.nodup_cons] at n1
                        refine ih S2 S1 ?_ h
                        rw [List.nodup_append]
                        exact ⟨n1.2, n3, fun x hx y hy => n4 x (List.mem_cons_of_mem _ hx) y (List.mem_cons_of_mem _ hy)⟩
                      · cases h
                  · refine ih S0 S1 ?_ h
                    rw [List.nodup_append]
                    exact ⟨n1, n3, fun x hx y hy => n4 x hx y (List.mem_cons_of_mem _ hy)⟩
              have := key l [] (e :: S) (by simpa using hnd.1) hS
              rw [List.map_cons, List.nodup_cons] at this
              exact this.1 (by rw [he2]; exact hm)
            have hrenS : S.map (renE u (chars! "SNOP")) = S := by
              conv => rhs; rw [← List.map_id S]
              apply List.map_congr_left
              intro x hx
              have : x.2 ≠ u := fun e => hnoS (e ▸ List.mem_map_of_mem hx)
              simp [renE, this]
            have hmap2 : (l.map (chg u g)).map (chg t.uid g) = l.map (chg u g) := by
              apply chg_id
              simp only [List.map_map]
              have : ((fun x => x.uid) ∘ chg u g) = (fun x : UKey => x.uid) := by
                funext k; simp only [Function.comp, chg]; split <;> rfl
              rw [this]; exact htl
            rw [List.map_append, List.map_append, hmap2, nestK_append]
            have hren' : nestK [] (l.map (chg u g)) = some ((chars! "SNOP", u) :: S) := by
              have h6 := hren
              rw [List.map_nil, List.map_cons, hrenS] at h6
              rw [h6]; simp [renE, he2]
            rw [hren', ← hS']
            have hlast : List.map (chg t.uid g) (List.map (chg u g) [keyU t]) = [⟨t.uid, chars! "SNOP", .end_, u⟩] := by
              simp only [List.map_cons, List.map_nil]
              have e1 : chg u g (keyU t) = keyU t := by simp [chg, htu]
              rw [e1]
              simp [chg, keyU, hcat, helem, g]
            rw [hlast]
            simp [nestK]
          · cases hn
    · exact ⟨h, rfl⟩
  · exact ⟨h, rfl⟩

end Srcml
