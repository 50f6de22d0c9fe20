import Verif.Proofs.ParserUids
/-
Regular grammar code: the elements in the buffers nest.
-/
set_option linter.unusedSimpArgs false
namespace Srcml
open Srcml.Spec

/-- What matters of a buffered token here. -/
structure UKey where
  uid : Nat
  type : TokType
  cat : Category
  elem : Nat
  deriving DecidableEq

def keyU (p : PTok) : UKey := ⟨p.uid, p.tok.type, p.tok.category, p.elem⟩

abbrev Opens := List (TokType × Nat)

/-- Open elements after the tokens. -/
def nestK : Opens → List UKey → Option Opens
  | S, [] => some S
  | S, k :: l =>
    match k.cat with
    | .start => nestK ((k.type, k.uid) :: S) l
    | .end_ =>
      match S with
      | [] => none
      | e :: S => if e.1 = k.type ∧ (e.2 = k.elem ∨ k.elem = 0) then nestK S l else none
    | _ => nestK S l

theorem nestK_append (a : List UKey) : ∀ (S : Opens) (b : List UKey),
    nestK S (a ++ b) = (nestK S a).bind (fun S' => nestK S' b) := by
  induction a with
  | nil => intro S b; rfl
  | cons k a ih =>
    intro S b
    simp only [List.cons_append, nestK]
    split
    · exact ih _ _
    · split
      · rfl
      · split
        · exact ih _ _
        · rfl
    · exact ih _ _

theorem nestK_stack (l : List UKey) : ∀ {S S' : Opens} (B : Opens), nestK S l = some S' → nestK (S ++ B) l = some (S' ++ B) := by
  induction l with
  | nil => intro S S' B h; cases h; rfl
  | cons k l ih =>
    intro S S' B h
    simp only [nestK] at h ⊢
    split at h
    · exact ih (S := (k.type, k.uid) :: S) B h
    · split at h
      · cases h
      · rename_i e S0
        dsimp only [List.cons_append]
        split at h
        · rename_i hc; rw [if_pos hc]; exact ih B h
        · cases h
    · exact ih B h

theorem nestK_mem (l : List UKey) : ∀ {S S' : Opens}, nestK S l = some S' → ∀ e ∈ S', e ∈ S ∨ e.2 ∈ l.map (·.uid) := by
  induction l with
  | nil => intro S S' h e he; cases h; exact .inl he
  | cons k l ih =>
    intro S S' h e he
    simp only [nestK] at h
    split at h
    · rcases ih h e he with h1 | h1
      · rcases List.mem_cons.1 h1 with rfl | h1
        · right; simp
        · exact .inl h1
      · right; simp [h1]
    · split at h
      · cases h
      · rename_i e0 S0
        split at h
        · rcases ih h e he with h1 | h1
          · exact .inl (List.mem_cons_of_mem _ h1)
          · right; simp [h1]
        · cases h
    · rcases ih h e he with h1 | h1
      · exact .inl h1
      · right; simp [h1]

/-- A new type for an open element. -/
def renE (u : Nat) (id : TokType) (e : TokType × Nat) : TokType × Nat := if e.2 = u then (id, u) else e

/-- Giving a still open element a new type, in its start token. -/
theorem nestK_rename (u : Nat) (id : TokType) (f : UKey → UKey) (hf1 : ∀ k, k.uid ≠ u → f k = k)
    (hf2 : ∀ k, k.uid = u → k.cat = .start → f k = { k with type := id }) (l : List UKey) :
    ∀ {S S' : Opens}, (S.map (·.2) ++ l.map (·.uid)).Nodup → nestK S l = some S' → u ∈ S'.map (·.2) →
      nestK (S.map (renE u id)) (l.map f) = some (S'.map (renE u id)) := by
  induction l with
  | nil => intro S S' _ h _; cases h; rfl
  | cons k l ih =>
    intro S S' hn h hu
    have later : ∀ {S1 : Opens}, nestK S1 l = some S' → u ∈ S1.map (·.2) ∨ u ∈ l.map (·.uid) := by
      intro S1 h1
      obtain ⟨e, he, rfl⟩ := List.mem_map.1 hu
      rcases nestK_mem l h1 e he with h2 | h2
      · exact .inl (List.mem_map_of_mem h2)
      · exact .inr h2
    simp only [nestK] at h
    rw [List.map_cons, List.nodup_append] at hn
    obtain ⟨n1, n2, n3⟩ := hn
    have n2' := List.nodup_cons.1 n2
    have nS : k.uid ∉ S.map (·.2) := fun hm => n3 _ hm k.uid (by simp) rfl
    have nSl : ∀ x ∈ S.map (·.2), x ∉ l.map (·.uid) := fun x hx hl => n3 x hx x (List.mem_cons_of_mem _ hl) rfl
    split at h
    · rename_i hc
      have hfk : (f k).cat = .start ∧ (f k).uid = k.uid ∧ ((f k).type, (f k).uid) = renE u id (k.type, k.uid) := by
        by_cases hk : k.uid = u
        · rw [hf2 k hk hc]; exact ⟨hc, rfl, by simp [renE, hk]⟩
        · rw [hf1 k hk]; exact ⟨hc, rfl, by simp [renE, hk]⟩
      have := ih (S := (k.type, k.uid) :: S) (S' := S') (by
        rw [List.map_cons, List.cons_append, List.nodup_cons, List.nodup_append]
        refine ⟨?_, n1, n2'.2, ?_⟩
        · rw [List.mem_append]; rintro (hm | hm)
          · exact nS hm
          · exact n2'.1 hm
        · intro x hx y hy e; subst e; exact nSl x hx hy) h hu
      simp only [List.map_cons, nestK, hfk.1]
      rw [hfk.2.2]; exact this
    · rename_i hc
      split at h
      · cases h
      · rename_i e0 S0
        split at h
        · rename_i hcond
          have hmem := later h
          have hku : k.uid ≠ u := by
            intro e; subst e
            rcases hmem with hm | hm
            · exact nS (List.mem_cons_of_mem _ hm)
            · exact n2'.1 hm
          have heu : e0.2 ≠ u := by
            intro e; subst e
            rw [List.map_cons, List.nodup_cons] at n1
            rcases hmem with hm | hm
            · exact n1.1 hm
            · exact nSl e0.2 (by simp) hm
          have := ih (S := S0) (S' := S') (by
            rw [List.nodup_append]
            rw [List.map_cons, List.nodup_cons] at n1
            exact ⟨n1.2, n2'.2, fun x hx y hy e => by subst e; exact nSl x (List.mem_cons_of_mem _ hx) hy⟩) h hu
          simp only [List.map_cons, nestK, hf1 k hku, hc]
          rw [show renE u id e0 = e0 by simp [renE, heu], if_pos hcond]
          exact this
        · cases h
    · rename_i hc1 hc2
      have hmem := later h
      have hku : k.uid ≠ u := by
        intro e; subst e
        rcases hmem with hm | hm
        · exact nS hm
        · exact n2'.1 hm
      have := ih (S := S) (S' := S') (by
        rw [List.nodup_append]
        exact ⟨n1, n2'.2, fun x hx y hy e => by subst e; exact nSl x hx hy⟩) h hu
      rw [List.map_cons, hf1 k hku, nestK.eq_def]
      dsimp only
      split
      · rename_i h1; exact absurd h1 hc1
      · rename_i h1; exact absurd h1 hc2
      · exact this

/-! ### While speculating nothing is buffered -/

/-- The buffers. -/
def bufs (s : PState) : List UKey × List UKey × List UKey × List UKey × List UKey :=
  (s.out.map keyU, s.tb.map keyU, s.skiptb.map keyU, s.pretb.map keyU, s.skippretb.map keyU)

theorem bufs_mapTok (s : PState) (u : Nat) (f : Tok → Tok) (hf : ∀ t, (f t).type = t.type ∧ (f t).category = t.category) :
    bufs (s.mapTok u f) = bufs s := by
  have key : ∀ l : List PTok, (l.map (fun p : PTok => if p.uid = u then { p with tok := f p.tok } else p)).map keyU =
      l.map keyU := by
    intro l
    rw [List.map_map]
    apply List.map_congr_left
    intro p _
    simp only [Function.comp]
    split
    · simp only [keyU, (hf p.tok).1, (hf p.tok).2]
    · rfl
  simp only [bufs, PState.mapTok, key]

theorem bufs_pushESkip_guess (s : PState) (c : PConf) (id : TokType) (hg : 0 < s.guessing) :
    bufs (s.pushESkipToken c id) = bufs s := by
  have h0 : s.guessing ≠ 0 := by omega
  unfold PState.pushESkipToken
  have e : s.pushSkipToken ⟨s.next, { type := id, category := .end_ }, 0⟩ = s := by
    unfold PState.pushSkipToken; rw [if_pos h0]
  rw [e]
  dsimp only
  split
  · split
    · rfl
    · exact bufs_mapTok s.fresh _ (PState.setEnd s.slastline s.slastcolumn) (fun t => ⟨rfl, rfl⟩)
  · rfl

theorem bufs_pushSSkip_guess (s : PState) (c : PConf) (id : TokType) (hg : 0 < s.guessing) :
    bufs (s.pushSSkipToken c id) = bufs s := by
  have h0 : (s.pushEnds c s.next).guessing ≠ 0 := by rw [PState.pushEnds_guessing]; omega
  unfold PState.pushSSkipToken PState.pushSkipToken
  rw [if_pos h0]
  unfold PState.pushEnds
  split <;> rfl

theorem bufs_skipCur_guess (s : PState) (c : PConf) (hg : 0 < s.guessing) : bufs (s.skipCur c) = bufs s := by
  have h0 : s.guessing ≠ 0 := by omega
  unfold PState.skipCur PState.pushSkipToken
  rw [if_pos h0]; rfl

theorem bufs_popComment (s : PState) : bufs s.popComment = bufs s := by
  unfold PState.popComment; split <;> rfl

theorem bufs_skipToken_guess (s : PState) (c : PConf) (hg : 0 < s.guessing) : bufs (s.skipToken c) = bufs s := by
  have h0 : s.guessing ≠ 0 := by omega
  unfold PState.skipToken
  dsimp only
  split
  · unfold PState.pushSkipToken; rw [if_pos h0]; rfl
  · split
    · rename_i el _
      rw [bufs_pushESkip_guess _ _ _ (by simp [(PState.skipCur_frame _ c).2.1]; exact hg)]
      show bufs ((s.pushSSkipToken c el).skipCur c) = _
      rw [bufs_skipCur_guess _ _ (by simp; exact hg), bufs_pushSSkip_guess _ _ _ hg]
    · rename_i el _
      show bufs ((s.pushSSkipToken c el).skipCur c) = _
      rw [bufs_skipCur_guess _ _ (by simp; exact hg), bufs_pushSSkip_guess _ _ _ hg]
    · rename_i el _ _ _ _ _
      have hg1 : 0 < s.popComment.guessing := by rw [(PState.popComment_frame s).2.1]; exact hg
      split
      · rw [bufs_skipCur_guess _ _ (by simp; exact hg1), bufs_pushESkip_guess _ _ _ (by simp; exact hg1)]
        show bufs s.popComment = _
        exact bufs_popComment s
      · rw [bufs_pushESkip_guess _ _ _ (by simp [(PState.skipCur_frame _ c).2.1]; exact hg1)]
        show bufs (s.popComment.skipCur c) = _
        rw [bufs_skipCur_guess _ _ hg1]
        exact bufs_popComment s
    · exact bufs_skipCur_guess s c hg

theorem bufs_act_guess {c : PConf} {b : Nat} {s : PState} {a : Act} (hr : a.Regular b s) (hg : 0 < s.guessing) :
    bufs (a.run c s) = bufs s := by
  have hpop : s.guessing = 0 ∨ s.topSize = 0 → bufs (s.popMode c) = bufs s := by
    rintro (h | h)
    · omega
    · unfold PState.popMode; rw [h]; rfl
  cases a with
  | startElement id => exact absurd hr.1 (by omega)
  | startNoSkipElement id => exact absurd hr.1 (by omega)
  | addElement id => exact hr.elim
  | emptyElement id => exact absurd (show s.guessing = 0 from hr) (by omega)
  | endTop => exact absurd hr.1 (by omega)
  | newMode m => rfl
  | endMode =>
    simp only [Act.run, PState.endMode]
    split
    · rfl
    · exact hpop hr.2
  | endLastMode => exact hpop hr.2
  | setMode m => rfl
  | clearMode m => rfl
  | flushSkip => exact absurd (show s.guessing = 0 from hr) (by omega)
  | completeSkip => exact absurd (show s.guessing = 0 from hr) (by omega)
  | retype u id => exact absurd hr.1 (by omega)
  | pause => exact absurd hr.1 (by omega)
  | resume => rfl
  | nop => exact absurd hr.1 (by omega)

theorem bufs_consumeHead_guess (s : PState) (c : PConf) (hg : 0 < s.guessing) : bufs (s.consumeHead c) = bufs s := by
  have h0 : s.guessing ≠ 0 := by omega
  unfold PState.consumeHead PState.pushSkipToken PState.pushTokenFlush
  dsimp only
  rw [if_pos h0]
  split
  · rfl
  · rfl

/-- The kinds of code that run while speculating. -/
def Kind.deep : Kind → Prop
  | .code _ | .consume | .skips | .skipped => True
  | _ => False

theorem exec_frozen {c : PConf} (hs : LexerTokens c.src) (he : EofToken c.eof) {k : Kind} {s s' : PState}
    (h : Exec c true k s s') (hg : 0 < s.guessing) (hw : WF s) (hk : k.deep) : bufs s' = bufs s := by
  generalize hst : true = strict at h
  induction h with
  | done => rfl
  | @act b s s' a hv hr _ ih =>
    obtain ⟨_, n2, _, _, n5⟩ := neutral_act c s a hv
    exact (ih (by rw [n2]; exact hg) (n5 hw) trivial).trans (bufs_act_guess (hr hst.symm) hg)
  | @consume b s s1 s' hx _ ih1 ih2 =>
    have h1 := (strict_restores hs he (hst ▸ hx)).1
    have h2 := (exec_keeps hs he hx hw).wf
    exact (ih2 (by omega) h2 trivial).trans (ih1 hg hw trivial)
  | @guess b s s1 s' hx _ ih1 ih2 =>
    have h1 := (strict_restores hs he (hst ▸ hx)).1
    have hg1 : s1.guessing = s.guessing + 1 := h1
    have h2 := (exec_keeps hs he hx (s := s.beginGuess) hw).wf
    have := ih1 (by show 0 < s.guessing + 1; omega) hw trivial
    exact (ih2 (by show 0 < s1.guessing - 1; omega) h2 trivial).trans this
  | escape hf => rw [← hst] at hf; cases hf
  | @eat s s' _ hx ih =>
    have f := (PState.consumeHead_frame s c).2.1
    have w := (eats_consumeHead hs he (c := c) s).keeps hw
    exact (ih (by rw [f]; exact hg) w.wf trivial).trans (bufs_consumeHead_guess s c hg)
  | stop _ _ => rfl
  | @more s s1 s' hx _ ih1 ih2 =>
    have h1 := (strict_restores hs he (hst ▸ hx)).1
    have h2 := (exec_keeps hs he hx hw).wf
    exact (ih2 (by omega) h2 trivial).trans (ih1 hg hw trivial)
  | abort hf => rw [← hst] at hf; cases hf
  | token _ => exact bufs_skipToken_guess _ c hg
  | @special s s1 _ h2 _ hx ih =>
    have hi := entersSkip_inskip h2
    obtain ⟨w1, w2⟩ := hw hi
    have e := ih (by exact hg) (by intro hc; cases hc) trivial
    have e' : bufs s1 = bufs s := e
    simp only [bufs, w1, w2, List.map_nil, Prod.mk.injEq, List.map_eq_nil_iff] at e'
    obtain ⟨e1, e2, e3, e4, e5⟩ := e'
    simp only [bufs, PState.leaveSkip, e4, e5, w1, w2, List.append_nil, List.map_nil, e1, e2, e3]
  | fillSkip => exact hk.elim
  | fillStart => exact hk.elim
  | fillError => exact hk.elim
  | idle => exact hk.elim
  | workFill => exact hk.elim
  | workConsume => exact hk.elim
  | next => exact hk.elim
  | finish => exact hk.elim
  | again => exact hk.elim

end Srcml
