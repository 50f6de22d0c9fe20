import Verif.Proofs.ParserTypes
import Verif.Props.Parser
import Verif.Props.OutputUnit
/-
C15: the elements in the output of the parser nest, and all are closed at the end. C16: with the output, the source
text is kept.
-/
set_option linter.unusedSimpArgs false
namespace Srcml
open Srcml.Spec

/-- What holds in every state of a regular run. -/
theorem run_facts {c : PConf} (hs : LexerTokens c.src) (he : EofToken c.eof) (hc : CommentsClosed c) {s : PState}
    (h : Exec c true .driver (PState.init c) s) : Nd s ∧ Lo c s ∧ Uids s := by
  have hlo : Lo c (PState.init c) := by
    refine ⟨by cases c with | mk a b p q => cases p <;> rfl, ?_, ?_⟩
    · intro hp
      cases c with | mk a b p q => cases hp; exact ⟨[], rfl, rfl⟩
    · cases c with
      | mk a b p q => cases p <;> (intro m hm; cases hm with
        | head => decide
        | tail _ hm => cases hm)
  have hu : Uids (PState.init c) := by
    have e : uidsOf (PState.init c) = [1, 2] ∧ (PState.init c).next = 3 := by
      cases c with | mk a b p q => cases p <;> exact ⟨rfl, rfl⟩
    refine ⟨by rw [e.1]; decide, by rw [e.1, e.2]; decide, by rw [e.2]; decide⟩
  have hn : Nd (PState.init c) := by
    refine ⟨by cases c with | mk a b p q => cases p <;> rfl, [], .inl rfl, fun _ => rfl, ?_, [], ?_, ?_⟩
    all_goals (cases c with | mk a b p q => cases p <;> rfl)
  obtain ⟨w, _, hg⟩ := init_wf c
  have hp : (PState.init c).paused = false := by cases c with | mk a b p q => cases p <;> rfl
  exact ⟨(exec_layer3 hs he hc h hg hu w hlo hp hn).1, exec_layer1 hs he hc h hlo, (exec_uq h).uids hu⟩

/-- The open elements other than the unit. -/
def shown (S : Opens) : List TokType := (S.map (·.1)).filter (fun t => t ≠ chars! "SUNIT")

theorem nest_of_nestK (ps : List PTok) : ∀ {S S' : Opens}, nestK S (ps.map keyU) = some S' →
    nest (shown S) (ps.map (·.tok)) = some (shown S') := by
  induction ps with
  | nil => intro S S' h; cases h; rfl
  | cons p ps ih =>
    intro S S' h
    simp only [List.map_cons, nestK, keyU] at h
    simp only [List.map_cons, nest]
    cases hcat : p.tok.category with
    | start =>
      rw [hcat] at h
      have := ih h
      by_cases hu : p.tok.type = chars! "SUNIT"
      · rw [if_pos hu]
        simpa [shown, hu] using this
      · rw [if_neg hu]
        simpa [shown, hu] using this
    | end_ =>
      rw [hcat] at h
      dsimp only at h
      cases S with
      | nil => cases h
      | cons e S =>
        dsimp only at h
        split at h
        · rename_i hc
          have := ih h
          by_cases hu : p.tok.type = chars! "SUNIT"
          · rw [if_pos hu]
            simpa [shown, hc.1, hu] using this
          · rw [if_neg hu]
            simpa [shown, hc.1, hu] using this
        · cases h
    | text =>
      rw [hcat] at h
      have := ih h
      split <;> exact this
    | empty =>
      rw [hcat] at h
      have := ih h
      split <;> exact this

/-- The first token taken off is that of the unit. -/
theorem driver_first {c : PConf} {strict : Bool} {s s' : PState} (h : Exec c strict .driver s s') :
    ∀ t, (s.out ++ s.tb.take 1).head? = some t → (s'.out ++ s'.tb.take 1).head? = some t := by
  generalize hk : Kind.driver = k at h
  induction h with
  | finish => exact fun t h => h
  | @again s s1 s' h1 _ _ ih2 =>
    intro t ht
    refine ih2 hk t ?_
    cases h1 with
    | @next _ _ t' rest htb hne _ _ hw =>
      have ho : s1.out = s.out ++ [t'] := exec_out hw trivial
      rw [ho]
      rw [htb] at ht
      cases hso : s.out with
      | nil => rw [hso] at ht; simpa using ht
      | cons a l => rw [hso] at ht; simpa using ht
  | _ => cases hk

theorem nest_returned {c : PConf} {s : PState} (h : Exec c true .driver (PState.init c) s) (st : List TokType) :
    nest st (returned s) = nest st ((s.out ++ s.tb.take 1).map (·.tok)) := by
  have h0 : ((PState.init c).out ++ (PState.init c).tb.take 1).head?.map (·.tok.type) = some (chars! "SUNIT") := by
    cases c with | mk a b p q => cases p <;> rfl
  cases hh : ((PState.init c).out ++ (PState.init c).tb.take 1).head? with
  | none => rw [hh] at h0; cases h0
  | some t =>
    rw [hh] at h0
    have ht : t.tok.type = chars! "SUNIT" := by simpa using h0
    have := driver_first h t hh
    unfold returned
    cases hl : s.out ++ s.tb.take 1 with
    | nil => rfl
    | cons a l =>
      rw [hl] at this
      simp only [List.head?_cons, Option.some.injEq] at this
      subst this
      simp only [List.drop_succ_cons, List.drop_zero, List.map_cons, nest]
      rw [if_pos ht]

theorem take_split (s : PState) : s.out ++ s.tb = (s.out ++ s.tb.take 1) ++ s.tb.drop 1 := by
  rw [List.append_assoc, List.take_append_drop]

/-- C15: at any time, for any regular behaviour of the grammar, the elements in what the parser has returned nest:
each end token ends the innermost open element. -/
theorem C15_nesting {c : PConf} (hs : LexerTokens c.src) (he : EofToken c.eof) (hc : CommentsClosed c) {s : PState}
    (h : Exec c true .driver (PState.init c) s) : ∃ st, nest [] (returned s) = some st := by
  obtain ⟨hn, _, _⟩ := run_facts hs he hc h
  obtain ⟨A, _, hnl⟩ := hn.nest
  have h1 := hnl.out
  have hv : (view s).o = (s.out ++ s.tb).map keyU := by unfold view; rw [hn.inskip]; rfl
  rw [hv, take_split, List.map_append, nestK_append] at h1
  cases h2 : nestK [] ((s.out ++ s.tb.take 1).map keyU) with
  | none => rw [h2] at h1; cases h1
  | some S =>
    refine ⟨shown S, ?_⟩
    rw [nest_returned h]
    exact nest_of_nestK _ h2

/-! ### Balanced output -/

theorem nest_append (a : List Tok) : ∀ (S : List TokType) (b : List Tok),
    nest S (a ++ b) = (nest S a).bind (fun S' => nest S' b) := by
  induction a with
  | nil => intro S b; rfl
  | cons t a ih =>
    intro S b
    simp only [List.cons_append, nest]
    split
    · exact ih S b
    · split
      · exact ih _ _
      · split
        · rfl
        · split
          · exact ih _ _
          · rfl
      · exact ih _ _

theorem nest_stack (l : List Tok) : ∀ {S S' : List TokType} (B : List TokType), nest S l = some S' →
    nest (S ++ B) l = some (S' ++ B) := by
  induction l with
  | nil => intro S S' B h; cases h; rfl
  | cons t l ih =>
    intro S S' B h
    simp only [nest] at h ⊢
    split at h
    · rename_i hu; rw [if_pos hu]; exact ih B h
    · rename_i hu
      rw [if_neg hu]
      split at h
      · exact ih (S := t.type :: S) B h
      · split at h
        · cases h
        · dsimp only [List.cons_append]
          split at h
          · rename_i hc; rw [if_pos hc]; exact ih B h
          · cases h
      · exact ih B h

/-- Where the innermost open element ends. -/
theorem nest_close (n : Nat) : ∀ (l : List Tok) (a : TokType) (S R : List TokType), l.length ≤ n →
    R.length ≤ S.length → nest (a :: S) l = some R →
    ∃ inner e rest, l = inner ++ e :: rest ∧ e.category = .end_ ∧ e.type = a ∧ nest [] inner = some [] ∧
      nest S rest = some R := by
  induction n with
  | zero =>
    intro l a S R hl hR h
    cases l with
    | nil => simp only [nest, Option.some.injEq] at h; subst h; simp at hR; omega
    | cons t l => simp at hl
  | succ n ih =>
    intro l a S R hl hR h
    cases l with
    | nil => simp only [nest, Option.some.injEq] at h; subst h; simp at hR; omega
    | cons t l =>
      have hl' : l.length ≤ n := by simpa using hl
      have pass : nest (a :: S) l = some R → nest [] [t] = some [] →
          ∃ inner e rest, t :: l = inner ++ e :: rest ∧ e.category = .end_ ∧ e.type = a ∧ nest [] inner = some [] ∧
            nest S rest = some R := by
        intro h1 h2
        obtain ⟨inner, e, rest, q1, q2, q3, q4, q5⟩ := ih l a S R hl' hR h1
        refine ⟨t :: inner, e, rest, by rw [q1]; rfl, q2, q3, ?_, q5⟩
        have : nest [] ([t] ++ inner) = some [] := by rw [nest_append, h2]; exact q4
        exact this
      by_cases hu : t.type = chars! "SUNIT"
      · have h1 : nest (a :: S) l = some R := by simpa [nest, hu] using h
        exact pass h1 (by simp [nest, hu])
      · cases hcat : t.category with
        | start =>
          have h1 : nest (t.type :: a :: S) l = some R := by simpa [nest, hu, hcat] using h
          obtain ⟨in1, e1, r1, q1, q2, q3, q4, q5⟩ := ih l t.type (a :: S) R hl' (by simp; omega) h1
          have hr1 : r1.length ≤ n := by rw [q1] at hl'; simp at hl'; omega
          obtain ⟨in2, e2, r2, p1, p2, p3, p4, p5⟩ := ih r1 a S R hr1 hR q5
          refine ⟨t :: in1 ++ e1 :: in2, e2, r2, by rw [q1, p1]; simp, p2, p3, ?_, p5⟩
          have he1 : e1.type ≠ chars! "SUNIT" := by rw [q3]; exact hu
          have z1 : nest [] (t :: (in1 ++ e1 :: in2)) = nest [t.type] (in1 ++ e1 :: in2) := by simp [nest, hu, hcat]
          rw [List.cons_append, z1, nest_append, show [t.type] = [] ++ [t.type] from rfl, nest_stack in1 _ q4]
          simp [nest, q2, q3, p4, hu]
        | end_ =>
          have h1 : (if a = t.type then nest S l else none) = some R := by simpa [nest, hu, hcat] using h
          split at h1
          · rename_i hat
            exact ⟨[], t, l, rfl, hcat, hat.symm, rfl, h1⟩
          · cases h1
        | text => exact pass (by simpa [nest, hu, hcat] using h) (by simp [nest, hu, hcat])
        | empty => exact pass (by simpa [nest, hu, hcat] using h) (by simp [nest, hu, hcat])

theorem balanced_of_nest {X : Str → Prop} (n : Nat) : ∀ (l : List Tok), l.length ≤ n → (∀ t ∈ l, GoodTok X t) → nest [] l = some [] →
    Balanced l := by
  induction n with
  | zero =>
    intro l hl _ _
    cases l with
    | nil => exact .nil
    | cons t l => simp at hl
  | succ n ih =>
    intro l hl hg h
    cases l with
    | nil => exact .nil
    | cons t l =>
      have hl' : l.length ≤ n := by simpa using hl
      have hg' : ∀ t ∈ l, GoodTok X t := fun x hx => hg x (List.mem_cons_of_mem _ hx)
      by_cases hu : t.type = chars! "SUNIT"
      · exact .text t l (.inr hu) (ih l hl' hg' (by simpa [nest, hu] using h))
      · cases hcat : t.category with
        | start =>
          have h1 : nest [t.type] l = some [] := by simpa [nest, hu, hcat] using h
          obtain ⟨inner, e, rest, q1, q2, q3, q4, q5⟩ := nest_close l.length l t.type [] [] (Nat.le_refl _) (by simp) h1
          subst q1
          simp only [List.length_append, List.length_cons] at hl'
          rw [← List.cons_append]
          refine .element t e inner rest hcat q2 q3.symm (ih inner (by omega) ?_ q4) (ih rest (by omega) ?_ q5)
          · exact fun x hx => hg' x (by simp [hx])
          · exact fun x hx => hg' x (by simp [hx])
        | end_ => simp [nest, hu, hcat] at h
        | text =>
          have hgt := hg t (by simp)
          unfold GoodTok at hgt
          rw [hcat] at hgt
          exact .text t l (.inl (by rw [hgt.1]; rfl)) (ih l hl' hg' (by simpa [nest, hu, hcat] using h))
        | empty => exact .empty t l hcat (ih l hl' hg' (by simpa [nest, hu, hcat] using h))

theorem init_good (X : Str → Prop) (c : PConf) : TGood X (PState.init c) := by
  refine ⟨?_, ?_, ?_⟩
  · intro p hp
    have e : ∃ l col, (PState.init c).queue.map (·.tok) =
        [{ type := chars! "SUNIT", category := .start, line := l, column := col },
         { type := chars! "SUNIT", category := .empty }] := by
      cases c with | mk a b p q => cases p <;> exact ⟨_, _, rfl⟩
    obtain ⟨l, col, e⟩ := e
    have : p.tok ∈ (PState.init c).queue.map (·.tok) := List.mem_map_of_mem hp
    rw [e] at this
    rcases List.mem_cons.1 this with h | h
    · rw [h]; exact ⟨rfl, by show chars! "SUNIT" ≠ chars! "CONTROL_CHAR"; decide⟩
    · rcases List.mem_cons.1 h with h | h
      · rw [h]; exact .inl ⟨by decide, rfl⟩
      · cases h
  · intro e he
    have : opensOf (PState.init c).st = [(chars! "SUNIT", 1)] := by
      cases c with | mk a b p q => cases p <;> rfl
    rw [this] at he
    rcases List.mem_cons.1 he with rfl | h
    · decide
    · cases h
  · have : (PState.init c).comments = [] := by cases c with | mk a b p q => cases p <;> rfl
    rw [this]; intro x hx; cases hx

/-- The end of file is only passed after all the source. -/
theorem eof_pos {c : PConf} (hs : LexerTokens c.src) (he : EofToken c.eof) {s : PState}
    (h : Exec c true .driver (PState.init c) s) (hend : ∃ p ∈ s.queue, isEof p.tok = true) : c.src.length < s.pos := by
  obtain ⟨w, hi, hg⟩ := init_wf c
  obtain ⟨p, h1, h2⟩ := (exec_keeps hs he h w).inv hi
  have hg' : s.guessing = 0 := (strict_restores hs he h).1.trans hg
  have hp := h2 hg'
  rw [hp] at h1
  rcases Nat.lt_or_ge c.src.length s.pos with hlt | hge
  · exact hlt
  · exfalso
    obtain ⟨q, hq, hx⟩ := hend
    have hk : (isEof q.tok, q.tok.text) ∈ keys s.queue := by
      unfold keys
      refine List.mem_flatMap.2 ⟨q, hq, ?_⟩
      have : q.tok.category = .text := by unfold isEof at hx; simp at hx; exact hx.2
      unfold keyOf; rw [this]; simp
    rw [h1] at hk
    unfold srcKeys at hk
    obtain ⟨i, hi, e⟩ := List.mem_map.1 hk
    have hi' : i < c.src.length := by have := List.mem_range.1 hi; omega
    have hm : (c.src[i]?).getD c.eof ∈ c.src := by
      rw [List.getElem?_eq_getElem hi']; exact List.getElem_mem hi'
    have := (Prod.ext_iff.1 e).1
    dsimp only at this
    rw [(hs _ hm).2.1, hx] at this
    cases this

/-- The end of file is not skipped. -/
theorem eof_not_white {t : Tok} (h : EofToken t) : t.type ∉ whitespaceTokens := by
  have : t.type = chars! "EOF" := by
    have := h.2.1; unfold isEof at this; simp at this; exact this.1
  rw [this]; decide

/-- C15: when the parse has ended - the end of file is the token returned last and no mode is left - every element in
the output has been closed, in the reverse order of opening. (The end-of-file token itself is not written.) -/
theorem C15_all_closed {c : PConf} (hs : LexerTokens c.src) (he : EofToken c.eof) (hl : LexerTypes c.src)
    (hc : CommentsClosed c) {s : PState} (h : Exec c true .driver (PState.init c) s) (hst : s.st = []) {p : PTok}
    (htb : s.tb = [p]) (hp : isEof p.tok = true) :
    ∃ ts, returned s = ts ++ [p.tok] ∧ Balanced ts := by
  obtain ⟨hn, hlo, _⟩ := run_facts hs he hc h
  have hpos := eof_pos hs he h ⟨p, by unfold PState.queue; simp [htb], hp⟩
  have hcom : s.comments = [] := by
    obtain ⟨cs, h1, h2⟩ := hc s.pos
    have ha : commentsAt c s.pos = some s.comments := hlo.comments
    rw [ha] at h1
    cases h1
    refine h2 ?_
    unfold tokAt
    rw [List.getElem?_eq_none (by omega)]
    exact eof_not_white he
  obtain ⟨A, hA, hnl⟩ := hn.nest
  obtain ⟨hA0, hnc⟩ := hnl.code hA hcom
  have h1 := hnc.out
  have hv : (view s).o = (s.out ++ s.tb).map keyU := by unfold view; rw [hn.inskip]; rfl
  rw [hv, hst] at h1
  have htk : s.out ++ s.tb.take 1 = s.out ++ s.tb := by rw [htb]; rfl
  have h2 : nest [] (returned s) = some [] := by
    rw [nest_returned h, htk]
    exact nest_of_nestK _ h1
  have hG := exec_good hs he (X := fun _ => True) ⟨hl, trivial, fun _ _ _ => trivial⟩ h (init_good (fun _ => True) c)
  -- the output starts with the unit and ends with the end of file
  have hne : ∃ a l, s.out = a :: l := by
    cases ho : s.out with
    | cons a l => exact ⟨a, l, rfl⟩
    | nil =>
      exfalso
      have h0 : ((PState.init c).out ++ (PState.init c).tb.take 1).head?.map (·.tok.category) = some .start := by
        cases c with | mk a b p q => cases p <;> rfl
      cases hh : ((PState.init c).out ++ (PState.init c).tb.take 1).head? with
      | none => rw [hh] at h0; cases h0
      | some t =>
        rw [hh] at h0
        have := driver_first h t hh
        rw [ho, htb] at this
        simp at this
        subst this
        unfold isEof at hp
        simp at hp h0
        rw [hp.2] at h0; cases h0
  obtain ⟨a, l, ho⟩ := hne
  have hret : returned s = l.map (·.tok) ++ [p.tok] := by
    unfold returned; rw [htk, ho, htb]; simp
  refine ⟨l.map (·.tok), hret, ?_⟩
  rw [hret, nest_append] at h2
  cases h3 : nest [] (l.map (·.tok)) with
  | none => rw [h3] at h2; cases h2
  | some S =>
    rw [h3] at h2
    have hpc : p.tok.category = .text := by unfold isEof at hp; simp at hp; exact hp.2
    have hS : S = [] := by
      simp only [Option.bind_some, nest, hpc] at h2
      split at h2 <;> (cases h2; rfl)
    subst hS
    refine balanced_of_nest (X := fun _ => True) _ _ (Nat.le_refl _) ?_ h3
    intro t ht
    obtain ⟨q, hq, rfl⟩ := List.mem_map.1 ht
    exact hG.toks q (by unfold PState.queue; simp [ho, hq])

/-! ### The end of the parse -/

theorem endMode_length {c : PConf} {s : PState} (h : 1 < s.st.length) : (s.endMode c).st.length = s.st.length - 1 := by
  unfold PState.endMode
  rw [if_neg (by omega)]
  cases hs : s.st with
  | nil => rw [hs] at h; simp at h
  | cons m st => rw [popMode_st hs]; simp

theorem endModes_length (c : PConf) (n : Nat) : ∀ s : PState, s.st.length ≤ n + 1 →
    (PState.endModes c n s).st.length ≤ 1 := by
  induction n with
  | zero => intro s h; simpa [PState.endModes] using h
  | succ n ih =>
    intro s h
    unfold PState.endModes
    split
    · rename_i h1
      exact ih _ (by rw [endMode_length h1]; omega)
    · omega

/-- C15: what the grammar does at the end of file ends all modes, and with them all open elements, from every
state. -/
theorem C15_end_of_file_partial (s : PState) (c : PConf) : (s.endAllModes c).st = [] := by
  unfold PState.endAllModes
  dsimp only
  generalize hs1 : (if s.paused = true then (PState.endModes c s.st.length s).nopStreamStart else s).resumeStream = s1
  have h1 := endModes_length c s1.st.length s1 (by omega)
  generalize hs2 : PState.endModes c s1.st.length s1 = s2 at h1
  have h2 : ((s2.completeSkip c).flushSkip).st = s2.st := by
    have : (s2.completeSkip c).st = s2.st := by
      unfold PState.completeSkip; split
      · rfl
      · simp
    simpa using this
  split
  · rename_i h3
    cases hst : ((s2.completeSkip c).flushSkip).st with
    | nil => rw [hst] at h3; cases h3
    | cons m st =>
      rw [popMode_st hst]
      rw [hst] at h3
      exact List.length_eq_zero_iff.1 (by simpa using h3)
  · rename_i h3
    rw [h2] at h3 ⊢
    exact List.length_eq_zero_iff.1 (by omega)

theorem endMode_guessing {c : PConf} (s : PState) : (s.endMode c).guessing = s.guessing := by
  have h : ∀ n (s : PState), (PState.endTops c n s).guessing = s.guessing := by
    intro n
    induction n with
    | zero => intro s; rfl
    | succ n ih => intro s; exact (ih _).trans (endTop_other s).2.2.2.1
  unfold PState.endMode
  split
  · rfl
  · exact h _ s

theorem endModes_run {c : PConf} (n : Nat) : ∀ {s s' : PState}, s.guessing = 0 →
    Exec c true (.code 0) (PState.endModes c n s) s' → Exec c true (.code 0) s s' := by
  induction n with
  | zero => intro s s' _ h; exact h
  | succ n ih =>
    intro s s' hg h
    unfold PState.endModes at h
    split at h
    · rename_i h1
      refine .act .endMode trivial (fun _ => ⟨by omega, .inl hg⟩) (ih ?_ h)
      show (s.endMode c).guessing = 0
      exact (endMode_guessing s).trans hg
    · exact h

/-- C15: ending all modes is regular behaviour of the grammar (unless the stream is paused). -/
theorem C15_end_of_file_regular {c : PConf} {s : PState} (hg : s.guessing = 0) (hp : s.paused = false) :
    Exec c true (.code 0) s (s.endAllModes c) := by
  unfold PState.endAllModes
  rw [hp]
  dsimp only
  refine .act .resume trivial (fun _ => trivial) ?_
  show Exec c true (.code 0) s.resumeStream _
  rw [if_neg (show ¬ (false = true) by decide)]
  have hg1 : s.resumeStream.guessing = 0 := hg
  generalize s.resumeStream = s1 at hg1 ⊢
  refine endModes_run s1.st.length hg1 ?_
  have hg2 : (PState.endModes c s1.st.length s1).guessing = 0 := by
    have : ∀ n (s : PState), (PState.endModes c n s).guessing = s.guessing := by
      intro n
      induction n with
      | zero => intro s; rfl
      | succ n ih =>
        intro s
        unfold PState.endModes
        split
        · rw [ih, endMode_guessing]
        · rfl
    rw [this]; exact hg1
  generalize PState.endModes c s1.st.length s1 = s2 at hg2 ⊢
  refine .act .completeSkip trivial (fun _ => hg2) ?_
  have hg3 : (s2.completeSkip c).guessing = 0 := by
    unfold PState.completeSkip; split
    · exact hg2
    · simpa using hg2
  refine .act .flushSkip trivial (fun _ => hg3) ?_
  have hg4 : (s2.completeSkip c).flushSkip.guessing = 0 := by simpa using hg3
  show Exec c true (.code 0) (s2.completeSkip c).flushSkip _
  split
  · rename_i h1
    exact .act .endLastMode trivial (fun _ => ⟨by omega, .inl hg4⟩) .done
  · exact .done

/-! ### C16 -/

theorem carries_of_good {X : Str → Prop} (l : List Tok) (h : ∀ t ∈ l, GoodTok X t) : Carries l (l.flatMap carried) := by
  induction l with
  | nil => exact .nil
  | cons t l ih =>
    have ih := ih (fun x hx => h x (List.mem_cons_of_mem _ hx))
    have ht := h t (by simp)
    rw [List.flatMap_cons]
    have plain : t.text = [] → t.type ≠ chars! "CONTROL_CHAR" → carried t = [] → Carries (t :: l) (carried t ++ l.flatMap carried) := by
      intro h1 h2 h3
      rw [h3, List.nil_append]
      by_cases hu : t.type = chars! "SUNIT"
      · exact .markup t l _ (.inl hu) ih
      · cases he : elementOf t.type with
        | some e => exact .markup t l _ (.inr ⟨by rw [he]; rfl, h2⟩) ih
        | none =>
          have := Carries.text t l _ hu he ih
          rw [h1] at this
          exact this
    unfold GoodTok at ht
    cases hc : t.category with
    | text =>
      rw [hc] at ht
      have : carried t = t.text := by unfold carried; rw [hc]
      rw [this]
      exact .text t l _ ht.2.1 ht.1 ih
    | start => rw [hc] at ht; exact plain ht.1 ht.2 (by unfold carried; rw [hc])
    | end_ => rw [hc] at ht; exact plain ht.1 ht.2 (by unfold carried; rw [hc])
    | empty =>
      rw [hc] at ht
      rcases ht with ⟨h1, h2⟩ | ⟨h1, ch, h2, h3⟩
      · exact plain h2 h1 (by unfold carried; rw [hc]; dsimp only; rw [if_neg h1])
      · have : carried t = [ch] := by
          unfold carried; rw [hc]; dsimp only; rw [if_pos h1, h3, C13_code_reads_back ch (by omega)]
        rw [this]
        exact .control t l _ ch h1 hc h2 (by rw [h3, C13_code_format ch h2]) ih

/-- The tokens before the end of file carry the whole source. -/
theorem carried_complete {c : PConf} (hs : LexerTokens c.src) (he : EofToken c.eof) {s : PState}
    (h : Exec c true .driver (PState.init c) s) {ts : List Tok} {t : Tok} (hr : returned s = ts ++ [t])
    (ht : isEof t = true) : ts.flatMap carried = c.text := by
  have h1 := C14_output_is_prefix hs he h
  have h2 := C14_complete_output hs he h ⟨t, by rw [hr]; simp, ht⟩
  have h3 : carriedText (returned s) <+: ts.flatMap carried := by
    unfold carriedText
    rw [hr, List.takeWhile_append]
    split
    · simp [List.takeWhile_cons, ht]
    · obtain ⟨r, hr⟩ := List.takeWhile_prefix (l := ts) (fun t => !isEof t)
      conv => rhs; rw [← hr, List.flatMap_append]
      exact List.prefix_append _ _
  have h4 : ts.flatMap carried <+: (returned s).flatMap carried := by
    rw [hr, List.flatMap_append]; exact List.prefix_append _ _
  rw [h2] at h3
  have h5 := h4.trans h1
  exact List.IsPrefix.eq_of_length h5 (Nat.le_antisymm h5.length_le h3.length_le)

/-- The tokens that the parser has returned before the end of file, once the parse has ended: they are balanced, carry the text of the lexer's tokens, and have only characters
of XML. -/
theorem finished_tokens {c : PConf} (hs : LexerTokens c.src) (he : EofToken c.eof) (hl : LexerTypes c.src)
    (hx : ∀ t ∈ c.src, t.type ≠ chars! "CONTROL_CHAR" → t.text.all xmlChar = true)
    (hc : CommentsClosed c) {s : PState} (h : Exec c true .driver (PState.init c) s) (hst : s.st = []) {p : PTok}
    (htb : s.tb = [p]) (hp : isEof p.tok = true) :
    ∃ ts, returned s = ts ++ [p.tok] ∧ Balanced ts ∧ Carries ts c.text ∧ ∀ t ∈ ts, t.text.all xmlChar = true := by
  obtain ⟨ts, hr, hb⟩ := C15_all_closed hs he hl hc h hst htb hp
  have hG := exec_good hs he (X := fun t => t.all xmlChar = true) ⟨hl, rfl, hx⟩ h (init_good _ c)
  have hmem : ∀ t ∈ ts, ∃ q ∈ s.queue, q.tok = t := by
    intro t htm
    have : t ∈ returned s := by rw [hr]; simp [htm]
    unfold returned at this
    obtain ⟨q, hq, e⟩ := List.mem_map.1 this
    exact ⟨q, (taken_prefix s).subset (List.mem_of_mem_drop hq), e⟩
  have hgood : ∀ t ∈ ts, GoodTok (fun t => t.all xmlChar = true) t := by
    intro t htm
    obtain ⟨q, hq, rfl⟩ := hmem t htm
    exact hG.toks q hq
  have hcar := carries_of_good ts hgood
  rw [carried_complete hs he h hr hp] at hcar
  have htx : ∀ t ∈ ts, t.text.all xmlChar = true := by
    intro t htm
    have hg := hgood t htm
    unfold GoodTok at hg
    cases hcat : t.category with
    | text => rw [hcat] at hg; exact hg.2.2
    | start => rw [hcat] at hg; rw [hg.1]; rfl
    | end_ => rw [hcat] at hg; rw [hg.1]; rfl
    | empty =>
      rw [hcat] at hg
      rcases hg with ⟨_, h2⟩ | ⟨_, ch, h2, h3⟩
      · rw [h2]; rfl
      · rw [h3]
        have : ∀ n, n < 32 → (controlText n).all xmlChar = true := by decide +kernel
        exact this _ h2
  exact ⟨ts, hr, hb, hcar, htx⟩

/-- C16: parsing, writing and extracting. For every list of lexer tokens and every regular behaviour of the grammar,
once the parse has ended, the document written for the tokens of the parser is well formed XML, and the source text
extracted from it is the text of the lexer's tokens. What is missing for the full property: that the texts of the
lexer's tokens are the source text (the lexer is not modelled), that the grammar is regular, and comments open at the
end of the file. -/
theorem C16_round_trip_partial {c : PConf} (hs : LexerTokens c.src) (he : EofToken c.eof) (hl : LexerTypes c.src)
    (hx : ∀ t ∈ c.src, t.type ≠ chars! "CONTROL_CHAR" → t.text.all xmlChar = true)
    (hc : CommentsClosed c) {s : PState} (h : Exec c true .driver (PState.init c) s) (hst : s.st = []) {p : PTok}
    (htb : s.tb = [p]) (hp : isEof p.tok = true) (o : Out) (m : UnitMeta) (hw : o.w = {})
    (hpre : CleanPrefixes o.namespaces) (hm : CleanMeta m) (ht : o.ThreadAgrees) :
    ∃ ts evs, returned s = ts ++ [p.tok] ∧ readXml (o.unitDocument m ts) = some evs ∧
      extractEvents o.env.escapeName evs = .val c.text := by
  obtain ⟨ts, hr, hb, hcar, htx⟩ := finished_tokens hs he hl hx hc h hst htb hp
  obtain ⟨evs, e1, e2⟩ := C13_unit_round_trip o m ts c.text hb hcar hw hpre hm ht htx
  exact ⟨ts, evs, hr, e1, e2⟩

/-! ### A run -/

/-- `x/*a*/;` -/
def exNest : PConf where
  src := [{ type := chars! "NAME", text := chars! "x", line := 1, column := 1 },
          { type := chars! "BLOCK_COMMENT_START", text := chars! "/*", line := 1, column := 2 },
          { type := chars! "COMMENT_TEXT", text := chars! "a", line := 1, column := 4 },
          { type := chars! "BLOCK_COMMENT_END", text := chars! "*/", line := 1, column := 5 },
          { type := chars! "CONTROL_CHAR", text := ['\x01'], line := 1, column := 7 },
          { type := chars! "TERMINATE", text := chars! ";", line := 1, column := 8 }]
  eof := { type := chars! "EOF", line := 1, column := 9 }
  position := true
  cpp := false

theorem exNest_clean : LexerTokens exNest.src ∧ EofToken exNest.eof ∧ LexerTypes exNest.src ∧
    (∀ t ∈ exNest.src, t.type ≠ chars! "CONTROL_CHAR" → t.text.all xmlChar = true) ∧ CommentsClosed exNest := by
  refine ⟨?_, ⟨by decide, by decide, rfl⟩, ?_, ?_, ?_⟩
  · intro t ht
    simp only [exNest, List.mem_cons, List.not_mem_nil, or_false] at ht
    rcases ht with rfl | rfl | rfl | rfl | rfl | rfl
    all_goals first
      | exact ⟨rfl, by decide, fun h => absurd h (by decide)⟩
      | exact ⟨rfl, by decide, fun _ => ⟨'\x01', rfl, by decide⟩⟩
  · intro t ht
    simp only [exNest, List.mem_cons, List.not_mem_nil, or_false] at ht
    rcases ht with rfl | rfl | rfl | rfl | rfl | rfl
    all_goals first
      | exact .inl (by decide)
      | exact .inr ⟨by decide +kernel, by decide⟩
  · decide
  · have h6 : ∀ k, commentsAt exNest (6 + k) = some [] := by
      intro k
      induction k with
      | zero => decide
      | succ k ih =>
        show (commentsAt exNest (6 + k)).bind _ = _
        rw [ih]
        have : tokAt exNest (6 + k) = exNest.eof := by
          unfold tokAt; rw [List.getElem?_eq_none (by show 6 ≤ 6 + k; omega)]; rfl
        show (some []).bind (fun cs => commentStep cs (tokAt exNest (6 + k)).type) = _
        rw [this]; rfl
    intro n
    rcases Nat.lt_or_ge n 6 with h | h
    · have : ∀ n, n < 6 → ∃ cs, commentsAt exNest n = some cs ∧ ((tokAt exNest n).type ∉ whitespaceTokens → cs = []) := by
        intro n hn
        match n, hn with
        | 0, _ => exact ⟨_, rfl, fun _ => rfl⟩
        | 1, _ => exact ⟨_, rfl, fun _ => rfl⟩
        | 2, _ => exact ⟨_, rfl, by decide⟩
        | 3, _ => exact ⟨_, rfl, by decide⟩
        | 4, _ => exact ⟨_, rfl, fun _ => rfl⟩
        | 5, _ => exact ⟨_, rfl, fun _ => rfl⟩
      exact this n h
    · obtain ⟨k, rfl⟩ : ∃ k, n = 6 + k := ⟨n - 6, by omega⟩
      exact ⟨[], h6 k, fun _ => rfl⟩

/-- The grammar looks ahead over everything, parses an expression statement with a name, and ends all modes. -/
def exNestScript : List (Option Script) :=
  some (.act (.newMode 1)
    (.act (.startElement (chars! "SEXPRESSION_STATEMENT"))
    (.act (.startElement (chars! "SNAME"))
    (.guess (.eat (.skip (.skip (.skip (.skip .stop)))) (.eat .stop .done))
    (.eat (.skip (.skip (.skip (.skip .stop))))
    (.act .endTop
    (.eat .stop
    (.act .endMode (.act .completeSkip (.act .flushSkip (.act .endLastMode
    (.eat .stop .done)))))))))))) :: List.replicate 14 none

/-- The hypotheses of the C15 and C16 theorems are met by a run to the end of the file, with a speculative parse,
a comment, a control character and nested elements. -/
theorem C15_witness : ∃ s p, Exec exNest true .driver (PState.init exNest) s ∧ s.st = [] ∧ s.tb = [p] ∧
    isEof p.tok = true ∧ exNest.text = chars! "x/*a*/" ++ ['\x01', ';'] := by
  have h : (Script.drive exNest true exNestScript (PState.init exNest)).map
      (fun s => (s.st.length, s.tb.map (fun p => isEof p.tok))) = some (0, [true]) := by decide +kernel
  cases hs : Script.drive exNest true exNestScript (PState.init exNest) with
  | none => rw [hs] at h; cases h
  | some s =>
    rw [hs] at h
    simp only [Option.map_some, Option.some.injEq, Prod.mk.injEq] at h
    have hx := Script.drive_sound exNest true exNestScript _ s hs
    obtain ⟨h1, h2⟩ := h
    cases htb : s.tb with
    | nil => rw [htb] at h2; cases h2
    | cons p r =>
      rw [htb] at h2
      simp only [List.map_cons, List.cons.injEq, List.map_eq_nil_iff] at h2
      exact ⟨s, p, hx, List.length_eq_zero_iff.1 h1, by rw [htb, h2.2], h2.1, by decide⟩

example : ∃ s ts evs, Exec exNest true .driver (PState.init exNest) s ∧ (∃ t, returned s = ts ++ [t]) ∧ Balanced ts ∧
    readXml (sampleOut.unitDocument {} ts) = some evs ∧
    extractEvents sampleOut.env.escapeName evs = .val (chars! "x/*a*/" ++ ['\x01', ';']) := by
  obtain ⟨s, p, hx, h1, h2, h3, h4⟩ := C15_witness
  obtain ⟨q1, q2, q3, q4, q5⟩ := exNest_clean
  obtain ⟨ts, evs, r1, r2, r3⟩ := C16_round_trip_partial q1 q2 q3 q4 q5 hx h1 h2 h3 sampleOut {} rfl sample_prefixes
    ⟨by simp, by simp [attrPairs], by simp [attrPairs], by simp [attrPairs]⟩ ⟨Or.inl rfl, Or.inl rfl⟩
  obtain ⟨ts', e1, e2⟩ := C15_all_closed q1 q2 q3 q5 hx h1 h2 h3
  have : ts' = ts := List.append_cancel_right (e1.symm.trans r1)
  subst this
  rw [h4] at r3
  exact ⟨s, ts', evs, hx, ⟨_, r1⟩, e2, r2, r3⟩

end Srcml
