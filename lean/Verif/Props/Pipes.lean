import Verif.Spec.Pipes
import Verif.Proofs.RunSat
set_option linter.unusedSimpArgs false
/-
C87: the steps of the command run at the same time.
-/
namespace Srcml
open Spec

/-- The state of the threads is on the way to the result: `x` is what the first of them has still to read, `z` the result, and there are less than `n` turns to come. -/
inductive OnTheWay {σ : Type} (act : σ → PipeAct σ) : Str → List (PipeStage σ) → Str → Nat → Prop where
  | nil {z} : OnTheWay act z [] z 0
  | run {s x y n rest z m} : s.ended = false → s.closed = false → Makes act s.state x y n → OnTheWay act (s.pipe ++ (s.pending ++ y)) rest z m → OnTheWay act x (s :: rest) z (n + (s.pending ++ y).length + 1 + m)
  | done {s rest z m} : s.ended = true → s.closed = true → s.pending = [] → OnTheWay act s.pipe rest z m → OnTheWay act [] (s :: rest) z m

theorem pipe_keeps {σ : Type} {act : σ → PipeAct σ} {cap : Nat} {up up' : Str} {cl : Bool} {ss ss' : List (PipeStage σ)} (h : PipeStep act cap up cl ss up' ss') : ∀ {fut z : Str} {n : Nat}, (cl = true → fut = []) →
    OnTheWay act (up ++ fut) ss z n → ∃ m, m < n ∧ OnTheWay act (up' ++ fut) ss' z m := by
  induction h with
  | read c d ha hp he hc hl =>
    intro fut z n hf g
    generalize hx : (c ++ d) ++ fut = x at g
    cases g with
    | done h1 => rw [he] at h1; cases h1
    | run h1 h2 h3 h4 =>
      cases h3 with
      | finish h => rw [ha] at h; cases h
      | write h => rw [ha] at h; cases h
      | read h hm hr hn =>
        rw [ha] at h; cases h
        refine ⟨_, ?_, .run h1 h2 (hr c (d ++ fut) hc hl (by rw [← hx]; simp)) h4⟩
        dsimp only; omega
  | eof ha hp he =>
    intro fut z n hf g
    cases hf rfl
    generalize hx : ([] : Str) ++ [] = x at g ⊢
    cases g with
    | done h1 => rw [he] at h1; cases h1
    | run h1 h2 h3 h4 =>
      cases h3 with
      | finish h => rw [ha] at h; cases h
      | write h => rw [ha] at h; cases h
      | read h hm hr hn =>
        rw [ha] at h; cases h
        refine ⟨_, ?_, .run h1 h2 (by have := hn hx.symm; rw [← hx]; exact this) h4⟩
        dsimp only; omega
  | write ha hp he =>
    intro fut z n hf g
    generalize hx : _ ++ fut = x at g ⊢
    cases g with
    | done h1 => rw [he] at h1; cases h1
    | run h1 h2 h3 h4 =>
      cases h3 with
      | finish h => rw [ha] at h; cases h
      | read h => rw [ha] at h; cases h
      | write h hm =>
        rw [ha] at h; cases h
        rw [hp, List.nil_append] at h4
        refine ⟨_, ?_, .run h1 h2 hm h4⟩
        rw [hp]; simp
  | push a b hp ha he hr =>
    intro fut z n hf g
    generalize hx : _ ++ fut = x at g ⊢
    cases g with
    | done h1 => rw [he] at h1; cases h1
    | run h1 h2 h3 h4 =>
      rw [hp] at h4
      refine ⟨_, ?_, .run h1 h2 h3 (by simpa using h4)⟩
      have := List.length_pos_iff.mpr ha
      simp only [hp, List.length_append]; omega
  | finish ha hp he =>
    intro fut z n hf g
    generalize hx : _ ++ fut = x at g ⊢
    cases g with
    | done h1 => rw [he] at h1; cases h1
    | run h1 h2 h3 h4 =>
      cases h3 with
      | read h => rw [ha] at h; cases h
      | write h => rw [ha] at h; cases h
      | finish h =>
        rw [hp] at h4
        refine ⟨_, ?_, .done rfl rfl hp (by simpa using h4)⟩
        omega
  | leave ha hp he =>
    intro fut z n hf g
    generalize hx : _ ++ fut = x at g ⊢
    cases g with
    | done h1 => rw [he] at h1; cases h1
    | run h1 h2 h3 h4 => cases h3 <;> (rename_i h; first | (rw [ha] at h; cases h) | skip) <;> simp_all
  | later h ih =>
    intro fut z n hf g
    generalize hx : _ ++ fut = x at g ⊢
    cases g with
    | done h1 h2 h3 h4 =>
      obtain ⟨m, hm, h5⟩ := ih (fut := []) (fun _ => rfl) (by simpa using h4)
      exact ⟨m, hm, .done h1 h2 h3 (by simpa using h5)⟩
    | run h1 h2 h3 h4 =>
      obtain ⟨m, hm, h5⟩ := ih (by rw [h2]; intro e; cases e) h4
      refine ⟨_, ?_, .run h1 h2 h3 h5⟩
      dsimp only; omega

theorem pipe_moves {σ : Type} {act : σ → PipeAct σ} {cap : Nat} (hcap : 0 < cap) : ∀ {ss : List (PipeStage σ)} {up fut z : Str} {cl : Bool} {n : Nat}, OnTheWay act (up ++ fut) ss z n → (cl = true ∨ up ≠ []) →
    (∃ s ∈ ss, s.ended = false) → ∃ up' ss', PipeStep act cap up cl ss up' ss'
  | [], _, _, _, _, _, _, _, ⟨_, h, _⟩ => by cases h
  | s :: rest, up, fut, z, cl, n, g, hu, hs => by
    generalize hx : up ++ fut = x at g
    cases g with
    | done h1 h2 h3 h4 =>
      have hr : ∃ s ∈ rest, s.ended = false := by
        obtain ⟨t, ht, e⟩ := hs
        rcases List.mem_cons.mp ht with rfl | ht
        · rw [h1] at e; cases e
        · exact ⟨t, ht, e⟩
      obtain ⟨u, r, h⟩ := pipe_moves hcap (fut := []) (up := s.pipe) (cl := s.closed) (by simpa using h4) (.inl h2) hr
      exact ⟨_, _, .later h⟩
    | run h1 h2 h3 h4 =>
      rename_i y k m
      by_cases hp : s.pending = []
      · cases h3 with
        | finish h => exact ⟨_, _, .finish h hp h1⟩
        | write h _ => exact ⟨_, _, .write h hp h1⟩
        | read h hm hr hn =>
          cases up with
          | cons a up => exact ⟨_, _, .read [a] up h hp h1 (by simp) (by simpa using Nat.succ_le_of_lt hm)⟩
          | nil =>
            rcases hu with rfl | hu
            · exact ⟨_, _, .eof h hp h1⟩
            · exact absurd rfl hu
      · obtain ⟨a, b, hab⟩ := List.exists_cons_of_ne_nil hp
        cases rest with
        | nil => exact ⟨_, _, .push s.pending [] (by simp) hp h1 (.inl rfl)⟩
        | cons r rest =>
          by_cases hf : s.pipe.length + 1 ≤ cap
          · exact ⟨_, _, .push [a] b (by simpa using hab) (by simp) h1 (.inr (by simpa using hf))⟩
          · have hne : s.pipe ≠ [] := by intro e; rw [e] at hf; simp at hf; omega
            have hr : ∃ t ∈ r :: rest, t.ended = false := by
              generalize hq : s.pipe ++ (s.pending ++ y) = q at h4
              cases h4 with
              | done => simp_all
              | run e => exact ⟨r, by simp, e⟩
            obtain ⟨u, q, h⟩ := pipe_moves hcap h4 (.inr hne) hr (cl := s.closed)
            exact ⟨_, _, .later h⟩

theorem step_none {σ : Type} {act : σ → PipeAct σ} {cap : Nat} {up up' : Str} {cl : Bool} {ss' : List (PipeStage σ)} : ¬ PipeStep act cap up cl [] up' ss' := by
  intro h
  generalize hr : ([] : List (PipeStage σ)) = r at h
  cases h <;> cases hr

theorem step_ne {σ : Type} {act : σ → PipeAct σ} {cap : Nat} {up up' : Str} {cl : Bool} {ss ss' : List (PipeStage σ)} (h : PipeStep act cap up cl ss up' ss') : ss' ≠ [] := by
  cases h <;> simp

theorem step_up {σ : Type} {act : σ → PipeAct σ} {cap : Nat} {up up' : Str} {cl : Bool} {ss ss' : List (PipeStage σ)} (h : PipeStep act cap up cl ss up' ss') (hu : up = []) : up' = [] := by
  cases h with
  | read c d _ _ _ hc _ => exact absurd (List.append_eq_nil_iff.mp hu).1 hc
  | _ => first | rfl | exact hu

theorem chain_way {σ : Type} {act : σ → PipeAct σ} {x z : Str} {ss : List σ} (h : Chain act x ss z) : ∃ n, OnTheWay act x (ss.map (fun s => { state := s })) z n := by
  induction h with
  | nil => exact ⟨_, .nil⟩
  | cons h _ ih =>
    obtain ⟨n, ih⟩ := ih
    exact ⟨_, .run rfl rfl h (by simpa using ih)⟩

theorem run_way {σ : Type} {act : σ → PipeAct σ} {cap n N : Nat} {z : Str} {start : List σ} {ss : List (PipeStage σ)} (h : PipeRun act cap start n ss) (g : OnTheWay act [] (start.map (fun s => { state := s })) z N) :
    ∃ m, m + n ≤ N ∧ OnTheWay act [] ss z m := by
  induction h with
  | start => exact ⟨N, by omega, g⟩
  | step _ hs ih =>
    obtain ⟨m, hm, ih⟩ := ih
    obtain ⟨k, hk, h⟩ := pipe_keeps hs (fut := []) (fun _ => rfl) ih
    exact ⟨k, by omega, h⟩

theorem way_done {σ : Type} {act : σ → PipeAct σ} {x z : Str} {ss : List (PipeStage σ)} {n : Nat} (h : OnTheWay act x ss z n) : AllEnded ss → ss ≠ [] → x = [] ∧ destination ss = z := by
  induction h with
  | nil => intro _ h; exact absurd rfl h
  | run h1 =>
    intro h _
    have := h _ (List.mem_cons_self ..)
    rw [h1] at this; cases this
  | @done s rest z m h1 h2 h3 h4 ih =>
    intro h _
    refine ⟨rfl, ?_⟩
    cases rest with
    | nil =>
      show s.pipe = z
      generalize s.pipe = q at h4 ⊢
      cases h4; rfl
    | cons r rest =>
      have := (ih (fun t ht => h t (List.mem_cons_of_mem _ ht)) (by simp)).2
      simpa [destination] using this

/-- **C87.** Threads of which each, whatever the pieces in which it gets its input, reads it all and makes a certain text of it, make together the one text that they make one after the other, whatever the order in which they run and
however small the pipes between them. -/
theorem C87_result {σ : Type} {act : σ → PipeAct σ} {cap n : Nat} {start : List σ} {z : Str} {ss : List (PipeStage σ)} (hs : start ≠ []) (hc : Chain act [] start z) (h : PipeRun act cap start n ss) (he : AllEnded ss) :
    destination ss = z := by
  obtain ⟨N, g⟩ := chain_way hc
  obtain ⟨m, _, g⟩ := run_way h g
  refine (way_done g he ?_).2
  rintro rfl
  have : ∀ {n} {ss : List (PipeStage σ)}, PipeRun act cap start n ss → ss ≠ [] := by
    intro n ss h
    induction h with
    | start => simpa using hs
    | step _ h ih =>
      exact step_ne h
  exact this h rfl

/-- **C87.** They do not wait for each other for ever: as long as one has not ended, something can happen. -/
theorem C87_no_deadlock {σ : Type} {act : σ → PipeAct σ} {cap n : Nat} {start : List σ} {z : Str} {ss : List (PipeStage σ)} (hcap : 0 < cap) (hc : Chain act [] start z) (h : PipeRun act cap start n ss) (he : ¬ AllEnded ss) :
    ¬ Blocked act cap ss := by
  obtain ⟨N, g⟩ := chain_way hc
  obtain ⟨m, _, g⟩ := run_way h g
  have : ∃ s ∈ ss, s.ended = false := by
    apply Classical.byContradiction
    intro hn
    exact he (fun s hs => by
      cases hb : s.ended with
      | true => rfl
      | false => exact absurd ⟨s, hs, hb⟩ hn)
  obtain ⟨u, q, hm⟩ := pipe_moves hcap (up := []) (fut := []) (cl := true) g (.inl rfl) this
  intro hst
  have hu : u = [] := by
    exact step_up hm rfl
  rw [hu] at hm
  exact hst _ hm

/-- **C87.** And they end: there is a number of turns that no run has more than. -/
theorem C87_ends {σ : Type} {act : σ → PipeAct σ} {cap : Nat} {start : List σ} {z : Str} (hc : Chain act [] start z) : ∃ N, ∀ n ss, PipeRun act cap start n ss → n ≤ N := by
  obtain ⟨N, g⟩ := chain_way hc
  refine ⟨N, fun n ss h => ?_⟩
  obtain ⟨m, hm, _⟩ := run_way h g
  omega

theorem writing_makes {ζ : Type} (C : Compressor ζ) : ∀ ps : List Str, Makes (StepAt.act C) (.writing ps true) [] ps.flatten ps.length
  | [] => .finish rfl
  | _ :: ps => .write rfl (writing_makes C ps)

theorem loop_makes {ζ : Type} {C : Compressor ζ} {code : ζ → Str → Str} (h : Compresses C code) : ∀ (n : Nat) (x : Str) (z : ζ), x.length ≤ n → Makes (StepAt.act C) (.loop z) x (code z x) (2 * n + 2)
  | n, x, z, hn => by
    refine .read (m := 4092) rfl (by decide) ?_ ?_
    · rintro c d hc - rfl
      obtain ⟨h1, h2⟩ := h.some z c d hc
      rw [h2]
      have hl := List.length_pos_iff.mpr hc
      rw [List.length_append] at hn
      obtain ⟨k, rfl⟩ : ∃ k, n = k + 1 := ⟨n - 1, by omega⟩
      refine .write (n := 2 * k + 2) rfl ?_
      rw [if_neg h1]
      exact loop_makes h k d _ (by omega)
    · rintro rfl
      rw [h.none]
      have : Makes (StepAt.act C) (.last z) [] (C.trailer z ++ []) (2 * n + 1) := .write rfl (.finish rfl)
      simpa using this

theorem compress_makes {ζ : Type} {C : Compressor ζ} {code : ζ → Str → Str} (h : Compresses C code) (x : Str) : Makes (StepAt.act C) (.opened C.start) x (C.header ++ code C.start x) (2 * x.length + 3) :=
  .write rfl (loop_makes h _ x _ (Nat.le_refl _))

/-- **C87.** srcML that is compressed: the destination gets the compressed form of just the text that `create_srcml` writes, whatever the pieces in which it is written, the room in the pipe, and the order in which the threads run; they end. -/
theorem C87_compressed {ζ : Type} {C : Compressor ζ} {code : ζ → Str → Str} (h : Compresses C code) (pieces : List Str) (cap : Nat) (hcap : 0 < cap) :
    let start := [ProcStep.createSrcml, .compress].map (ProcStep.thread C pieces)
    (∀ n ss, PipeRun (StepAt.act C) cap start n ss → AllEnded ss → destination ss = C.header ++ code C.start pieces.flatten) ∧
    (∀ n ss, PipeRun (StepAt.act C) cap start n ss → ¬ AllEnded ss → ¬ Blocked (StepAt.act C) cap ss) ∧ ∃ N, ∀ n ss, PipeRun (StepAt.act C) cap start n ss → n ≤ N := by
  have hc : Chain (StepAt.act C) [] ([ProcStep.createSrcml, .compress].map (ProcStep.thread C pieces)) (C.header ++ code C.start pieces.flatten) :=
    .cons (writing_makes C pieces) (.cons (compress_makes h _) .nil)
  exact ⟨fun n ss hr he => C87_result (by simp) hc hr he, fun n ss hr he => C87_no_deadlock hcap hc hr he, C87_ends hc⟩

/-- **C87.** These are the steps of a command whose output is a srcML document with a compression, when no metadata and no source code is asked for. -/
theorem C87_steps (r : Request) (hs : r.output.state = .srcml) (hc : r.output.compressions ≠ []) (hm : r.inSrcml = false ∧ r.xmlnsPrefixQuery = none ∧ r.prettyFormat = none) (ho : r.src = false) :
    pipeline r = [.createSrcml, .compress] := by
  have hl := List.length_pos_iff.mpr hc
  have h1 : request_create_srcml r = true := by unfold request_create_srcml; simp [hs]
  have h2 : request_display_metadata r = false := by unfold request_display_metadata; simp [hm]
  have h3 : request_create_src r = false := by unfold request_create_src; simp [ho, h1]
  have h4 : request_output_compression r = true := by unfold request_output_compression; exact decide_eq_true hl
  simp [pipeline, h1, h2, h3, h4]

/-- A compressor that stores the text. -/
def storing : Compressor Unit := { start := (), header := "gz:".toList, data := fun _ c => ((), c, c.length), trailer := fun _ => ".".toList }

example : Compresses storing (fun _ x => x ++ ".".toList) :=
  ⟨fun _ => rfl, fun _ c d h => ⟨by simpa [storing] using h, by simp [storing]⟩⟩

example : pipeline { output := { state := .srcml, compressions := [".gz".toList] }, inputs := [{ state := .src }] } = [.createSrcml, .compress] := by decide

/-- The compressor never ends as long as the pipe that it reads is not closed. -/
structure Waits {ζ : Type} (ss : List (PipeStage (StepAt ζ))) : Prop where
  two : ∃ a b, ss = [a, b] ∧ (∃ ps, a.state = .writing ps false) ∧ a.closed = false ∧ b.ended = false ∧ ((∃ z, b.state = .opened z) ∨ (∃ z, b.state = .loop z) ∨ ∃ o st z, b.state = .wrote o st z ∧ st ≠ 0)

theorem waits_keeps {ζ : Type} {C : Compressor ζ} {code : ζ → Str → Str} (hC : Compresses C code) {cap : Nat} {up up' : Str} {cl : Bool} {ss ss' : List (PipeStage (StepAt ζ))} (h : Waits ss) (hs : PipeStep (StepAt.act C) cap up cl ss up' ss') : Waits ss' := by
  obtain ⟨a, b, rfl, ⟨ps, ha⟩, hc, he, hb⟩ := h
  cases hs with
  | read c d h | eof h | finish h =>
    rw [ha] at h
    cases ps <;> cases h
  | write h =>
    rw [ha] at h
    cases ps with
    | nil => cases h
    | cons p ps => cases h; exact ⟨_, _, rfl, ⟨_, rfl⟩, hc, he, hb⟩
  | push => exact ⟨_, _, rfl, ⟨_, ha⟩, hc, he, hb⟩
  | leave => exact ⟨_, _, rfl, ⟨_, ha⟩, hc, he, hb⟩
  | later h =>
    generalize hr : ([b] : List _) = r at h
    generalize hq : a.pipe = q at h
    generalize hz : a.closed = cl at h
    cases h with
    | read c d h hp h1 hne hl =>
      cases hr
      refine ⟨_, _, rfl, ⟨_, ha⟩, hz ▸ hc, h1, ?_⟩
      rcases hb with ⟨z, hb⟩ | ⟨z, hb⟩ | ⟨o, st, z, hb, _⟩ <;> rw [hb] at h <;> cases h
      exact .inr (.inr ⟨_, _, _, rfl, (hC.some z c c hne).1⟩)
    | eof h => rw [hc] at hz; cases hz
    | write h hp h1 =>
      cases hr
      refine ⟨_, _, rfl, ⟨_, ha⟩, hz ▸ hc, h1, ?_⟩
      rcases hb with ⟨z, hb⟩ | ⟨z, hb⟩ | ⟨o, st, z, hb, hst⟩ <;> rw [hb] at h <;> cases h
      · exact .inr (.inl ⟨_, rfl⟩)
      · rw [if_neg hst]; exact .inr (.inl ⟨_, rfl⟩)
    | push => cases hr; exact ⟨_, _, rfl, ⟨_, ha⟩, hz ▸ hc, he, hb⟩
    | finish h | leave h =>
      cases hr
      rcases hb with ⟨z, hb⟩ | ⟨z, hb⟩ | ⟨o, st, z, hb, hst⟩ <;> rw [hb] at h <;> cases h
    | later h => cases hr; exact absurd h step_none

/-- **C87.** Source code or metadata that is to be compressed: the command never ends, whatever the text and the order in which the threads run. The step that makes the source code does not close the pipe, and so the one that compresses
it waits for ever for its end. -/
theorem C87_finding_source {ζ : Type} {C : Compressor ζ} {code : ζ → Str → Str} (hC : Compresses C code) (pieces : List Str) (cap n : Nat) (step : ProcStep) (hstep : step = .createSrc ∨ step = .displayMetadata)
    {ss : List (PipeStage (StepAt ζ))} (h : PipeRun (StepAt.act C) cap ([step, .compress].map (ProcStep.thread C pieces)) n ss) : ¬ AllEnded ss := by
  have hw : Waits ss := by
    induction h with
    | start =>
      rcases hstep with rfl | rfl
      · exact ⟨_, _, rfl, ⟨_, rfl⟩, rfl, rfl, .inl ⟨_, rfl⟩⟩
      · exact ⟨_, _, rfl, ⟨_, rfl⟩, rfl, rfl, .inl ⟨_, rfl⟩⟩
    | step _ hs ih => exact waits_keeps hC ih hs
  obtain ⟨a, b, rfl, _, _, he, _⟩ := hw
  intro hall
  have := hall b (by simp)
  rw [he] at this
  cases this

/-- These are the steps for `srcml a.xml -o a.c.gz`. -/
example : pipeline { output := { state := .src, compressions := [".gz".toList] }, inputs := [{ state := .srcml }] } = [.createSrc, .compress] := by decide

/-- The state of the threads when `archive_write_data` gives zero: of the text at most 4092 characters are read. -/
structure Stopped {ζ : Type} (text : Str) (cap : Nat) (ss : List (PipeStage (StepAt ζ))) : Prop where
  two : ∃ a b ps taken, ss = [a, b] ∧ a.state = .writing ps true ∧ text = taken ++ (a.pipe ++ (a.pending ++ ps.flatten)) ∧ a.pipe.length ≤ cap ∧ (a.ended = true → a.pending = [] ∧ ps = []) ∧
    (((∃ z, b.state = .opened z ∨ b.state = .loop z) ∧ taken = []) ∨ (((∃ o z, b.state = .wrote o 0 z) ∨ (∃ z, b.state = .last z) ∨ b.state = .done) ∧ taken.length ≤ 4092))

theorem stopped_keeps {ζ : Type} {C : Compressor ζ} (h0 : ∀ z c, (C.data z c).2.2 = 0) {text : Str} {cap : Nat} {up up' : Str} {cl : Bool} {ss ss' : List (PipeStage (StepAt ζ))} (h : Stopped text cap ss) (hs : PipeStep (StepAt.act C) cap up cl ss up' ss') : Stopped text cap ss' := by
  obtain ⟨a, b, ps, taken, rfl, ha, ht, hc, he, hb⟩ := h
  cases hs with
  | read c d h | eof h | leave h =>
    rw [ha] at h
    cases ps <;> cases h
  | write h hp h1 =>
    rw [ha] at h
    cases ps with
    | nil => cases h
    | cons p ps =>
      cases h
      refine ⟨_, _, _, _, rfl, rfl, ?_, hc, fun e => ?_, hb⟩
      · rw [ht, hp]; simp
      · rw [h1] at e; cases e
  | push u v hp hu h1 hr =>
    refine ⟨_, _, _, _, rfl, ha, ?_, ?_, fun e => ?_, hb⟩
    · rw [ht, hp]; simp
    · rcases hr with hr | hr
      · cases hr
      · simpa using hr
    · rw [h1] at e; cases e
  | finish h hp h1 =>
    rw [ha] at h
    cases ps with
    | nil => exact ⟨_, _, _, _, rfl, ha, ht, hc, fun _ => ⟨hp, rfl⟩, hb⟩
    | cons p ps => cases h
  | later h =>
    generalize hr : ([b] : List _) = r at h
    generalize hq : a.pipe = q at h
    generalize hz : a.closed = cl at h
    cases h with
    | read c d h hp h1 hne hl =>
      cases hr
      rw [hq] at ht hc
      refine ⟨_, _, _, taken ++ c, rfl, ha, ?_, ?_, he, ?_⟩
      · rw [ht]; simp
      · simp only [List.length_append] at hc; dsimp only; omega
      · rcases hb with ⟨⟨z, hb | hb⟩, rfl⟩ | ⟨⟨o, z, hb⟩ | ⟨z, hb⟩ | hb, _⟩ <;> rw [hb] at h <;> cases h
        exact .inr ⟨.inl ⟨(C.data z c).2.1, (C.data z c).1, by rw [← h0 z c]⟩, by simpa using hl⟩
    | eof h hp h1 =>
      cases hr
      refine ⟨_, _, ps, taken, rfl, ha, ?_, by simp, he, ?_⟩
      · rw [ht, hq]
      · rcases hb with ⟨⟨z, hb | hb⟩, rfl⟩ | ⟨⟨o, z, hb⟩ | ⟨z, hb⟩ | hb, _⟩ <;> rw [hb] at h <;> cases h
        exact .inr ⟨.inr (.inl ⟨_, rfl⟩), by simp⟩
    | write h hp h1 =>
      cases hr
      refine ⟨_, _, _, _, rfl, ha, by rw [ht, hq], by rw [← hq]; exact hc, he, ?_⟩
      rcases hb with ⟨⟨z, hb | hb⟩, rfl⟩ | ⟨⟨o, z, hb⟩ | ⟨z, hb⟩ | hb, hl⟩ <;> rw [hb] at h <;> cases h
      · exact .inl ⟨⟨_, .inr rfl⟩, rfl⟩
      · exact .inr ⟨.inr (.inl ⟨z, by simp⟩), hl⟩
      · exact .inr ⟨.inr (.inr rfl), hl⟩
    | push => cases hr; exact ⟨_, _, _, _, rfl, ha, by rw [ht, hq], by rw [← hq]; exact hc, he, hb⟩
    | finish h => cases hr; exact ⟨_, _, _, _, rfl, ha, by rw [ht, hq], by rw [← hq]; exact hc, he, hb⟩
    | leave h => cases hr; exact ⟨_, _, _, _, rfl, ha, by rw [ht, hq], by rw [← hq]; exact hc, he, hb⟩
    | later h => cases hr; exact absurd h step_none

/-- **C87.** Nor does it end when libarchive writes nothing of a piece of the text: the step that compresses ends without reading the rest and without closing the pipe, and `create_srcml` waits for ever for room in it if the text is
longer. -/
theorem C87_finding_zero {ζ : Type} {C : Compressor ζ} (h0 : ∀ z c, (C.data z c).2.2 = 0) (pieces : List Str) (cap n : Nat) (hl : cap + 4092 < pieces.flatten.length)
    {ss : List (PipeStage (StepAt ζ))} (h : PipeRun (StepAt.act C) cap ([ProcStep.createSrcml, .compress].map (ProcStep.thread C pieces)) n ss) : ¬ AllEnded ss := by
  have hw : Stopped pieces.flatten cap ss := by
    induction h with
    | start => exact ⟨_, _, _, [], rfl, rfl, by simp [ProcStep.thread], by simp, (by intro e; cases e), .inl ⟨⟨_, .inl rfl⟩, rfl⟩⟩
    | step _ hs ih => exact stopped_keeps h0 ih hs
  obtain ⟨a, b, ps, taken, rfl, _, ht, hc, he, hb⟩ := hw
  intro hall
  obtain ⟨h1, rfl⟩ := he (hall a (by simp))
  have : taken.length ≤ 4092 := by
    rcases hb with ⟨_, rfl⟩ | ⟨_, h⟩
    · simp
    · exact h
  rw [h1] at ht
  rw [ht] at hl
  simp only [List.length_append, List.flatten_nil, List.length_nil] at hl
  omega

/-- A compressor whose output cannot be written: `archive_write_data` gives `ARCHIVE_FATAL`. -/
def noDisk : Compressor Unit := { start := (), header := [], data := fun _ _ => ((), [], -30), trailer := fun _ => [] }

/-- **C87.** An error of libarchive is not seen: the command ends as if all was well, and the destination has nothing of the text. -/
theorem C87_finding_error (pieces : List Str) (cap n : Nat) {ss : List (PipeStage (StepAt Unit))} (h : PipeRun (StepAt.act noDisk) cap ([ProcStep.createSrcml, .compress].map (ProcStep.thread noDisk pieces)) n ss)
    (he : AllEnded ss) : destination ss = [] := by
  have hC : Compresses noDisk (fun _ _ => []) := ⟨fun _ => rfl, fun _ _ _ _ => ⟨show (-30 : Int) ≠ 0 by decide, rfl⟩⟩
  have hc : Chain (StepAt.act noDisk) [] ([ProcStep.createSrcml, .compress].map (ProcStep.thread noDisk pieces)) [] :=
    .cons (writing_makes noDisk pieces) (.cons (compress_makes hC _) .nil)
  exact C87_result (by simp) hc h he

end Srcml
