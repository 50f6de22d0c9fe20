import Verif.Spec.InputPipes
import Verif.Props.Pipes
/-
C91: inputs that come through threads and pipes.
-/
set_option linter.unusedSimpArgs false
namespace Srcml
open Spec

variable {δ ρ ζ : Type} {D : Decoder δ} {R : ρ → PipeAct ρ} {C : Compressor ζ}

theorem map_makes {σ τ : Type} {act : σ → PipeAct σ} {act2 : τ → PipeAct τ} {f : σ → τ} (hf : ∀ s, act2 (f s) = (act s).map f) {s : σ} {x y : Str} {n : Nat} (h : Makes act s x y n) : Makes act2 (f s) x y n := by
  induction h with
  | finish h => exact .finish (by rw [hf, h]; rfl)
  | write h _ ih => exact .write (by rw [hf, h]; rfl) ih
  | read h hm _ _ ih1 ih2 => exact .read (by rw [hf, h]; rfl) hm ih1 ih2

theorem decode_makes {d : δ} {x y : Str} {n : Nat} (h : Unpacks D d x y n) : Makes (InputAt.act D R C) (.decode d) x y n := by
  induction h with
  | stop h => exact .finish (by unfold InputAt.act; dsimp only; rw [h])
  | block h _ ih => exact .write (by unfold InputAt.act; dsimp only; rw [h]) ih
  | more h _ _ ih1 ih2 => exact .read (m := 16384) (by unfold InputAt.act; dsimp only; rw [h]) (by decide) ih1 ih2

theorem file_makes {d : δ} {x y : Str} {n : Nat} (h : Unpacks D d x y n) : Makes (InputAt.act D R C) (.file d x) [] y n := by
  induction h with
  | stop h => exact .finish (by unfold InputAt.act; dsimp only; rw [h])
  | block h _ ih => exact .write (by unfold InputAt.act; dsimp only; rw [h]) ih
  | @more d k x y n h _ _ ih1 ih2 =>
    have e : InputAt.act D R C (.file d x) = .write [] (if x = [] then .file (k none) [] else .file (k (some (x.take 16384))) (x.drop 16384)) := by
      unfold InputAt.act; dsimp only; rw [h]
    have := Makes.write (y := y) (x := []) (n := n) e ?_
    · simpa using this
    · by_cases hx : x = []
      · rw [if_pos hx]; exact ih2 hx
      · rw [if_neg hx]
        exact ih1 _ _ (by cases x with | nil => exact absurd rfl hx | cons a x => simp) (by rw [List.length_take]; omega) (List.take_append_drop ..).symm

theorem pieces_makes : ∀ ps : List Str, Makes (InputAt.act D R C) (.pieces ps) [] ps.flatten ps.length
  | [] => .finish rfl
  | _ :: ps => .write rfl (pieces_makes ps)

theorem reader_makes {r : ρ} {x y : Str} {n : Nat} (h : Makes R r x y n) : Makes (InputAt.act D R C) (.reader r) x y n := map_makes (act2 := InputAt.act D R C) (f := InputAt.reader) (fun _ => rfl) h

theorem step_makes {s : StepAt ζ} {x y : Str} {n : Nat} (h : Makes (StepAt.act C) s x y n) : Makes (InputAt.act D R C) (.step s) x y n := map_makes (act2 := InputAt.act D R C) (f := InputAt.step) (fun _ => rfl) h

theorem input_chain {address : Option (List Str)} {packed : Bool} {text doc z : Str} {rest : List (InputAt δ ρ ζ)} (h : Gives D address packed text doc) (hr : Chain (InputAt.act D R C) doc rest z) :
    Chain (InputAt.act D R C) [] (inputThreads D address packed text ++ rest) z := by
  unfold Gives at h
  cases address with
  | none =>
    cases packed with
    | true => obtain ⟨n, h⟩ := h; exact .cons (file_makes h) hr
    | false =>
      have h : text = doc := h
      subst h
      exact .cons (pieces_makes [text]) (by simpa using hr)
  | some blocks =>
    cases packed with
    | true => obtain ⟨n, h⟩ := h; exact .cons (pieces_makes blocks) (.cons (decode_makes h) hr)
    | false =>
      have h : blocks.flatten = doc := h
      subst h
      exact .cons (pieces_makes blocks) hr

/-- **C91.** A srcML document that comes from an address, is compressed, or both: if the step that reads it makes the text `z` of the document, whatever the pieces in which it gets it, then `z` is what the destination gets, just as for
the plain file, and compressed if the output is to be compressed; whatever the blocks of the download, the room in the pipes and the order in which the threads run. They do not wait for each other for ever, and they end. -/
theorem C91_input {code : ζ → Str → Str} (hC : Compresses C code) (address : Option (List Str)) (packed compress : Bool) (text doc z : Str) (r : ρ) (m cap : Nat) (hcap : 0 < cap)
    (hin : Gives D address packed text doc) (hr : Makes R r doc z m) :
    let start := inputThreads D address packed text ++ (.reader r :: if compress then [.step (.opened C.start)] else [])
    (∀ n ss, PipeRun (InputAt.act D R C) cap start n ss → AllEnded ss → destination ss = if compress then C.header ++ code C.start z else z) ∧
    (∀ n ss, PipeRun (InputAt.act D R C) cap start n ss → ¬ AllEnded ss → ¬ Blocked (InputAt.act D R C) cap ss) ∧
    ∃ N, ∀ n ss, PipeRun (InputAt.act D R C) cap start n ss → n ≤ N := by
  intro start
  have hc : Chain (InputAt.act D R C) [] start (if compress then C.header ++ code C.start z else z) := by
    refine input_chain hin (.cons (reader_makes hr) ?_)
    cases compress with
    | true => exact .cons (step_makes (compress_makes hC z)) .nil
    | false => exact .nil
  have hne : start ≠ [] := by
    intro e
    have := congrArg List.length e
    simp [start] at this
  exact ⟨fun n ss h he => C87_result hne hc h he, fun n ss h he => C87_no_deadlock hcap hc h he, C87_ends hc⟩

/-! ### When a thread does not read all -/

/-- Two threads, of which the first has `y` to write and the second asks for at most `k` characters. -/
def Leftover {σ : Type} (act : σ → PipeAct σ) (y : Str) (k cap : Nat) (ss : List (PipeStage σ)) : Prop :=
  ∃ a b taken rest n j, ss = [a, b] ∧ y = taken ++ (a.pipe ++ (a.pending ++ rest)) ∧ Makes act a.state [] rest n ∧ a.pipe.length ≤ cap ∧ (a.ended = true → a.pending = [] ∧ rest = []) ∧ a.closed = a.ended ∧
    Takes act b.state (a.pipe ++ (a.pending ++ rest)) j ∧ taken.length + j ≤ k

theorem leftover_keeps {σ : Type} {act : σ → PipeAct σ} {y : Str} {k cap : Nat} {ss ss' : List (PipeStage σ)} {up up' : Str} (hup : up = []) (h : PipeStep act cap up true ss up' ss') (g : Leftover act y k cap ss) : Leftover act y k cap ss' := by
  obtain ⟨a, b, taken, rest, n, j, rfl, hy, hm, hp, he, hcl, ht, hk⟩ := g
  generalize hr : [a, b] = r at h
  generalize hb : true = cl at h
  cases h with
  | read c d ha hpe hen hc hl => exact absurd (List.append_eq_nil_iff.mp hup).1 hc
  | eof ha hpe hen =>
    cases hr
    generalize hx : ([] : Str) = x at hm
    cases hm with
    | finish h => rw [ha] at h; cases h
    | write h => rw [ha] at h; cases h
    | read h _ _ hn =>
      rw [ha] at h; cases h
      exact ⟨_, _, taken, rest, _, j, rfl, hy, hn hx.symm, hp, by rw [hen]; simp, hcl, ht, hk⟩
  | write ha hpe hen =>
    cases hr
    generalize hx : ([] : Str) = x at hm
    cases hm with
    | finish h => rw [ha] at h; cases h
    | read h => rw [ha] at h; cases h
    | write h hm =>
      rw [ha] at h; cases h
      exact ⟨_, _, taken, _, _, j, rfl, by rw [hy, hpe]; simp, hx ▸ hm, hp, by dsimp only; rw [hen]; simp, hcl, by rw [hpe] at ht; simpa using ht, hk⟩
  | push p q hpe hne hen hroom =>
    cases hr
    refine ⟨_, _, taken, rest, n, j, rfl, by rw [hy, hpe]; simp, hm, ?_, by dsimp only; rw [hen]; simp, hcl, by rw [hpe] at ht; simpa using ht, hk⟩
    rcases hroom with h | h
    · cases h
    · simpa using h
  | finish ha hpe hen =>
    cases hr
    generalize hx : ([] : Str) = x at hm
    cases hm with
    | finish h => exact ⟨_, _, taken, [], n, j, rfl, by rw [hy, hx], .finish h, hp, fun _ => ⟨hpe, rfl⟩, rfl, hx ▸ ht, hk⟩
    | write h => rw [ha] at h; cases h
    | read h => rw [ha] at h; cases h
  | leave ha hpe hen =>
    cases hr
    generalize hx : ([] : Str) = x at hm
    cases hm with
    | finish h => rw [ha] at h; cases h
    | write h => rw [ha] at h; cases h
    | read h => rw [ha] at h; cases h
  | later h =>
    cases hr
    generalize hr : [b] = r at h
    generalize hq : a.pipe = q at h
    generalize hw : a.closed = w at h
    cases h with
    | read c d ha hpe hen hc hl =>
      cases hr
      cases ht with
      | finish h => rw [ha] at h; cases h
      | leave h => rw [ha] at h; cases h
      | write h => rw [ha] at h; cases h
      | read h _ hmj hs hn =>
        rw [ha] at h; cases h
        refine ⟨_, _, taken ++ c, rest, n, _, rfl, by rw [hy, hq]; simp, hm, ?_, he, (hw ▸ hcl), hs c _ hc hl (by rw [hq]; simp), ?_⟩
        · rw [hq] at hp; simp at hp ⊢; omega
        · simp; omega
    | eof ha hpe hen =>
      cases hr
      cases ht with
      | finish h => rw [ha] at h; cases h
      | leave h => rw [ha] at h; cases h
      | write h => rw [ha] at h; cases h
      | read h _ hmj hs hn =>
        rw [ha] at h; cases h
        obtain ⟨h1, h2⟩ := he (by rw [← hcl, hw])
        refine ⟨_, _, taken, rest, n, _, rfl, by rw [hy, hq], hm, by simp, he, (hw ▸ hcl), ?_, hk⟩
        have h3 : a.pipe ++ (a.pending ++ rest) = [] := by rw [hq, h1, h2]; rfl
        have := hn h3
        dsimp only
        rw [h1, h2]
        exact this
    | write ha hpe hen =>
      cases hr
      cases ht with
      | finish h => rw [ha] at h; cases h
      | leave h => rw [ha] at h; cases h
      | read h => rw [ha] at h; cases h
      | write h ht =>
        rw [ha] at h; cases h
        exact ⟨_, _, taken, rest, n, _, rfl, by rw [hy, hq], hm, hq ▸ hp, he, (hw ▸ hcl), (hq ▸ ht), hk⟩
    | push p q hpe hne hen hroom => cases hr; exact ⟨_, _, taken, rest, n, _, rfl, by rw [hy, hq], hm, hq ▸ hp, he, (hw ▸ hcl), (hq ▸ ht), hk⟩
    | finish ha hpe hen => cases hr; exact ⟨_, _, taken, rest, n, _, rfl, by rw [hy, hq], hm, hq ▸ hp, he, (hw ▸ hcl), (hq ▸ ht), hk⟩
    | leave ha hpe hen => cases hr; exact ⟨_, _, taken, rest, n, _, rfl, by rw [hy, hq], hm, hq ▸ hp, he, (hw ▸ hcl), (hq ▸ ht), hk⟩
    | later h => cases hr; exact absurd h step_none

theorem leftover_run {σ : Type} {act : σ → PipeAct σ} {y : Str} {k cap n m : Nat} {a b : σ} (ha : Makes act a [] y m) (hb : Takes act b y k) {ss : List (PipeStage σ)} (h : PipeRun act cap [a, b] n ss) : Leftover act y k cap ss := by
  induction h with
  | start => exact ⟨_, _, [], y, m, k, rfl, by simp, ha, by simp, (by intro e; cases e), rfl, by simpa using hb, by simp⟩
  | step _ hs ih => exact leftover_keeps rfl hs ih

/-- A thread that asks only for a part of what the one before it writes: if the rest has no room in the pipe, not all threads end; and when nothing can happen any more, a thread has something to write and nobody reads it. -/
theorem C91_leftover {σ : Type} {act : σ → PipeAct σ} {y : Str} {k cap m : Nat} {a b : σ} (hcap : 0 < cap) (ha : Makes act a [] y m) (hb : Takes act b y k) (hl : k + cap < y.length) :
    ∀ n ss, PipeRun act cap [a, b] n ss → ¬ AllEnded ss ∧ (Blocked act cap ss → Broken ss) := by
  intro n ss h
  obtain ⟨a, b, taken, rest, n, j, rfl, hy, hm, hp, he, hcl, ht, hk⟩ := leftover_run ha hb h
  have hnot : a.ended = false := by
    cases hx : a.ended with
    | false => rfl
    | true =>
      obtain ⟨h1, h2⟩ := he hx
      rw [h1, h2] at hy
      have := congrArg List.length hy
      simp at this
      omega
  constructor
  · intro hall
    have := hall a (by simp)
    rw [hnot] at this; cases this
  · intro hs
    have hpend : a.pending ≠ [] := by
      intro hp0
      generalize hx : ([] : Str) = x at hm
      cases hm with
      | finish h => exact hs _ (.finish h hp0 hnot)
      | write h => exact hs _ (.write h hp0 hnot)
      | read h => exact hs _ (.eof h hp0 hnot)
    have hpipe : a.pipe ≠ [] := by
      intro hp0
      obtain ⟨c, q, hq⟩ := List.exists_cons_of_ne_nil hpend
      exact hs _ (.push [c] q (by simpa using hq) (by simp) hnot (.inr (by rw [hp0]; simp; omega)))
    refine ⟨[], a, b, [], rfl, hnot, hpend, ?_⟩
    cases hx : b.ended with
    | true => rfl
    | false =>
      exfalso
      by_cases hb0 : b.pending = []
      · cases ht with
        | finish h => exact hs _ (.later (.finish h hb0 hx))
        | leave h => exact hs _ (.later (.leave h hb0 hx))
        | write h => exact hs _ (.later (.write h hb0 hx))
        | read h h0 _ _ _ =>
          obtain ⟨c, q, hq⟩ := List.exists_cons_of_ne_nil hpipe
          have := PipeStep.read (act := act) (cap := cap) (s := b) (rest := []) (cl := a.closed) [c] q h hb0 hx (by simp) (by simp; omega)
          rw [show [c] ++ q = a.pipe from by rw [hq]; rfl] at this
          exact hs _ (.later this)
      · exact hs _ (.later (.push b.pending [] (by simp) hb0 hx (.inl rfl)))

/-! ### What that means for the command -/

/-- A step that reads one block of the document, as libxml2 does, writes something of it and ends, because a unit was asked for that is in it. -/
inductive OneBlock where
  | start
  | got (text : Str)
  | done

def OneBlock.act : OneBlock → PipeAct OneBlock
  | .start => .read 4000 (fun c => .got (c.getD []))
  | .got text => .write text .done
  | .done => .finish

theorem oneBlock_takes (x : Str) : Takes (InputAt.act D OneBlock.act C) (.reader .start) x 4000 :=
  .read (m := 4000) rfl (by decide) (by decide) (fun c _ _ _ _ => .write (t := .reader .done) rfl (.finish rfl)) (fun _ => .write (t := .reader .done) rfl (.finish rfl))

/-- **C91**, one unit of a packed document (`--unit`). As soon as the unit was found nothing more is read. If the rest of the document has no room in the pipe, the thread that unpacks it waits to write it: the command does not end, and the thread
is left writing to a pipe that nobody reads. If libxml2 closes what it has read from, as most of its versions do, this ends the process by a signal (SIGPIPE), before the output is complete. -/
theorem C91_finding_unit (cap : Nat) (hcap : 0 < cap) (text doc : Str) (m : Nat) (hd : Unpacks D D.start text doc m) (hl : 4000 + cap < doc.length) :
    ∀ n ss, PipeRun (InputAt.act D OneBlock.act C) cap (inputThreads D none true text ++ [.reader .start]) n ss → ¬ AllEnded ss ∧ (Blocked (InputAt.act D OneBlock.act C) cap ss → Broken ss) :=
  C91_leftover hcap (file_makes hd) (oneBlock_takes doc) hl

/-- A format that ends with a point, and libarchive for it. -/
inductive DotState where
  | idle
  | have_ (text : Str)
  | last (text : Str)
  | ended

def dotDecoder : Decoder DotState where
  start := .idle
  next
    | .idle => .more (fun c => match c with
      | none => .ended
      | some c => if '.' ∈ c then .last (c.takeWhile (fun x => x ≠ '.')) else .have_ c)
    | .have_ c => .block c .idle
    | .last c => .block c .ended
    | .ended => .stop

theorem takeWhile_dot : ∀ {c r p q : Str}, c ++ r = p ++ '.' :: q → '.' ∉ p → '.' ∈ c → c.takeWhile (fun x => x ≠ '.') = p
  | [], _, _, _, _, _, h => by cases h
  | a :: c, r, [], q, he, _, _ => by
    simp only [List.nil_append, List.cons_append, List.cons.injEq] at he
    rw [he.1]; simp
  | a :: c, r, b :: p, q, he, hp, hc => by
    simp only [List.cons_append, List.cons.injEq] at he
    have hb : b ≠ '.' := fun e => hp (by rw [e]; exact List.mem_cons_self ..)
    obtain ⟨rfl, he⟩ := he
    have hc : '.' ∈ c := by
      rcases List.mem_cons.mp hc with h | h
      · exact absurd h.symm hb
      · exact h
    rw [List.takeWhile_cons, if_pos (by simpa using hb), takeWhile_dot he (fun h => hp (List.mem_cons_of_mem _ h)) hc]

theorem split_dot : ∀ {c r p q : Str}, c ++ r = p ++ '.' :: q → '.' ∉ c → ∃ p', p = c ++ p' ∧ r = p' ++ '.' :: q
  | [], _, p, _, he, _ => ⟨p, rfl, he⟩
  | a :: c, r, [], q, he, hc => by
    simp only [List.nil_append, List.cons_append, List.cons.injEq] at he
    exact absurd (by rw [he.1]; exact List.mem_cons_self ..) hc
  | a :: c, r, b :: p, q, he, hc => by
    simp only [List.cons_append, List.cons.injEq] at he
    obtain ⟨rfl, he⟩ := he
    obtain ⟨p', h1, h2⟩ := split_dot he (fun h => hc (List.mem_cons_of_mem _ h))
    exact ⟨p', by rw [h1]; rfl, h2⟩

/-- It unpacks what is in front of the point. -/
theorem dot_unpacks : ∀ (n : Nat) (p : Str), p.length ≤ n → '.' ∉ p → Unpacks dotDecoder .idle (p ++ ['.']) p (2 * n + 2)
  | n, p, hn, hp => by
    refine .more rfl ?_ (by intro h; simp at h)
    intro c r hc _ he
    by_cases hd : '.' ∈ c
    · have h1 := takeWhile_dot he.symm hp hd
      have hr : r = [] := by
        have h2 := congrArg (fun l => l.drop p.length) he
        simp only [List.drop_left] at h2
        obtain ⟨c1, c2, rfl⟩ := List.append_of_mem hd
        have hlen := congrArg List.length he
        have hle : p.length ≤ c1.length := by
          apply Classical.byContradiction
          intro hlt
          have : (p ++ ['.'])[c1.length]? = some '.' := by rw [he]; simp
          rw [List.getElem?_append_left (by omega)] at this
          exact hp (List.mem_of_getElem? this)
        simp at hlen
        exact List.length_eq_zero_iff.mp (by omega)
      subst hr
      dsimp only
      rw [if_pos hd, h1]
      have := Unpacks.block (D := dotDecoder) (d := .last p) (t := p) (e := .ended) (x := []) (y := []) (n := 2 * n) rfl (.stop rfl)
      simpa using this
    · obtain ⟨p', rfl, rfl⟩ := split_dot he.symm hd
      dsimp only
      rw [if_neg hd]
      have h0 : 0 < c.length := List.length_pos_iff.mpr hc
      have hlt : p'.length < n := by simp at hn; omega
      have := dot_unpacks (n - 1) p' (by omega) (fun h => hp (List.mem_append_right _ h))
      have e : 2 * n = 2 * (n - 1) + 2 := by omega
      refine .block rfl ?_
      rw [e]
      exact this

/-- It asks for no more after the point. -/
theorem dot_takes : ∀ (n : Nat) (p q : Str), p.length ≤ n → '.' ∉ p → Takes (InputAt.act dotDecoder R C) (.decode .idle) (p ++ '.' :: q) (p.length + 16384)
  | n, p, q, hn, hp => by
    refine .read (m := 16384) rfl (by decide) (by omega) ?_ (by intro h; simp at h)
    intro c r hc hl he
    by_cases hd : '.' ∈ c
    · have : InputAt.act dotDecoder R C (InputAt.decode (DotState.last (c.takeWhile (fun x => x ≠ '.')))) = .write (c.takeWhile (fun x => x ≠ '.')) (.decode .ended) := rfl
      dsimp only
      rw [if_pos hd]
      exact .write this (.finish rfl)
    · obtain ⟨p', rfl, rfl⟩ := split_dot he.symm hd
      have h0 : 0 < c.length := List.length_pos_iff.mpr hc
      have hlt : p'.length < n := by simp at hn; omega
      have := dot_takes (n - 1) p' q (by omega) (fun h => hp (List.mem_append_right _ h))
      dsimp only
      rw [if_neg hd]
      have e : (c ++ p').length + 16384 - c.length = p'.length + 16384 := by simp; omega
      rw [e]
      exact .write (t := .decode .idle) rfl this

/-- **C91**, something behind the packed document, from an address: libarchive does not read it. If it has no room in the pipe the download waits for ever, and the command, that waits for the threads, with it. Without the step that reads the document,
for which nothing is left to do. -/
theorem C91_finding_rest (cap : Nat) (hcap : 0 < cap) (blocks : List Str) (p junk : Str) (hb : blocks.flatten = p ++ '.' :: junk) (hp : '.' ∉ p) (hl : 16384 + cap ≤ junk.length) :
    ∀ n ss, PipeRun (InputAt.act dotDecoder R C) cap (inputThreads dotDecoder (some blocks) true []) n ss → ¬ AllEnded ss :=
  fun n ss h => (C91_leftover hcap (pieces_makes blocks) (by rw [hb]; exact dot_takes _ p junk (Nat.le_refl _) hp) (by rw [hb]; simp; omega) n ss h).1

/-- The format with the point, from an address in two blocks, read by a step that copies, and compressed again. -/
example (cap : Nat) (hcap : 0 < cap) (n : Nat) (ss : List (PipeStage (InputAt DotState (StepAt Unit) Unit)))
    (h : PipeRun (InputAt.act dotDecoder (StepAt.act storing) storing) cap (inputThreads dotDecoder (some ["ab".toList, "c.".toList]) true [] ++ [.reader (.opened ()), .step (.opened ())]) n ss) (he : AllEnded ss) :
    destination ss = "gz:gz:abc..".toList := by
  have hC : Compresses storing (fun _ x => x ++ ".".toList) := ⟨fun _ => rfl, fun _ c d h => ⟨by simpa [storing] using h, by simp [storing]⟩⟩
  have hd : Gives dotDecoder (some ["ab".toList, "c.".toList]) true [] "abc".toList := ⟨_, dot_unpacks 3 "abc".toList (by decide) (by decide)⟩
  have := (C91_input (D := dotDecoder) (R := StepAt.act storing) hC (some ["ab".toList, "c.".toList]) true true [] "abc".toList _ (.opened ()) _ cap hcap hd (compress_makes hC "abc".toList)).1 n ss h he
  rw [this]
  decide +kernel

/-- A long document in the same format. -/
example : Unpacks dotDecoder dotDecoder.start (List.replicate 70000 'a' ++ ['.']) (List.replicate 70000 'a') (2 * 70000 + 2) ∧ 4000 + 65536 < (List.replicate 70000 'a').length :=
  ⟨dot_unpacks 70000 _ (by rw [List.length_replicate]; exact Nat.le_refl _) (by intro h; have := List.eq_of_mem_replicate h; revert this; decide), by rw [List.length_replicate]; decide⟩

end Srcml
