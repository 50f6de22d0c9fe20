import Verif.Model.Queues
set_option linter.unusedSimpArgs false
/-
C39, C40: parallel parsing, ordered writing, termination.
-/
namespace Srcml

/-- The requests `1, …, n`. -/
def Spec.upTo (n : Nat) : List Nat := (List.range n).map (· + 1)

/-- The invariant of the queues, for `n` inputs. -/
structure Queues.Ok (n : Nat) (s : Queues) : Prop where
  inputs : s.counter + s.unscheduled.length = n
  le : s.position ≤ s.counter
  left : (s.q ++ s.running ++ s.pool).Perm (List.range' (s.position + 1) (s.counter - s.position))
  written : match s.writer with
    | .writing p => p = s.position ∧ 1 ≤ p ∧ s.written = List.range' 1 (p - 1)
    | _ => s.written = List.range' 1 s.position
  awake : s.writer = .sleeping → s.notifies = 0 → s.q.min? ≠ some (s.position + 1) ∧ (s.q ≠ [] ∨ s.completed = false)
  idle : s.phase ≠ .scheduling → s.unscheduled = [] ∧ s.pool = [] ∧ s.running = []
  flag : s.completed = true ↔ (s.phase = .joining ∨ s.phase = .done)
  finished : s.writer = .finished → s.q = [] ∧ s.completed = true
  joined : s.phase = .done → s.writer = .finished

theorem range'_snoc (s n : Nat) : List.range' s (n + 1) = List.range' s n ++ [s + n] := by
  rw [List.range'_concat]; simp

theorem mem_min {l : List Nat} {m : Nat} (h : l.min? = some m) : m ∈ l := List.min?_mem h

/-- If the queue holds every request that is left, its first one is the next. -/
theorem min_of_perm {q : List Nat} {s n : Nat} (h : q.Perm (List.range' s (n + 1))) : q.min? = some s := by
  rw [List.min?_eq_some_iff]
  constructor
  · exact h.symm.mem_iff.mp (by simp)
  · intro b hb
    have := h.mem_iff.mp hb
    simp at this
    omega

theorem Queues.Ok.step {threads n : Nat} (hth : 1 ≤ threads) {s t : Queues} (ok : s.Ok n)
    (h : Queues.Any threads s t) : t.Ok n := by
  obtain ⟨h1, h2, h3, h4, h5, h6, h7, h8, h9⟩ := ok
  rcases h with h | h
  · cases h with
    | schedule rest hp hu =>
      have hlen : s.counter + 1 - s.position = (s.counter - s.position) + 1 := by omega
      refine ⟨?_, ?_, ?_, h4, h5, ?_, h7, h8, h9⟩
      · simp [hu] at h1 ⊢; omega
      · simp only; omega
      · simp only
        rw [hlen, range'_snoc, ← List.append_assoc, show s.position + 1 + (s.counter - s.position) = s.counter + 1 by omega]
        exact h3.append_right _
      · intro hne; exact absurd hp hne
    | passThrough rest hp hu =>
      have hlen : s.counter + 1 - s.position = (s.counter - s.position) + 1 := by omega
      have hf : s.completed = false := by
        cases hc : s.completed with
        | false => rfl
        | true => rcases h7.mp hc with h | h <;> rw [hp] at h <;> cases h
      refine ⟨?_, ?_, ?_, h4, ?_, ?_, h7, ?_, h9⟩
      · simp [hu] at h1 ⊢; omega
      · simp only; omega
      · simp only
        rw [hlen, range'_snoc, show s.position + 1 + (s.counter - s.position) = s.counter + 1 by omega]
        simp only [List.cons_append]
        exact (List.perm_append_singleton _ _).symm.trans (h3.append_right _)
      · intro _ hn; simp at hn
      · intro hne; exact absurd hp hne
      · intro hw
        have := (h8 hw).2
        rw [hf] at this; cases this
    | takes p rest hl hq =>
      refine ⟨h1, h2, ?_, h4, h5, ?_, h7, h8, h9⟩
      · simp only
        refine List.Perm.trans ?_ h3
        rw [hq]
        simp only [List.append_assoc, List.cons_append]
        apply List.Perm.append_left
        exact List.perm_middle.symm
      · intro hne
        have := (h6 hne).2.1
        rw [hq] at this; cases this
    | consumed pre p post hr =>
      refine ⟨h1, h2, ?_, h4, ?_, ?_, h7, ?_, h9⟩
      · simp only
        refine List.Perm.trans ?_ h3
        rw [hr]
        simp only [List.append_assoc, List.cons_append]
        rw [← List.append_assoc s.q pre, ← List.append_assoc s.q pre]
        exact List.perm_middle.symm
      · intro _ hn; simp at hn
      · intro hne
        have := (h6 hne).2.2
        rw [hr] at this; simp at this
      · intro hw
        have hc := (h8 hw).2
        have hne : s.phase ≠ .scheduling := by
          rcases h7.mp hc with h | h <;> rw [h] <;> decide
        have := (h6 hne).2.2
        rw [hr] at this; simp at this
    | notify k hn =>
      by_cases hw : s.writer = .sleeping
      · refine ⟨h1, h2, h3, ?_, ?_, h6, h7, ?_, ?_⟩
        · simp only [hw, if_true] at h4 ⊢; exact h4
        · intro h; simp [hw] at h
        · intro h; simp [hw] at h
        · intro h; have := h9 h; rw [hw] at this; cases this
      · refine ⟨h1, h2, h3, ?_, ?_, h6, h7, ?_, ?_⟩
        · simp only [hw, if_false]; exact h4
        · intro h; simp [hw] at h
        · intro h; simp only [hw, if_false] at h; exact h8 h
        · intro h; simp only [hw, if_false]; exact h9 h
    | returns hw hq hc =>
      refine ⟨h1, h2, h3, ?_, ?_, h6, h7, ?_, ?_⟩
      · rw [hw] at h4; exact h4
      · intro h; cases h
      · intro _; exact ⟨hq, hc⟩
      · intro _; rfl
    | sleeps hw hq =>
      refine ⟨h1, h2, h3, ?_, ?_, h6, h7, ?_, ?_⟩
      · rw [hw] at h4; exact h4
      · intro _ _
        rcases hq with ⟨h, h'⟩ | ⟨h, h'⟩
        · simp [h, h']
        · exact ⟨h', .inl h⟩
      · intro h; cases h
      · intro h; have := h9 h; rw [hw] at this; cases this
    | pops hw hq =>
      have hm := mem_min hq
      have hle : s.position + 1 ≤ s.counter := by
        have := h3.mem_iff.mp (List.mem_append_left _ (List.mem_append_left _ hm))
        simp at this; omega
      have hlen : s.counter - s.position = (s.counter - (s.position + 1)) + 1 := by omega
      refine ⟨h1, hle, ?_, ?_, ?_, h6, h7, ?_, ?_⟩
      · simp only
        rw [hlen, List.range'_succ] at h3
        have hp : ((s.position + 1) :: (s.q.erase (s.position + 1) ++ s.running ++ s.pool)).Perm
            (s.q ++ s.running ++ s.pool) := by
          have := (List.perm_cons_erase hm).symm
          have := (this.append_right s.running).append_right s.pool
          simpa using this
        exact (List.perm_cons _).mp (hp.trans h3)
      · rw [hw] at h4
        exact ⟨rfl, by omega, h4⟩
      · intro h; cases h
      · intro h; cases h
      · intro h; have := h9 h; rw [hw] at this; cases this
    | writes p hw =>
      rw [hw] at h4
      simp only at h4
      obtain ⟨g1, g2, g3⟩ := h4
      refine ⟨h1, h2, h3, ?_, ?_, h6, h7, ?_, ?_⟩
      · simp only
        rw [g3, ← g1]
        conv => rhs; rw [show p = p - 1 + 1 by omega, range'_snoc]
        simp; omega
      · intro h; cases h
      · intro h; cases h
      · intro h; have := h9 h; rw [hw] at this; cases this
    | waited hp hu hq hr =>
      refine ⟨h1, h2, h3, h4, h5, ?_, ?_, h8, ?_⟩
      · intro _; exact ⟨hu, hq, hr⟩
      · simp only [reduceCtorEq, or_self, iff_false]
        intro hc
        rcases h7.mp hc with h | h <;> rw [hp] at h <;> cases h
      · intro h; cases h
    | dropped ht => omega
    | stops hp =>
      refine ⟨h1, h2, h3, h4, ?_, ?_, ?_, ?_, ?_⟩
      · intro _ hn; simp at hn
      · intro _; exact h6 (by rw [hp]; decide)
      · simp
      · intro hw; exact ⟨(h8 hw).1, rfl⟩
      · intro h; cases h
    | joins hp hw =>
      refine ⟨h1, h2, h3, h4, h5, ?_, ?_, h8, ?_⟩
      · intro _; exact h6 (by rw [hp]; decide)
      · simp; exact h7.mpr (.inl hp)
      · intro _; exact hw
  · cases h with
    | wakes hw =>
      refine ⟨h1, h2, h3, ?_, ?_, h6, h7, ?_, ?_⟩
      · rw [hw] at h4; exact h4
      · intro h; cases h
      · intro h; cases h
      · intro h; have := h9 h; rw [hw] at this; cases this

theorem Queues.reach_ok {threads : Nat} (hth : 1 ≤ threads) {inputs : List Bool} {s : Queues}
    (h : Reach { unscheduled := inputs } (Queues.Any threads) s) : s.Ok inputs.length := by
  induction h with
  | start => exact ⟨by simp, by simp, by simp, rfl, by simp, by simp, by simp, by simp, by simp⟩
  | next _ st ih => exact ih.step hth st

theorem upTo_range' (n : Nat) : Spec.upTo n = List.range' 1 n := by
  rw [Spec.upTo, List.range'_eq_map_range]
  apply List.map_congr_left
  intro a _
  omega

/-- **C39.** With any number of parsing threads, any inputs and any schedule (spurious wake-ups included): what has been
written so far are the first requests, in the order of their inputs, each once. -/
theorem C39_order {threads : Nat} (hth : 1 ≤ threads) {inputs : List Bool} {s : Queues}
    (h : Reach { unscheduled := inputs } (Queues.Any threads) s) :
    ∃ k, k ≤ inputs.length ∧ s.written = Spec.upTo k := by
  have ok := Queues.reach_ok hth h
  have hc : s.counter ≤ inputs.length := by have := ok.inputs; omega
  have h4 := ok.written
  have hle := ok.le
  cases hw : s.writer with
  | writing p =>
    rw [hw] at h4
    simp only at h4
    exact ⟨p - 1, by omega, by rw [h4.2.2, upTo_range']⟩
  | _ =>
    rw [hw] at h4
    simp only at h4
    exact ⟨s.position, by omega, by rw [h4, upTo_range']⟩

/-- A bound on the number of steps that are still possible. -/
def Queues.work (s : Queues) : Nat :=
  8 * s.unscheduled.length + 7 * s.pool.length + 6 * s.running.length + 3 * s.q.length + 2 * s.notifies +
  (match s.phase with | .scheduling => 6 | .waited => 5 | .joining => 2 | .done => 0) +
  (match s.writer with | .checking => 1 | .sleeping => 0 | .writing _ => 2 | .finished => 0)

theorem Queues.work_step {threads : Nat} {s t : Queues} (h : Queues.Step threads s t) : t.work < s.work := by
  cases h with
  | schedule rest hp hu => simp [Queues.work, hu]; omega
  | passThrough rest hp hu => simp [Queues.work, hu]; omega
  | takes p rest hl hq => simp [Queues.work, hq]; omega
  | consumed pre p post hr => simp [Queues.work, hr]; omega
  | notify k hn =>
    simp only [Queues.work, hn]
    cases s.writer <;> simp <;> omega
  | returns hw hq hc => simp [Queues.work, hw]
  | sleeps hw hq => simp [Queues.work, hw]
  | pops hw hq =>
    have hm := mem_min hq
    have hl : 0 < s.q.length := List.length_pos_of_mem hm
    simp [Queues.work, hw, List.length_erase, hm]; omega
  | writes p hw => simp [Queues.work, hw]
  | waited hp hu hq hr => simp [Queues.work, hp]
  | dropped ht hp hu hq => simp [Queues.work, hp]; omega
  | stops hp => simp [Queues.work, hp]; omega
  | joins hp hw => simp [Queues.work, hp]

/-- `n` steps (without spurious wake-ups) lead from one state to another. -/
inductive Queues.Steps (threads : Nat) : Nat → Queues → Queues → Prop where
  | refl (s : Queues) : Steps threads 0 s s
  | step {n : Nat} {s t u : Queues} : Queues.Step threads s t → Steps threads n t u → Steps threads (n + 1) s u

/-- **C40.** From every state the number of steps of any schedule is bounded: nothing runs for ever (between spurious
wake-ups). -/
theorem C40_bounded {threads n : Nat} {s t : Queues} (h : Queues.Steps threads n s t) : n ≤ s.work := by
  induction h with
  | refl => omega
  | step h _ ih => have := Queues.work_step h; omega

/-- **C40.** And no schedule gets stuck before the end: a state that was reached in any way and from which no step is
possible is one where the command has come out of `stop()`, every request has been written, in order, and nothing is left
in a queue. -/
theorem C40_end {threads : Nat} (hth : 1 ≤ threads) {inputs : List Bool} {s : Queues}
    (h : Reach { unscheduled := inputs } (Queues.Any threads) s) (hstuck : ∀ t, ¬ Queues.Step threads s t) :
    s.phase = .done ∧ s.written = Spec.upTo inputs.length ∧ s.q = [] ∧ s.pool = [] ∧ s.running = [] ∧
      s.unscheduled = [] := by
  have ok := Queues.reach_ok hth h
  have hn : s.notifies = 0 := by
    apply Classical.byContradiction; intro hne
    obtain ⟨k, hk⟩ := Nat.exists_eq_succ_of_ne_zero hne
    exact hstuck _ (.notify s k hk)
  have hr : s.running = [] := by
    cases e : s.running with
    | nil => rfl
    | cons p post => exact absurd (Queues.Step.consumed s [] p post e) (hstuck _)
  have hpool : s.pool = [] := by
    cases e : s.pool with
    | nil => rfl
    | cons p rest => exact absurd (Queues.Step.takes s p rest (by simp [hr]; omega) e) (hstuck _)
  have hph : s.phase ≠ .scheduling := by
    intro hp
    cases e : s.unscheduled with
    | nil => exact hstuck _ (.waited s hp e hpool hr)
    | cons b rest =>
      cases b with
      | false => exact hstuck _ (.schedule s rest hp e)
      | true => exact hstuck _ (.passThrough s rest hp e)
  have hph2 : s.phase ≠ .waited := fun hp => hstuck _ (.stops s hp)
  have hu := (ok.idle hph).1
  have hcomp : s.completed = true := by
    rw [ok.flag]
    cases e : s.phase with
    | scheduling => exact absurd e hph
    | waited => exact absurd e hph2
    | joining => exact .inl rfl
    | done => exact .inr rfl
  have hperm := ok.left
  rw [hr, hpool] at hperm
  simp only [List.append_nil] at hperm
  have hnext : s.q = [] ∨ s.q.min? = some (s.position + 1) := by
    cases e : s.counter - s.position with
    | zero => rw [e] at hperm; left; simpa using hperm
    | succ k => rw [e] at hperm; right; exact min_of_perm hperm
  have hfin : s.writer = .finished := by
    cases e : s.writer with
    | finished => rfl
    | writing p => exact absurd (Queues.Step.writes s p e) (hstuck _)
    | checking =>
      rcases hnext with hq | hq
      · exact absurd (Queues.Step.returns s e hq hcomp) (hstuck _)
      · exact absurd (Queues.Step.pops s e hq) (hstuck _)
    | sleeping =>
      have := ok.awake e hn
      rcases hnext with hq | hq
      · rw [hcomp] at this; simp [hq] at this
      · exact absurd hq this.1
  have hq := (ok.finished hfin).1
  have hdone : s.phase = .done := by
    cases e : s.phase with
    | scheduling => exact absurd e hph
    | waited => exact absurd e hph2
    | joining => exact absurd (Queues.Step.joins s e hfin) (hstuck _)
    | done => rfl
  have hw := ok.written
  rw [hfin] at hw
  simp only at hw
  rw [hq] at hperm
  have hlen := hperm.length_eq
  simp at hlen
  have hin := ok.inputs
  have hle := ok.le
  rw [hu] at hin
  simp at hin
  refine ⟨hdone, ?_, hq, hpool, hr, hu⟩
  rw [hw, upTo_range']
  congr 1
  omega

/-- Without a parsing thread (`--jobs=0`) the tasks are dropped: the command ends normally and nothing is written. -/
theorem C39_finding_no_threads :
    ∃ s, Reach { unscheduled := [false] } (Queues.Any 0) s ∧ s.phase = .done ∧ s.written = [] ∧ s.writer = .finished := by
  have h0 : Reach { unscheduled := [false] } (Queues.Any 0) { unscheduled := [false] } := .start
  have h1 := Reach.next h0 (.inl (.schedule _ [] rfl rfl))
  have h2 := Reach.next h1 (.inl (.dropped _ rfl rfl rfl (by simp)))
  have h3 := Reach.next h2 (.inl (.stops _ rfl))
  have h4 := Reach.next h3 (.inl (.returns _ rfl rfl rfl))
  have h5 := Reach.next h4 (.inl (.joins _ rfl rfl))
  exact ⟨_, h5, rfl, rfl, rfl⟩

/-- Without a parsing thread, and with a failed request after one that is dropped, the command hangs: the writing thread
waits for the dropped request, and no step is possible. -/
theorem C40_finding_no_threads :
    ∃ s, Reach { unscheduled := [false, true] } (Queues.Any 0) s ∧ s.phase ≠ .done ∧ ∀ t, ¬ Queues.Step 0 s t := by
  have h0 : Reach { unscheduled := [false, true] } (Queues.Any 0) { unscheduled := [false, true] } := .start
  have h1 := Reach.next h0 (.inl (.schedule _ [true] rfl rfl))
  have h2 := Reach.next h1 (.inl (.passThrough _ [] rfl rfl))
  have h3 := Reach.next h2 (.inl (.dropped _ rfl rfl rfl (by simp)))
  have h4 := Reach.next h3 (.inl (.stops _ rfl))
  have h5 := Reach.next h4 (.inl (.notify _ 1 rfl))
  have h6 := Reach.next h5 (.inl (.notify _ 0 rfl))
  have h7 := Reach.next h6 (.inl (.sleeps _ rfl (.inr ⟨by simp, by decide⟩)))
  refine ⟨_, h7, by decide, ?_⟩
  intro t ht
  cases ht <;> simp_all

/-- Two inputs, two threads, the second is parsed first: it is written second. -/
example : ∃ s, Reach { unscheduled := [false, false] } (Queues.Any 2) s ∧ s.written = [1, 2] ∧ s.q = [] := by
  have h0 : Reach { unscheduled := [false, false] } (Queues.Any 2) { unscheduled := [false, false] } := .start
  have h1 := Reach.next h0 (.inl (.schedule _ [false] rfl rfl))
  have h2 := Reach.next h1 (.inl (.schedule _ [] rfl rfl))
  have h3 := Reach.next h2 (.inl (.takes _ 1 [2] (by decide) rfl))
  have h4 := Reach.next h3 (.inl (.takes _ 2 [] (by decide) rfl))
  have h5 := Reach.next h4 (.inl (.consumed _ [] 2 [1] rfl))
  have h6 := Reach.next h5 (.inl (.sleeps _ rfl (.inr ⟨by simp, by decide⟩)))
  have h7 := Reach.next h6 (.inl (.consumed _ [] 1 [] rfl))
  have h8 := Reach.next h7 (.inl (.notify _ 1 rfl))
  have h9 := Reach.next h8 (.inl (.pops _ rfl (by decide)))
  have h10 := Reach.next h9 (.inl (.writes _ 1 rfl))
  have h11 := Reach.next h10 (.inl (.pops _ rfl (by decide)))
  have h12 := Reach.next h11 (.inl (.writes _ 2 rfl))
  exact ⟨_, h12, rfl, by decide⟩

end Srcml
