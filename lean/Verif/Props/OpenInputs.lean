import Verif.Spec.OpenInputs
import Verif.Props.Client
/-
C96: the limit on open files, the queues and the pipe.
-/
set_option linter.unusedSimpArgs false
namespace Srcml
open Spec

/-- What holds in every state of a run on `n` inputs. -/
structure InputsOk (n : Nat) (second : SecondStep) (s : OpenRun) : Prop where
  reads : s.reading ≠ none → s.queue ≠ []
  total : s.queue.length + s.rest.length ≤ n
  same : (s.second = .absent ↔ second = .absent)
  started : second = .reads → s.second = .reads

theorem InputsOk.step {cap n : Nat} {x : SecondStep} {s t : OpenRun} (h : InputsOk n x s) (st : OpenRun.Step cap s t) : InputsOk n x t := by
  obtain ⟨h1, h2, h3, h4⟩ := h
  cases st with
  | opens k r hr hn ho => exact ⟨by simp, by simp only [hr, List.length_cons, List.length_append, List.length_nil] at h2 ⊢; omega, h3, h4⟩
  | schedules k m q hr hq => exact ⟨by simp, by simp only [hq, List.length_cons, List.length_append, List.length_nil] at h2 ⊢; omega, h3, h4⟩
  | leaves hr => exact ⟨by simp, h2, h3, h4⟩
  | writes m q hq hs => exact ⟨by simp, by simp only [hq, List.length_cons] at h2 ⊢; omega, h3, h4⟩
  | pipes m q hq hs hc => exact ⟨by simp, by simp only [hq, List.length_cons] at h2 ⊢; omega, h3, h4⟩
  | closes q hq hh =>
    refine ⟨?_, by simp only [hq, List.length_cons] at h2 ⊢; omega, h3, h4⟩
    intro hr
    rcases hh with hh | hh
    · exact hh
    · exact absurd hh hr
  | starts hs ho =>
    refine ⟨h1, h2, ⟨fun h => by simp at h, fun h => ?_⟩, fun _ => rfl⟩
    rw [h3.mpr h] at hs
    simp at hs
  | consumes p hs hp => exact ⟨h1, h2, h3, h4⟩

theorem inputs_ok {cap : Nat} {inputs : List Nat} {x : SecondStep} {s : OpenRun} (h : Reach { rest := inputs, second := x } (OpenRun.Step cap) s) : InputsOk inputs.length x s := by
  induction h with
  | start => exact ⟨by simp, by simp, Iff.rfl, fun h => h⟩
  | next _ st ih => exact ih.step st

/-- C96, the part that holds: as long as not everything is written, some thread can go on - for any number of inputs with any numbers of units, in every schedule, if the output is a file, or if the second step has its archive open
before the inputs are opened, or if there are not more than 200 inputs. (Otherwise see `C96_finding_stuck`.) -/
theorem C96_goes_on_partial {cap : Nat} {inputs : List Nat} {x : SecondStep} {s : OpenRun} (hcap : 0 < cap) (h : Reach { rest := inputs, second := x } (OpenRun.Step cap) s)
    (hx : x ≠ .waiting ∨ inputs.length ≤ 200) (hdone : ¬ AllWritten s) : ∃ t, OpenRun.Step cap s t := by
  obtain ⟨h1, h2, h3, h4⟩ := inputs_ok h
  have hmax : MAX_OPEN_FILES = 200 := rfl
  cases hr : s.reading with
  | some k =>
    cases k with
    | zero => exact ⟨_, .leaves s hr⟩
    | succ k =>
      have hq := h1 (by rw [hr]; simp)
      exact ⟨_, .schedules s k (s.queue.getLast hq) s.queue.dropLast hr (List.dropLast_concat_getLast hq).symm⟩
  | none =>
    cases hq : s.queue with
    | nil =>
      cases hs : s.rest with
      | nil => exact absurd ⟨hs, hr, hq⟩ hdone
      | cons k r =>
        refine ⟨_, .opens s k r hs hr ?_⟩
        simp only [OpenRun.open_, hq, List.length_nil, hmax]
        split <;> omega
    | cons m q =>
      cases m with
      | zero => exact ⟨_, .closes s q hq (Or.inr hr)⟩
      | succ m =>
        cases hs : s.second with
        | absent => exact ⟨_, .writes s m q hq hs⟩
        | reads =>
          by_cases hc : s.pipe < cap
          · exact ⟨_, .pipes s m q hq (by rw [hs]; simp) hc⟩
          · cases hp : s.pipe with
            | zero => omega
            | succ p => exact ⟨_, .consumes s p hs hp⟩
        | waiting =>
          rcases hx with hx | hx
          · cases x with
            | absent => rw [h3.mpr rfl] at hs; simp at hs
            | waiting => exact absurd rfl hx
            | reads => rw [h4 rfl] at hs; simp at hs
          · refine ⟨_, .starts s hs ?_⟩
            simp only [OpenRun.open_, hs, hmax]
            simp
            omega

/-- What is still to do. -/
def OpenRun.todo (s : OpenRun) : Nat :=
  (3 * s.rest.sum + 3 * s.rest.length) + (match s.reading with | some k => 3 * k + 1 | none => 0) + (2 * s.queue.sum + s.queue.length) + s.pipe + (if s.second = .waiting then 1 else 0)

theorem inputs_todo_less {cap : Nat} {s t : OpenRun} (st : OpenRun.Step cap s t) : t.todo < s.todo := by
  cases st with
  | opens k r hr hn ho => simp only [OpenRun.todo, hr, hn, List.sum_cons, List.sum_append, List.length_cons, List.length_append, List.sum_nil, List.length_nil]; omega
  | schedules k m q hr hq => simp only [OpenRun.todo, hr, hq, List.sum_cons, List.sum_append, List.length_cons, List.length_append, List.sum_nil, List.length_nil]; omega
  | leaves hr => simp only [OpenRun.todo, hr]; omega
  | writes m q hq hs => simp only [OpenRun.todo, hq, List.sum_cons, List.length_cons]; omega
  | pipes m q hq hs hc => simp only [OpenRun.todo, hq, List.sum_cons, List.length_cons]; omega
  | closes q hq hh => simp only [OpenRun.todo, hq, List.sum_cons, List.length_cons]; omega
  | starts hs ho => simp only [OpenRun.todo, hs]; simp
  | consumes p hs hp => simp only [OpenRun.todo, hp]; omega

/-- C96: every run ends, after a number of steps that the inputs bound: three for a unit and three for an input, in every schedule. -/
theorem C96_ends {cap : Nat} {inputs : List Nat} {x : SecondStep} {s : OpenRun} {n : Nat} (h : StepsOf cap n { rest := inputs, second := x } s) : n ≤ stepBound inputs := by
  have key : ∀ {n : Nat} {s t : OpenRun}, StepsOf cap n s t → n + t.todo ≤ s.todo := by
    intro n s t h
    induction h with
    | done s => omega
    | more st _ ih => have := inputs_todo_less st; omega
  have h1 := key h
  have h2 : ({ rest := inputs, second := x } : OpenRun).todo ≤ stepBound inputs := by
    simp only [OpenRun.todo, stepBound, List.sum_nil, List.length_nil]
    split <;> omega
  omega

/-- A run that cannot go on has written everything, under the same conditions: with `C96_ends`, every schedule gets there. -/
theorem C96_written_partial {cap : Nat} {inputs : List Nat} {x : SecondStep} {s : OpenRun} (hcap : 0 < cap) (h : Reach { rest := inputs, second := x } (OpenRun.Step cap) s)
    (hx : x ≠ .waiting ∨ inputs.length ≤ 200) (hstuck : CannotGoOn cap s) : AllWritten s := by
  by_cases hd : AllWritten s
  · exact hd
  · obtain ⟨t, ht⟩ := C96_goes_on_partial hcap h hx hd
    exact absurd ht (hstuck t)

/-! #### The finding -/

theorem reach_scheduled {cap : Nat} {i s : OpenRun} {q : List Nat} (hq : s.queue = q ++ [0]) : ∀ (k : Nat), s.reading = some k → ∀ j, j ≤ k → Reach i (OpenRun.Step cap) s →
    Reach i (OpenRun.Step cap) { s with reading := some (k - j), queue := q ++ [j] }
  | k, hk, 0, _, h => by
    have e : ({ s with reading := some (k - 0), queue := q ++ [0] } : OpenRun) = s := by
      obtain ⟨a, b, c, d, e⟩ := s
      simp only at hk hq
      simp [hk, hq]
    rw [e]; exact h
  | k, hk, j + 1, hj, h => by
    have ih := reach_scheduled hq k hk j (by omega) h
    have st := OpenRun.Step.schedules (cap := cap) { s with reading := some (k - j), queue := q ++ [j] } (k - (j + 1)) j q (by simp only [Option.some.injEq]; omega) rfl
    exact .next ih st

theorem reach_opened {cap K N : Nat} : ∀ j, j ≤ 201 → j ≤ N → Reach { rest := List.replicate N K, second := .waiting } (OpenRun.Step cap) { rest := List.replicate (N - j) K, second := .waiting, queue := List.replicate j K }
  | 0, _, _ => .start
  | j + 1, h1, h2 => by
    have ih := reach_opened (cap := cap) (K := K) (N := N) j (by omega) (by omega)
    have st1 := Reach.next ih (.opens _ K (List.replicate (N - (j + 1)) K) (by
        show List.replicate (N - j) K = _
        rw [show N - j = (N - (j + 1)) + 1 by omega, List.replicate_succ]) rfl (by
        simp only [OpenRun.open_, List.length_replicate, MAX_OPEN_FILES]
        simp; omega))
    have st2 := reach_scheduled (q := List.replicate j K) rfl K rfl K (Nat.le_refl _) st1
    have st3 := Reach.next st2 (.leaves _ (by simp))
    have e : List.replicate j K ++ [K] = List.replicate (j + 1) K := by
      rw [← List.replicate_succ']
    rw [e] at st3
    exact st3

theorem reach_piped {cap K : Nat} {i : OpenRun} {r q : List Nat} (hK : cap ≤ K) (h0 : Reach i (OpenRun.Step cap) { rest := r, second := .waiting, queue := K :: q }) : ∀ j, j ≤ cap →
    Reach i (OpenRun.Step cap) { rest := r, second := .waiting, queue := (K - j) :: q, pipe := j }
  | 0, _ => h0
  | j + 1, h => by
    have ih := reach_piped hK h0 j (by omega)
    have st := OpenRun.Step.pipes (cap := cap) { rest := r, second := .waiting, queue := (K - j) :: q, pipe := j } (K - (j + 1)) q (by
      show (K - j) :: q = _
      rw [show K - j = (K - (j + 1)) + 1 by omega]) (by simp) (by show j < cap; omega)
    exact Reach.next ih st

theorem reach_full {cap K N : Nat} (hN : 201 ≤ N) :
    Reach { rest := List.replicate N K, second := .waiting } (OpenRun.Step cap) { rest := List.replicate (N - 201) K, second := .waiting, queue := K :: List.replicate 200 K } := by
  have h := reach_opened (cap := cap) (K := K) (N := N) 201 (Nat.le_refl _) hN
  have e : List.replicate 201 K = K :: List.replicate 200 K := List.replicate_succ
  rw [e] at h
  exact h

/-- With more than 200 srcML inputs and a second step (a query with `--output-src`, for example) there is a schedule after which no thread can go on, whatever the pipe holds: the main thread and the queue hold 201 archives, the
writer waits for room in the pipe, and the second step, which would make room, waits until one of them is closed. -/
theorem C96_finding_stuck (cap N : Nat) (hN : 201 ≤ N) : ∃ s, Reach { rest := List.replicate N (cap + 1), second := .waiting } (OpenRun.Step cap) s ∧ ¬ AllWritten s ∧ CannotGoOn cap s := by
  refine ⟨_, reach_piped (cap := cap) (K := cap + 1) (by omega) (reach_full hN) cap (Nat.le_refl _), ?_, ?_⟩
  · rintro ⟨_, _, h⟩
    simp at h
  · intro t st
    generalize hs : ({ rest := List.replicate (N - 201) (cap + 1), second := .waiting, queue := (cap + 1 - cap) :: List.replicate 200 (cap + 1), pipe := cap } : OpenRun) = s at st
    have ho : s.open_ > MAX_OPEN_FILES := by
      subst hs
      simp only [OpenRun.open_, List.length_cons, List.length_replicate, MAX_OPEN_FILES]
      rw [if_neg (by simp)]
      decide
    have hr : s.reading = none := by subst hs; rfl
    have hsec : s.second = .waiting := by subst hs; rfl
    have hp : s.pipe = cap := by subst hs; rfl
    have hqz : ∀ q, s.queue ≠ 0 :: q := by
      subst hs
      intro q h
      have := (List.cons.injEq _ _ _ _ ▸ h).1
      omega
    cases st with
    | opens k r h1 h2 h3 => exact h3 ho
    | schedules k m q h1 h2 => rw [hr] at h1; simp at h1
    | leaves h1 => rw [hr] at h1; simp at h1
    | writes m q h1 h2 => rw [hsec] at h2; simp at h2
    | pipes m q h1 h2 h3 => omega
    | closes q h1 h2 => exact hqz q h1
    | starts h1 h2 => exact h2 ho
    | consumes p h1 h2 => rw [hsec] at h1; simp at h1

/-- A run with a second step that ends: the hypotheses are met. -/
example : ∃ s, Reach { rest := [1], second := .waiting } (OpenRun.Step 1) s ∧ AllWritten s := by
  have h1 := Reach.next (.start : Reach { rest := [1], second := .waiting } (OpenRun.Step 1) _) (.opens _ 1 [] rfl rfl (by decide))
  have h2 := Reach.next h1 (.schedules _ 0 0 [] rfl rfl)
  have h3 := Reach.next h2 (.leaves _ rfl)
  have h4 := Reach.next h3 (.pipes _ 0 [] rfl (by simp) (by decide))
  have h5 := Reach.next h4 (.closes _ [] rfl (Or.inr rfl))
  exact ⟨_, h5, rfl, rfl, rfl⟩

end Srcml
