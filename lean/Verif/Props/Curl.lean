import Verif.Spec.Curl
/-
C84: inputs that are addresses.
-/
set_option linter.unusedSimpArgs false
namespace Srcml
open Spec

theorem served_signals {d : Download} (h : Served d) : ∀ f ∈ d.signals, f = true := by
  intro f hf
  unfold Download.signals at hf
  rw [if_neg (by simp [h.1])] at hf
  rcases List.mem_append.mp hf with hf | hf
  · obtain ⟨_, _, rfl⟩ := List.mem_map.mp hf; rfl
  · rw [List.mem_singleton.mp hf, h.2]

theorem notServed_signals {d : Download} (h : NotServed d) : ∀ f ∈ d.signals, f = false := by
  intro f hf
  unfold Download.signals at hf
  rcases h with h | h
  · rw [if_pos h] at hf
    exact List.mem_singleton.mp hf
  · rw [if_neg (by simp [h.1]), h.1] at hf
    rw [List.mem_singleton.mp hf, h.2]

theorem signals_ne (d : Download) : d.signals ≠ [] := by
  unfold Download.signals
  split <;> simp

/-- All that is reported is `b`. -/
structure AllAre (b : Bool) (s : CurlWait) : Prop where
  todo : ∀ d ∈ s.todo, ∀ f ∈ d.signals, f = b
  threads : ∀ x ∈ s.threads, ∀ f ∈ x, f = b
  awake : s.main = .awake → s.go = b
  results : ∀ r ∈ s.results, r = b

theorem allAre_step {b : Bool} {s t : CurlWait} (h : AllAre b s) (hs : s.Step t) : AllAre b t := by
  cases hs with
  | start d ds hm ht =>
    have hd := h.todo d (by rw [ht]; simp)
    refine ⟨fun d' hd' => h.todo d' (by rw [ht]; simp [hd']), ?_, (fun e => nomatch e), h.results⟩
    intro x hx
    rcases List.mem_append.mp hx with hx | hx
    · exact h.threads x hx
    · rw [List.mem_singleton.mp hx]; exact hd
  | wait hm => exact ⟨h.todo, h.threads, (fun e => nomatch e), h.results⟩
  | signal pre f fs post ht =>
    have hf : f = b := h.threads (f :: fs) (by rw [ht]; simp) f (by simp)
    refine ⟨h.todo, ?_, fun _ => hf, h.results⟩
    intro x hx
    simp only [List.mem_append, List.mem_cons] at hx
    rcases hx with hx | rfl | hx
    · exact h.threads x (by rw [ht]; simp [hx])
    · intro g hg; exact h.threads (f :: x) (by rw [ht]; simp) g (by simp [hg])
    · exact h.threads x (by rw [ht]; simp [hx])
  | return_ hm =>
    refine ⟨h.todo, h.threads, (fun e => nomatch e), ?_⟩
    intro r hr
    rcases List.mem_append.mp hr with hr | hr
    · exact h.results r hr
    · rw [List.mem_singleton.mp hr]; exact h.awake hm

theorem allAre_reach {b : Bool} {ds : List Download} (hd : ∀ d ∈ ds, ∀ f ∈ d.signals, f = b) {s : CurlWait} (h : Reach { todo := ds } CurlWait.Step s) : AllAre b s := by
  induction h with
  | start => exact ⟨hd, (fun _ h => nomatch h), (fun e => nomatch e), (fun _ h => nomatch h)⟩
  | next _ hs ih => exact allAre_step ih hs

/-- C84: when the documents of all addresses are there, no address is refused, whatever the order in which the threads run. -/
theorem C84_all_served (ds : List Download) (hd : ∀ d ∈ ds, Served d) (s : CurlWait) (h : Reach { todo := ds } CurlWait.Step s) : ∀ r ∈ s.results, r = true :=
  (allAre_reach (fun d hm => served_signals (hd d hm)) h).results

/-- C84: when there is nothing at all addresses, none is accepted, whatever the order in which the threads run. -/
theorem C84_none_served (ds : List Download) (hd : ∀ d ∈ ds, NotServed d) (s : CurlWait) (h : Reach { todo := ds } CurlWait.Step s) : ∀ r ∈ s.results, r = false :=
  (allAre_reach (fun d hm => notServed_signals (hd d hm)) h).results

/-- How much there is still to do. -/
def curlRest (s : CurlWait) : Nat :=
  (s.todo.map (fun d => d.signals.length + 4)).sum + (s.threads.map List.length).sum + (match s.main with | .outside => 0 | .before => 3 | .asleep => 2 | .awake => 1)

theorem rest_step {s t : CurlWait} (h : s.Step t) : curlRest t < curlRest s := by
  unfold curlRest
  cases h with
  | start d ds hm ht => rw [hm, ht]; simp; omega
  | wait hm => rw [hm]; simp
  | signal pre f fs post ht =>
    rw [ht]
    cases hm : s.main <;> simp <;> omega
  | return_ hm => rw [hm]; simp

/-- C84: the threads do not run for ever: every order of their steps comes to an end. -/
theorem C84_ends (f : Nat → CurlWait) : ¬ ∀ n, (f n).Step (f (n + 1)) := by
  intro h
  have : ∀ n, curlRest (f n) + n ≤ curlRest (f 0) := by
    intro n
    induction n with
    | zero => simp
    | succ n ih => have := rest_step (h n); omega
  have := this (curlRest (f 0) + 1)
  omega

/-- An address whose document is there, or where there is nothing, and what the answer is. -/
inductive Spec.Answer : Download → Bool → Prop where
  | served {d : Download} : Served d → Answer d true
  | not {d : Download} : NotServed d → Answer d false

theorem answer_signals {d : Download} {b : Bool} (h : Answer d b) : ∀ f ∈ d.signals, f = b := by
  cases h with
  | served h => exact served_signals h
  | not h => exact notServed_signals h

/-- `bs` are the answers for `ds`, one for each. -/
inductive Spec.Answers : List Download → List Bool → Prop where
  | nil : Answers [] []
  | cons {d : Download} {ds : List Download} {b : Bool} {bs : List Bool} : Answer d b → Answers ds bs → Answers (d :: ds) (b :: bs)

/-- What is known of the state when the main thread is not overtaken: the answers that it has, and the rest. -/
inductive Keeping (bs : List Bool) (s : CurlWait) : Prop where
  | outside (cs : List Bool) : s.main = .outside → Answers s.todo cs → bs = s.results ++ cs → Keeping bs s
  | waiting (b : Bool) (cs : List Bool) (olds : List (List Bool)) (fs : List Bool) : (s.main = .before ∨ s.main = .asleep) → Answers s.todo cs → bs = s.results ++ b :: cs →
      s.threads = olds ++ [fs] → (∀ x ∈ olds, x = []) → (∀ f ∈ fs, f = b) → fs ≠ [] → Keeping bs s
  | awake (b : Bool) (cs : List Bool) (olds : List (List Bool)) (fs : List Bool) : s.main = .awake → s.go = b → Answers s.todo cs → bs = s.results ++ b :: cs →
      s.threads = olds ++ [fs] → (∀ x ∈ olds, x = []) → (∀ f ∈ fs, f = b) → Keeping bs s

theorem last_thread {olds pre post : List (List Bool)} {fs gs : List Bool} {f : Bool} (h : olds ++ [fs] = pre ++ (f :: gs) :: post) (ho : ∀ x ∈ olds, x = []) :
    pre = olds ∧ fs = f :: gs ∧ post = [] := by
  rcases List.eq_nil_or_concat post with rfl | ⟨p, x, rfl⟩
  · have := List.append_inj' h (by simp)
    simp at this
    exact ⟨this.1.symm, this.2, rfl⟩
  · rw [List.concat_eq_append, ← List.cons_append, ← List.append_assoc] at h
    have := List.append_inj' h (by simp)
    have hm := ho (f :: gs) (by rw [this.1]; simp)
    cases hm

theorem keeping_step {bs : List Bool} {s t : CurlWait} (h : Keeping bs s) (hs : Timely s t) : Keeping bs t := by
  obtain ⟨hs, h1, h2⟩ := hs
  cases hs with
  | start d ds hm ht =>
    cases h with
    | outside cs _ ha hb =>
      rw [ht] at ha
      cases ha with
      | cons ha has => exact .waiting _ _ s.threads d.signals (.inl rfl) has hb rfl (h2 hm rfl) (answer_signals ha) (signals_ne d)
    | waiting _ _ _ _ hm' => rcases hm' with hm' | hm' <;> rw [hm] at hm' <;> cases hm'
    | awake _ _ _ _ hm' => rw [hm] at hm'; cases hm'
  | wait hm =>
    cases h with
    | outside _ hm' => rw [hm] at hm'; cases hm'
    | waiting b cs olds fs hm' ha hb hth ho hf hne => exact .waiting b cs olds fs (.inr rfl) ha hb hth ho hf hne
    | awake _ _ _ _ hm' => rw [hm] at hm'; cases hm'
  | signal pre f gs post ht =>
    cases h with
    | outside cs hm ha hb => exact .outside cs (by simp [hm]) ha hb
    | waiting b cs olds fs hm ha hb hth ho hf hne =>
      rcases hm with hm | hm
      · have := h1 hm
        simp only at this
        rw [ht] at this
        have := congrArg (fun l => (l.map List.length).sum) this
        simp at this
      · rw [hth] at ht
        obtain ⟨rfl, rfl, rfl⟩ := last_thread ht ho
        exact .awake b cs pre gs (by simp [hm]) (hf f (by simp)) ha hb rfl ho (fun g hg => hf g (by simp [hg]))
    | awake b cs olds fs hm hg ha hb hth ho hf =>
      rw [hth] at ht
      obtain ⟨rfl, rfl, rfl⟩ := last_thread ht ho
      exact .awake b cs pre gs (by simp [hm]) (hf f (by simp)) ha hb rfl ho (fun g hg => hf g (by simp [hg]))
  | return_ hm =>
    cases h with
    | outside _ hm' => rw [hm] at hm'; cases hm'
    | waiting _ _ _ _ hm' => rcases hm' with hm' | hm' <;> rw [hm] at hm' <;> cases hm'
    | awake b cs olds fs _ hg ha hb hth ho hf =>
      refine .outside cs rfl ha ?_
      rw [hb]
      simp [hg]

/-- C84, missing: a download that reports before the main thread waits, and one that still runs while the next starts. Else the answers are those of the addresses, in order, and the main thread goes on
until it has them all. -/
theorem C84_timely_partial (ds : List Download) (bs : List Bool) (hd : Answers ds bs) (s : CurlWait) (h : Reach { todo := ds } Timely s) :
    (∃ cs, bs = s.results ++ cs) ∧ ((∀ t, ¬ Timely s t) → s.results = bs) := by
  have hk : Keeping bs s := by
    induction h with
    | start => exact .outside bs rfl hd rfl
    | next _ hs ih => exact keeping_step ih hs
  cases hk with
  | outside cs hm ha hb =>
    refine ⟨⟨cs, hb⟩, fun hs => ?_⟩
    by_cases hth : ∀ x ∈ s.threads, x = []
    · cases ht : s.todo with
      | nil => rw [ht] at ha; cases ha; simpa using hb.symm
      | cons d ds => exact absurd ⟨.start s d ds hm ht, (fun e => by rw [hm] at e; cases e), fun _ _ => hth⟩ (hs _)
    · have : ∃ x ∈ s.threads, x ≠ [] := by
        apply Classical.byContradiction
        intro hn
        exact hth (fun x hx => Classical.byContradiction fun hne => hn ⟨x, hx, hne⟩)
      obtain ⟨x, hx, hne⟩ := this
      obtain ⟨pre, post, hp⟩ := List.append_of_mem hx
      obtain ⟨f, fs, rfl⟩ := List.exists_cons_of_ne_nil hne
      exact absurd ⟨.signal s pre f fs post hp, fun e => (by rw [hm] at e; cases e), fun _ e => (by simp [hm] at e)⟩ (hs _)
  | waiting b cs olds fs hm ha hb hth ho hf hne =>
    refine ⟨⟨b :: cs, hb⟩, fun hs => ?_⟩
    rcases hm with hm | hm
    · exact absurd ⟨.wait s hm, fun _ => rfl, (fun e => by rw [hm] at e; cases e)⟩ (hs _)
    · obtain ⟨f, gs, rfl⟩ := List.exists_cons_of_ne_nil hne
      exact absurd ⟨.signal s olds f gs [] hth, fun e => (by rw [hm] at e; cases e), (fun e => by rw [hm] at e; cases e)⟩ (hs _)
  | awake b cs olds fs hm hg ha hb hth ho hf =>
    refine ⟨⟨b :: cs, hb⟩, fun hs => ?_⟩
    exact absurd ⟨.return_ s hm, fun _ => rfl, (fun e => by rw [hm] at e; cases e)⟩ (hs _)

/-- Instance: two addresses, the second with nothing; the main thread is not overtaken and has both answers. -/
example : Answers [⟨200, ["ab".toList, "c".toList], true⟩, ⟨404, ["x".toList], true⟩] [true, false] :=
  .cons (.served ⟨rfl, rfl⟩) (.cons (.not (.inl ⟨by decide, by decide⟩)) .nil)

theorem drain (s : CurlWait) (init : CurlWait) (pre : List (List Bool)) (fs : List Bool) (hb : s.main = .before) (ht : s.threads = pre ++ [fs]) (h : Reach init CurlWait.Step s) :
    ∃ t, Reach init CurlWait.Step t ∧ t.main = .before ∧ t.todo = s.todo ∧ t.threads = pre ++ [[]] ∧ t.results = s.results := by
  induction fs generalizing s with
  | nil => exact ⟨s, h, hb, rfl, ht, rfl⟩
  | cons f fs ih =>
    have := ih { s with go := f, main := if s.main = .asleep then .awake else s.main, threads := pre ++ [fs] } (by simp [hb]) rfl (.next h (.signal s pre f fs [] ht))
    exact this

/-- C84, finding: whatever the address, the download may be finished before the main thread waits: then it waits for ever (src/client/input_curl.cpp:46-50: there is no test before `cv.wait`). -/
theorem C84_finding_hangs (d : Download) : ∃ s, Reach { todo := [d] } CurlWait.Step s ∧ Stuck s ∧ s.main = .asleep ∧ s.results = [] := by
  have h0 : Reach { todo := [d] } CurlWait.Step { todo := [], main := .before, threads := [d.signals] } := .next .start (.start _ d [] rfl rfl)
  obtain ⟨t, h1, h2, h3, h4, h5⟩ := drain _ _ [] d.signals rfl rfl h0
  refine ⟨{ t with main := .asleep }, .next h1 (.wait t h2), ?_, rfl, h5⟩
  intro u hu
  generalize hs : { t with main := .asleep } = s at hu
  cases hu with
  | start d ds hm ht => rw [← hs] at hm; cases hm
  | wait hm => rw [← hs] at hm; cases hm
  | signal pre f fs post ht =>
    rw [← hs] at ht
    simp only [h4, List.nil_append] at ht
    have := congrArg (fun l => (l.map List.length).sum) ht
    simp at this
    omega
  | return_ hm => rw [← hs] at hm; cases hm

/-- C84, finding: while a download is still running, its report may be taken for that of the next address, and an address with nothing is accepted (src/client/input_curl.cpp:42-56: one flag for all). -/
theorem C84_finding_other_download : ∃ s, Reach { todo := [⟨200, ["a".toList], true⟩, ⟨404, [], false⟩] } CurlWait.Step s ∧ s.results = [true, true] := by
  refine ⟨{ todo := [], go := true, main := .outside, threads := [[], [false]], results := [true, true] }, ?_, rfl⟩
  refine .next (s := { todo := [], go := true, main := .awake, threads := [[], [false]], results := [true] }) ?_ (.return_ _ rfl)
  refine .next (s := { todo := [], go := true, main := .asleep, threads := [[true], [false]], results := [true] }) ?_ (.signal _ [] true [] [[false]] rfl)
  refine .next (s := { todo := [], go := true, main := .before, threads := [[true], [false]], results := [true] }) ?_ (.wait _ rfl)
  refine .next (s := { todo := [⟨404, [], false⟩], go := true, main := .outside, threads := [[true]], results := [true] }) ?_ (.start _ ⟨404, [], false⟩ [] rfl rfl)
  refine .next (s := { todo := [⟨404, [], false⟩], go := true, main := .awake, threads := [[true]], results := [] }) ?_ (.return_ _ rfl)
  refine .next (s := { todo := [⟨404, [], false⟩], go := false, main := .asleep, threads := [[true, true]], results := [] }) ?_ (.signal _ [] true [true] [] rfl)
  refine .next (s := { todo := [⟨404, [], false⟩], go := false, main := .before, threads := [[true, true]], results := [] }) ?_ (.wait _ rfl)
  exact .next .start (.start _ ⟨200, ["a".toList], true⟩ _ rfl rfl)

/-- C84, finding: and an address whose document is there may be refused because an earlier download was cut off. -/
theorem C84_finding_refused : ∃ s, Reach { todo := [⟨200, ["a".toList], false⟩, ⟨200, ["b".toList], true⟩] } CurlWait.Step s ∧ s.results = [true, false] := by
  refine ⟨{ todo := [], go := false, main := .outside, threads := [[], [true, true]], results := [true, false] }, ?_, rfl⟩
  refine .next (s := { todo := [], go := false, main := .awake, threads := [[], [true, true]], results := [true] }) ?_ (.return_ _ rfl)
  refine .next (s := { todo := [], go := true, main := .asleep, threads := [[false], [true, true]], results := [true] }) ?_ (.signal _ [] false [] [[true, true]] rfl)
  refine .next (s := { todo := [], go := true, main := .before, threads := [[false], [true, true]], results := [true] }) ?_ (.wait _ rfl)
  refine .next (s := { todo := [⟨200, ["b".toList], true⟩], go := true, main := .outside, threads := [[false]], results := [true] }) ?_ (.start _ ⟨200, ["b".toList], true⟩ [] rfl rfl)
  refine .next (s := { todo := [⟨200, ["b".toList], true⟩], go := true, main := .awake, threads := [[false]], results := [] }) ?_ (.return_ _ rfl)
  refine .next (s := { todo := [⟨200, ["b".toList], true⟩], go := false, main := .asleep, threads := [[true, false]], results := [] }) ?_ (.signal _ [] true [false] [] rfl)
  refine .next (s := { todo := [⟨200, ["b".toList], true⟩], go := false, main := .before, threads := [[true, false]], results := [] }) ?_ (.wait _ rfl)
  exact .next .start (.start _ ⟨200, ["a".toList], false⟩ _ rfl rfl)

/-- C84, finding: a wake-up without a notification, which the standard allows, refuses an address whose document is there. -/
theorem C84_finding_spurious (d : Download) : ∃ s : CurlWait, Reach ({ todo := [d] } : CurlWait) (fun s t => s.Step t ∨ s.Spurious t) s ∧ s.results = [false] := by
  refine ⟨{ todo := [], go := false, main := .outside, threads := [d.signals], results := [false] }, ?_, rfl⟩
  refine .next (s := { todo := [], go := false, main := .awake, threads := [d.signals], results := [] }) ?_ (.inl (.return_ _ rfl))
  refine .next (s := { todo := [], go := false, main := .asleep, threads := [d.signals], results := [] }) ?_ (.inr (.wake _ rfl))
  refine .next (s := { todo := [], go := false, main := .before, threads := [d.signals], results := [] }) ?_ (.inl (.wait _ rfl))
  exact .next .start (.inl (.start _ _ _ rfl rfl))

/-- C84, finding: a document that comes with another code than 200, such as the 226 of an FTP server, is refused and nothing of it is read (src/client/input_curl.cpp:92-93). -/
theorem C84_finding_ftp (blocks : List Str) (hb : blocks ≠ []) (s : CurlWait) (h : Reach { todo := [⟨226, blocks, true⟩] } CurlWait.Step s) :
    (∀ r ∈ s.results, r = false) ∧ (⟨226, blocks, true⟩ : Download).data = [] := by
  refine ⟨C84_none_served _ (fun d hd => ?_) s h, rfl⟩
  rw [List.mem_singleton.mp hd]
  exact .inl ⟨by show (226 : Nat) ≠ 200; decide, hb⟩

/-- C84: what is written to the pipe is the document when it is there, and nothing when there is nothing at the address. -/
theorem C84_data (d : Download) : (Served d → d.data = d.blocks.flatten) ∧ (NotServed d → d.data = []) := by
  unfold Download.data
  constructor
  · intro h; rw [if_pos h.1]
  · rintro (h | h)
    · rw [if_neg h.1]
    · rw [h.1]; split <;> rfl

end Srcml
