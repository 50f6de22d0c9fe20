import Verif.Model.Client
set_option linter.unusedSimpArgs false
/-
C41, C46, C48: open files, processing steps, exit status.
-/
namespace Srcml

/-! ### C41 -/

/-- What holds in every reachable state: the counter counts the open inputs, there are at most 201 of them, and as long
as a thread sleeps at least as many threads have been woken as there are free places. -/
structure Limiter.Ok (l : Limiter) : Prop where
  count : l.openFiles = l.holders
  limit : l.holders ≤ 201
  awake : l.waiting ≠ 0 → 201 - l.holders ≤ l.notified

theorem Limiter.Ok.ok_step {l m : Limiter} (h : l.Ok) (s : Limiter.Step l m) : m.Ok := by
  obtain ⟨h1, h2, h3⟩ := h
  have hm : MAX_OPEN_FILES = 200 := rfl
  cases s <;> refine ⟨?_, ?_, ?_⟩ <;> simp only [] at * <;> omega

theorem Limiter.reach_ok {l : Limiter} (h : Reach ({} : Limiter) Limiter.Step l) : l.Ok := by
  induction h with
  | start => exact ⟨rfl, by decide, by simp⟩
  | next _ s ih => exact ih.ok_step s

/-- **C41.** In every schedule of opens, closes and wake-ups the number of simultaneously open inputs is at most 201 (the
named limit is 200: see the finding). -/
theorem C41_limit_partial {l : Limiter} (h : Reach ({} : Limiter) Limiter.Step l) : l.holders ≤ 201 :=
  (Limiter.reach_ok h).limit

theorem Limiter.reach_open (n : Nat) (hn : n ≤ 201) :
    Reach ({} : Limiter) Limiter.Step { openFiles := n, holders := n } := by
  induction n with
  | zero => exact .start
  | succ n ih =>
    have := Limiter.Step.opens { openFiles := (n : Int), holders := n } (by simp only [MAX_OPEN_FILES]; omega)
    exact .next (ih (by omega)) this

/-- The limit is exceeded by one: `>` instead of `>=` lets the 201st input be opened. -/
theorem C41_finding_one_more :
    ∃ l : Limiter, Reach ({} : Limiter) Limiter.Step l ∧ (l.holders : Int) > MAX_OPEN_FILES :=
  ⟨_, Limiter.reach_open 201 (Nat.le_refl _), by simp [MAX_OPEN_FILES]⟩

/-- **C41.** No wake-up is lost: while a thread waits and a place is free, another thread has been woken for it. So
somebody can go on: a woken thread, or (if no place is free) one of the open inputs will be closed. -/
theorem C41_no_lost_wakeup {l : Limiter} (h : Reach ({} : Limiter) Limiter.Step l) (hw : l.waiting ≠ 0) :
    (l.holders < 201 → 0 < l.notified) ∧ (l.notified = 0 → l.holders = 201) := by
  have ok := Limiter.reach_ok h
  have h1 := ok.awake hw
  have h2 := ok.limit
  omega

/-- A state with a waiting thread and one that has been woken is reachable. -/
example : Reach ({} : Limiter) Limiter.Step { openFiles := 200, holders := 200, waiting := 1, notified := 1 } := by
  have h0 := Limiter.reach_open 201 (Nat.le_refl _)
  have h1 := Reach.next h0 (.waits _ (by decide))
  have h2 := Reach.next h1 (.waits _ (by decide))
  exact Reach.next h2 (.closesNotify _ 200 1 rfl rfl)

/-! ### C48 -/

/-- **C48.** Whatever the messages and however the threads that log them interleave (the counter is not protected): when
`main` returns, its status is 0 exactly if no warning and no error has been logged. -/
theorem C48_status_partial {l : Log} (h : Reach ({} : Log) Log.Step l) :
    (mainStatus l = 0 ↔ ∀ m ∈ l.logged, m ≠ .error ∧ m ≠ .warning) ∧ (mainStatus l = 0 ∨ mainStatus l = 1) := by
  constructor
  · induction h with
    | start => simp [mainStatus, Log.errors]
    | next _ s ih =>
      cases s with
      | other m hm => simp [mainStatus, Log.errors] at ih ⊢; rw [ih]; simp [hm.1, hm.2]
      | read => simpa [mainStatus, Log.errors] using ih
      | write m pre v post hm hp =>
        constructor
        · intro h; simp [mainStatus, Log.errors] at h
        · intro h
          have := h m (by simp)
          rcases hm with rfl | rfl
          · exact absurd rfl this.1
          · exact absurd rfl this.2
  · unfold mainStatus; split <;> simp

/-- Two threads log an error at the same time and one increment is lost; the status is 1 all the same. -/
example : ∃ l, Reach ({} : Log) Log.Step l ∧ l.logged.length = 2 ∧ l.errorCount = 1 ∧ mainStatus l = 1 := by
  refine ⟨{ errorCount := 1, pending := [], logged := [.error, .error] }, ?_, rfl, rfl, rfl⟩
  have h1 := Reach.next Reach.start (Log.Step.read {})
  have h2 := Reach.next h1 (Log.Step.read _)
  have h3 := Reach.next h2 (Log.Step.write _ .error [] 0 [0] (.inl rfl) rfl)
  exact Reach.next h3 (Log.Step.write _ .error [] 0 [] (.inl rfl) rfl)

/-! ### C46 -/

/-- **C46.** There is always a step to do. -/
theorem C46_nonempty (r : Request) : pipeline r ≠ [] := by
  unfold pipeline
  intro h
  simp only [List.append_eq_nil_iff] at h
  obtain ⟨⟨⟨h1, h2⟩, h3⟩, _⟩ := h
  have h1 : request_create_srcml r = false := by
    cases e : request_create_srcml r
    · rfl
    · simp [e] at h1
  have h2 : request_display_metadata r = false := by
    cases e : request_display_metadata r
    · rfl
    · simp [e] at h2
  have h3 : request_create_src r = false := by
    cases e : request_create_src r
    · rfl
    · simp [e] at h3
  have ho : r.output.state ≠ .srcml := by
    intro ho
    simp only [request_create_srcml, ho] at h1
    split at h1
    · cases h1
    · split at h1
      · cases h1
      · simp at h1
  simp [request_create_src, h1, h2, ho] at h3

/-- **C46.** Which steps are chosen: srcML is created exactly for source input, srcML output, the XML option, a
transformation or the test modes; metadata exactly when asked for; source only if asked for or if nothing else is
produced and the output is not srcML; compression for a compressed output. -/
theorem C46_steps (r : Request) :
    (.createSrcml ∈ pipeline r ↔ r.parserTest = true ∨ r.catXml = true ∨ (∃ i ∈ r.inputs, i.state = .src) ∨
      r.output.state = .srcml ∨ r.xml = true ∨ r.transformations ≠ 0) ∧
    (.displayMetadata ∈ pipeline r ↔ r.inSrcml = true ∨ r.xmlnsPrefixQuery.isSome = true ∨ r.prettyFormat.isSome = true) ∧
    (.createSrc ∈ pipeline r ↔ r.src = true ∨
      (.createSrcml ∉ pipeline r ∧ .displayMetadata ∉ pipeline r ∧ r.output.state ≠ .srcml)) ∧
    (.compress ∈ pipeline r ↔ r.output.compressions ≠ []) := by
  have m1 : .createSrcml ∈ pipeline r ↔ request_create_srcml r = true := by
    unfold pipeline
    cases request_create_srcml r <;> cases request_display_metadata r <;> cases request_create_src r <;>
      cases request_output_compression r <;> simp
  have m2 : .displayMetadata ∈ pipeline r ↔ request_display_metadata r = true := by
    unfold pipeline
    cases request_create_srcml r <;> cases request_display_metadata r <;> cases request_create_src r <;>
      cases request_output_compression r <;> simp
  have m3 : .createSrc ∈ pipeline r ↔ request_create_src r = true := by
    unfold pipeline
    cases request_create_srcml r <;> cases request_display_metadata r <;> cases request_create_src r <;>
      cases request_output_compression r <;> simp
  have m4 : .compress ∈ pipeline r ↔ request_output_compression r = true := by
    unfold pipeline
    cases request_create_srcml r <;> cases request_display_metadata r <;> cases request_create_src r <;>
      cases request_output_compression r <;> simp
  refine ⟨?_, ?_, ?_, ?_⟩
  · rw [m1]
    simp only [request_create_srcml]
    by_cases h1 : r.parserTest = true
    · simp [h1]
    · by_cases h2 : r.catXml = true
      · simp [h1, h2]
      · simp [h1, h2, List.any_eq_true]
        by_cases ht : r.transformations = 0
        · simp [ht, or_assoc]
        · simp [ht]
  · rw [m2]; simp [request_display_metadata, or_assoc]
  · rw [m1, m2, m3]
    simp only [request_create_src]
    cases r.src <;> cases request_create_srcml r <;> cases request_display_metadata r <;> simp
  · rw [m4]
    simp only [request_output_compression, decide_eq_true_eq]
    cases r.output.compressions <;> simp

/-- **C46.** Every step occurs at most once, they come in the fixed order, and compression is last. -/
theorem C46_order (r : Request) :
    (pipeline r).Sublist [.createSrcml, .displayMetadata, .createSrc, .compress] ∧
    (.compress ∈ pipeline r → (pipeline r).getLast? = some .compress) := by
  unfold pipeline
  cases request_create_srcml r <;> cases request_display_metadata r <;> cases request_create_src r <;>
    cases request_output_compression r <;> simp

/-- **C46.** Source is not produced together with srcML or metadata, unless it is asked for. -/
theorem C46_source_alone (r : Request) (h : r.src = false) (hs : .createSrc ∈ pipeline r) :
    .createSrcml ∉ pipeline r ∧ .displayMetadata ∉ pipeline r := by
  have := (C46_steps r).2.2.1.mp hs
  simp [h] at this
  exact ⟨this.1, this.2.1⟩

/-- The steps are connected: the first reads the inputs, the last writes to the destination, and every other step reads
what the one before writes. -/
structure Spec.Connected (run : List (ProcStep × Option Channel × Option Channel)) : Prop where
  first : ∀ x, run.head? = some x → x.2.1 = some .request
  last : ∀ x, run.getLast? = some x → x.2.2 = some .request
  between : ∀ (i : Nat) (x y : ProcStep × Option Channel × Option Channel), run[i]? = some x → run[i + 1]? = some y → ∃ n, x.2.2 = some (.pipe n) ∧ y.2.1 = some (.pipe n)
  pipes : ∀ (i j : Nat) (x y : ProcStep × Option Channel × Option Channel) (n : Nat), run[i]? = some x → run[j]? = some y → x.2.2 = some (.pipe n) → y.2.2 = some (.pipe n) → i = j

/-- A state of the loop: what is left is a proper end of the pipeline. -/
theorem execute_spec (done rest : List ProcStep) (hnd : (done ++ rest).Nodup) (hne : rest ≠ []) (prev : Option Nat) (n : Nat)
    (hp : done ≠ [] → ∃ k, prev = some k ∧ k < n) :
    (execute (done ++ rest) prev n rest).map (·.1) = rest ∧
    (∀ x, (execute (done ++ rest) prev n rest).head? = some x →
      x.2.1 = if done = [] then some .request else prev.map .pipe) ∧
    (∀ x, (execute (done ++ rest) prev n rest).getLast? = some x → x.2.2 = some .request) ∧
    (∀ i x y, (execute (done ++ rest) prev n rest)[i]? = some x → (execute (done ++ rest) prev n rest)[i + 1]? = some y →
      x.2.2 = some (.pipe (n + i)) ∧ y.2.1 = some (.pipe (n + i))) := by
  induction rest generalizing done prev n with
  | nil => exact absurd rfl hne
  | cons c cs ih =>
    have hfirst : decide ((done ++ c :: cs).head? = some c) = decide (done = []) := by
      cases done with
      | nil => simp
      | cons d done =>
        have : d ≠ c := by
          intro e
          rw [e] at hnd
          simp [List.nodup_cons] at hnd
        simp [this]
    have hlast : decide ((done ++ c :: cs).getLast? = some c) = decide (cs = []) := by
      cases cs with
      | nil => simp
      | cons d ds =>
        have hne' : (d :: ds).getLast (by simp) ≠ c := by
          intro e
          have hm := List.getLast_mem (l := d :: ds) (by simp)
          rw [e] at hm
          have := (List.nodup_append.mp hnd).2.1
          rw [List.nodup_cons] at this
          exact this.1 hm
        have hgl : (done ++ c :: d :: ds).getLast? = some ((d :: ds).getLast (by simp)) := by
          rw [List.getLast?_append, List.getLast?_cons, List.getLast?_eq_some_getLast (l := d :: ds) (by simp)]
          rfl
        rw [hgl]
        simp only [Option.some.injEq, hne', reduceCtorEq]
    cases cs with
    | nil =>
      simp only [execute, hfirst, hlast]
      refine ⟨by simp, ?_, ?_, ?_⟩
      · intro x hx
        simp at hx; subst hx
        by_cases hd : done = [] <;> simp [hd]
      · intro x hx
        simp at hx; subst hx; simp
      · intro i x y hx hy
        simp at hy
    | cons d ds =>
      have hlen : (done ++ c :: d :: ds).length > 1 := by simp; omega
      have ih := ih (done ++ [c]) (by simpa using hnd) (by simp) (some n) (n + 1) (fun _ => ⟨n, rfl, by omega⟩)
      simp only [List.append_assoc, List.cons_append, List.nil_append] at ih
      obtain ⟨i1, i2, i3, i4⟩ := ih
      have he : execute (done ++ c :: d :: ds) prev n (c :: d :: ds) =
          (c, (if done = [] then some Channel.request else prev.map .pipe), some (.pipe n)) ::
            execute (done ++ c :: d :: ds) (some n) (n + 1) (d :: ds) := by
        rw [execute]
        simp only [hfirst, hlast, hlen, true_and]
        by_cases hd : done = [] <;> simp [hd]
      rw [he]
      refine ⟨by simp [i1], ?_, ?_, ?_⟩
      · intro x hx; simp at hx; subst hx; rfl
      · intro x hx
        rw [List.getLast?_cons] at hx
        have hne : execute (done ++ c :: d :: ds) (some n) (n + 1) (d :: ds) ≠ [] := by simp [execute]
        rw [List.getLast?_eq_some_getLast hne] at hx
        simp at hx
        exact i3 x (by rw [List.getLast?_eq_some_getLast hne, ← hx])
      · intro i x y hx hy
        cases i with
        | zero =>
          simp at hx; subst hx
          simp only [Nat.zero_add, List.getElem?_cons_succ, Nat.add_zero] at hy ⊢
          rw [← List.head?_eq_getElem?] at hy
          have := i2 y hy
          simp at this
          exact ⟨trivial, this⟩
        | succ i =>
          simp only [List.getElem?_cons_succ] at hx hy
          have := i4 i x y hx hy
          rw [show n + (i + 1) = n + 1 + i by omega]
          exact this

/-- **C46.** The steps of the command are run once each, in order, connected by pipes: the first reads the inputs, the
last writes the output, every other one reads what its predecessor writes. -/
theorem C46_connected (r : Request) :
    (execute (pipeline r) none 0 (pipeline r)).map (·.1) = pipeline r ∧
    Spec.Connected (execute (pipeline r) none 0 (pipeline r)) := by
  have hnd : (pipeline r).Nodup := List.Nodup.sublist (C46_order r).1 (by decide)
  obtain ⟨h1, h2, h3, h4⟩ := execute_spec [] (pipeline r) (by simpa using hnd) (C46_nonempty r) none 0 (by simp)
  simp only [List.nil_append, if_true] at h1 h2 h3 h4
  have hlen : (execute (pipeline r) none 0 (pipeline r)).length = (pipeline r).length := by
    have := congrArg List.length h1; simpa using this
  refine ⟨h1, h2, h3, fun i x y hx hy => ⟨_, h4 i x y hx hy⟩, ?_⟩
  -- the pipe a step writes to has the number of the step
  have key : ∀ (i : Nat) (x : ProcStep × Option Channel × Option Channel) (n : Nat), (execute (pipeline r) none 0 (pipeline r))[i]? = some x → x.2.2 = some (.pipe n) → n = i := by
    intro i x n hx hn
    by_cases hi : i + 1 < (execute (pipeline r) none 0 (pipeline r)).length
    · obtain ⟨h, _⟩ := h4 i x _ hx (List.getElem?_eq_getElem hi)
      rw [hn] at h
      simpa using h
    · have hil : i < (execute (pipeline r) none 0 (pipeline r)).length := by
        apply Classical.byContradiction; intro hc
        rw [List.getElem?_eq_none (by omega)] at hx; cases hx
      have : (execute (pipeline r) none 0 (pipeline r)).getLast? = some x := by
        rw [List.getLast?_eq_getElem?, show (execute (pipeline r) none 0 (pipeline r)).length - 1 = i by omega]; exact hx
      rw [h3 x this] at hn
      cases hn
  intro i j x y n hx hy hn hm
  rw [← key i x n hx hn, ← key j y n hy hm]

example : pipeline { inputs := [{ state := .src }], output := { compressions := [".gz".toList] } } =
    [.createSrcml, .compress] := by decide +kernel
example : pipeline { inputs := [{ state := .srcml }], output := { state := .src } } = [.createSrc] := by decide +kernel
example : pipeline { inputs := [{ state := .src }], src := true, inSrcml := true } =
    [.createSrcml, .displayMetadata, .createSrc] := by decide +kernel

end Srcml
