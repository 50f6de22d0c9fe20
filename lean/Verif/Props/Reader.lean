import Verif.Proofs.Reader
/-
C26, C28, C29: reading the units of an archive, with the parser in a thread of its own.
-/
set_option linter.unusedSimpArgs false
namespace Srcml
open Spec ReaderProof

/-- The documents of the theorems: the parse of an incomplete document reports an error, and the error comes after the start
of the first unit. `C29_finding_…` below: without this the opening of the archive can hang. -/
def Spec.Readable (d : Doc) (fin : Finish) : Prop :=
  (d.complete = true ∨ fin = .failed) ∧ (d.complete = true ∨ 0 < d.units ∨ d.cut = true)

theorem readable_parts {d : Doc} {fin : Finish} (h : Readable d fin) :
    (d.complete = true ∨ fin = .failed) ∧ (d.complete = true ∨ Valid d 0) := by
  refine ⟨h.1, ?_⟩
  rcases h.2 with h | h | h
  · exact Or.inl h
  · exact Or.inr (Or.inl h)
  · cases hc : d.complete
    · by_cases hu : 0 < d.units
      · exact Or.inr (Or.inl hu)
      · exact Or.inr (Or.inr ⟨by omega, h, hc⟩)
    · exact Or.inl rfl

/-- The reader after some steps of the two threads on the document. -/
abbrev Spec.Reading (d : Doc) (fin : Finish) (textOnly : Bool) (s : Reader) : Prop :=
  Reach (Reader.start textOnly d.units d.cut d.complete fin) Reader.Step s

/-- **C28.** In every interleaving of the two threads, for every sequence of reads and skips, every finished call has exactly the
result that the document determines, and nothing is written through a null or dangling pointer. -/
theorem C28_every_schedule (d : Doc) (fin : Finish) (textOnly : Bool) (hr : Readable d fin) (s : Reader)
    (h : Reading d fin textOnly s) :
    s.crashed = false ∧ ∀ i (hi : i < s.log.length), (s.log[i]).2 = delivered d i (s.log[i]).1 :=
  phase_safe (reach_phase textOnly (readable_parts hr).1 (readable_parts hr).2 h)

theorem range_snoc_min (m n : Nat) (h : m < n) : List.range (min (m + 1) n) = List.range (min m n) ++ [m] := by
  rw [Nat.min_eq_left (by omega), Nat.min_eq_left (by omega), List.range_succ]

/-- **C28.** The units that were given to the user are the first ones of the document, each once, in order. -/
theorem C28_each_unit_once (n : Nat) (fin : Finish) (textOnly : Bool) (s : Reader)
    (h : Reading { units := n } fin textOnly s) :
    s.log.filterMap (fun e => e.2.bind (·.1)) = List.range (min s.log.length n) := by
  have hl := (C28_every_schedule { units := n } fin textOnly ⟨Or.inl rfl, Or.inl rfl⟩ s h).2
  generalize s.log = log at hl
  have key : ∀ m, m ≤ log.length → (log.take m).filterMap (fun e => e.2.bind (·.1)) = List.range (min m n) := by
    intro m
    induction m with
    | zero => intro _; simp
    | succ m ih =>
      intro hm
      have hm' : m < log.length := by omega
      rw [List.take_succ_eq_append_getElem hm', List.filterMap_append, ih (by omega)]
      have he := hl m hm'
      by_cases hmn : m < n
      · rw [range_snoc_min m n hmn]
        congr 1
        simp only [List.filterMap_cons, List.filterMap_nil, he]
        cases (log[m]).1 <;> simp [delivered, hmn]
      · have : min (m + 1) n = min m n := by omega
        rw [this]
        simp only [List.filterMap_cons, List.filterMap_nil, he]
        cases (log[m]).1 <;> simp [delivered, hmn]
  have := key log.length (Nat.le_refl _)
  simpa using this

/-- **C26.** On a complete document of `n` units, the `i`-th call is about the `i`-th unit: a read gives its attributes and its
contents, a skip passes it; from call `n` on, every call gives the end. -/
theorem C26_kth_call (n : Nat) (fin : Finish) (textOnly : Bool) (s : Reader) (h : Reading { units := n } fin textOnly s)
    (i : Nat) (hi : i < s.log.length) :
    (i < n → (s.log[i]).1 = .read → (s.log[i]).2 = some (some i, some i)) ∧
    (i < n → (s.log[i]).1 = .skip → (s.log[i]).2 = some (some i, none)) ∧
    (n ≤ i → (s.log[i]).2 = none) := by
  have hl := (C28_every_schedule { units := n } fin textOnly ⟨Or.inl rfl, Or.inl rfl⟩ s h).2 i hi
  refine ⟨fun h1 h2 => ?_, fun h1 h2 => ?_, fun h1 => ?_⟩
  · rw [hl, h2]; simp [delivered, h1]
  · rw [hl, h2]; simp [delivered, h1]
  · rw [hl]
    cases (s.log[i]).1 <;> simp [delivered] <;> omega

/-- **C26.** Once a call has given nothing, all later calls give nothing, also on a document with an error; except that a unit which
breaks off cannot be read but takes its place in the sequence. -/
theorem C26_end_stays (d : Doc) (fin : Finish) (textOnly : Bool) (hr : Readable d fin) (s : Reader)
    (h : Reading d fin textOnly s) (i j : Nat) (hij : i < j) (hj : j < s.log.length)
    (he : (s.log[i]'(by omega)).2 = none) : (s.log[j]).2 = none := by
  have hl := (C28_every_schedule d fin textOnly hr s h).2
  have h1 := hl i (by omega)
  rw [he] at h1
  rw [hl j hj]
  have hi : d.units ≤ i := by
    revert h1
    cases (s.log[i]'(by omega)).1 <;> simp [delivered] <;> intros <;> omega
  cases (s.log[j]).1 <;> simp [delivered] <;> omega

/-- **C29.** No interleaving leaves both threads waiting: while the user is inside of a call (opening, reading, skipping, closing),
one of the threads can go on. -/
theorem C29_never_stuck (d : Doc) (fin : Finish) (textOnly : Bool) (hr : Readable d fin) (s : Reader)
    (h : Reading d fin textOnly s) (hb : busy s) : ¬ stuck s :=
  phase_progress (readable_parts hr).1 (readable_parts hr).2
    (reach_phase textOnly (readable_parts hr).1 (readable_parts hr).2 h) hb

/-- **C29.** Nor do the threads go on for ever inside of a call: there is no infinite run in which the user never gets back. -/
theorem C29_calls_return_partial (run : Nat → Reader) (hs : ∀ n, (run n).Step (run (n + 1))) : ∃ n, ¬ busy (run n) := by
  apply Classical.byContradiction
  intro hn
  have hb : ∀ n, busy (run n) := fun n => Classical.byContradiction fun h => hn ⟨n, h⟩
  have key : ∀ n, weight (run n) + n ≤ weight (run 0) := by
    intro n
    induction n with
    | zero => simp
    | succ n ih =>
      have := step_weight (hb n) (hs n)
      omega
  have := key (weight (run 0) + 1)
  omega

/-- **C29.** Together: whatever the scheduler does, the user gets back from the call. -/
theorem C29_inevitable (d : Doc) (fin : Finish) (textOnly : Bool) (hr : Readable d fin) (s : Reader)
    (h : Reading d fin textOnly s) : Inevitably (fun t => ¬ busy t) s := by
  have key : ∀ k (s : Reader), weight s ≤ k → Reading d fin textOnly s → Inevitably (fun t => ¬ busy t) s := by
    intro k
    induction k with
    | zero =>
      intro s hw h
      by_cases hb : busy s
      · have hns := C29_never_stuck d fin textOnly hr s h hb
        obtain ⟨t, ht⟩ : ∃ t, s.Step t := Classical.byContradiction fun hn => hns (fun t ht => hn ⟨t, ht⟩)
        have := step_weight hb ht
        omega
      · exact .now hb
    | succ k ih =>
      intro s hw h
      by_cases hb : busy s
      · have hns := C29_never_stuck d fin textOnly hr s h hb
        refine .later (Classical.byContradiction fun hn => hns (fun t ht => hn ⟨t, ht⟩)) fun t ht => ?_
        have := step_weight hb ht
        exact ih t (by omega) (.next h ht)
      · exact .now hb
  exact key _ s (Nat.le_refl _) h

/-- The thread of the user is inside of the call `c`. -/
def UserPc.inCall (c : ReadCall) : UserPc → Prop
  | .head d | .headLock d | .headHolds d | .headWait d | .headWoken d | .headBack d => d = c
  | .body | .bodyLock | .bodyHolds | .bodyWait | .bodyWoken | .bodyBack => c = .read
  | _ => False

/-- The thread of the user is inside of the opening. -/
def UserPc.inOpen : UserPc → Prop
  | .opening | .openHolds | .openWait | .openWoken => True
  | _ => False

theorem inCall_notified {c : ReadCall} {p : UserPc} (h : p.inCall c) : p.notified.inCall c := by
  cases p <;> simp_all [UserPc.inCall, UserPc.notified]

theorem inOpen_notified {p : UserPc} (h : p.inOpen) : p.notified.inOpen := by
  cases p <;> simp_all [UserPc.inOpen, UserPc.notified]

theorem stopIf_user (s : Reader) (f : Finish) : (s.stopIf f).user = s.user ∧ (s.stopIf f).log = s.log := by
  unfold Reader.stopIf Reader.stopParser
  split <;> exact ⟨rfl, rfl⟩

/-- A step of the parser thread leaves the thread of the user where it is, or wakes it up, and returns nothing. -/
theorem parserStep_user {s t : Reader} {f : Finish} (h : s.parserStep f = some t) : (t.user = s.user ∨ t.user = s.user.notified) ∧ t.log = s.log := by
  unfold Reader.parserStep at h
  repeat' split at h
  all_goals first
    | cases h; done
    | (cases h; simp [stopIf_user, Reader.stopParser])

theorem step_inCall {s t : Reader} {c : ReadCall} (h : s.Step t) (hi : s.user.inCall c) : (t.user.inCall c ∧ t.log = s.log) ∨ Returned s.log c t := by
  cases h with
  | parser f h =>
    obtain ⟨h1, h2⟩ := parserStep_user h
    left
    rcases h1 with h1 | h1
    · exact ⟨h1 ▸ hi, h2⟩
    · exact ⟨h1 ▸ inCall_notified hi, h2⟩
  | user ch h =>
    unfold Reader.userStep at h
    cases hu : s.user <;> rw [hu] at h hi <;> simp only [UserPc.inCall] at hi
    all_goals (try subst hi)
    all_goals (try dsimp only at h)
    all_goals (repeat' split at h)
    all_goals first
      | cases h; done
      | (cases h; exact .inl ⟨rfl, rfl⟩)
      | (cases h; exact .inr ⟨rfl, _, rfl⟩)
      | (simp only [reduceCtorEq] at hi)

theorem step_inOpen {s t : Reader} (h : s.Step t) (hi : s.user.inOpen) : (t.user.inOpen ∨ t.user = .idle) ∧ t.log = s.log := by
  cases h with
  | parser f h =>
    obtain ⟨h1, h2⟩ := parserStep_user h
    rcases h1 with h1 | h1
    · exact ⟨.inl (h1 ▸ hi), h2⟩
    · exact ⟨.inl (h1 ▸ inOpen_notified hi), h2⟩
  | user ch h =>
    unfold Reader.userStep at h
    cases hu : s.user <;> rw [hu] at h hi <;> simp only [UserPc.inOpen] at hi
    all_goals (try dsimp only at h)
    all_goals (repeat' split at h)
    all_goals first
      | cases h; done
      | (cases h; exact ⟨.inl trivial, rfl⟩)
      | (cases h; exact ⟨.inr rfl, rfl⟩)

theorem inCall_busy {s : Reader} {c : ReadCall} (h : s.user.inCall c) : busy s := by
  unfold busy
  cases hu : s.user <;> simp_all [UserPc.inCall]

theorem inOpen_busy {s : Reader} (h : s.user.inOpen) : busy s := by
  unfold busy
  cases hu : s.user <;> simp_all [UserPc.inOpen]

/-- **C29.** Opening: whatever the scheduler does, the user gets back from it, and no call has been made. -/
theorem C29_open_returns (d : Doc) (fin : Finish) (textOnly : Bool) (hr : Readable d fin) :
    Inevitably (fun s => s.user = .idle ∧ s.log = []) (Reader.start textOnly d.units d.cut d.complete fin) := by
  have h := C29_inevitable d fin textOnly hr _ .start
  have hi : (Reader.start textOnly d.units d.cut d.complete fin).user.inOpen := trivial
  have hl : (Reader.start textOnly d.units d.cut d.complete fin).log = [] := rfl
  generalize Reader.start textOnly d.units d.cut d.complete fin = s at h hi hl
  induction h with
  | now hb => exact absurd (inOpen_busy hi) hb
  | later hx hs ih =>
    refine .later hx fun t ht => ?_
    obtain ⟨h1, h2⟩ := step_inOpen ht hi
    rcases h1 with h1 | h1
    · exact ih t ht h1 (h2.trans hl)
    · exact .now ⟨h1, h2.trans hl⟩

/-- **C29.** A call: from wherever the user makes it, whatever the scheduler does, the user gets back from exactly this call, with one result. -/
theorem C29_call_returns (d : Doc) (fin : Finish) (textOnly : Bool) (hr : Readable d fin) (s t : Reader) (c : ReadCall)
    (h : Reading d fin textOnly s) (hu : s.user = .idle) (hc : s.userStep (.call c) = some t) : Inevitably (Returned s.log c) t := by
  have ht := C29_inevitable d fin textOnly hr t (.next h (.user _ _ _ hc))
  have hi : t.user.inCall c ∧ t.log = s.log := by
    unfold Reader.userStep at hc
    rw [hu] at hc
    cases hc
    exact ⟨rfl, rfl⟩
  clear hc
  induction ht with
  | now hb => exact absurd (inCall_busy hi.1) hb
  | later hx hs ih =>
    refine .later hx fun v hv => ?_
    rcases step_inCall hv hi.1 with h1 | h1
    · exact ih v hv ⟨h1.1, h1.2.trans hi.2⟩
    · rw [hi.2] at h1
      exact .now h1

theorem inevitably_reach {P : Reader → Prop} {s0 s : Reader} (h : Inevitably P s) (hs : Reach s0 Reader.Step s) : ∃ t, Reach s0 Reader.Step t ∧ P t := by
  induction h with
  | now h => exact ⟨_, hs, h⟩
  | later hx _ ih =>
    obtain ⟨t, ht⟩ := hx
    exact ih t ht (.next hs ht)

/-- **C29.** Every sequence of reads and skips can be made, also after the end of the document. -/
theorem C29_every_sequence (d : Doc) (fin : Finish) (textOnly : Bool) (hr : Readable d fin) (cs : List ReadCall) :
    ∃ s, Reading d fin textOnly s ∧ s.user = .idle ∧ s.log.map (·.1) = cs := by
  have key : ∀ (n : Nat) (cs : List ReadCall), cs.length = n → ∃ s, Reading d fin textOnly s ∧ s.user = .idle ∧ s.log.map (·.1) = cs := by
    intro n
    induction n with
    | zero =>
      intro cs hn
      have := List.length_eq_zero_iff.mp hn
      subst this
      obtain ⟨s, h1, h2, h3⟩ := inevitably_reach (C29_open_returns d fin textOnly hr) .start
      exact ⟨s, h1, h2, by rw [h3]; rfl⟩
    | succ n ih =>
      intro cs hn
      have hne : cs ≠ [] := by intro hx; subst hx; cases hn
      obtain ⟨s, h1, h2, h3⟩ := ih cs.dropLast (by simp [hn])
      have hc : ∃ t, s.userStep (.call (cs.getLast hne)) = some t := by
        unfold Reader.userStep
        rw [h2]
        exact ⟨_, rfl⟩
      obtain ⟨t, ht⟩ := hc
      obtain ⟨v, v1, v2, x, v3⟩ := inevitably_reach (C29_call_returns d fin textOnly hr s t _ h1 h2 ht) (.next h1 (.user _ _ _ ht))
      refine ⟨v, v1, v2, ?_⟩
      rw [v3, List.map_append, h3]
      exact List.dropLast_concat_getLast hne
  exact key _ cs rfl

/-! ### Concrete runs -/

/-- A scheduler: `none` lets the parser thread go on, `some ch` the user's. -/
def runReader (s : Reader) : List (Option UserChoice) → Option Reader
  | [] => some s
  | none :: r => (s.parserStep .failed).bind (runReader · r)
  | some ch :: r => (s.userStep ch).bind (runReader · r)

theorem runReader_reach {s0 s t : Reader} {l : List (Option UserChoice)} (h0 : Reach s0 Reader.Step s)
    (h : runReader s l = some t) : Reach s0 Reader.Step t := by
  induction l generalizing s with
  | nil => simp [runReader] at h; subst h; exact h0
  | cons a r ih =>
    cases a with
    | none =>
      simp only [runReader, Option.bind_eq_some_iff] at h
      obtain ⟨u, hu, h⟩ := h
      exact ih (.next h0 (.parser _ _ _ hu)) h
    | some ch =>
      simp only [runReader, Option.bind_eq_some_iff] at h
      obtain ⟨u, hu, h⟩ := h
      exact ih (.next h0 (.user _ _ _ hu)) h

/-- Opening, a read and two skips on a document of two units. -/
def sampleRun : List (Option UserChoice) :=
  let u : Option UserChoice := some (.call .read)
  let k : Option UserChoice := some (.call .skip)
  [u, none, u, none, u] ++                                   -- open
  [u, u, u, u, none, none, none, u, u] ++                    -- read: header
  [u, u, u, none, none, none, u, u] ++                       -- read: body
  [k, k, k, k, none, none, none, none, k, k] ++              -- skip
  [k, k, k, k, none, none, none, k, k]                       -- skip at the end

/-- The hypotheses of the theorems are met: a run through a whole document. -/
example : ∃ s, Reading { units := 2 } .normal false s ∧
    s.log = [(.read, some (some 0, some 0)), (.skip, some (some 1, none)), (.skip, none)] := by
  have h : (runReader (Reader.start false 2 false true .normal) sampleRun).map (·.log) =
      some [(.read, some (some 0, some 0)), (.skip, some (some 1, none)), (.skip, none)] := by decide +kernel
  rw [Option.map_eq_some_iff] at h
  obtain ⟨s, hs, hl⟩ := h
  exact ⟨s, runReader_reach .start hs, hl⟩

/-- **C29, finding.** A document with an error before its first unit (say, an empty file): `done()` sets the flag and notifies without
the lock. If this happens between the test and the wait of the constructor, the opening of the archive never returns. -/
theorem C29_finding_open_race : ∃ s, Reading { units := 0, complete := false } .failed false s ∧ busy s ∧ stuck s := by
  have h : runReader (Reader.start false 0 false false .failed) [some .close, none, none, some .close] =
      some { todo := [], finish := .failed, parser := .ended, isDone := true, user := .openWait } := by decide +kernel
  refine ⟨_, runReader_reach .start h, by simp [busy], ?_⟩
  intro t ht
  cases ht with
  | parser f h => simp [Reader.parserStep] at h
  | user ch h => simp [Reader.userStep] at h

/-- **C29, finding.** A well-formed document whose root is not a `unit`, such as `<a>x</a>`, leads to no callback and no error:
whatever the scheduler does, the opening of the archive never returns. -/
theorem C29_finding_no_unit (f : Finish) (hf : f ≠ .failed) (s : Reader)
    (h : Reading { units := 0, complete := false } f false s) :
    s.user = .opening ∨ s.user = .openHolds ∨ s.user = .openWait := by
  have key : s.todo = [] ∧ s.finish = f ∧ s.isDone = false ∧ s.waitRoot = true ∧ (s.parser = .run ∨ s.parser = .ended) ∧
      (s.user = .opening ∨ s.user = .openHolds ∨ s.user = .openWait) := by
    induction h with
    | start => simp [Reader.start, saxCalls]
    | next _ hst ih =>
      obtain ⟨h1, h2, h3, h4, h5, h6⟩ := ih
      cases hst with
      | parser g h =>
        rcases h5 with h5 | h5 <;> simp [Reader.parserStep, h5, h1, h2] at h
        cases f <;> simp at hf h <;> subst h <;> simp_all
      | user ch h =>
        rcases h6 with h6 | h6 | h6 <;> simp [Reader.userStep, h6, h3, h4] at h <;> subst h <;> simp_all
  exact key.2.2.2.2.2

/-- **C29, finding.** The errors for which `done()` is not called: with a document that breaks off inside of a unit and such an error,
a read never returns. -/
theorem C29_finding_quiet_error : ∃ s, Reading { units := 0, cut := true, complete := false } .quiet false s ∧
    busy s ∧ stuck s ∧ s.user = .bodyWait := by
  let u : Option UserChoice := some (.call .read)
  have h : runReader (Reader.start false 0 true false .quiet)
      ([u, u, none, none, u] ++ [u, u, u, u, none, none, none, u, u] ++ [u, u, u, none, none]) =
      some { todo := [], finish := .quiet, started := 1, parser := .ended, readRoot := true, wantBody := true,
             waitRoot := false, ptr := .current, header := some 0, user := .bodyWait } := by decide +kernel
  refine ⟨_, runReader_reach .start h, by simp [busy], ?_, rfl⟩
  intro t ht
  cases ht with
  | parser f h => simp [Reader.parserStep] at h
  | user ch h => simp [Reader.userStep] at h

/-- **C28, finding.** `cond.wait` is called without a condition, and the C++ standard allows it to return without a notification. If
it does, the result is wrong: a skip passes nothing, and the next read gives the unit that was to be skipped. -/
theorem C28_finding_spurious_wakeup :
    ∃ s, Reach (Reader.start false 2 false true .normal) (fun a b => a.Step b ∨ a.Spurious b) s ∧
      s.log = [(.skip, some (none, none)), (.read, some (some 0, some 0))] := by
  let u : Option UserChoice := some (.call .read)
  let k : Option UserChoice := some (.call .skip)
  have mono : ∀ {s t : Reader}, Reach s Reader.Step t → Reach s (fun a b => a.Step b ∨ a.Spurious b) t := by
    intro s t h
    induction h with
    | start => exact .start
    | next _ h ih => exact .next ih (Or.inl h)
  have h1 : runReader (Reader.start false 2 false true .normal) [u, u] =
      some { todo := saxCalls false 2 false true, finish := .normal, user := .openWait } := by decide +kernel
  have r1 := mono (runReader_reach .start h1)
  have r2 := Reach.next r1 (Or.inr (Reader.Spurious.user _ (by decide)))
  have h3 : (runReader { todo := saxCalls false 2 false true, finish := .normal, user := .openWoken }
      ([k] ++ [k, k, k, k, none, none, k, k] ++ [u, u, u, u, none, none, none, u, u] ++
       [u, u, u, none, none, none, u, u])).map (·.log) =
      some [(.skip, some (none, none)), (.read, some (some 0, some 0))] := by decide +kernel
  rw [Option.map_eq_some_iff] at h3
  obtain ⟨s, hs, hl⟩ := h3
  have r3 := runReader_reach (s0 := { todo := saxCalls false 2 false true, finish := .normal, user := .openWoken }) .start hs
  refine ⟨s, ?_, hl⟩
  clear hs hl
  induction r3 with
  | start => exact r2
  | next _ h ih => exact .next ih (Or.inl h)

end Srcml
