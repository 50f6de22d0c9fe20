import Verif.Spec.SrcmlInput
import Verif.Props.CopyScope
import Verif.Props.Command
/-
C80: a srcML document through the command.
-/
set_option linter.unusedSimpArgs false
namespace Srcml
open Spec

/-! ### The units -/

theorem inner_language (v : UnitData) (l : Option Str) : (UnitObj.getInner { data := { v with language := l } }).1 = (UnitObj.getInner { data := v }).1 := by
  unfold UnitObj.getInner
  dsimp only
  split
  · rfl
  · split
    · rfl
    · rfl

theorem known_language {b : Archive} {v : UnitData} {j : ReadJob} (k : Known b v j) {l : Option Str} (hl : ∀ x, l = some x → ValidValue x) :
    Known b { v with language := l.or v.language } j := by
  obtain ⟨q, hq⟩ := k.copyable.language
  refine ⟨?_, k.wellFormed, k.escapes, (by have := k.inner; rw [← inner_language v (l.or v.language)] at this; exact this), k.src, k.names, k.pairs⟩
  have c := k.copyable
  refine ⟨c.table, c.archiveOnce, c.body, c.revisionNumber, c.content, c.prefixes, c.once, c.cpp, c.encoding, ?_, ?_, c.revision, c.userNames, c.userNodup, c.userValues⟩
  · intro x hx
    have hv := c.values x
    simp only [List.mem_cons, List.not_mem_nil, or_false] at hv hx
    rcases hx with hx | hx | hx
    · exact hv (.inl hx)
    · cases l with
      | none => exact hv (.inr (.inl hx))
      | some y => cases hx; exact hl x rfl
    · exact hv (.inr (.inr hx))
  · cases l with
    | none => exact ⟨q, hq⟩
    | some y => exact ⟨y, rfl⟩

theorem scoped_language {b : Archive} {v : UnitData} {j : ReadJob} {name : Str} {attrs : List (Str × Str)} (h : Scoped b v j name attrs) (l : Option Str) :
    Scoped b { v with language := l.or v.language } j name attrs := ⟨h.text, h.named, h.known, h.sound, h.declared⟩

/-! ### The output archive -/

theorem runSetup_calls : ∀ (cs : List (Option SetCall)) (a b : Archive), runSetup a cs = .val (some b) → ∃ calls, runCalls a calls = .val b
  | [], a, b, h => by cases h; exact ⟨[], rfl⟩
  | none :: _, a, b, h => by cases h
  | some c :: cs, a, b, h => by
    simp only [runSetup] at h
    obtain ⟨⟨st, a1⟩, h1, h⟩ := conv_bind h
    dsimp only at h
    split at h
    · cases h
    · obtain ⟨calls, h2⟩ := runSetup_calls cs a1 b h
      refine ⟨c :: calls, ?_⟩
      rw [runCalls, h1]
      exact h2

theorem runCalls_append (l l' : List SetCall) (a : Archive) : runCalls a (l ++ l') = (runCalls a l).bind (fun b => runCalls b l') := by
  induction l generalizing a with
  | nil => rfl
  | cons c l ih =>
    simp only [List.cons_append, runCalls]
    cases c.run a with
    | ub => rfl
    | val p => exact ih p.2

theorem run_namespaces (l : List Namespace) (a : Archive) : runCalls a (l.map (fun n => .registerNamespace (some n.prefix_) (some n.uri))) =
    .val { a with namespaces := registerAll a.namespaces l, options := registerAllOptions a.options l } := by
  induction l generalizing a with
  | nil => rfl
  | cons n l ih =>
    simp only [List.map_cons, runCalls, SetCall.run]
    rw [ih]
    rfl

/-- What is known of the output archive. -/
structure OutputKnown (req : CreateReq) (i : InputSrc) (unit : Nat) (b a : Archive) : Prop where
  made : ∃ calls, runCalls srcml_archive_create calls = .val a
  start : ∃ a0, createArchive req [i] = .val (some a0) ∧ a0.language = req.attLanguage ∧ runCalls a0 (srcmlOutputCalls true unit false b) = .val a
  declares : isoption a.options OPTION_NAMESPACE_DECL = true
  kind : isoption a.options OPTION_ARCHIVE = true ↔ (¬ OneUnit req [i] ∨ (srcml_archive_is_solitary_unit (some b) = .val false ∧ unit = 0))
  knows : (b.namespaces.map (·.uri)).Nodup → Knows a b
  revision : a.revision = some "1.0.0".toList
  instruction : a.processingInstruction = none

theorem isoption_getLsbD (o : Opts) (k : Nat) (hk : k < 64) : isoption o (1#64 <<< k) = o.getLsbD k := by
  have := and_twoPow_eq_zero o k hk
  unfold isoption
  cases h : o.getLsbD k with
  | false => rw [h] at this; simpa using this
  | true => rw [h] at this; simpa using this

theorem regOptions_bits (l : List Namespace) (o : Opts) (k : Nat) : (registerAllOptions o l).getLsbD k =
    (o.getLsbD k || (decide (CPP_NS_URI ∈ l.map (·.uri)) && decide (k = 3 ∨ k = 13)) || (decide (ERROR_NS_URI ∈ l.map (·.uri)) && decide (k = 11)) ||
      (decide (POSITION_NS_URI ∈ l.map (·.uri)) && decide (k = 2))) := by
  have h := ns_bits k o (l.map (fun n => (n.prefix_, n.uri)))
  have e : (l.map (fun n => (n.prefix_, n.uri))).foldl (fun o n => registerNsOptions o n.2) o = registerAllOptions o l := by
    unfold registerAllOptions
    rw [List.foldl_map]
  rw [e] at h
  rw [h]
  have hx : ∀ u, (∃ n ∈ l.map (fun n => (n.prefix_, n.uri)), n.2 = u) ↔ u ∈ l.map (·.uri) := by
    intro u
    simp only [List.mem_map]
    constructor
    · rintro ⟨n, ⟨m, h1, rfl⟩, h2⟩; exact ⟨m, h1, h2⟩
    · rintro ⟨m, h1, h2⟩; exact ⟨_, ⟨m, h1, rfl⟩, h2⟩
  simp only [hx]

theorem solitary_iff (b : Archive) : srcml_archive_is_solitary_unit (some b) = .val false ↔ isoption b.options OPTION_ARCHIVE = true := by
  show Run.val (isSolitary b) = .val false ↔ _
  unfold isSolitary isoption
  simp

theorem output_known {req : CreateReq} {i : InputSrc} {unit : Nat} {b a : Archive} (h : OutputFor req i unit b a) : OutputKnown req i unit b a := by
  obtain ⟨a0, a1, h1, h2, h3⟩ := h
  obtain ⟨url, hu, hd⟩ := create_done req _ a0 h1
  obtain ⟨w0, w1, w2, w3, w4, w5, w6, w14, w15, w8⟩ := word_bits' req.markup (oneUnit req [i])
  have hbit : ∀ k, (setupDone req (oneUnit req [i]) url).options.getLsbD k = _ := fun k => ns_bits k (setupWord req.markup (oneUnit req [i])) req.namespaces
  rw [← hd] at hbit
  rw [run_namespaces] at h3
  have h3 : _ = a := Run.val.inj h3
  have ha1 : a1 = { a0 with options := if srcml_archive_is_solitary_unit (some b) = .val false ∧ unit = 0 then a0.options ||| OPTION_ARCHIVE else a0.options } := by
    split at h2
    · rename_i hc
      rw [if_pos hc]
      exact (Run.val.inj h2).symm
    · rename_i hc
      rw [if_neg hc]
      exact (Run.val.inj h2).symm
  have ho : a.options = registerAllOptions a1.options b.namespaces := by rw [← h3]
  have h14 : a1.options.getLsbD 14 = (a0.options.getLsbD 14 || decide (srcml_archive_is_solitary_unit (some b) = .val false ∧ unit = 0)) := by
    rw [ha1]
    by_cases hc : srcml_archive_is_solitary_unit (some b) = .val false ∧ unit = 0
    · rw [if_pos hc, or_bit, decide_eq_true hc]
      rw [OPTION_ARCHIVE, pow_bit _ _ (by decide)]
      rfl
    · rw [if_neg hc, decide_eq_false hc, Bool.or_false]
  have h8 : a1.options.getLsbD 8 = a0.options.getLsbD 8 := by
    rw [ha1]
    by_cases hc : srcml_archive_is_solitary_unit (some b) = .val false ∧ unit = 0
    · rw [if_pos hc, or_bit]
      rw [OPTION_ARCHIVE, pow_bit _ _ (by decide)]
      simp
    · rw [if_neg hc]
  have hcalls : srcmlOutputCalls true unit false b = (if srcml_archive_is_solitary_unit (some b) = .val false ∧ unit = 0 then [SetCall.disableSolitary] else []) ++
      b.namespaces.map (fun n => .registerNamespace (some n.prefix_) (some n.uri)) := by
    unfold srcmlOutputCalls
    have e1 : b.namespaces.filter (fun n => !(false && decide (n.uri = DIFF_NS_URI))) = b.namespaces := by simp
    rw [if_pos rfl, e1]
    congr 1
    by_cases hc : srcml_archive_is_solitary_unit (some b) = .val false ∧ unit = 0
    · rw [if_pos hc, if_pos ⟨(solitary_iff b).mp hc.1, by omega⟩]
    · rw [if_neg hc, if_neg (fun h => hc ⟨(solitary_iff b).mpr h.1, by omega⟩)]
  have hrun : runCalls a0 (srcmlOutputCalls true unit false b) = .val a := by
    rw [hcalls, runCalls_append, h2]
    show runCalls a1 _ = _
    rw [run_namespaces]
    exact congrArg _ h3
  refine ⟨?_, ⟨a0, h1, by rw [hd]; rfl, hrun⟩, ?_, ?_, ?_, ?_, ?_⟩
  · have h1' := h1
    unfold createArchive at h1'
    obtain ⟨url', hu', h1'⟩ := conv_bind h1'
    obtain ⟨calls, hc⟩ := runSetup_calls _ _ _ h1'
    exact ⟨calls ++ srcmlOutputCalls true unit false b, by rw [runCalls_append, hc]; exact hrun⟩
  · show isoption a.options (1#64 <<< 8) = true
    rw [isoption_getLsbD _ _ (by decide), ho, regOptions_bits, h8, hbit, w8]
    simp
  · show isoption a.options (1#64 <<< 14) = true ↔ _
    rw [isoption_getLsbD _ _ (by decide), ho, regOptions_bits, h14, hbit, w14, ← oneUnit_iff]
    simp
  · intro hn
    refine ⟨?_, ?_, ?_⟩
    · intro u p hp
      have hp : prefixAt b.namespaces u = some p := hp
      show prefixAt a.namespaces u = some p
      rw [← h3]
      show prefixAt (registerAll a1.namespaces b.namespaces) u = _
      rw [prefixAt_registerAll _ hn, hp]
      rfl
    · intro _ hx
      show isoption a.options (1#64 <<< 2) = true
      have hm : POSITION_NS_URI ∈ b.namespaces.map (·.uri) := by
        apply Classical.byContradiction
        intro h0
        exact hx (prefixAt_none.mpr h0)
      rw [isoption_getLsbD _ _ (by decide), ho, regOptions_bits, decide_eq_true hm]
      simp
    · intro _ hx
      show isoption a.options (1#64 <<< 11) = true
      have hm : ERROR_NS_URI ∈ b.namespaces.map (·.uri) := by
        apply Classical.byContradiction
        intro h0
        exact hx (prefixAt_none.mpr h0)
      rw [isoption_getLsbD _ _ (by decide), ho, regOptions_bits, decide_eq_true hm]
      simp
  · rw [← h3, ha1, hd]; rfl
  · rw [← h3, ha1, hd]; rfl

/-! ### The command -/

theorem consume_read {D : Type} {env : ParseEnv D} {b : Archive} {u : UnitData} (hl : ∃ l, u.language = some l) (happly : env.apply u = .val none) :
    srcml_consume env (srcmlWork b u : Work D) = .val (srcmlWork b u) := by
  obtain ⟨l, hl⟩ := hl
  have hu : (if u.language = none ∨ u.language = some [] then (UnitSet.run u (.language (some []))).2 else u) = u := by
    by_cases h : u.language = none ∨ u.language = some []
    · rw [if_pos h]
      rcases h with h | h
      · rw [hl] at h; cases h
      · show { u with language := some [] } = u
        rw [← h]
    · rw [if_neg h]
  have hp : prepareUnit (srcmlWork b u : Work D) = .val (u, srcmlWork b u) := by
    unfold prepareUnit srcmlWork
    dsimp only [Run.bind]
    rw [hu]
  unfold srcml_consume
  rw [if_neg (by simp [srcmlWork]), hp]
  simp only [Run.bind, srcmlWork, Bool.false_eq_true, if_false, reduceCtorEq, happly, ne_eq, not_true_eq_false]

theorem consumeAll_read {D : Type} {env : ParseEnv D} {b : Archive} : ∀ us : List UnitData, (∀ u ∈ us, ∃ l, u.language = some l) → (∀ u, env.apply u = .val none) →
    consumeAll env (us.map (srcmlWork b : UnitData → Work D)) = .val (us.map (srcmlWork b))
  | [], _, _ => rfl
  | u :: us, hl, ha => by
    simp only [List.map_cons, consumeAll, consume_read (b := b) (hl u (by simp)) (ha u), Run.bind, consumeAll_read us (fun x hx => hl x (by simp [hx])) ha]

/-- The units that were read, written to the output of the command, are the calls on an archive in memory. -/
theorem copies_written {D : Type} (opts : CmdOptions) (num : NumberText D) (zero : D) (opened : Str → Bool) (a b : Archive) (th : ThreadState) (us : List UnitData)
    (hopts : opts.noarchive = false ∧ opts.xmlFragment = false ∧ opts.xmlRaw = false) (hb : ∀ u ∈ us, u.readBody = true) (m : ArchiveIO) (doc : Str)
    (c1 : (newIO a th).calls (.openWrite true .memory :: us.map (fun u => .writeUnit b (some u) none) ++ [.close]) = .val m) (c2 : m.delivered = some doc) :
    ∃ o s, writeAll opts num zero opened none { main := ((newIO a th).openWrite true (.other true)).2 } (us.map (srcmlWork b : UnitData → Work D)) = .val o ∧ o.messages = [] ∧ o.files = [] ∧
      o.main.close = .val s ∧ s.kept = doc := by
  have hshow : ∀ us : List UnitData, ShowsAll opts num (us.map (srcmlWork b : UnitData → Work D)) (us.map Effect.unit) [] := by
    intro us
    induction us with
    | nil => exact .nil
    | cons u us ih => exact .cons (Shows.unit (w := (srcmlWork b u : Work D)) (o := { data := u }) rfl rfl rfl hopts.2.1 hopts.2.2) ih
  generalize hs0 : ((newIO a th).openWrite true (.other true)).2 = s0
  have hmem0 : ((newIO a th).openWrite true .memory).2 = inMemory s0 := by rw [← hs0]; rfl
  have hset : s0.settings = a ∧ s0.memory = false ∧ s0.mode = .write := by rw [← hs0]; exact ⟨rfl, rfl, rfl⟩
  rw [List.cons_append, ArchiveIO.calls] at c1
  simp only [ArchiveIO.call, hmem0] at c1
  rw [ioCalls_append] at c1
  have hms : us.map (fun u => IoCall.writeUnit b (some u) none) = (us.map (fun u => MadeUnit.mk b u [])).map (fun m => .writeUnit m.ua (some m.u) none) := by
    rw [List.map_map]; rfl
  rw [hms] at c1
  cases hcs : (inMemory s0).calls ((us.map (fun u => MadeUnit.mk b u [])).map (fun m => .writeUnit m.ua (some m.u) none)) with
  | ub => rw [hcs] at c1; cases c1
  | val m1 =>
    rw [hcs] at c1
    simp only [ArchiveIO.calls, ArchiveIO.call] at c1
    obtain ⟨s1, r1, r2, r3, r4⟩ := runEffects_units (some b) (us.map (fun u => MadeUnit.mk b u [])) s0 m1 (by
      intro x hx; obtain ⟨u, hu, rfl⟩ := List.mem_map.mp hx; rfl) hcs
    subst r2
    cases hcl : (inMemory s1).close with
    | ub => rw [hcl] at c1; cases c1
    | val m2 =>
      rw [hcl] at c1
      simp only [Run.val.injEq] at c1
      subst c1
      obtain ⟨s2, d1, d2⟩ := close_inMemory s1 m2 (by rw [r3]; exact hset.2.1) hcl
      obtain ⟨f, f1, f2⟩ := C71_writes opts num zero opened none (some b) hopts.1 (us.map (srcmlWork b : UnitData → Work D)) { main := s0 } _ _ (hshow us)
        (by intro w hw; obtain ⟨u, hu, rfl⟩ := List.mem_map.mp hw; rfl) hset.2.2 (by
        intro u hu
        simp only [List.mem_map] at hu
        obtain ⟨p, hp', h⟩ := hu
        cases h
        exact hb _ hp')
      have r1' : runEffects (some b) s0 (us.map Effect.unit) = .val s1 := by
        rw [← r1, List.map_map]; rfl
      rw [r1'] at f1
      obtain ⟨q1, q2, q3⟩ := f2 s1
      refine ⟨f s1, s2, f1, q3, q2, by rw [q1]; exact d1, ?_⟩
      rw [c2] at d2
      exact (Option.some.inj d2).symm

/-- The command on one srcML document writes the units that are asked for, as calls on an archive in memory. -/
theorem srcml_command {D : Type} (opts : CmdOptions) (req : CreateReq) (env : ParseEnv D) (num : NumberText D) (zero : D) (opened : Str → Bool) (other : Handlers D)
    (docs : InputSrc → Option ArchiveIO) (th : ThreadState) (dest : Destination) (i : InputSrc) (unit : Nat) (b a : Archive) (vs us : List UnitData)
    (hopts : opts.noarchive = false ∧ opts.xmlFragment = false ∧ opts.xmlRaw = false) (hdest : dest ≠ .file false) (hi : SrcmlDoc other docs i b vs)
    (hv : ∀ v ∈ vs, v.readBody = true ∧ v.src.isSome = true ∧ ∃ l, v.language = some l) (hus : Asked unit vs us) (hne : us ≠ []) (ha : OutputFor req i unit b a)
    (happly : ∀ u, env.apply u = .val none) (m : ArchiveIO) (doc : Str)
    (c1 : (newIO a th).calls (.openWrite true .memory :: (us.map (fun u => ({ u with language := req.attLanguage.or u.language } : UnitData))).map (fun u => .writeUnit b (some u) none) ++ [.close]) = .val m)
    (c2 : m.delivered = some doc) :
    create_srcml opts req env num zero opened (withSrcml true (fun _ => unit) false docs other) th dest [i] = .val { output := doc } := by
  have k := output_known ha
  obtain ⟨a0, h1, h2, h3⟩ := k.start
  obtain ⟨s, s1, s2, s3, s4⟩ := hi.opened
  have hold : Holds s vs := ⟨s2, s4, fun v h => ⟨(hv v h).1, (hv v h).2.1⟩⟩
  obtain ⟨p1, _, p3⟩ := C47_srcml req.attLanguage unit s vs hold
  have hsched : srcmlInput req.attLanguage unit s = { units := us.map (fun u => { u with language := req.attLanguage.or u.language }) } := by
    rcases hus with ⟨rfl, rfl⟩ | ⟨n, hn, rfl, rfl⟩
    · exact p3 rfl hne
    · exact p1 n hn (by simp)
  have hsub : ∀ u ∈ us, u ∈ vs := by
    intro u hu
    rcases hus with ⟨_, rfl⟩ | ⟨n, hn, _, rfl⟩
    · exact hu
    · rw [List.mem_singleton.mp hu]; exact List.getElem_mem hn
  generalize hws : us.map (fun u => ({ u with language := req.attLanguage.or u.language } : UnitData)) = ws at *
  have hws' : ∀ w ∈ ws, w.readBody = true ∧ ∃ l, w.language = some l := by
    intro w hw
    rw [← hws] at hw
    obtain ⟨u, hu, rfl⟩ := List.mem_map.mp hw
    obtain ⟨q1, _, l, q3⟩ := hv u (hsub u hu)
    refine ⟨q1, ?_⟩
    cases req.attLanguage with
    | none => exact ⟨l, q3⟩
    | some x => exact ⟨x, rfl⟩
  have hh : handlerOf i = .srcml := by unfold handlerOf; rw [if_pos hi.state]
  generalize hH : withSrcml true (fun _ => (unit : Int)) false docs other = H
  have hd : dispatchInput H a0 i = .val { requests := ws.map (srcmlWork b), calls := srcmlOutputCalls true unit false b } := by
    unfold dispatchInput
    rw [hh, if_neg (by
      rintro ⟨_, q1, q2, q3⟩
      rw [← hH] at q1 q3
      rcases hi.reached with h | h | h
      · rw [show other.curl i = true from q1] at h; cases h
      · exact q2 h
      · rw [show other.opened i = false from q3] at h; cases h)]
    rw [← hH]
    show Run.val (srcml_input_srcml true unit false (docs i) a0) = _
    unfold srcml_input_srcml
    rw [s1]
    dsimp only
    rw [h2, hsched, s3]
  obtain ⟨⟨R, r1, r2, r3, r4, r5, _, r7⟩, _⟩ := C72_inputs H a0 a [(i, { requests := ws.map (srcmlWork b), calls := srcmlOutputCalls true unit false b })]
    (.cons (mid := a0) hd (show (1 : Int) ≠ -1 by decide) rfl (fun _ => rfl) (fun hx => by cases hx) h3 (.nil a))
  obtain ⟨o, s', k2, k3, k4, k5, k6⟩ := copies_written (D := D) opts num zero opened a b th ws hopts (fun w hw => (hws' w hw).1) m doc c1 c2
  have hreq : R.requests = ws.map (srcmlWork b) := by rw [r2]; simp
  have herr : R.errors = 0 := by rw [r7]; rfl
  have hopen : (ArchiveIO.openWrite { settings := a, thread := th } true (.other dest.opened)).2 = ((newIO a th).openWrite true (.other true)).2 := by
    cases dest with
    | fd => rfl
    | file b => cases b with
      | true => rfl
      | false => exact absurd rfl hdest
  have hex : (ws.map (srcmlWork b : UnitData → Work D)).any (·.exits) = false := by
    rw [List.any_map]
    simp [srcmlWork]
  have r1' : handleInputs H a0 0 [i] = .val R := r1
  unfold create_srcml
  rw [h1]
  simp only [Run.bind]
  rw [r1']
  simp only [Run.bind, r5, Bool.false_eq_true, if_false, hopts.1, r3, hopen]
  rw [hreq, consumeAll_read ws (fun w hw => (hws' w hw).2) happly]
  simp only [hex, Bool.false_eq_true, if_false]
  rw [k2]
  simp only [finishCommand, herr, k3, List.length_nil, Nat.add_zero, Nat.lt_irrefl, gt_iff_lt, if_false]
  rw [if_pos (.inl r4), k5]
  simp only [Run.bind, k6, k4]

/-- The units that are asked for, with the descriptions by which they were written. -/
theorem asked_jobs {unit : Nat} {vs us : List UnitData} (hus : Asked unit vs us) (js : List ReadJob) (hjs : js.length = vs.length) {P : UnitData → ReadJob → Prop}
    (hP : ∀ k (h : k < vs.length) (h' : k < js.length), P vs[k] js[k]) : ∃ ps : List (UnitData × ReadJob), ps.map (·.1) = us ∧ (∀ p ∈ ps, P p.1 p.2) ∧ ∀ p ∈ ps, p.2 ∈ js := by
  rcases hus with ⟨rfl, rfl⟩ | ⟨n, hn, rfl, rfl⟩
  · refine ⟨us.zip js, ?_, ?_, ?_⟩
    · rw [List.map_fst_zip (by omega)]
    · intro p hp
      obtain ⟨k, hk, rfl⟩ := List.mem_iff_getElem.mp hp
      rw [List.getElem_zip]
      rw [List.length_zip] at hk
      exact hP k (by omega) (by omega)
    · intro p hp
      obtain ⟨k, hk, rfl⟩ := List.mem_iff_getElem.mp hp
      rw [List.getElem_zip]
      exact List.getElem_mem _
  · refine ⟨[(vs[n], js[n])], rfl, ?_, ?_⟩
    · intro p hp
      rw [List.mem_singleton.mp hp]
      exact hP n hn (by omega)
    · intro p hp
      rw [List.mem_singleton.mp hp]
      exact List.getElem_mem _

theorem asked_sub {unit : Nat} {vs us : List UnitData} (hus : Asked unit vs us) : ∀ u ∈ us, u ∈ vs := by
  intro u hu
  rcases hus with ⟨_, rfl⟩ | ⟨n, hn, _, rfl⟩
  · exact hu
  · rw [List.mem_singleton.mp hu]; exact List.getElem_mem hn

theorem known_doc {b : Archive} {vs : List UnitData} {js : List ReadJob} (hjs : js.length = vs.length) (hread : ∀ k (h : k < vs.length) (h' : k < js.length), ReadBack b vs[k] js[k]) :
    ∀ v ∈ vs, v.readBody = true ∧ v.src.isSome = true ∧ ∃ l, v.language = some l := by
  intro v hv
  obtain ⟨k, hk, rfl⟩ := List.mem_iff_getElem.mp hv
  have h := read_known (hread k hk (by omega))
  refine ⟨h.copyable.body, ?_, h.copyable.language⟩
  rw [h.src]; rfl

/-- **C80.** A srcML document through the command. The command is run on a document that was written with the library and can be read: an archive, or a document of one unit, of which all units
are asked for or one by its number. If the output is an archive, the command writes no message and ends normally, and whoever reads the output, in every interleaving of the two threads of the reader and whatever
the pieces in which it is delivered, gets exactly the units that were asked for, in their order, and no other: the inner text, character by character, the source text, all metadata, the revision and the attributes are
the same, but the language if one was asked for; and each unit is the same XML, with its namespaces.
Partial: what is missing in `C79_same_xml_partial`, and the output archive is one that XML can carry. -/
theorem C80_archive_partial {D : Type} (opts : CmdOptions) (req : CreateReq) (env : ParseEnv D) (num : NumberText D) (zero : D) (opened : Str → Bool) (other : Handlers D)
    (docs : InputSrc → Option ArchiveIO) (th : ThreadState) (dest : Destination) (i : InputSrc) (unit : Nat) (b a : Archive) (vs us : List UnitData) (js : List ReadJob)
    (hopts : opts.noarchive = false ∧ opts.xmlFragment = false ∧ opts.xmlRaw = false) (hdest : dest ≠ .file false) (hi : SrcmlDoc other docs i b vs)
    (hjs : js.length = vs.length) (hread : ∀ k (h : k < vs.length) (h' : k < js.length), ReadBack b vs[k] js[k]) (huse : ∀ j ∈ js, UsualUnit b j)
    (hus : Asked unit vs us) (hne : us ≠ []) (ha : OutputFor req i unit b a) (hlang : ∀ l, req.attLanguage = some l → ValidValue l)
    (hout : ¬ OneUnit req [i] ∨ (srcml_archive_is_solitary_unit (some b) = .val false ∧ unit = 0)) (hc : CarriedArchive a) (hp : UsualPrefixes a.namespaces)
    (happly : ∀ u, env.apply u = .val none) :
    ∃ e, create_srcml opts req env num zero opened (withSrcml true (fun _ => unit) false docs other) th dest [i] = .val e ∧
      e.exited = false ∧ e.messages = [] ∧ e.files = [] ∧ e.cut = false ∧
      ∀ fs wants, Delivers e.output fs → ∃ h : Sax2, ({ wants := wants } : Sax2).feeds fs = .val h ∧ AnyCalls h.log ∧
        ∀ (fin : Finish) (r : Reader), Reach { todo := h.log.filterMap saxCall, finish := fin } Reader.Step r →
          (∀ i (hi : i < r.log.length), (wants[i]?).getD false = decide ((r.log[i]).1 = .read)) →
          ∀ i (hi : i < r.log.length),
            (∀ hn : i < us.length, (r.log[i]).1 = .read → ∃ w, gets h.log (r.log[i]).2 = some w ∧ SameUnitData { us[i] with language := req.attLanguage.or (us[i]).language } w ∧
              SameXml us[i] w ∧ w.revision = (us[i]).revision ∧ w.url = none ∧ (isoption a.options OPTION_STORE_ENCODING = false → w.attributes = (us[i]).attributes)) ∧
            (us.length ≤ i → (r.log[i]).2 = none) := by
  have k := output_known ha
  obtain ⟨ps, p1, p2, p3⟩ := asked_jobs hus js hjs hread
  let g : UnitData × ReadJob → Archive × UnitData × ReadJob := fun p => (b, { p.1 with language := req.attLanguage.or p.1.language }, p.2)
  have hx : ∀ x ∈ ps.map g, Known x.1 x.2.1 x.2.2 ∧ ∃ name attrs, Scoped x.1 x.2.1 x.2.2 name attrs := by
    intro x hx
    obtain ⟨p, hp, rfl⟩ := List.mem_map.mp hx
    obtain ⟨name, attrs, hs⟩ := read_scoped (p2 p hp) (huse p.2 (p3 p hp))
    exact ⟨known_language (read_known (p2 p hp)) hlang, name, attrs, scoped_language hs _⟩
  have hxne : ps.map g ≠ [] := by
    intro h
    rw [List.map_eq_nil_iff] at h
    rw [h] at p1
    exact hne p1.symm
  have hA := k.kind.mpr hout
  obtain ⟨calls, hmade⟩ := k.made
  have hknows : ∀ x ∈ ps.map g, Knows a x.1 := by
    intro x hx
    obtain ⟨p, hp, rfl⟩ := List.mem_map.mp hx
    exact k.knows (read_known (p2 p hp)).copyable.archiveOnce
  obtain ⟨s, doc, c1, c2, c3⟩ := known_same_xml (ps.map g) hx hxne a (created_madeTable calls a hmade) th hA k.declares hc hp hknows
  obtain ⟨s', doc', d1, d2, d3⟩ := known_copy (ps.map g) (fun x h => (hx x h).1) hxne a th hA hc
  cases c1.symm.trans d1
  cases c2.symm.trans d2
  have hlist : (us.map (fun u => ({ u with language := req.attLanguage.or u.language } : UnitData))).map (fun u => IoCall.writeUnit b (some u) none) = (ps.map g).map (fun x => .writeUnit x.1 (some x.2.1) none) := by
    rw [← p1]
    simp only [List.map_map]
    rfl
  have hcmd := srcml_command opts req env num zero opened other docs th dest i unit b a vs us hopts hdest hi (known_doc hjs hread) hus hne ha happly s doc (by rw [hlist]; exact c1) c2
  refine ⟨_, hcmd, rfl, rfl, rfl, rfl, ?_⟩
  intro fs wants hd
  obtain ⟨h, g1, g0, g2⟩ := c3 fs wants hd
  obtain ⟨h', e1, _, e2⟩ := d3 fs wants hd
  cases g1.symm.trans e1
  refine ⟨h, g1, g0, ?_⟩
  intro fin r hr hw i hi
  have hlen : (ps.map g).length = us.length := by rw [← p1]; simp
  obtain ⟨q1, q2⟩ := e2 fin r hr hw i hi
  refine ⟨?_, fun hn => q2 (by omega)⟩
  intro hn hrd
  obtain ⟨w, w1, w2, w3⟩ := g2 fin r hr hw i hi (by omega) hrd
  obtain ⟨w', v1, v2, v3, v4, v5⟩ := q1 (by omega) hrd
  cases w1.symm.trans v1
  have hi' : i < ps.length := by rw [List.length_map] at hlen; omega
  have hget : (ps.map g)[i]'(by omega) = g ps[i] := by rw [List.getElem_map]
  have hus' : us[i] = (ps[i]).1 := by
    have : us[i] = (ps.map (·.1))[i]'(by rw [List.length_map]; exact hi') := by congr 1; exact p1.symm
    rw [this, List.getElem_map]
  rw [hget] at w2 w3 v3 v5
  rw [hus']
  exact ⟨w, w1, w2, w3, v3, v4, v5⟩

theorem one_job {α β : Type} (ps : List (α × β)) (u : α) (h : ps.map (·.1) = [u]) : ∃ j, ps = [(u, j)] := by
  cases ps with
  | nil => cases h
  | cons p l =>
    obtain ⟨x, y⟩ := p
    cases l with
    | nil => cases h; exact ⟨y, rfl⟩
    | cons q l => cases h

theorem one_valid : ValidValue "1.0.0".toList := by
  unfold ValidValue
  decide +kernel

theorem revision_valid {o : Option Str} (h : o = some "1.0.0".toList) (r : Str) (hr : o = some r) : ValidValue r := by
  have := one_valid
  generalize "1.0.0".toList = x at *
  subst h
  cases hr
  exact this

/-- **C80** for one unit: the input is a document of one unit, or one unit of it is asked for by its number, and `--archive` is not given. The output is a document of this unit alone: the inner text, character by
character, the source text, all metadata, the url and the attributes are the same, but the language if one was asked for.
Partial: what is missing in `C79_copy_solitary_partial`; the revision is that of the library that writes. -/
theorem C80_one_partial {D : Type} (opts : CmdOptions) (req : CreateReq) (env : ParseEnv D) (num : NumberText D) (zero : D) (opened : Str → Bool) (other : Handlers D)
    (docs : InputSrc → Option ArchiveIO) (th : ThreadState) (dest : Destination) (i : InputSrc) (unit : Nat) (b a : Archive) (vs : List UnitData) (u : UnitData) (js : List ReadJob)
    (hopts : opts.noarchive = false ∧ opts.xmlFragment = false ∧ opts.xmlRaw = false) (hdest : dest ≠ .file false) (hi : SrcmlDoc other docs i b vs)
    (hjs : js.length = vs.length) (hread : ∀ k (h : k < vs.length) (h' : k < js.length), ReadBack b vs[k] js[k]) (hnames : ∀ j ∈ js, PlainNames j.evs)
    (hus : Asked unit vs [u]) (ha : OutputFor req i unit b a) (hlang : ∀ l, req.attLanguage = some l → ValidValue l)
    (hone : OneUnit req [i]) (hout : srcml_archive_is_solitary_unit (some b) = .val true ∨ unit ≠ 0) (hp : PlainProlog (rootOut a)) (happly : ∀ u, env.apply u = .val none) :
    ∃ e, create_srcml opts req env num zero opened (withSrcml true (fun _ => unit) false docs other) th dest [i] = .val e ∧
      e.exited = false ∧ e.messages = [] ∧ e.files = [] ∧ e.cut = false ∧
      ∀ fs wants, Delivers e.output fs → ∃ h : Sax2, ({ wants := wants } : Sax2).feeds fs = .val h ∧ AnyCalls h.log ∧
        ∀ (fin : Finish) (r : Reader), Reach { todo := h.log.filterMap saxCall, finish := fin } Reader.Step r →
          (∀ hi : 0 < r.log.length, wants.headD false = decide ((r.log[0]).1 = .read)) →
          ∀ i (hi : i < r.log.length),
            (i = 0 → (r.log[i]).1 = .read → ∃ w, gets h.log (r.log[i]).2 = some w ∧ SameUnitData { u with language := req.attLanguage.or u.language } w ∧
              w.revision = some "1.0.0".toList ∧ w.url = u.url ∧ (isoption a.options OPTION_STORE_ENCODING = false → w.attributes = u.attributes)) ∧
            (0 < i → (r.log[i]).2 = none) := by
  have k := output_known ha
  obtain ⟨ps, p1, p2, p3⟩ := asked_jobs hus js hjs hread
  obtain ⟨j, rfl⟩ := one_job ps u p1
  have hk := known_language (read_known (p2 (u, j) (by simp))) hlang
  have hA : isoption a.options OPTION_ARCHIVE = false := by
    cases hb : isoption a.options OPTION_ARCHIVE with
    | false => rfl
    | true =>
      rcases k.kind.mp hb with h | ⟨h1, h2⟩
      · exact absurd hone h
      · rcases hout with h | h
        · rw [h] at h1; cases h1
        · exact absurd h2 h
  have hrev : ∀ r, a.revision = some r → ValidValue r := by
    exact revision_valid k.revision
  obtain ⟨s, doc, c1, c2, c3⟩ := known_copy_solitary b _ j hk a th hA hrev hp (show a.processingInstruction = none from k.instruction) (hnames j (p3 (u, j) (by simp)))
  have hcmd := srcml_command opts req env num zero opened other docs th dest i unit b a vs [u] hopts hdest hi (known_doc hjs hread) hus (by simp) ha happly s doc c1 c2
  refine ⟨_, hcmd, rfl, rfl, rfl, rfl, ?_⟩
  have hr := k.revision
  generalize "1.0.0".toList = x at *
  rw [hr] at c3
  exact c3

/-- **C80.** The number of the unit is larger than the number of units, or the document is an archive without units: the command ends with an error, and nothing is written. -/
theorem C80_out_of_range {D : Type} (opts : CmdOptions) (req : CreateReq) (env : ParseEnv D) (num : NumberText D) (zero : D) (opened : Str → Bool) (other : Handlers D)
    (docs : InputSrc → Option ArchiveIO) (th : ThreadState) (dest : Destination) (i : InputSrc) (unit : Nat) (b a : Archive) (vs : List UnitData) (js : List ReadJob)
    (hi : SrcmlDoc other docs i b vs) (hjs : js.length = vs.length) (hread : ∀ k (h : k < vs.length) (h' : k < js.length), ReadBack b vs[k] js[k])
    (ha : OutputFor req i unit b a) (hbig : vs.length < unit ∨ vs = []) :
    create_srcml opts req env num zero opened (withSrcml true (fun _ => unit) false docs other) th dest [i] = .val { exited := true } := by
  have k := output_known ha
  obtain ⟨a0, h1, h2, h3⟩ := k.start
  obtain ⟨s, s1, s2, s3, s4⟩ := hi.opened
  have hv := known_doc hjs hread
  have hold : Holds s vs := ⟨s2, s4, fun v h => ⟨(hv v h).1, (hv v h).2.1⟩⟩
  obtain ⟨_, p2, _⟩ := C47_srcml req.attLanguage unit s vs hold
  have hsched : srcmlInput req.attLanguage unit s = { errors := 1, exited := true } := by
    rcases Nat.lt_or_ge vs.length unit with hlt | hge
    · exact p2 (by omega)
    · have hnil : vs = [] := by rcases hbig with h | h; omega; exact h
      subst hnil
      have hu : unit = 0 := by simpa using hge
      subst hu
      unfold srcmlInput
      show (if (scheduleUnits req.attLanguage 0 s).isEmpty = true then _ else _) = _
      rw [scheduled hold]
      rfl
  have hh : handlerOf i = .srcml := by unfold handlerOf; rw [if_pos hi.state]
  generalize hH : withSrcml true (fun _ => (unit : Int)) false docs other = H
  have hd : dispatchInput H a0 i = .val { calls := srcmlOutputCalls true unit false b, errors := 1, exited := true } := by
    unfold dispatchInput
    rw [hh, if_neg (by
      rintro ⟨_, q1, q2, q3⟩
      rw [← hH] at q1 q3
      rcases hi.reached with h | h | h
      · rw [show other.curl i = true from q1] at h; cases h
      · exact q2 h
      · rw [show other.opened i = false from q3] at h; cases h)]
    rw [← hH]
    show Run.val (srcml_input_srcml true unit false (docs i) a0) = _
    unfold srcml_input_srcml
    rw [s1]
    dsimp only
    rw [h2, hsched, s3]
    rfl
  unfold create_srcml
  rw [h1]
  simp only [Run.bind, handleInputs, hd, Bool.false_eq_true, if_false, h3, if_true]

/-- **C80.** The document cannot be opened: the input fails and an error is counted; no unit is scheduled, and the output archive stays as it is. -/
theorem C80_unopened {D : Type} (other : Handlers D) (docs : InputSrc → Option ArchiveIO) (unit : InputSrc → Int) (a : Archive) (i : InputSrc) (hs : i.state = .srcml)
    (hr : other.curl i = false ∨ i.protocol = "file".toList ∨ other.opened i = true) (hd : docs i = none) (rest : List InputSrc) :
    ∃ r, handleInputs (withSrcml true unit false docs other) a 0 (i :: rest) = .val r ∧ r.requests = [] ∧ r.status = -1 ∧ r.archive = a ∧ r.errors = 1 := by
  have hh : handlerOf i = .srcml := by unfold handlerOf; rw [if_pos hs]
  generalize hH : withSrcml true unit false docs other = H
  have h : dispatchInput H a i = .val { handled := -1, errors := 1 } := by
    unfold dispatchInput
    rw [hh, if_neg (by
      rintro ⟨_, q1, q2, q3⟩
      rw [← hH] at q1 q3
      rcases hr with h | h | h
      · rw [show other.curl i = true from q1] at h; cases h
      · exact q2 h
      · rw [show other.opened i = false from q3] at h; cases h)]
    rw [← hH]
    show Run.val (srcml_input_srcml true (unit i) false (docs i) a) = _
    unfold srcml_input_srcml
    rw [hd]
  simp only [handleInputs, h, Run.bind, runCalls, Bool.false_eq_true, if_false, if_true]
  exact ⟨_, rfl, rfl, rfl, rfl, rfl⟩

theorem prefixAt_filter (l : List Namespace) (q : Str → Bool) (u : Str) : prefixAt (l.filter (fun n => q n.uri)) u = if q u = true then prefixAt l u else none := by
  unfold prefixAt findUri
  rw [List.find?_filter]
  induction l with
  | nil => simp
  | cons n l ih =>
    simp only [List.find?_cons]
    by_cases h : n.uri = u
    · subst h
      cases hq : q n.uri with
      | true => simp
      | false =>
        simp only [hq, Bool.false_and, Bool.false_eq_true, if_false] at ih ⊢
        exact ih
    · simpa [h] using ih

/-- **C80.** The prefixes of the output archive after a srcML input was opened: those of the input, and for a namespace that the input does not have those from before. If a revision of a srcDiff document is asked for, the namespace of
srcDiff is left out. -/
theorem C80_namespaces (unit : Int) (revision : Bool) (b a : Archive) (hb : (b.namespaces.map (·.uri)).Nodup) :
    ∃ a', runCalls a (srcmlOutputCalls true unit revision b) = .val a' ∧ ∀ u, srcml_archive_get_prefix_from_uri a' (some u) =
      if revision = true ∧ u = DIFF_NS_URI then srcml_archive_get_prefix_from_uri a (some u)
      else (srcml_archive_get_prefix_from_uri b (some u)).or (srcml_archive_get_prefix_from_uri a (some u)) := by
  have h0 : ∃ a1, runCalls a (if isoption b.options OPTION_ARCHIVE = true ∧ unit = 0 then [SetCall.disableSolitary] else []) = .val a1 ∧ a1.namespaces = a.namespaces := by
    split
    · exact ⟨_, rfl, rfl⟩
    · exact ⟨_, rfl, rfl⟩
  obtain ⟨a1, h1, h2⟩ := h0
  unfold srcmlOutputCalls
  rw [if_pos rfl, runCalls_append, h1]
  simp only [Run.bind]
  rw [run_namespaces]
  refine ⟨_, rfl, ?_⟩
  intro u
  have hn : ((b.namespaces.filter (fun n => !(revision && decide (n.uri = DIFF_NS_URI)))).map (·.uri)).Nodup := List.Sublist.nodup ((List.filter_sublist).map _) hb
  show prefixAt (registerAll a1.namespaces _) u = if _ then prefixAt a.namespaces u else (prefixAt b.namespaces u).or (prefixAt a.namespaces u)
  rw [prefixAt_registerAll _ hn, prefixAt_filter b.namespaces (fun x => !(revision && decide (x = DIFF_NS_URI))), h2]
  by_cases h : revision = true ∧ u = DIFF_NS_URI
  · rw [if_pos h, if_neg (by simp [h.1, h.2])]; rfl
  · rw [if_neg h, if_pos (by
      cases revision with
      | false => rfl
      | true => simpa using h)]

/-! ### Findings -/

/-- The units of two srcML inputs are written to `a`. `late`: the writer has written the units of the first input before the second is opened, which the threads allow
(src/client/create_srcml.cpp:316-342: the inputs are opened while the queues run). -/
def twoInputs (late : Bool) (a : Archive) (x y : Archive × List UnitData) : Option Str :=
  match runCalls a (srcmlOutputCalls true 0 false x.1) with
  | .ub => none
  | .val a1 =>
    match runCalls a1 (srcmlOutputCalls true 0 false y.1) with
    | .ub => none
    | .val a2 =>
      match (newIO (if late then a1 else a2) {}).calls (.openWrite true .memory :: x.2.map (fun u => .writeUnit x.1 (some u) none)) with
      | .ub => none
      | .val s =>
        match ({ s with settings := a2 } : ArchiveIO).calls (y.2.map (fun u => .writeUnit y.1 (some u) none) ++ [.close]) with
        | .ub => none
        | .val s => s.delivered

/-- The documents `x` and `y` of one unit each. -/
def lateSample (late : Bool) : Option Str :=
  match written (modeArchive true) [(modeArchive true, usingUnit "cpp".toList CPP_NS_URI "a".toList)], written backArchive [(backArchive, usingUnit "cpp".toList CPP_NS_URI "<s:a pos:start=\"1:1\"/>".toList)] with
  | some x, some y =>
    match readDoc x 1, readDoc y 1 with
    | some x, some y => twoInputs late (modeArchive true) x y
    | _, _ => none
  | _, _ => none

/-- Finding: the output of two srcML inputs depends on the threads. If the first unit is written before the second input is opened, the prefixes of the second input are not declared: the document is not well-formed
with regard to namespaces. -/
theorem C80_finding_late_namespace : lateSample true =
    some ("<?xml version=\"1.0\" encoding=\"UTF-8\" standalone=\"yes\"?>\n<unit xmlns=\"http://www.srcML.org/srcML/src\" revision=\"1.0.0\">\n\n".toList ++
      "<unit xmlns:cpp=\"http://www.srcML.org/srcML/cpp\" revision=\"1.0.0\" language=\"\">a</unit>\n\n".toList ++
      "<s:unit xmlns:cpp=\"http://www.srcML.org/srcML/cpp\" revision=\"1.0.0\" language=\"\"><s:a pos:start=\"1:1\"/></s:unit>\n\n</unit>\n".toList) := by
  decide +kernel

/-- Finding: and if both inputs are opened first, the unit of the first input loses its namespace, because the second input has another prefix for it. -/
theorem C80_finding_two_prefixes : lateSample false =
    some ("<?xml version=\"1.0\" encoding=\"UTF-8\" standalone=\"yes\"?>\n<s:unit xmlns:s=\"http://www.srcML.org/srcML/src\" xmlns:pos=\"http://www.srcML.org/srcML/position\" ".toList ++
      "xmlns:ex=\"http://e.org\" revision=\"1.0.0\" pos:tabs=\"8\">\n\n".toList ++
      "<unit xmlns:cpp=\"http://www.srcML.org/srcML/cpp\" revision=\"1.0.0\" language=\"\" pos:tabs=\"8\">a</unit>\n\n".toList ++
      "<s:unit xmlns:cpp=\"http://www.srcML.org/srcML/cpp\" revision=\"1.0.0\" language=\"\" pos:tabs=\"8\"><s:a pos:start=\"1:1\"/></s:unit>\n\n</s:unit>\n".toList) := by
  decide +kernel

/-! ### An instance -/

/-- The input `a.xml` of the command. -/
def srcmlDocInput : InputSrc :=
  match inputSrc (fun _ => .other) "a.xml".toList with
  | .val i => i
  | .ub => {}

/-- With `--archive`. -/
def srcmlDocReq : CreateReq := { markup := { archive := true } }

/-- The output archive before the input is opened. -/
def srcmlStart : Archive :=
  match createArchive srcmlDocReq [srcmlDocInput] with
  | .val (some a) => a
  | _ => srcml_archive_create

/-- The namespaces of the document of `copy_sample`. -/
def sampleTable : List (Str × Str) := [(SRC_NS_URI, "s".toList), (POSITION_NS_URI, "pos".toList), ("http://e.org".toList, "ex".toList)]

/-- The output archive for this document. -/
def srcmlOutput : Archive :=
  { srcmlStart with namespaces := sampleTable.foldl (fun ns p => registerNs ns p.2 p.1) srcmlStart.namespaces, options := sampleTable.foldl (fun o p => registerNsOptions o p.1) srcmlStart.options }

theorem srcml_output_pi : (rootOut srcmlOutput).processingInstruction = none := by decide +kernel

theorem srcml_output_carried : CarriedArchive srcmlOutput where
  prefixes := by constructor <;> decide +kernel
  values := by
    have e0 : srcmlOutput.attributes = [] := by decide +kernel
    refine ⟨?_, by show ∀ p ∈ attrPairs srcmlOutput.attributes, _; rw [e0]; exact (fun p hp => nomatch hp), by decide +kernel, by show ∀ p ∈ attrPairs srcmlOutput.attributes, _; rw [e0]; exact (fun p hp => nomatch hp)⟩
    intro v hv
    have e : [(rootMeta srcmlOutput).revision, (rootMeta srcmlOutput).language, (rootMeta srcmlOutput).url, (rootMeta srcmlOutput).filename, (rootMeta srcmlOutput).version,
        (rootMeta srcmlOutput).timestamp, (rootMeta srcmlOutput).hash, (rootMeta srcmlOutput).encoding] =
        [some "1.0.0".toList, none, none, none, none, none, none, none] := by decide +kernel
    rw [e] at hv
    simp only [List.mem_cons, List.not_mem_nil, or_false, Option.some.injEq, reduceCtorEq, false_or] at hv
    subst hv
    exact one_valid
  macros := by decide +kernel
  prolog := ⟨by decide +kernel, fun _ _ h => nomatch srcml_output_pi.symm.trans h⟩
  prolog' := ⟨⟨by decide +kernel, fun _ _ h => nomatch srcml_output_pi.symm.trans h⟩, by decide +kernel, fun _ _ h => nomatch srcml_output_pi.symm.trans h⟩
  uris := by unfold PlainUris; decide +kernel
  cpp := by decide +kernel

theorem sample_output {b : Archive} (h : b.namespaces.map (fun n => (n.uri, n.prefix_)) = sampleTable) : OutputFor srcmlDocReq srcmlDocInput 0 b srcmlOutput := by
  have e1 : ∀ l : List Namespace, ∀ ns, registerAll ns l = (l.map (fun n => (n.uri, n.prefix_))).foldl (fun ns p => registerNs ns p.2 p.1) ns := by
    intro l ns
    unfold registerAll
    rw [List.foldl_map]
  have e2 : ∀ l : List Namespace, ∀ o, registerAllOptions o l = (l.map (fun n => (n.uri, n.prefix_))).foldl (fun o p => registerNsOptions o p.1) o := by
    intro l o
    unfold registerAllOptions
    rw [List.foldl_map]
  refine ⟨srcmlStart, srcmlStart, by decide +kernel, ?_, ?_⟩
  · split
    · have : (SetCall.run srcmlStart .disableSolitary).bind (fun r => .val r.2) = .val srcmlStart := by decide +kernel
      rw [runCalls]
      exact this
    · rfl
  · rw [run_namespaces, e1, e2, h]
    rfl

/-- The hypotheses of `C80_archive_partial` are met: the document of `copy_sample` is made into an archive. -/
example : ∃ (b : Archive) (v : UnitData) (docs : InputSrc → Option ArchiveIO), v.src = some ['a'] ∧ SrcmlDoc (D := Int) { run := fun _ _ _ => .ub } docs srcmlDocInput b [v] ∧ ReadBack b v backJob ∧ UsualUnit b backJob ∧
    Asked 0 [v] [v] ∧ OutputFor srcmlDocReq srcmlDocInput 0 b srcmlOutput ∧ ¬ OneUnit srcmlDocReq [srcmlDocInput] ∧ CarriedArchive srcmlOutput ∧ UsualPrefixes srcmlOutput.namespaces := by
  obtain ⟨b, v, h1, h2, _, h4, h5⟩ := copy_sample
  refine ⟨b, v, fun _ => some { settings := b, mode := .read, reader := [v] }, h2, ⟨by decide +kernel, .inl rfl, _, rfl, rfl, rfl, rfl⟩, h1, ?_, .inl ⟨rfl, rfl⟩, sample_output h4, ?_, srcml_output_carried,
    by unfold UsualPrefixes; decide +kernel⟩
  · exact sample_usual h4
  · rintro ⟨_, _, h, _⟩; cases h

end Srcml
