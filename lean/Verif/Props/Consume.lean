import Verif.Proofs.RunSat
import Verif.Spec.Consume
import Verif.Props.Inputs
import Verif.Props.ArchiveIO
import Verif.Props.SrcSax
set_option linter.unusedSimpArgs false
/-
C71: processing a request.
-/
namespace Srcml
open Spec

/-! ### Parsing -/

/-- **C71.** A request for a file or for text is parsed as a unit with exactly its language, name, version and time; if that succeeds, the unit that the parser made is handed on together with the
results of the transformations, and not at all if these say that there is no result. -/
theorem C71_parsed {D : Type} (env : ParseEnv D) (w : Work D) (hst : w.req.status = .ok) (hu : w.unit = none) (hn : w.needsparsing = true)
    (hf : ∀ f, w.req.filename = some f → ∃ name, WithoutDots f name ∧ name ≠ []) :
    ∃ u, Attributed w u ∧ ∀ o r, (match w.req.diskFilename with | some f => env.parseFile u f | none => env.parseMemory u w.req.buffer) = .val (.ok, o) → env.apply o.data = .val r →
      ∃ w', srcml_consume env w = .val w' ∧ w'.req.status = .ok ∧ w'.results = r ∧ w'.errormsg = w.errormsg ∧ w'.exits = w.exits ∧
        w'.unit = (if (r.map (·.type)) = some RESULT_NONE then none else some o) := by
  have hprep : ∃ u w1, prepareUnit w = .val (u, w1) ∧ Attributed w u ∧ w1.needsparsing = w.needsparsing ∧ w1.errormsg = w.errormsg ∧ w1.exits = w.exits ∧
      w1.req.diskFilename = w.req.diskFilename ∧ w1.req.buffer = w.req.buffer ∧ w1.req.status = w.req.status := by
    unfold prepareUnit
    rw [hu]
    simp only [srcml_unit_create, true_or, if_true, UnitSet.run]
    cases hfn : w.req.filename with
    | none =>
      refine ⟨_, _, rfl, ?_, rfl, rfl, rfl, rfl, rfl, rfl⟩
      constructor
      · cases w.req.version <;> cases w.req.timeStamp <;> rfl
      · simp only [hfn]; cases w.req.version <;> cases w.req.timeStamp <;> rfl
      · cases w.req.version <;> cases w.req.timeStamp <;> rfl
      · cases w.req.version <;> cases w.req.timeStamp <;> rfl
      · cases w.req.version <;> cases w.req.timeStamp <;> rfl
    | some f =>
      obtain ⟨name, h1, h2⟩ := hf f hfn
      have hsd : stripDots f = .val name := (stripDots_iff _ _).mpr ⟨h1, h2⟩
      simp only [hsd, Run.bind]
      refine ⟨_, _, rfl, ?_, rfl, rfl, rfl, rfl, rfl, rfl⟩
      constructor
      · cases w.req.version <;> cases w.req.timeStamp <;> rfl
      · simp only [hfn]
        refine ⟨name, h1, ?_⟩
        cases w.req.version <;> cases w.req.timeStamp <;> rfl
      · cases w.req.version <;> cases w.req.timeStamp <;> rfl
      · cases w.req.version <;> cases w.req.timeStamp <;> rfl
      · cases w.req.version <;> cases w.req.timeStamp <;> rfl
  obtain ⟨u, w1, e1, e2, e3, e4, e5, hd, hb, e6⟩ := hprep
  refine ⟨u, e2, ?_⟩
  intro o r hp ha
  have hn1 : w1.needsparsing = true := by rw [e3]; exact hn
  have hs1 : w1.req.status = .ok := by rw [e6]; exact hst
  unfold srcml_consume
  rw [if_neg (by simp [hst]), e1]
  simp only [Run.bind, hd, hb, hn1, if_true]
  have hparse : (match w.req.diskFilename with | some f => env.parseFile u f | none => env.parseMemory u w.req.buffer) = .val (.ok, o) := hp
  cases hdf : w.req.diskFilename with
  | none =>
    rw [hdf] at hparse
    simp only at hparse
    simp only [hparse, reduceCtorEq, if_false, ne_eq, not_true_eq_false, ha]
    refine ⟨_, rfl, hs1, rfl, e4, e5, ?_⟩
    cases r with
    | none => simp
    | some r => simp
  | some f =>
    rw [hdf] at hparse
    simp only at hparse
    simp only [hparse, reduceCtorEq, if_false, ne_eq, not_true_eq_false, ha]
    refine ⟨_, rfl, hs1, rfl, e4, e5, ?_⟩
    cases r with
    | none => simp
    | some r => simp

/-- **C71.** A request that failed before is handed on as it is, without a unit. -/
theorem C71_passed_on {D : Type} (env : ParseEnv D) (w : Work D) (h : w.req.status ≠ .ok) : srcml_consume env w = .val { w with unit := none } := by
  unfold srcml_consume
  rw [if_pos h]

/-- **C71.** When the parser refuses (except for an invalid argument), the request is handed on with that status, a message with its name, and no unit. -/
theorem C71_parse_failed {D : Type} (env : ParseEnv D) (w : Work D) (hst : w.req.status = .ok) (u : UnitData) (w1 : Work D) (hprep : prepareUnit w = .val (u, w1)) (st : Status) (o : UnitObj)
    (hn : w1.needsparsing = true)
    (hp : (match w1.req.diskFilename with | some f => env.parseFile u f | none => env.parseMemory u w1.req.buffer) = .val (st, o)) (h1 : st ≠ .ok) (h2 : st ≠ .invalidArgument) :
    ∃ w', srcml_consume env w = .val w' ∧ w'.req.status = st ∧ w'.unit = none ∧ w'.errormsg = some ("srcml: Unable to open file ".toList ++ w.req.filename.getD []) := by
  unfold srcml_consume
  rw [if_neg (by simp [hst]), hprep]
  simp only [Run.bind, hn, if_true]
  cases hd : w1.req.diskFilename with
  | none =>
    rw [hd] at hp
    simp only at hp
    simp only [hp, if_neg h2, ne_eq, h1, not_false_eq_true, if_true]
    exact ⟨_, rfl, rfl, rfl, rfl⟩
  | some f =>
    rw [hd] at hp
    simp only at hp
    simp only [hp, if_neg h2, ne_eq, h1, not_false_eq_true, if_true]
    exact ⟨_, rfl, rfl, rfl, rfl⟩

/-! ### Writing -/

theorem runEffects_append (ua : Option Archive) (s : ArchiveIO) (es fs : List Effect) :
    runEffects ua s (es ++ fs) = (runEffects ua s es).bind (fun s => runEffects ua s fs) := by
  induction es generalizing s with
  | nil => rfl
  | cons e es ih =>
    cases e with
    | unit u =>
      simp only [List.cons_append, runEffects]
      cases h : s.writeUnit (ua.getD s.settings) (some u) none with
      | ub => rfl
      | val p => simp only [Run.bind, ih]
    | text x =>
      simp only [List.cons_append, runEffects]
      cases h : s.writeString (some x) with
      | ub => rfl
      | val p => simp only [Run.bind, ih]
    | full => simp only [List.cons_append, runEffects, ih]

theorem writeUnits_eq (ua : Option Archive) (s : ArchiveIO) (us : List UnitData) : writeUnits ua s us = runEffects ua s (us.map .unit) := by
  induction us generalizing s with
  | nil => rfl
  | cons u us ih =>
    simp only [writeUnits, List.map_cons, runEffects, ih]

theorem writeString_ok (s : ArchiveIO) (y : Str) : s.writeString (some y) = .ub ∨ ∃ s', s.writeString (some y) = .val (.ok, s') := by
  unfold ArchiveIO.writeString
  cases hb : s.buffer <;> simp [hb]
  cases hc : s.attached <;> simp

theorem writeLine_eq (ua : Option Archive) (s : ArchiveIO) (x : Str) (hx : x ≠ []) : ∃ st, writeLine s (some x) = (runEffects ua s (lineOf x)).bind (fun s => .val (st, s)) ∧ st = .ok := by
  refine ⟨.ok, ?_, rfl⟩
  unfold writeLine lineOf
  simp only
  rw [List.getLast?_eq_some_getLast hx]
  simp only [Option.some.injEq]
  by_cases hl : x.getLast hx = '\n'
  · simp only [hl, if_true, ne_eq, not_true_eq_false, if_false, runEffects]
    rcases writeString_ok s x with h | ⟨s', h⟩ <;> rw [h] <;> rfl
  · simp only [hl, if_false, ne_eq, not_false_eq_true, if_true, runEffects]
    rcases writeString_ok s x with h | ⟨s', h⟩
    · rw [h]; rfl
    · rw [h]
      simp only [Run.bind]
      rcases writeString_ok s' ['\n'] with h' | ⟨s'', h'⟩ <;> rw [h'] <;> rfl

theorem writeResult_one {D : Type} (opts : CmdOptions) (num : NumberText D) (zero : D) (A : Option Archive) (w : Work D) (s : ArchiveIO) (ob : UnitObj) (h1 : w.req.status = .ok) (h2 : w.results = none)
    (h3 : w.unit = some ob) :
    writeResult opts num zero A w s =
      (if opts.xmlFragment then ob.getOuter.bind (fun (x, _) => writeLine s x) else if opts.xmlRaw then writeRaw s ob.getInner.1 else s.writeUnit (A.getD s.settings) (some ob.data) none).bind
        (fun (st, s) => .val (s, if st ≠ .ok then ["Error in writing parsed unit to archive\n".toList] else [], some (srcml_unit_get_loc (some ob.data)))) := by
  have hN : (RESULT_NONE = RESULT_BOOLEAN) = False ∧ (RESULT_NONE = RESULT_NUMBER) = False ∧ (RESULT_NONE = RESULT_STRING) = False ∧ (RESULT_NONE = RESULT_UNITS) = False := by
    simp [RESULT_NONE, RESULT_BOOLEAN, RESULT_NUMBER, RESULT_STRING, RESULT_UNITS]
  unfold writeResult
  simp only [h2, Option.map_none, Option.getD_none, hN.1, hN.2.1, hN.2.2.1, hN.2.2.2, if_false, if_pos h1, h3, List.length_nil, Nat.not_lt_zero, gt_iff_lt, writeUnits, Run.bind,
      ne_eq, not_true_eq_false, Option.map_some]

theorem finish_ok (x : Run ArchiveIO) (msg : List Str) (loc : Option Int) :
    ((x.bind (fun s => Run.val (Status.ok, s))).bind (fun (st, s) => Run.val (s, if st ≠ .ok then msg else [], loc))) = x.bind (fun s => .val (s, [], loc)) := by
  cases x with
  | ub => rfl
  | val s =>
    show Run.val (s, (if Status.ok ≠ Status.ok then msg else []), loc) = _
    rw [if_neg (by simp)]
    rfl

set_option maxHeartbeats 1000000 in
theorem writeResult_shows {D : Type} (opts : CmdOptions) (num : NumberText D) (zero : D) (ua : Option Archive) (w : Work D) (s : ArchiveIO) (es : List Effect) (ms : List Str)
    (hs : Shows opts num w es ms) (hu : w.req.status ≠ .unsetLanguage) (hw : s.mode = .write) (hb : ∀ u, Effect.unit u ∈ es → u.readBody = true) :
    ∃ loc, writeResult opts num zero ua w s = (runEffects ua s es).bind (fun s => .val (s, ms, loc)) := by
  have hN : (RESULT_NONE = RESULT_BOOLEAN) = False ∧ (RESULT_NONE = RESULT_NUMBER) = False ∧ (RESULT_NONE = RESULT_STRING) = False ∧ (RESULT_NONE = RESULT_UNITS) = False := by
    simp [RESULT_NONE, RESULT_BOOLEAN, RESULT_NUMBER, RESULT_STRING, RESULT_UNITS]
  have hU : (RESULT_UNITS = RESULT_BOOLEAN) = False ∧ (RESULT_UNITS = RESULT_NUMBER) = False ∧ (RESULT_UNITS = RESULT_STRING) = False := by
    simp [RESULT_BOOLEAN, RESULT_NUMBER, RESULT_STRING, RESULT_UNITS]
  cases hs with
  | unsupported h1 h2 => exact absurd h1 hu
  | listed h1 h2 => exact absurd h1 hu
  | failed h1 h2 h3 h4 =>
    rename_i c m
    refine ⟨none, ?_⟩
    unfold writeResult
    simp only [h3, Option.map_none, Option.getD_none, hN.1, hN.2.1, hN.2.2.1, if_false, if_neg h1, h4, reduceCtorEq, runEffects]
    rfl
  | unit h1 h2 h3 h4 h5 =>
    rename_i ob
    have hbody := hb ob.data (by simp)
    refine ⟨(some (srcml_unit_get_loc (some ob.data))), ?_⟩
    have hok : s.writeUnit (ua.getD s.settings) (some ob.data) none = .ub ∨ ∃ s', s.writeUnit (ua.getD s.settings) (some ob.data) none = .val (.ok, s') := by
      unfold ArchiveIO.writeUnit
      simp only [hbody, hw, ne_eq, not_true_eq_false, if_false, Bool.true_eq_false, false_and]
      generalize (if s.translator = none then s.createTranslator else s).addUnit (ua.getD s.settings) ob.data = x
      cases x with
      | ub => exact .inl rfl
      | val s => exact .inr ⟨s, rfl⟩
    rw [writeResult_one opts num zero ua w s ob h1 h2 h3, h4, h5]
    simp only [Bool.false_eq_true, if_false, runEffects]
    rcases hok with h | ⟨s', h⟩
    · rw [h]; rfl
    · rw [h]; exact finish_ok (.val s') _ _
  | outer h1 h2 h3 h4 h5 h6 =>
    rename_i ob ob' x
    refine ⟨(some (srcml_unit_get_loc (some ob.data))), ?_⟩
    obtain ⟨st, hl, hst⟩ := writeLine_eq ua s x h6
    rw [writeResult_one opts num zero ua w s ob h1 h2 h3, h4, h5]
    subst hst
    rw [if_pos rfl]
    show ((writeLine s (some x)).bind _) = _
    rw [hl]
    exact finish_ok _ _ _
  | inner h1 h2 h3 h4 h5 h6 =>
    rename_i ob x
    refine ⟨(some (srcml_unit_get_loc (some ob.data))), ?_⟩
    rw [writeResult_one opts num zero ua w s ob h1 h2 h3, h4, h5, h6]
    simp only [Bool.false_eq_true, if_false, if_true, writeRaw]
    by_cases hx : x = []
    · subst hx
      simp only [if_true, runEffects]
      rcases writeString_ok s [] with h | ⟨s', h⟩
      · rw [h]; rfl
      · rw [h]; exact finish_ok (.val s') _ _
    · obtain ⟨st, hl, hst⟩ := writeLine_eq ua s x hx
      subst hst
      rw [if_neg hx, if_neg hx, hl]
      exact finish_ok _ _ _
  | units h1 h2 h3 h4 h5 =>
    rename_i ob r
    refine ⟨(some (srcml_unit_get_loc (some ob.data))), ?_⟩
    have hfull : runEffects ua s ((if r.units.length > 1 then [.full] else []) ++ r.units.map .unit) =
        writeUnits ua (if r.units.length > 1 then s.becomeArchive else s) r.units := by
      rw [writeUnits_eq]
      by_cases hl : r.units.length > 1
      · simp only [hl, if_true]; rfl
      · simp only [hl, if_false]; rfl
    rw [hfull]
    unfold writeResult
    simp only [h2, Option.map_some, Option.getD_some, h4, hU.1, hU.2.1, hU.2.2, if_false, if_pos h1, if_true, h3]
    congr 1
    funext s
    rw [if_pos h5]
  | nothing h1 h2 h3 h4 =>
    rename_i r
    refine ⟨(some (srcml_unit_get_loc none)), ?_⟩
    unfold writeResult
    simp only [h2, Option.map_some, Option.getD_some, h4, hN.1, hN.2.1, hN.2.2.1, hN.2.2.2, if_false, if_pos h1, h3, List.length_nil, Nat.not_lt_zero, gt_iff_lt, writeUnits, Run.bind, runEffects,
      Option.map_none]
  | bool h1 h2 h3 h4 =>
    rename_i r b
    refine ⟨none, ?_⟩
    unfold writeResult
    simp only [h2, Option.map_some, Option.getD_some, h3, if_true, srcml_transform_get_bool, ne_eq, not_true_eq_false, if_false, Run.bind, h4, runEffects]
    have e : (if ¬ (if b = true then (1 : Int) else 0) = 0 then "true\n".toList else "false\n".toList) = (if b then "true" else "false").toList ++ ['\n'] := by
      cases b <;> decide
    rw [e]
  | number h1 h2 h3 h4 h5 =>
    rename_i r x i
    refine ⟨none, ?_⟩
    have hne : (RESULT_NUMBER = RESULT_BOOLEAN) = False := by simp [RESULT_NUMBER, RESULT_BOOLEAN]
    unfold writeResult
    simp only [h2, Option.map_some, Option.getD_some, h3, hne, if_false, if_true, srcml_transform_get_number, ne_eq, not_true_eq_false, Run.bind, h4, h5, runEffects]
  | string h1 h2 h3 h4 h5 =>
    rename_i r x
    refine ⟨none, ?_⟩
    have hne : (RESULT_STRING = RESULT_BOOLEAN) = False ∧ (RESULT_STRING = RESULT_NUMBER) = False := by simp [RESULT_STRING, RESULT_NUMBER, RESULT_BOOLEAN]
    obtain ⟨st, hl, hst⟩ := writeLine_eq ua s x h5
    unfold writeResult
    simp only [h2, Option.map_some, Option.getD_some, h3, hne.1, hne.2, if_false, if_true, srcml_transform_get_string, ne_eq, not_true_eq_false, Run.bind, h4, hl]
    cases runEffects ua s (lineOf x) with
    | ub => rfl
    | val s => rfl


/-- **C71.** Every processed request adds to the output archive exactly what it shows, in that order, and exactly the messages. The other files stay as they are. (`hw`: the archive is open for
writing, `hb`: units have contents.) -/
theorem C71_write {D : Type} (opts : CmdOptions) (num : NumberText D) (zero : D) (opened : Str → Bool) (ua : Option Archive) (w : Work D) (o : OutState) (es : List Effect) (ms : List Str)
    (hs : Shows opts num w es ms) (hna : opts.noarchive = false) (hw : o.main.mode = .write) (hb : ∀ u, Effect.unit u ∈ es → u.readBody = true) :
    ∃ f : ArchiveIO → OutState, srcml_write_request opts num zero opened ua w o = (runEffects ua o.main es).bind (fun m => .val (f m)) ∧
      ∀ m, (f m).main = m ∧ (f m).files = o.files ∧ (f m).messages = o.messages ++ ms := by
  by_cases hu : w.req.status = .unsetLanguage
  · have key : es = [] ∧ ms = (if opts.verbose then [] else ["srcml: Extension not supported".toList ++ (w.req.diskFilename.map (fun f => ' ' :: f)).getD []]) := by
      cases hs with
      | unsupported h1 h2 => rw [h2]; exact ⟨rfl, rfl⟩
      | listed h1 h2 => rw [h2]; exact ⟨rfl, rfl⟩
      | failed h1 h2 => exact absurd hu h2
      | _ => simp_all
    obtain ⟨rfl, rfl⟩ := key
    unfold srcml_write_request
    rw [if_pos hu]
    cases hv : opts.verbose with
    | false => exact ⟨fun m => { o with main := m, messages := o.messages ++ ["srcml: Extension not supported".toList ++ (w.req.diskFilename.map (fun f => ' ' :: f)).getD []] }, rfl, fun m => ⟨rfl, rfl, rfl⟩⟩
    | true => exact ⟨fun m => { o with main := m, listed := if opts.quiet then o.listed else o.listed + 1 }, rfl, fun m => ⟨rfl, rfl, by simp⟩⟩
  · obtain ⟨loc, h⟩ := writeResult_shows opts num zero ua w o.main es ms hs hu hw hb
    unfold srcml_write_request
    rw [if_neg hu]
    simp only [hna, Bool.false_eq_true, and_false, if_false, h]
    cases runEffects ua o.main es with
    | ub => exact ⟨fun m => { o with main := m, messages := o.messages ++ ms }, rfl, fun m => ⟨rfl, rfl, rfl⟩⟩
    | val m =>
      exact ⟨fun m => ({ o with main := m } : OutState).finish opts.verbose (ms, loc), rfl, fun m => ⟨rfl, rfl, rfl⟩⟩

theorem runEffects_mode (ua : Option Archive) : ∀ (es : List Effect) (s s' : ArchiveIO), runEffects ua s es = .val s' → s'.mode = s.mode
  | [], s, s', h => by cases h; rfl
  | .unit u :: es, s, s', h => by
    simp only [runEffects] at h
    cases hc : s.writeUnit (ua.getD s.settings) (some u) none with
    | ub => rw [hc] at h; cases h
    | val p =>
      rw [hc] at h
      rw [runEffects_mode ua es _ _ h, (writeUnit_keeps (r := p.1) (s' := p.2) hc).1]
  | .text x :: es, s, s', h => by
    simp only [runEffects] at h
    cases hc : s.writeString (some x) with
    | ub => rw [hc] at h; cases h
    | val p =>
      rw [hc] at h
      rw [runEffects_mode ua es _ _ h]
      unfold ArchiveIO.writeString at hc
      cases hb : s.buffer <;> simp [hb] at hc
      · rw [← hc]
      · cases ha : s.attached <;> simp [ha] at hc <;> rw [← hc]
  | .full :: es, s, s', h => by
    simp only [runEffects] at h
    rw [runEffects_mode ua es _ _ h]

/-- **C71.** Requests that are written one after the other add to the output archive what each of them shows, in the order of the requests, and nothing else; so for the messages. (The units belong to the archive `x`: that from which they were read, or `ua`.) -/
theorem C71_writes {D : Type} (opts : CmdOptions) (num : NumberText D) (zero : D) (opened : Str → Bool) (ua x : Option Archive) (hna : opts.noarchive = false) :
    ∀ (ws : List (Work D)) (o : OutState) (es : List Effect) (ms : List Str), ShowsAll opts num ws es ms → (∀ w ∈ ws, w.input.or ua = x) → o.main.mode = .write → (∀ u, Effect.unit u ∈ es → u.readBody = true) →
    ∃ f : ArchiveIO → OutState, writeAll opts num zero opened ua o ws = (runEffects x o.main es).bind (fun m => .val (f m)) ∧
      ∀ m, (f m).main = m ∧ (f m).files = o.files ∧ (f m).messages = o.messages ++ ms
  | [], o, es, ms, hs, hin, hw, hb => by
    cases hs
    exact ⟨fun m => { o with main := m }, rfl, fun m => ⟨rfl, rfl, by simp⟩⟩
  | w :: ws, o, es, ms, hs, hin, hw, hb => by
    cases hs with
    | cons h1 h2 =>
      rename_i es fs ms ns
      obtain ⟨f, e1, e2⟩ := C71_write opts num zero opened x w o es ms h1 hna hw (fun u hu => hb u (List.mem_append_left _ hu))
      rw [writeAll, hin w (by simp), e1, runEffects_append]
      cases hr : runEffects x o.main es with
      | ub => exact ⟨fun m => { o with main := m, messages := o.messages ++ (ms ++ ns) }, rfl, fun m => ⟨rfl, rfl, rfl⟩⟩
      | val m =>
        obtain ⟨k1, k2, k3⟩ := e2 m
        obtain ⟨g, g1, g2⟩ := C71_writes opts num zero opened ua x hna ws (f m) fs ns h2 (fun w hw => hin w (by simp [hw])) (by rw [k1, runEffects_mode x es _ _ hr]; exact hw) (fun u hu => hb u (List.mem_append_right _ hu))
        refine ⟨g, ?_, ?_⟩
        · show writeAll opts num zero opened ua (f m) ws = (runEffects x m fs).bind _
          rw [g1, k1]
        · intro m'
          obtain ⟨q1, q2, q3⟩ := g2 m'
          exact ⟨q1, by rw [q2, k2], by rw [q3, k3, List.append_assoc]⟩

/-- **C71.** With an archive for each unit, the output archive stays as it is, and there is one more file, named after the request, with exactly what the request shows: a clone of the output archive that
holds a single unit and no hash. -/
theorem C71_noarchive {D : Type} (opts : CmdOptions) (num : NumberText D) (zero : D) (opened : Str → Bool) (ua : Option Archive) (w : Work D) (o : OutState) (es : List Effect) (ms : List Str) (path : Str)
    (hs : Shows opts num w es ms) (hna : opts.noarchive = true) (hu : w.unit.isSome) (hst : w.req.status ≠ .unsetLanguage) (hn : UnitPath opts w path)
    (hb : ∀ u, Effect.unit u ∈ es → u.readBody = true) :
    ∃ (c : ArchiveIO) (f : ArchiveIO → OutState),
      c.mode = .write ∧ c.settings = { cloneOf o.main.settings with options := (o.main.settings.options &&& ~~~OPTION_ARCHIVE) &&& ~~~OPTION_HASH } ∧ c.kept = [] ∧ c.translator = none ∧
      (opened path = true → c.buffer = .valid) ∧
      srcml_write_request opts num zero opened ua w o = ((runEffects (some (ua.getD o.main.settings)) c es).bind (·.close)).bind (fun m => .val (f m)) ∧
      ∀ m, (f m).main = o.main ∧ (f m).files = o.files ++ [(path, m)] ∧ (f m).messages = o.messages ++ ms := by
  refine ⟨unitArchive o.main opened path, ?_⟩
  have hmode : (unitArchive o.main opened path).mode = .write := rfl
  obtain ⟨loc, h⟩ := writeResult_shows opts num zero (some (ua.getD o.main.settings)) w (unitArchive o.main opened path) es ms hs hst hmode hb
  refine ⟨fun m => ({ o with files := o.files ++ [(path, m)] } : OutState).finish opts.verbose (ms, loc), hmode, rfl, rfl, rfl, ?_, ?_, fun m => ⟨rfl, rfl, rfl⟩⟩
  · intro ho
    unfold unitArchive
    simp only [ho]
    rfl
  · have hf : unitFile opts w = .val path := by
      obtain ⟨name, h1, ⟨h2, h3⟩ | ⟨h2, d, h3, h4⟩⟩ := hn
      · unfold unitFile
        simp only [h1, h2, h3, Bool.false_eq_true, if_false]
      · unfold unitFile
        simp only [h1, h2, h3, h4, if_true]
        rfl
    unfold srcml_write_request
    rw [if_neg hst]
    simp only [hu, hna, true_and, if_true, hf]
    show (writeResult opts num zero (some (ua.getD o.main.settings)) w (unitArchive o.main opened path)).bind _ = _
    rw [h]
    cases runEffects (some (ua.getD o.main.settings)) (unitArchive o.main opened path) es with
    | ub => rfl
    | val m =>
      show (m.close).bind _ = (m.close).bind _
      rfl

/-! ### From the requests to the units that are read -/

/-- The same archive, written to a buffer in memory. -/
def Spec.inMemory (s : ArchiveIO) : ArchiveIO := { s with memory := true, detached := false }

theorem writeUnit_inMemory (s : ArchiveIO) (ua : Archive) (u l : Option UnitData) :
    (inMemory s).writeUnit ua u l = (s.writeUnit ua u l).bind (fun p => .val (p.1, inMemory p.2)) := by
  cases u with
  | none => rfl
  | some u =>
    unfold ArchiveIO.writeUnit
    simp only
    split
    · rfl
    · generalize (if u.readBody = false then l.getD u else u) = v
      split
      · rfl
      · have hm : (inMemory s).mode = s.mode := rfl
        have ht : (if (inMemory s).translator = none then (inMemory s).createTranslator else inMemory s) = inMemory (if s.translator = none then s.createTranslator else s) := by
          have : (inMemory s).translator = s.translator := rfl
          rw [this]
          split <;> rfl
        rw [hm, ht]
        split
        · rfl
        · generalize (if s.translator = none then s.createTranslator else s) = x
          unfold ArchiveIO.addUnit
          have : (inMemory x).translator = x.translator := rfl
          rw [this]
          cases x.translator with
          | none => rfl
          | some t =>
            simp only
            cases t.addUnit ua v with
            | ub => rfl
            | val p => rfl

theorem addUnit_settings {s s' : ArchiveIO} {ua : Archive} {u : UnitData} (h : s.addUnit ua u = .val s') : s'.settings = s.settings ∧ s'.memory = s.memory ∧ s'.rawwrites = s.rawwrites := by
  unfold ArchiveIO.addUnit at h
  split at h
  · cases h; exact ⟨rfl, rfl, rfl⟩
  · split at h
    · cases h
    · cases h; exact ⟨rfl, rfl, rfl⟩

theorem writeUnit_settings {s s' : ArchiveIO} {ua : Archive} {u l : Option UnitData} {r : Status}
    (h : s.writeUnit ua u l = .val (r, s')) : s'.settings = s.settings ∧ s'.memory = s.memory ∧ s'.rawwrites = s.rawwrites := by
  rcases writeUnit_cases s ua u l with ⟨r', h1, _⟩ | ⟨_, v, h1⟩
  · rw [h1] at h; cases h; exact ⟨rfl, rfl, rfl⟩
  · rw [h1] at h
    split at h
    · cases h
    · rename_i heq
      cases h
      obtain ⟨e1, e2, e3⟩ := addUnit_settings heq
      rw [e1, e2, e3]
      split <;> exact ⟨rfl, rfl, rfl⟩

/-- The units of the requests and their archive: the calls on the library. -/
theorem runEffects_units (ua : Option Archive) (ms : List MadeUnit) : ∀ (s m : ArchiveIO), (∀ x ∈ ms, x.ua = ua.getD s.settings) →
    (inMemory s).calls (ms.map (fun m => .writeUnit m.ua (some m.u) none)) = .val m →
    ∃ s', runEffects ua s (ms.map (fun m => Effect.unit m.u)) = .val s' ∧ m = inMemory s' ∧ s'.memory = s.memory ∧ s'.rawwrites = s.rawwrites := by
  induction ms with
  | nil => intro s m _ h; cases h; exact ⟨s, rfl, rfl, rfl, rfl⟩
  | cons x ms ih =>
    intro s m hua h
    have hx := hua x (by simp)
    simp only [List.map_cons, ArchiveIO.calls, ArchiveIO.call, writeUnit_inMemory, hx] at h
    simp only [List.map_cons, runEffects]
    cases hw : s.writeUnit (ua.getD s.settings) (some x.u) none with
    | ub => rw [hw] at h; cases h
    | val p =>
      rw [hw] at h
      simp only [Run.bind] at h
      obtain ⟨k1, k2, k3⟩ := writeUnit_settings (r := p.1) (s' := p.2) hw
      obtain ⟨s', e1, e2, e3, e4⟩ := ih p.2 m (fun y hy => by rw [k1]; exact hua y (by simp [hy])) h
      exact ⟨s', e1, e2, by rw [e3, k2], by rw [e4, k3]⟩

/-- A close of an archive in a file leaves in the file what it hands out for an archive in memory. -/
theorem close_inMemory (s m : ArchiveIO) (hm : s.memory = false) (h : (inMemory s).close = .val m) : ∃ s', s.close = .val s' ∧ m.delivered = some s'.kept := by
  have hc : (if (inMemory s).mode = .write ∧ (inMemory s).rawwrites = false ∧ (inMemory s).translator = none then (inMemory s).createTranslator else inMemory s) =
      inMemory (if s.mode = .write ∧ s.rawwrites = false ∧ s.translator = none then s.createTranslator else s) := by
    have e1 : (inMemory s).mode = s.mode := rfl
    have e2 : (inMemory s).rawwrites = s.rawwrites := rfl
    have e3 : (inMemory s).translator = s.translator := rfl
    rw [e1, e2, e3]
    split <;> rfl
  have hmem : (if s.mode = .write ∧ s.rawwrites = false ∧ s.translator = none then s.createTranslator else s).memory = false := by
    split <;> exact hm
  unfold ArchiveIO.close at h ⊢
  simp only [hc] at h
  simp only
  generalize (if s.mode = .write ∧ s.rawwrites = false ∧ s.translator = none then s.createTranslator else s) = x at h hmem ⊢
  have ht : (inMemory x).closeTranslator = inMemory x.closeTranslator := by
    unfold ArchiveIO.closeTranslator
    have e1 : (inMemory x).translator = x.translator := rfl
    have e2 : (inMemory x).attached = x.attached := rfl
    rw [e1, e2]
    cases x.translator with
    | none => rfl
    | some t => simp only; split <;> rfl
  have hmem' : x.closeTranslator.memory = false := by
    unfold ArchiveIO.closeTranslator
    cases x.translator with
    | none => exact hmem
    | some t => simp only; split <;> exact hmem
  rw [ht] at h
  generalize x.closeTranslator = y at h hmem' ⊢
  have e1 : (inMemory y).rawwrites = y.rawwrites := rfl
  have e2 : (inMemory y).buffer = y.buffer := rfl
  rw [e1, e2] at h
  by_cases hu : y.rawwrites = true ∧ y.buffer = .freed
  · rw [if_pos hu] at h; cases h
  · rw [if_neg hu] at h ⊢
    by_cases hv : y.rawwrites = true ∧ y.buffer = .valid
    · simp only [if_pos hv] at h ⊢
      simp only [inMemory, if_true, Bool.false_eq_true, if_false] at h
      cases h
      simp only [hmem', Bool.false_eq_true, if_false]
      exact ⟨_, rfl, rfl⟩
    · simp only [if_neg hv] at h ⊢
      simp only [inMemory, if_true, Bool.false_eq_true, if_false] at h
      cases h
      simp only [hmem', Bool.false_eq_true, if_false]
      exact ⟨_, rfl, rfl⟩

/-- The request `w` is new, and the parser makes the unit `m` of it; the parser keeps the attributes of the unit. There are no transformations. -/
structure Spec.Parses {D : Type} (env : ParseEnv D) (w : Work D) (m : MadeUnit) : Prop where
  status : w.req.status = .ok
  new : w.unit = none ∧ w.needsparsing = true ∧ w.input = none
  name : ∀ f, w.req.filename = some f → ∃ name, WithoutDots f name ∧ name ≠ []
  parse : ∀ u, Attributed w u → ∃ o, (match w.req.diskFilename with | some f => env.parseFile u f | none => env.parseMemory u w.req.buffer) = .val (.ok, o) ∧
    o.data = m.u ∧ m.u.language = u.language ∧ m.u.filename = u.filename ∧ m.u.version = u.version ∧ m.u.timestamp = u.timestamp
  apply : env.apply m.u = .val none

theorem prepare_input {D : Type} {w w' : Work D} {u : UnitData} (h : prepareUnit w = .val (u, w')) : w'.input = w.input ∧ w'.unit = w.unit ∧ w'.needsparsing = w.needsparsing := by
  unfold prepareUnit at h
  cases hf : w.req.filename with
  | none =>
    simp only [hf, Run.bind] at h
    cases h
    exact ⟨rfl, rfl, rfl⟩
  | some f =>
    simp only [hf] at h
    cases hs : stripDots f with
    | ub => rw [hs] at h; cases h
    | val g =>
      rw [hs] at h
      simp only [Run.bind] at h
      cases h
      exact ⟨rfl, rfl, rfl⟩

/-- A request keeps the archive from which its unit was read. -/
theorem consume_input {D : Type} {env : ParseEnv D} {w w' : Work D} (h : srcml_consume env w = .val w') : w'.input = w.input := by
  unfold srcml_consume at h
  split at h
  · cases h; rfl
  · obtain ⟨⟨u, w1⟩, h1, h⟩ := conv_bind h
    dsimp only at h
    obtain ⟨⟨st, o⟩, h2, h⟩ := conv_bind h
    dsimp only at h
    rw [← (prepare_input h1).1]
    split at h
    · cases h; rfl
    · split at h
      · cases h; rfl
      · obtain ⟨r, h3, h⟩ := conv_bind h
        cases h; rfl

theorem consumeAll_input {D : Type} {env : ParseEnv D} : ∀ {l ws : List (Work D)}, consumeAll env l = .val ws → (∀ w ∈ l, w.input = none) → ∀ w ∈ ws, w.input = none
  | [], ws, h, _ => by cases h; simp
  | x :: l, ws, h, hl => by
    simp only [consumeAll] at h
    obtain ⟨w1, h1, h⟩ := conv_bind h
    obtain ⟨ws1, h2, h⟩ := conv_bind h
    cases h
    intro w hw
    rcases List.mem_cons.mp hw with rfl | hw
    · rw [consume_input h1]; exact hl x (by simp)
    · exact consumeAll_input h2 (fun y hy => hl y (by simp [hy])) w hw

theorem consume_parses {D : Type} (env : ParseEnv D) (w : Work D) (m : MadeUnit) (h : Parses env w m) :
    ∃ w' u o, srcml_consume env w = .val w' ∧ w'.req.status = .ok ∧ w'.results = none ∧ w'.unit = some o ∧ o.data = m.u ∧ Attributed w u ∧
      m.u.language = u.language ∧ m.u.filename = u.filename ∧ m.u.version = u.version ∧ m.u.timestamp = u.timestamp := by
  obtain ⟨u, hu, hk⟩ := C71_parsed env w h.status h.new.1 h.new.2.1 h.name
  obtain ⟨o, h1, h2, h3, h4, h5, h6⟩ := h.parse u hu
  obtain ⟨w', k1, k2, k3, k4, k5, k6⟩ := hk o none h1 (by rw [h2]; exact h.apply)
  exact ⟨w', u, o, k1, k2, k3, k6, h2, hu, h3, h4, h5, h6⟩

/-- **C71.** From the requests to the units that are read. New requests are parsed in threads and written, in order, to an archive in a file, which is then closed. Whoever reads this file, in every interleaving
of the two threads of the reader and whatever the pieces in which the text is delivered, gets for the `i`-th request exactly the unit that the parser made of it, with its language, its name
without the dots in front, its version and its time, and after the last one the end. -/
theorem C71_command {D : Type} (env : ParseEnv D) (opts : CmdOptions) (num : NumberText D) (zero : D) (opened : Str → Bool) (ua : Option Archive) (a : Archive) (th : ThreadState) (ps : List (Work D × MadeUnit))
    (hp : ∀ p ∈ ps, Parses env p.1 p.2) (hne : ps ≠ []) (hopts : opts.noarchive = false ∧ opts.xmlFragment = false ∧ opts.xmlRaw = false)
    (hA : isoption a.options OPTION_ARCHIVE = true) (ha : CarriedArchive a) (hm : ∀ p ∈ ps, p.2.Carried a) (hua : ∀ p ∈ ps, p.2.ua = ua.getD a) :
    ∃ ws o s, consumeAll env (ps.map (·.1)) = .val ws ∧
      writeAll opts num zero opened ua { main := ((newIO a th).openWrite true (.other true)).2 } ws = .val o ∧ o.messages = [] ∧ o.files = [] ∧
      o.main.close = .val s ∧
      ∀ fs wants, Delivers s.kept fs → ∃ h : Sax2, ({ wants := wants } : Sax2).feeds fs = .val h ∧ AnyCalls h.log ∧
        ∀ (fin : Finish) (r : Reader), Reach { todo := h.log.filterMap saxCall, finish := fin } Reader.Step r →
          (∀ i (hi : i < r.log.length), (wants[i]?).getD false = decide ((r.log[i]).1 = .read)) →
          ∀ i (hi : i < r.log.length),
            (∀ hn : i < ps.length, (r.log[i]).1 = .read → ∃ v, gets h.log (r.log[i]).2 = some v ∧ SameUnit a (ps[i]).2 v ∧
              v.language = some (ps[i]).1.req.language ∧ v.version = (ps[i]).1.req.version ∧ v.timestamp = (ps[i]).1.req.timeStamp ∧
              (match (ps[i]).1.req.filename with
                | none => v.filename = none
                | some f => ∃ name, WithoutDots f name ∧ v.filename = some name)) ∧
            (ps.length ≤ i → (r.log[i]).2 = none) := by
  have hcons : ∀ qs : List (Work D × MadeUnit), (∀ p ∈ qs, Parses env p.1 p.2) → (∀ p ∈ qs, p.2.Carried a) →
      ∃ ws, consumeAll env (qs.map (·.1)) = .val ws ∧ ShowsAll opts num ws (qs.map (fun p => Effect.unit p.2.u)) [] := by
    intro qs
    induction qs with
    | nil => intro _ _; exact ⟨[], rfl, .nil⟩
    | cons q qs ih =>
      intro h1 h2
      obtain ⟨ws, e1, e2⟩ := ih (fun p hp => h1 p (by simp [hp])) (fun p hp => h2 p (by simp [hp]))
      obtain ⟨w', u, o, k1, k2, k3, k4, k5, _⟩ := consume_parses env q.1 q.2 (h1 q (by simp))
      refine ⟨w' :: ws, ?_, ?_⟩
      · simp only [List.map_cons, consumeAll, k1, Run.bind, e1]
      · have := Shows.unit (opts := opts) (num := num) k2 k3 k4 hopts.2.1 hopts.2.2
        rw [k5] at this
        exact .cons this e2
  obtain ⟨ws, w1, w2⟩ := hcons ps hp hm
  obtain ⟨m, doc, c1, c2, c3⟩ := C25_made_units a th (ps.map (·.2)) hA (by simpa using hne) ha (by intro x hx; obtain ⟨p, hp', rfl⟩ := List.mem_map.mp hx; exact hm p hp')
  generalize hs0 : ((newIO a th).openWrite true (.other true)).2 = s0
  have hmem0 : ((newIO a th).openWrite true .memory).2 = inMemory s0 := by rw [← hs0]; rfl
  have hset : s0.settings = a ∧ s0.memory = false ∧ s0.mode = .write := by rw [← hs0]; exact ⟨rfl, rfl, rfl⟩
  rw [List.cons_append, ArchiveIO.calls] at c1
  simp only [ArchiveIO.call, hmem0] at c1
  rw [ioCalls_append] at c1
  cases hcs : (inMemory s0).calls ((ps.map (·.2)).map (fun m => .writeUnit m.ua (some m.u) none)) with
  | ub => rw [hcs] at c1; cases c1
  | val m1 =>
    rw [hcs] at c1
    simp only [ArchiveIO.calls, ArchiveIO.call] at c1
    obtain ⟨s1, r1, r2, r3, r4⟩ := runEffects_units ua (ps.map (·.2)) s0 m1 (by
      intro x hx; obtain ⟨p, hp', rfl⟩ := List.mem_map.mp hx; rw [hset.1]; exact hua p hp') hcs
    subst r2
    cases hcl : (inMemory s1).close with
    | ub => rw [hcl] at c1; cases c1
    | val m2 =>
      rw [hcl] at c1
      simp only [Run.val.injEq] at c1
      subst c1
      obtain ⟨s2, d1, d2⟩ := close_inMemory s1 m2 (by rw [r3]; exact hset.2.1) hcl
      obtain ⟨f, f1, f2⟩ := C71_writes opts num zero opened ua ua hopts.1 ws { main := s0 } _ _ w2 (fun w hw => by rw [consumeAll_input w1 (by intro w hw; obtain ⟨p, hp', rfl⟩ := List.mem_map.mp hw; exact (hp p hp').new.2.2) w hw]; rfl) hset.2.2 (by
        intro u hu
        simp only [List.mem_map] at hu
        obtain ⟨p, hp', h⟩ := hu
        cases h
        exact ((made_finished (hm p hp').made).choose_spec.choose_spec.choose_spec.1).body)
      have r1' : runEffects ua s0 (ps.map (fun p => Effect.unit p.2.u)) = .val s1 := by
        rw [← r1, List.map_map]; rfl
      rw [r1'] at f1
      obtain ⟨q1, q2, q3⟩ := f2 s1
      refine ⟨ws, f s1, s2, w1, f1, q3, q2, by rw [q1]; exact d1, ?_⟩
      have hdoc : doc = s2.kept := by rw [c2] at d2; exact Option.some.inj d2
      subst hdoc
      intro fs wants hd
      obtain ⟨h, e1, e0, e2⟩ := c3 fs wants hd
      refine ⟨h, e1, e0, ?_⟩
      intro fin r hr hw i hi
      obtain ⟨g1, g2⟩ := e2 fin r hr hw i hi
      refine ⟨?_, by simpa using g2⟩
      intro hn hread
      obtain ⟨v, v1, v2⟩ := g1 (by simpa using hn) hread
      simp only [List.getElem_map] at v2
      obtain ⟨w', u, o, _, _, _, _, _, a1, a2, a3, a4, a5⟩ := consume_parses env (ps[i]).1 (ps[i]).2 (hp _ (List.getElem_mem hn))
      refine ⟨v, v1, v2, ?_, by rw [v2.version, a4, a1.version], by rw [v2.timestamp, a5, a1.timestamp], ?_⟩
      · rw [v2.language, a2, a1.language]; rfl
      · have hf := a1.filename
        rw [v2.filename, a3]
        exact hf

/-! ### Instances -/

/-- The numbers are integers in the examples. -/
def sampleNumbers : NumberText Int := ⟨some, fun x i => x == i, fun x => (toString x).toList, fun x => (toString x).toList⟩

/-- A library whose parser is that of the model, for tokens that do not depend on the text, and without transformations. -/
def sampleEnv : ParseEnv Int where
  parseFile u _ := ({ data := { u with derivedLanguage := LANGUAGE_CXX } } : UnitObj).parseTokens sampleSax (modeArchive true) {} none sampleToks
  parseMemory u _ := ({ data := { u with derivedLanguage := LANGUAGE_CXX } } : UnitObj).parseTokens sampleSax (modeArchive true) {} none sampleToks
  apply _ := .val none

/-- A file of the command line. -/
def sampleWork (name : Str) : Work Int := { req := { language := "C++".toList, filename := some ("./".toList ++ name), diskFilename := some name, version := some "1".toList } }

/-- The unit that the parser makes of it. -/
@[irreducible] def commandUnit (name : Str) : UnitObj :=
  match sampleEnv.parseFile { language := some "C++".toList, filename := some name, version := some "1".toList } [] with
  | .val (_, u) => u
  | .ub => {}

def commandMade (name : Str) : MadeUnit :=
  { ua := modeArchive true, u := (commandUnit name).data, evs := [.op "cpp:directive".toList [], .ch '#', .ch 'a', .cl "cpp:directive".toList] }

theorem command_run (name : Str) (hn : name = "a.cpp".toList ∨ name = "b.cpp".toList) :
    sampleEnv.parseFile { language := some "C++".toList, filename := some name, version := some "1".toList } name = .val (.ok, commandUnit name) := by
  rcases hn with rfl | rfl <;> decide +kernel

theorem command_made (name : Str) (hn : name = "a.cpp".toList ∨ name = "b.cpp".toList) : (commandMade name).Carried (modeArchive true) := by
  have hmade : Made (commandMade name).u (commandMade name).evs := by
    refine .parsed sampleSax (modeArchive true) {} { data := { language := some "C++".toList, filename := some name, version := some "1".toList, derivedLanguage := LANGUAGE_CXX } } (commandUnit name) none
      sampleToks _ "#a".toList ?_ ⟨Or.inl (by rcases hn with rfl | rfl <;> decide +kernel), Or.inl (by rcases hn with rfl | rfl <;> decide +kernel)⟩ (by decide +kernel) (by rcases hn with rfl | rfl <;> decide +kernel)
      (Carries.markup _ _ _ (by decide +kernel)
        (Carries.text _ _ [] (by decide +kernel) (by decide +kernel) (Carries.markup _ _ _ (by decide +kernel) .nil)))
      sampleSax_reads rfl none (fun _ h => by cases h) (command_run name hn)
    have hns : namespacesOf (modeArchive true) (beforeParse (modeArchive true) { language := some "C++".toList, filename := some name, version := some "1".toList, derivedLanguage := LANGUAGE_CXX } none) = startingNamespaces := by
      rcases hn with rfl | rfl <;> decide +kernel
    refine ⟨by rcases hn with rfl | rfl <;> decide +kernel, ?_, by rw [hns]; exact starting_sound, ?_⟩
    · rw [hns]
      have : mergeNamespaces defaultNamespaces startingNamespaces = defaultNamespaces := by decide +kernel
      rw [this]
      constructor <;> decide +kernel
    · have hm : startMeta (modeArchive true) (beforeParse (modeArchive true) { language := some "C++".toList, filename := some name, version := some "1".toList, derivedLanguage := LANGUAGE_CXX } none) =
          { language := some "C++".toList, revision := some "1.0.0".toList, filename := some name, version := some "1".toList } := by
        rcases hn with rfl | rfl <;> decide +kernel
      rw [hm]
      refine ⟨?_, by simp [attrPairs], by simp [attrPairs], by simp [attrPairs]⟩
      intro v hv
      simp only [List.mem_cons, List.not_mem_nil, or_false, Option.some.injEq, reduceCtorEq, false_or] at hv
      rcases hn with rfl | rfl <;> rcases hv with rfl | rfl | rfl | rfl <;> decide +kernel
  refine ⟨⟨hmade, rfl, ?_, ?_⟩, ?_, by rcases hn with rfl | rfl <;> decide +kernel, by rcases hn with rfl | rfl <;> decide +kernel, by rcases hn with rfl | rfl <;> decide +kernel⟩
  · have h1 : (jobOut (modeArchive true) (modeArchive true) (commandMade name).u 1).namespaces.map (·.prefix_) = defaultNamespaces.map (·.prefix_) := by
      rcases hn with rfl | rfl <;> decide +kernel
    have h2 : (jobOut (modeArchive true) (modeArchive true) (commandMade name).u 1).namespaces.map (·.uri) = defaultNamespaces.map (·.uri) := by
      rcases hn with rfl | rfl <;> decide +kernel
    exact CleanPrefixes.congr (a := defaultNamespaces) (by constructor <;> decide +kernel) h1 h2
  · have hm : unitMetaOf (modeArchive true) (commandMade name).ua (commandMade name).u =
        { language := some "C++".toList, revision := some "1.0.0".toList, filename := some name, version := some "1".toList } := by
      rcases hn with rfl | rfl <;> decide +kernel
    rw [hm]
    refine ⟨?_, by simp [attrPairs], by simp [attrPairs], by simp [attrPairs]⟩
    intro v hv
    simp only [List.mem_cons, List.not_mem_nil, or_false, Option.some.injEq, reduceCtorEq, false_or] at hv
    rcases hn with rfl | rfl <;> rcases hv with rfl | rfl | rfl | rfl <;> decide +kernel
  · intro n attrs h1 h2
    simp only [commandMade, List.mem_cons, List.not_mem_nil, or_false, Ev.op.injEq, reduceCtorEq, false_or] at h1
    obtain ⟨rfl, rfl⟩ := h1
    exact absurd h2 (by decide)

theorem Spec.WithoutDots.functional {s a b : Str} (h1 : WithoutDots s a) (h2 : WithoutDots s b) : a = b := by
  obtain ⟨n, rfl, ha⟩ := h1
  obtain ⟨k, hk, hb⟩ := h2
  induction n generalizing k with
  | zero =>
    cases k with
    | zero => simpa using hk
    | succ k => exact absurd ⟨_, by simpa [List.replicate_succ] using hk⟩ ha
  | succ n ih =>
    cases k with
    | zero => exact absurd ⟨_, by simpa [List.replicate_succ] using hk.symm⟩ hb
    | succ k => exact ih k (by simpa [List.replicate_succ] using hk)

theorem command_parses (name : Str) (hn : name = "a.cpp".toList ∨ name = "b.cpp".toList) : Parses sampleEnv (sampleWork name) (commandMade name) := by
  have hw : WithoutDots ("./".toList ++ name) name ∧ name ≠ [] := (stripDots_iff _ _).mp (by rcases hn with rfl | rfl <;> decide +kernel)
  refine ⟨rfl, ⟨rfl, rfl, rfl⟩, ?_, ?_, rfl⟩
  · intro f hf
    cases hf
    exact ⟨name, hw⟩
  · intro u hu
    have hlang : u.language = some "C++".toList := hu.language
    have hver : u.version = some "1".toList := hu.version
    have htime : u.timestamp = none := hu.timestamp
    have hname : u.filename = some name := by
      obtain ⟨n, h1, h2⟩ := hu.filename
      rw [h2]
      rw [WithoutDots.functional h1 hw.1]
    have hu' : u = { language := some "C++".toList, filename := some name, version := some "1".toList } := by
      rw [hu.rest, hlang, hver, htime, hname]
    subst hu'
    refine ⟨commandUnit name, command_run name hn, rfl, ?_⟩
    rcases hn with rfl | rfl <;> decide +kernel

/-- An instance of `C71_command`: two files. -/
example : ∃ ws o s, consumeAll sampleEnv [sampleWork "a.cpp".toList, sampleWork "b.cpp".toList] = .val ws ∧
    writeAll {} sampleNumbers 0 (fun _ => true) none { main := ((newIO (modeArchive true) {}).openWrite true (.other true)).2 } ws = .val o ∧ o.messages = [] ∧ o.files = [] ∧ o.main.close = .val s := by
  have hn : ∀ p ∈ [(sampleWork "a.cpp".toList, commandMade "a.cpp".toList), (sampleWork "b.cpp".toList, commandMade "b.cpp".toList)],
      Parses sampleEnv p.1 p.2 ∧ p.2.Carried (modeArchive true) ∧ p.2.ua = modeArchive true := by
    intro p hp
    simp only [List.mem_cons, List.not_mem_nil, or_false] at hp
    rcases hp with rfl | rfl
    · exact ⟨command_parses _ (.inl rfl), command_made _ (.inl rfl), rfl⟩
    · exact ⟨command_parses _ (.inr rfl), command_made _ (.inr rfl), rfl⟩
  obtain ⟨ws, o, s, h1, h2, h3, h4, h5, _⟩ := C71_command sampleEnv {} sampleNumbers 0 (fun _ => true) none (modeArchive true) {}
    [(sampleWork "a.cpp".toList, commandMade "a.cpp".toList), (sampleWork "b.cpp".toList, commandMade "b.cpp".toList)]
    (fun p hp => (hn p hp).1) (by simp) ⟨rfl, rfl, rfl⟩ (by decide) mode_carried (fun p hp => (hn p hp).2.1) (fun p hp => (hn p hp).2.2)
  exact ⟨ws, o, s, h1, h2, h3, h4, h5⟩

/-- What the writer does with one request in an archive in memory: the text after the close, the messages and the sum of the lines. -/
def shownBy (opts : CmdOptions) (w : Work Int) : Run (Option Str × List Str × Nat) :=
  (srcml_write_request opts sampleNumbers 0 (fun _ => true) none w { main := ((newIO (modeArchive true) {}).openWrite true .memory).2 }).bind (fun o =>
    o.main.close.bind (fun s => .val (s.delivered, o.messages, o.loc)))

/-- Instances of `C71_write`: a truth value, a number and a string. -/
example : Shows {} sampleNumbers ({ req := {}, results := some { type := RESULT_STRING, string := some "ab".toList } } : Work Int) [.text "ab".toList, .text ['\n']] [] ∧
    shownBy {} { req := {}, results := some { type := RESULT_STRING, string := some "ab".toList } } = .val (some "ab\n".toList, [], 0) ∧
    shownBy {} { req := {}, results := some { type := RESULT_BOOLEAN, bool := some 1 } } = .val (some "true\n".toList, [], 0) ∧
    shownBy {} { req := {}, results := some { type := RESULT_NUMBER, number := some 12 } } = .val (some "12\n".toList, [], 0) :=
  ⟨.string (s := "ab".toList) rfl rfl rfl rfl (by decide), by decide +kernel, by decide +kernel, by decide +kernel⟩

/-- Instances of `C71_write`: failures. -/
example : shownBy {} { req := { status := .unsetLanguage, diskFilename := some "a.txt".toList } } =
      .val (some "<?xml version=\"1.0\" encoding=\"UTF-8\" standalone=\"yes\"?>\n<unit xmlns=\"http://www.srcML.org/srcML/src\" revision=\"1.0.0\"/>\n".toList, ["srcml: Extension not supported a.txt".toList], 0) ∧
    Shows {} sampleNumbers ({ req := { status := .ioError }, errormsg := some "x".toList } : Work Int) [] ["x".toList] :=
  ⟨by decide +kernel, .failed (by decide) (by decide) rfl rfl⟩

/-- An instance of `C71_parse_failed`: a file that cannot be opened. -/
example : ∃ w', srcml_consume ({ sampleEnv with parseFile := fun _ _ => .val (.ioError, {}) } : ParseEnv Int) (sampleWork "a.cpp".toList) = .val w' ∧ w'.req.status = .ioError ∧ w'.unit = none ∧
    w'.errormsg = some "srcml: Unable to open file ./a.cpp".toList := by
  refine ⟨{ (sampleWork "a.cpp".toList) with
    req := { (sampleWork "a.cpp".toList).req with filename := some "a.cpp".toList, status := .ioError }
    errormsg := some "srcml: Unable to open file ./a.cpp".toList }, rfl, rfl, rfl, rfl⟩

/-- An instance of `C71_noarchive`: the unit of a request gets a file of its own. -/
example : UnitPath { noarchive := true, toDirectory := true } ({ req := { filename := some "a.cpp".toList, diskDir := some "d".toList } } : Work Int) "d/a.cpp.xml".toList ∧
    Shows { noarchive := true, toDirectory := true } sampleNumbers ({ req := { filename := some "a.cpp".toList, diskDir := some "d".toList }, unit := some (commandUnit "a.cpp".toList) } : Work Int)
      [.unit (commandUnit "a.cpp".toList).data] [] :=
  ⟨⟨_, rfl, .inr ⟨rfl, _, rfl, by decide⟩⟩, .unit rfl rfl rfl rfl rfl⟩

/-! ### Findings -/

/-- Finding: for a result that is the empty string, the character in front of the string is looked at. -/
theorem C71_finding_empty_string : shownBy {} { req := {}, results := some { type := RESULT_STRING, string := some [] } } = .ub := by decide +kernel

/-- Finding: a number that no `int` can hold (for example infinity, the result of `1 div 0`) is converted to one. -/
theorem C71_finding_large_number {D : Type} (opts : CmdOptions) (num : NumberText D) (zero x : D) (opened : Str → Bool) (ua : Option Archive) (w : Work D) (o : OutState) (r : TransformResult D)
    (hst : w.req.status ≠ .unsetLanguage) (hr : w.results = some r) (ht : r.type = RESULT_NUMBER) (hx : r.number = some x) (hi : num.asInt x = none) (hna : opts.noarchive = false) :
    srcml_write_request opts num zero opened ua w o = .ub := by
  have hne : (RESULT_NUMBER = RESULT_BOOLEAN) = False := by simp [RESULT_NUMBER, RESULT_BOOLEAN]
  unfold srcml_write_request
  rw [if_neg hst]
  simp only [hna, Bool.false_eq_true, and_false, if_false]
  have : writeResult opts num zero ua w o.main = .ub := by
    unfold writeResult
    simp only [hr, Option.map_some, Option.getD_some, ht, hne, if_false, if_true, srcml_transform_get_number, ne_eq, not_true_eq_false, Run.bind, hx, hi]
  rw [this]
  rfl

/-- Finding: text without a name (from the standard input) that is written to a file of its own: the name is read although there is none. -/
theorem C71_finding_noarchive_no_name {D : Type} (opts : CmdOptions) (num : NumberText D) (zero : D) (opened : Str → Bool) (ua : Option Archive) (w : Work D) (o : OutState)
    (hst : w.req.status ≠ .unsetLanguage) (hu : w.unit.isSome = true) (hn : w.req.filename = none) (hna : opts.noarchive = true) : srcml_write_request opts num zero opened ua w o = .ub := by
  unfold srcml_write_request
  rw [if_neg hst]
  simp only [hna, hu, and_self, if_true]
  have : unitFile opts w = .ub := by unfold unitFile; rw [hn]
  rw [this]
  rfl

/-- Finding: a transformation without a result for a unit (also one that failed: its status is not looked at) makes the unit vanish without a message, and one line is taken off the sum of lines: at the
start this is the largest number. -/
theorem C71_finding_no_result : (∃ w', srcml_consume ({ sampleEnv with apply := fun _ => .val (some {}) } : ParseEnv Int) (sampleWork "a.cpp".toList) = .val w' ∧
      w'.req.status = .ok ∧ w'.unit = none ∧ w'.errormsg = none) ∧
    shownBy {} { req := {}, results := some {} } =
      .val (some "<?xml version=\"1.0\" encoding=\"UTF-8\" standalone=\"yes\"?>\n<unit xmlns=\"http://www.srcML.org/srcML/src\" revision=\"1.0.0\"/>\n".toList, [], 2 ^ 64 - 1) := by
  refine ⟨?_, by decide +kernel⟩
  obtain ⟨u, hu, hk⟩ := C71_parsed ({ sampleEnv with apply := fun _ => .val (some {}) } : ParseEnv Int) (sampleWork "a.cpp".toList) rfl rfl rfl (command_parses _ (.inl rfl)).name
  obtain ⟨o, h1, _⟩ := (command_parses "a.cpp".toList (.inl rfl)).parse u hu
  obtain ⟨w', k1, k2, k3, k4, k5, k6⟩ := hk o (some {}) h1 rfl
  exact ⟨w', k1, k2, k6, k4⟩

/-- Finding: a name that is empty or consists of `./` only is dereferenced behind its end. -/
theorem C71_finding_dots_only {D : Type} (env : ParseEnv D) (w : Work D) (n : Nat) (hst : w.req.status = .ok) (hn : w.req.filename = some (List.replicate n ['.', '/']).flatten) :
    srcml_consume env w = .ub := by
  have hd : ∀ n, stripDots (List.replicate n ['.', '/']).flatten = .ub := by
    intro n
    induction n with
    | zero => rfl
    | succ n ih => simpa [List.replicate_succ, stripDots] using ih
  have : prepareUnit w = .ub := by
    unfold prepareUnit
    simp only [hn, hd]
    rfl
  unfold srcml_consume
  rw [if_neg (by simp [hst]), this]
  rfl

/-- Finding: when the library says that an argument of the parse function is invalid, the program ends with an empty message. -/
theorem C71_finding_invalid_argument : ∃ w', srcml_consume ({ sampleEnv with parseFile := fun _ _ => .val (.invalidArgument, {}) } : ParseEnv Int) (sampleWork "a.cpp".toList) = .val w' ∧
    w'.exits = true ∧ w'.errormsg = some [] := ⟨_, rfl, rfl, rfl⟩

end Srcml
