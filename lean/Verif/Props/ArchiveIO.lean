import Verif.Spec.ArchiveIO
import Verif.Props.UnitWriter
/-
C24: a unit can be written only to an archive that is open for writing, and read only from one that is open for reading.
-/
set_option linter.unusedSimpArgs false
namespace Srcml
open Spec

/-! ### C24 -/

theorem addUnit_mode {s s' : ArchiveIO} {ua : Archive} {u : UnitData} (h : s.addUnit ua u = .val s') : s'.mode = s.mode := by
  unfold ArchiveIO.addUnit at h
  split at h
  · cases h; rfl
  · split at h
    · cases h
    · cases h; rfl

theorem createTranslator_mode (s : ArchiveIO) : s.createTranslator.mode = s.mode := rfl

theorem closeTranslator_mode (s : ArchiveIO) : s.closeTranslator.mode = s.mode := by
  unfold ArchiveIO.closeTranslator
  split
  · rfl
  · split <;> rfl

/-- What `srcml_archive_write_unit` does: it refuses and changes nothing, or the translator adds the unit. -/
theorem writeUnit_cases (s : ArchiveIO) (ua : Archive) (u l : Option UnitData) :
    (∃ r, s.writeUnit ua u l = .val (r, s) ∧ r ≠ .ok) ∨
    (s.mode = .write ∧ ∃ v, s.writeUnit ua u l =
      match (if s.translator = none then s.createTranslator else s).addUnit ua v with
      | .ub => .ub
      | .val s => .val (.ok, s)) := by
  unfold ArchiveIO.writeUnit
  cases u with
  | none => exact Or.inl ⟨_, rfl, by decide⟩
  | some u =>
    simp only []
    by_cases h1 : u.readBody = false ∧ u.readHeader = false
    · rw [if_pos h1]; exact Or.inl ⟨_, rfl, by decide⟩
    rw [if_neg h1]
    generalize (if u.readBody = false then l.getD u else u) = v
    by_cases h2 : v.readBody = false
    · rw [if_pos h2]; exact Or.inl ⟨_, rfl, by decide⟩
    rw [if_neg h2]
    by_cases h3 : s.mode ≠ .write
    · rw [if_pos h3]; exact Or.inl ⟨_, rfl, by decide⟩
    rw [if_neg h3]
    exact Or.inr ⟨Decidable.not_not.mp h3, v, rfl⟩

theorem addUnit_reader {s s' : ArchiveIO} {ua : Archive} {u : UnitData} (h : s.addUnit ua u = .val s') :
    s'.reader = s.reader := by
  unfold ArchiveIO.addUnit at h
  split at h
  · cases h; rfl
  · split at h
    · cases h
    · cases h; rfl

theorem writeUnit_keeps {s s' : ArchiveIO} {ua : Archive} {u l : Option UnitData} {r : Status}
    (h : s.writeUnit ua u l = .val (r, s')) : s'.mode = s.mode ∧ s'.reader = s.reader := by
  rcases writeUnit_cases s ua u l with ⟨r', h1, _⟩ | ⟨_, v, h1⟩
  · rw [h1] at h; cases h; exact ⟨rfl, rfl⟩
  · rw [h1] at h
    split at h
    · cases h
    · rename_i heq
      cases h
      rw [addUnit_mode heq, addUnit_reader heq]
      split <;> exact ⟨rfl, rfl⟩

theorem closeTranslator_reader (s : ArchiveIO) : s.closeTranslator.reader = s.reader := by
  unfold ArchiveIO.closeTranslator
  split
  · rfl
  · split <;> rfl

theorem close_keeps {s s' : ArchiveIO} (h : s.close = .val s') : s'.mode = .invalid ∧ s'.reader = s.reader := by
  unfold ArchiveIO.close at h
  simp only [] at h
  generalize hs1 : (if s.mode = .write ∧ s.rawwrites = false ∧ s.translator = none then s.createTranslator else s) = s1 at h
  have h1 : s1.reader = s.reader := by rw [← hs1]; split <;> rfl
  have h2 := closeTranslator_reader s1
  generalize s1.closeTranslator = s2 at h h2
  by_cases hc : s2.rawwrites = true ∧ s2.buffer = .freed
  · rw [if_pos hc] at h; cases h
  rw [if_neg hc] at h
  generalize hs3 : (if s2.rawwrites = true ∧ s2.buffer = .valid then { s2 with buffer := .null } else s2) = s3 at h
  have h3 : s3.reader = s2.reader := by rw [← hs3]; split <;> rfl
  generalize hs4 : (if s3.memory = true then
        { s3 with delivered := some (if s3.detached = true then [] else s3.kept), detached := true } else s3) = s4 at h
  have h4 : s4.reader = s3.reader := by rw [← hs4]; split <;> rfl
  cases h
  exact ⟨rfl, by rw [h4, h3, h2, h1]⟩

theorem call_mode {s s' : ArchiveIO} {c : IoCall} {r : IoResult} (h : s.call c = .val (r, s')) :
    s'.mode = modeNext s.mode c := by
  cases c with
  | openWrite ok t =>
    simp only [ArchiveIO.call] at h
    cases h
    cases ok <;> cases t <;> rfl
  | openRead ok i =>
    simp only [ArchiveIO.call] at h
    cases h
    cases ok <;> cases i <;> rfl
  | writeUnit ua u l =>
    simp only [ArchiveIO.call] at h
    split at h
    · cases h
    · rename_i heq; cases h; exact (writeUnit_keeps heq).1
  | writeString x =>
    simp only [ArchiveIO.call] at h
    split at h
    · cases h
    · rename_i heq
      cases h
      unfold ArchiveIO.writeString at heq
      split at heq
      · cases heq; rfl
      · split at heq
        · cases heq
        · cases heq; rfl
        · split at heq <;> (cases heq; rfl)
  | readUnit =>
    simp only [ArchiveIO.call] at h
    cases h
    simp only [modeNext, ArchiveIO.readUnit]
    split
    · rfl
    · split <;> rfl
  | skipUnit =>
    simp only [ArchiveIO.call] at h
    cases h
    simp only [modeNext, ArchiveIO.skipUnit]
    split
    · rfl
    · split <;> rfl
  | close =>
    simp only [ArchiveIO.call] at h
    split at h
    · cases h
    · rename_i heq
      cases h
      exact (close_keeps heq).1

theorem calls_mode (cs : List IoCall) : ∀ {s s' : ArchiveIO}, s.calls cs = .val s' → s'.mode = cs.foldl modeNext s.mode := by
  induction cs with
  | nil => intro s s' h; cases h; rfl
  | cons c cs ih =>
    intro s s' h
    rw [ArchiveIO.calls] at h
    split at h
    · cases h
    · rename_i heq
      rw [ih h, call_mode heq]
      rfl

/-- A new archive with the given settings. -/
def newIO (a : Archive) (th : ThreadState) : ArchiveIO := { settings := a, thread := th }

/-- C24: after every sequence of calls on a new archive, what the archive is open for is what the last successful opening, or
a close after it, says. -/
theorem C24_mode_of_history (a : Archive) (th : ThreadState) (cs : List IoCall) (s : ArchiveIO)
    (h : (newIO a th).calls cs = .val s) : s.mode = modeAfter cs :=
  calls_mode cs h

/-- C24: after every sequence of calls, an archive that is not open for writing refuses every unit: the call never answers OK
and changes nothing; for a unit with contents the answer is the documented one. -/
theorem C24_write_refused (a : Archive) (th : ThreadState) (cs : List IoCall) (s : ArchiveIO)
    (h : (newIO a th).calls cs = .val s) (hm : modeAfter cs ≠ .write) (ua : Archive) (u l : Option UnitData) :
    (∃ r, s.writeUnit ua u l = .val (r, s) ∧ r ≠ .ok) ∧
    (∀ v, u = some v → v.readBody = true → s.writeUnit ua u l = .val (.invalidIoOperation, s)) := by
  have hs : s.mode ≠ .write := by rw [C24_mode_of_history a th cs s h]; exact hm
  constructor
  · rcases writeUnit_cases s ua u l with h1 | ⟨h1, _⟩
    · exact h1
    · exact absurd h1 hs
  · rintro v rfl hv
    simp [ArchiveIO.writeUnit, hv, hs]

/-- C24: a unit with contents is accepted, with OK, by an archive open for writing, whatever happened before, as long as writing
is defined; a unit without contents that cannot be read late is refused and nothing changes. -/
theorem C24_write_accepted (a : Archive) (th : ThreadState) (cs : List IoCall) (s : ArchiveIO)
    (h : (newIO a th).calls cs = .val s) (hm : modeAfter cs = .write) (ua : Archive) (u : UnitData) (l : Option UnitData) :
    (u.readBody = true → s.writeUnit ua (some u) l ≠ .ub → ∃ s', s.writeUnit ua (some u) l = .val (.ok, s')) ∧
    (u.readBody = false → l = none → s.writeUnit ua (some u) l = .val (.uninitializedUnit, s)) := by
  have hs : s.mode = .write := by rw [C24_mode_of_history a th cs s h]; exact hm
  constructor
  · intro hu hne
    unfold ArchiveIO.writeUnit at hne ⊢
    simp only [hu, hs, ne_eq, not_true_eq_false, if_false, Bool.true_eq_false, false_and] at hne ⊢
    generalize (if s.translator = none then s.createTranslator else s).addUnit ua u = x at hne ⊢
    cases x with
    | ub => exact absurd rfl hne
    | val s' => exact ⟨s', rfl⟩
  · rintro hu rfl
    simp [ArchiveIO.writeUnit, hu]

/-- C24: an archive that is not open for reading gives no unit and skips none, and neither call changes anything. -/
theorem C24_read_refused (a : Archive) (th : ThreadState) (cs : List IoCall) (s : ArchiveIO)
    (h : (newIO a th).calls cs = .val s) (hm : modeAfter cs ≠ .read) :
    s.readUnit = (none, s) ∧ s.skipUnit = (false, s) := by
  have hs : s.mode ≠ .read := by rw [C24_mode_of_history a th cs s h]; exact hm
  simp [ArchiveIO.readUnit, ArchiveIO.skipUnit, hs]

theorem call_reader {s s' : ArchiveIO} {c : IoCall} {r : IoResult} (h : s.call c = .val (r, s')) :
    s'.reader = restNext s.mode s.reader c := by
  cases c with
  | openWrite ok t =>
    simp only [ArchiveIO.call] at h
    cases h
    cases ok <;> cases t <;> rfl
  | openRead ok i =>
    simp only [ArchiveIO.call] at h
    cases h
    cases ok <;> cases i <;> rfl
  | writeUnit ua u l =>
    simp only [ArchiveIO.call] at h
    split at h
    · cases h
    · rename_i heq
      cases h
      exact (writeUnit_keeps heq).2
  | writeString x =>
    simp only [ArchiveIO.call] at h
    split at h
    · cases h
    · rename_i heq
      cases h
      unfold ArchiveIO.writeString at heq
      split at heq
      · cases heq; rfl
      · split at heq
        · cases heq
        · cases heq; rfl
        · split at heq <;> (cases heq; rfl)
  | readUnit =>
    simp only [ArchiveIO.call] at h
    cases h
    by_cases hm : s.mode = .read
    · cases hr : s.reader <;> simp [restNext, ArchiveIO.readUnit, hm, hr]
    · simp [restNext, ArchiveIO.readUnit, hm]
  | skipUnit =>
    simp only [ArchiveIO.call] at h
    cases h
    by_cases hm : s.mode = .read
    · cases hr : s.reader <;> simp [restNext, ArchiveIO.skipUnit, hm, hr]
    · simp [restNext, ArchiveIO.skipUnit, hm]
  | close =>
    simp only [ArchiveIO.call] at h
    split at h
    · cases h
    · rename_i heq
      cases h
      exact (close_keeps heq).2

theorem calls_rest (cs : List IoCall) : ∀ {s s' : ArchiveIO}, s.calls cs = .val s' →
    (s'.mode, s'.reader) = cs.foldl (fun p c => (modeNext p.1 c, restNext p.1 p.2 c)) (s.mode, s.reader) := by
  induction cs with
  | nil => intro s s' h; cases h; rfl
  | cons c cs ih =>
    intro s s' h
    rw [ArchiveIO.calls] at h
    split at h
    · cases h
    · rename_i heq
      rw [ih h, call_mode heq, call_reader heq]
      rfl

/-- C24: an archive open for reading gives the units of the document it was opened on, each once and in order, and then none. -/
theorem C24_read_accepted (a : Archive) (th : ThreadState) (cs : List IoCall) (s : ArchiveIO)
    (h : (newIO a th).calls cs = .val s) (hm : modeAfter cs = .read) :
    s.readUnit.1 = (restAfter cs).2.head? ∧ s.skipUnit.1 = !(restAfter cs).2.isEmpty := by
  have hs : s.mode = .read := by rw [C24_mode_of_history a th cs s h]; exact hm
  have hr : s.reader = (restAfter cs).2 := by
    have := calls_rest cs h
    exact congrArg Prod.snd this
  rw [← hr]
  cases hx : s.reader <;> simp [ArchiveIO.readUnit, ArchiveIO.skipUnit, hs, hx]

/-! #### Instances -/

/-- A unit with contents. -/
def plainUnit : UnitData :=
  { readHeader := true, readBody := true, language := some "C".toList, srcml := "<unit>a;</unit>".toList,
    contentBegin := 6, contentEnd := 9 }

theorem C24_write_refused_instance : ∃ s, (newIO ({}: Archive) {}).calls [.openRead true (some [plainUnit])] = .val s ∧
    modeAfter [.openRead true (some [plainUnit])] ≠ .write ∧ plainUnit.readBody = true := by
  refine ⟨_, rfl, ?_, rfl⟩
  decide

theorem C24_read_accepted_instance : ∃ s, (newIO ({}: Archive) {}).calls
      [.openWrite true .memory, .close, .openRead true (some [plainUnit, {}]), .skipUnit] = .val s ∧
    modeAfter [.openWrite true .memory, .close, .openRead true (some [plainUnit, {}]), .skipUnit] = .read ∧
    (restAfter [.openWrite true .memory, .close, .openRead true (some [plainUnit, {}]), .skipUnit]).2 = [{}] := by
  refine ⟨_, rfl, ?_, ?_⟩ <;> decide

theorem C24_write_accepted_instance : ∃ s, (newIO ({}: Archive) {}).calls [.openWrite true .memory] = .val s ∧
    modeAfter [.openWrite true .memory] = .write ∧ s.writeUnit ({} : Archive) (some plainUnit) none ≠ .ub := by
  refine ⟨_, rfl, ?_, ?_⟩ <;> decide +kernel

/-! #### Findings -/

/-- What the user gets in memory at the end of a run of calls. -/
def deliveredBy (cs : List IoCall) : Run (Option Str) :=
  match (newIO ({} : Archive) {}).calls cs with
  | .ub => .ub
  | .val s => .val s.delivered

/-- The run has undefined behaviour. -/
def fails (cs : List IoCall) : Bool :=
  match (newIO ({} : Archive) {}).calls cs with
  | .ub => true
  | .val _ => false

/-- Finding: `srcml_archive_write_string` does not look at what the archive is open for: on an archive that is open for reading, or
was never opened, it answers OK and writes nothing. -/
theorem C24_finding_write_string_unchecked :
    (∃ s s', (newIO ({} : Archive) {}).calls [.openRead true (some [plainUnit])] = .val s ∧
      s.writeString (some "<x/>".toList) = .val (.ok, s') ∧ s'.written = []) ∧
    (∃ s', (newIO ({} : Archive) {}).writeString (some "<x/>".toList) = .val (.ok, s') ∧ s'.written = []) := by
  refine ⟨⟨_, _, rfl, rfl, ?_⟩, ⟨_, rfl, ?_⟩⟩ <;> decide

/-- Finding: after a close, `srcml_archive_write_string` uses the buffer that was freed; and writing a unit and a string to the
same archive makes the close free the buffer twice. -/
theorem C24_finding_write_string_freed :
    fails [.openWrite true .memory, .writeUnit ({} : Archive) (some plainUnit) none, .close, .writeString (some "x".toList)] = true ∧
    fails [.openWrite true .memory, .writeUnit ({} : Archive) (some plainUnit) none, .writeString (some "x".toList), .close] = true := by
  constructor <;> decide +kernel

/-- Finding: an archive that is opened for writing a second time accepts units with OK and loses all of them: the closed translator
of the first time is used again. -/
theorem C24_finding_second_write_lost :
    deliveredBy [.openWrite true .memory, .writeUnit ({} : Archive) (some plainUnit) none, .close,
      .openWrite true .memory, .writeUnit ({} : Archive) (some plainUnit) none, .close] = .val (some []) := by
  decide +kernel

/-- Finding: opening a file that cannot be opened answers OK, and so do the units that are then lost. -/
theorem C24_finding_unopenable_file :
    ∃ s s', (newIO ({} : Archive) {}).openWrite true (.other false) = (.ok, s) ∧
      s.writeUnit ({} : Archive) (some plainUnit) none = .val (.ok, s') ∧ s'.written = [] := by
  refine ⟨_, _, rfl, rfl, ?_⟩
  decide +kernel

/-- Finding: a second close of an archive in memory replaces the text that the user got by an empty one. -/
theorem C24_finding_second_close :
    (∃ t, deliveredBy [.openWrite true .memory, .writeUnit ({} : Archive) (some plainUnit) none, .close] = .val (some t) ∧ t ≠ []) ∧
    deliveredBy [.openWrite true .memory, .writeUnit ({} : Archive) (some plainUnit) none, .close, .close] = .val (some []) := by
  refine ⟨⟨_, rfl, ?_⟩, ?_⟩ <;> decide +kernel

/-! ### C64: raw text -/

theorem ioCalls_append (s : ArchiveIO) (cs ds : List IoCall) :
    s.calls (cs ++ ds) = match s.calls cs with | .ub => .ub | .val s' => s'.calls ds := by
  induction cs generalizing s with
  | nil => rfl
  | cons c cs ih =>
    simp only [List.cons_append, ArchiveIO.calls]
    split
    · rfl
    · exact ih _

/-- An archive to which only texts were ever written, and that may be opened again. -/
structure TextOnly (s : ArchiveIO) : Prop where
  translator : s.translator = none
  attached : s.attached = false

theorem writeString_kept (s : ArchiveIO) (x : Str) (hb : s.buffer = .valid) (ha : s.attached = false) :
    s.writeString (some x) = .val (.ok, { s with rawwrites := true, kept := s.kept ++ x }) := by
  cases s; simp only at hb ha; subst hb; subst ha; rfl

theorem writeString_attached (s : ArchiveIO) (x : Str) (hb : s.buffer = .valid) (ha : s.attached = true) :
    s.writeString (some x) = .val (.ok, { s with
      rawwrites := true
      translator := s.translator.map (fun t => { t with out := { t.out with w := t.out.w.bufferWrite x } }) }) := by
  cases s; simp only at hb ha; subst hb; subst ha; rfl

theorem strings_run (xs : List Str) (s : ArchiveIO) (hs : TextOnly s) (hb : s.buffer = .valid) :
    ∃ s', s.calls (xs.map (fun x => .writeString (some x))) = .val s' ∧ TextOnly s' ∧ s'.buffer = .valid ∧
      s'.kept = s.kept ++ xs.flatten ∧ s'.rawwrites = (s.rawwrites || !xs.isEmpty) ∧ s'.memory = s.memory ∧
      s'.detached = s.detached := by
  induction xs generalizing s with
  | nil => exact ⟨s, rfl, hs, hb, by simp, by simp, rfl, rfl⟩
  | cons x xs ih =>
    obtain ⟨s', h1, h2, h3, h4, h5, h6, h7⟩ := ih { s with rawwrites := true, kept := s.kept ++ x } ⟨hs.1, hs.2⟩ hb
    refine ⟨s', ?_, h2, h3, by simp [h4], by simp [h5], h6, h7⟩
    simp only [List.map_cons, ArchiveIO.calls, ArchiveIO.call, writeString_kept s x hb hs.2]
    exact h1

/-- The calls of one use of an archive: it is opened for writing to memory, texts are written, and it is closed. -/
def textSession (xs : List Str) : List IoCall :=
  .openWrite true .memory :: xs.map (fun x => .writeString (some x)) ++ [.close]

theorem session_run (xs : List Str) (hne : xs ≠ []) (s : ArchiveIO) (hs : TextOnly s) :
    ∃ s', s.calls (textSession xs) = .val s' ∧ TextOnly s' ∧ s'.delivered = some xs.flatten := by
  obtain ⟨s1, h1, h2, h3, h4, h5, h6, h7⟩ := strings_run xs
    { s with mode := .write, memory := true, detached := false, buffer := .valid, kept := [], attached := false }
    ⟨hs.1, rfl⟩ rfl
  have hr : s1.rawwrites = true := by rw [h5]; cases xs with | nil => exact absurd rfl hne | cons _ _ => simp
  have he : xs.isEmpty = false := by cases xs with | nil => exact absurd rfl hne | cons _ _ => rfl
  refine ⟨{ s1 with buffer := .null, delivered := some xs.flatten, detached := true, mode := .invalid }, ?_, ⟨h2.1, h2.2⟩, rfl⟩
  unfold textSession
  simp only [List.cons_append, ArchiveIO.calls, ArchiveIO.call, ArchiveIO.openWrite, Bool.true_eq_false, if_false]
  rw [ioCalls_append, h1]
  simp only [ArchiveIO.calls, ArchiveIO.call, ArchiveIO.close, hr, Bool.true_eq_false, false_and, and_false, if_false,
    ArchiveIO.closeTranslator, h2.1, h3, h4, h6, h7, reduceCtorEq, true_and, if_true, Bool.false_eq_true, List.nil_append]

/-- The texts that are written to an archive in memory with `srcml_archive_write_string`, each with its length, are what
the user gets, in order and unchanged, however often the archive is opened and closed. -/
theorem C64_strings (a : Archive) (th : ThreadState) (before : List (List Str)) (xs : List Str) (hb : ∀ ys ∈ before, ys ≠ [])
    (hne : xs ≠ []) :
    ∃ s, (newIO a th).calls ((before.map textSession).flatten ++ textSession xs) = .val s ∧ s.delivered = some xs.flatten := by
  have key : ∀ (l : List (List Str)) (s : ArchiveIO), TextOnly s → (∀ ys ∈ l, ys ≠ []) →
      ∃ s', s.calls (l.map textSession).flatten = .val s' ∧ TextOnly s' := by
    intro l
    induction l with
    | nil => intro s h _; exact ⟨s, rfl, h⟩
    | cons y l ih =>
      intro s h hl
      obtain ⟨s1, h1, h2, _⟩ := session_run y (hl y (by simp)) s h
      obtain ⟨s2, h3, h4⟩ := ih s1 h2 (fun z hz => hl z (by simp [hz]))
      exact ⟨s2, by simp only [List.map_cons, List.flatten_cons]; rw [ioCalls_append, h1]; exact h3, h4⟩
  obtain ⟨s1, h1, h2⟩ := key before (newIO a th) ⟨rfl, rfl⟩ hb
  obtain ⟨s2, h3, _, h4⟩ := session_run xs hne s1 h2
  exact ⟨s2, by rw [ioCalls_append, h1]; exact h3, h4⟩

example : deliveredBy (textSession ["<a>".toList, "x".toList] ++ textSession ["</a>".toList]) = .val (some "</a>".toList) := by
  decide +kernel

/-- A call that writes a text or a unit that was read or parsed. -/
def Writes (c : IoCall) : Prop :=
  (∃ ua u, c = .writeUnit ua (some u) none ∧ u.readBody = true) ∨ ∃ x, c = .writeString (some x)

theorem mixed_run (cs : List IoCall) (hcs : ∀ c ∈ cs, Writes c) (s : ArchiveIO) (hm : s.mode = .write) (hb : s.buffer = .valid)
    (ht : s.translator = none ∨ s.attached = true) :
    s.calls cs = .ub ∨ ∃ s', s.calls cs = .val s' ∧ s'.mode = .write ∧ s'.buffer = .valid ∧
      (s'.translator = none ∨ s'.attached = true) ∧
      (s.rawwrites = true ∨ (∃ x, .writeString x ∈ cs) → s'.rawwrites = true) ∧
      (s.translator ≠ none ∨ (∃ ua u l, .writeUnit ua u l ∈ cs) → s'.translator ≠ none) := by
  induction cs generalizing s with
  | nil => right; exact ⟨s, rfl, hm, hb, ht, by simp, by simp⟩
  | cons c cs ih =>
    have step : s.call c = .ub ∨ ∃ r s1, s.call c = .val (r, s1) ∧ s1.mode = .write ∧ s1.buffer = .valid ∧
        (s1.translator = none ∨ s1.attached = true) ∧
        (s.rawwrites = true ∨ (∃ x, c = .writeString x) → s1.rawwrites = true) ∧
        (s.translator ≠ none ∨ (∃ ua u l, c = .writeUnit ua u l) → s1.translator ≠ none) := by
      rcases hcs c (by simp) with ⟨ua, u, rfl, hu⟩ | ⟨x, rfl⟩
      · simp only [ArchiveIO.call, ArchiveIO.writeUnit, hu, Bool.true_eq_false, false_and, if_false, hm, ne_eq, not_true]
        generalize hs0 : (if s.translator = none then s.createTranslator else s) = s0
        have hm0 : s0.mode = .write := by rw [← hs0]; split <;> exact hm
        have hb0 : s0.buffer = .valid := by rw [← hs0]; split <;> exact hb
        have hr0 : s0.rawwrites = s.rawwrites := by rw [← hs0]; split <;> rfl
        have ha0 : s0.attached = true := by
          rw [← hs0]; split
          · simp [ArchiveIO.createTranslator, hb]
          · next h => exact ht.resolve_left h
        have ht0 : s0.translator ≠ none := by
          rw [← hs0]; split
          · simp [ArchiveIO.createTranslator]
          · next h => exact h
        obtain ⟨t, ht'⟩ := Option.ne_none_iff_exists'.1 ht0
        unfold ArchiveIO.addUnit
        simp only [ht']
        cases t.addUnit ua u with
        | ub => left; rfl
        | val p =>
          right
          exact ⟨_, _, rfl, hm0, hb0, Or.inr ha0, by simp [hr0], by simp⟩
      · right
        simp only [ArchiveIO.call]
        cases ha : s.attached with
        | true =>
          rw [writeString_attached s x hb ha]
          refine ⟨_, _, rfl, hm, hb, Or.inr ha, by simp, ?_⟩
          simp
        | false =>
          rw [writeString_kept s x hb ha]
          refine ⟨_, _, rfl, hm, hb, ?_, by simp, by simp⟩
          simpa [ha] using ht
    simp only [ArchiveIO.calls]
    rcases step with h | ⟨r, s1, h, g1, g2, g3, g4, g5⟩
    · left; rw [h]
    · rw [h]
      rcases ih (fun d hd => hcs d (by simp [hd])) s1 g1 g2 g3 with h' | ⟨s', h', q1, q2, q3, q4, q5⟩
      · left; exact h'
      · right
        refine ⟨s', h', q1, q2, q3, ?_, ?_⟩
        · rintro (h | ⟨x, h⟩)
          · exact q4 (Or.inl (g4 (Or.inl h)))
          · rcases List.mem_cons.1 h with rfl | h
            · exact q4 (Or.inl (g4 (Or.inr ⟨x, rfl⟩)))
            · exact q4 (Or.inr ⟨x, h⟩)
        · rintro (h | ⟨ua, u, l, h⟩)
          · exact q5 (Or.inl (g5 (Or.inl h)))
          · rcases List.mem_cons.1 h with rfl | h
            · exact q5 (Or.inl (g5 (Or.inr ⟨ua, u, l, rfl⟩)))
            · exact q5 (Or.inr ⟨ua, u, l, h⟩)

/-- Finding: texts and units cannot be written to the same archive in any order: at the latest the close frees the buffer
twice. -/
theorem C64_finding_mixed (a : Archive) (th : ThreadState) (cs : List IoCall) (hcs : ∀ c ∈ cs, Writes c)
    (hu : ∃ ua u l, .writeUnit ua u l ∈ cs) (hx : ∃ x, .writeString x ∈ cs) :
    (newIO a th).calls (.openWrite true .memory :: cs ++ [.close]) = .ub := by
  simp only [List.cons_append, ArchiveIO.calls, ArchiveIO.call, ArchiveIO.openWrite, Bool.true_eq_false, if_false]
  rw [ioCalls_append]
  generalize hs : ({ newIO a th with mode := .write, memory := true, detached := false, buffer := .valid, kept := [], attached := false } : ArchiveIO) = s0
  rcases mixed_run cs hcs s0 (by rw [← hs]) (by rw [← hs]) (Or.inl (by rw [← hs]; rfl)) with h | ⟨s', h, q1, q2, q3, q4, q5⟩
  · rw [h]
  · rw [h]
    have hr := q4 (Or.inr hx)
    have ht := q5 (Or.inr hu)
    obtain ⟨t, ht'⟩ := Option.ne_none_iff_exists'.1 ht
    have ha : s'.attached = true := q3.resolve_left ht
    simp [ArchiveIO.calls, ArchiveIO.call, ArchiveIO.close, hr, ht', ArchiveIO.closeTranslator, ha]

end Srcml
