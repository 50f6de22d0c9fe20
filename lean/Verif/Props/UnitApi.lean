import Verif.Model.UnitApi
import Verif.Spec.UnitApi
import Verif.Props.UnitWriter
set_option linter.unusedSimpArgs false
namespace Srcml
open Spec

/-! ### C30: line endings -/

theorem convertEol_spec {e : Nat} {ending : Str} (h : endingOf e = some ending) (s : Str) :
    Converted ending s (convertEol e s) := by
  induction s with
  | nil => exact .nil
  | cons c cs ih =>
    unfold convertEol
    by_cases hc : c = '\n'
    · subst hc
      have : (if '\n' ≠ '\n' then ['\n'] else if e = EOL_LF then ['\n'] else if e = EOL_CR then ['\r']
          else if e = EOL_CRLF then ['\r', '\n'] else ['\n']) = ending := by
        unfold endingOf at h
        simp only [EOL_LF, EOL_CR, EOL_CRLF, ne_eq, not_true, if_false]
        split at h
        · next he => simp only [Option.some.injEq] at h; simp [he, h]
        · split at h
          · next h1 he => simp only [Option.some.injEq] at h; simp [he, h]
          · split at h
            · next h1 h2 he => simp only [Option.some.injEq] at h; simp [he, h]
            · cases h
      rw [this]
      exact .newline ih
    · simp only [ne_eq, hc, not_false_eq_true, if_true, List.singleton_append]
      exact .other hc ih

/-- Destinations that can be written to: nothing is null, a descriptor is not negative. -/
def Usable : UnparseTo → Prop
  | .filename name => name ≠ none
  | .memory buffer size => buffer = true ∧ size = true
  | .FILE file => file = true
  | .fd n => 0 ≤ n
  | .io context write => context = true ∧ write = true

theorem usable_valid (to : UnparseTo) : to.valid = true ↔ Usable to := by
  cases to with
  | filename n => cases n <;> simp [UnparseTo.valid, Usable]
  | _ => simp [UnparseTo.valid, Usable]

/-- Only usable destinations are accepted. -/
theorem C30_arguments (sax : Sax) (a : Archive) (body : UnitObj → Option UnitObj) (opened : Bool) (to : UnparseTo)
    (u : Option UnitObj) (h : ¬ Usable to) : srcml_unit_unparse sax a body opened to u = .val (.invalidArgument, u, none) := by
  rw [← usable_valid] at h
  unfold srcml_unit_unparse
  simp [h]

/-- The statuses of an unparse call that writes nothing, in the order in which they are given. -/
def unparseRefusal (a : Archive) (opened : Bool) (to : UnparseTo) : Option UnitObj → Option Status
  | none => some .invalidArgument
  | some u =>
    if to.valid = false then some .invalidArgument
    else if a.type = .invalid ∨ a.type = .write then some .invalidIoOperation
    else if u.data.readBody = false ∧ u.data.readHeader = false then some .uninitializedUnit
    else if opened = false then some .ioError
    else none

/-- A unit whose text is there, unparsed to any destination: the call succeeds, the text that is written is the text of
the unit with every newline replaced by the selected ending, and the text itself with the automatic ending. The unit
itself is not changed. -/
theorem C30_unparse (sax : Sax) (a : Archive) (body : UnitObj → Option UnitObj) (to : UnparseTo) (u : UnitObj) (text : Str)
    (hto : Usable to) (ht : a.type = .read ∨ a.type = .rw) (hb : u.data.readBody = true) (hs : u.data.src = some text) :
    ∃ out, srcml_unit_unparse sax a body true to (some u) = .val (.ok, some u, some out) ∧
      match endingOf u.data.eol with
      | none => out = text
      | some ending => Converted ending text out := by
  rw [← usable_valid] at hto
  refine ⟨if u.data.eol = EOL_AUTO then text else convertEol u.data.eol text, ?_, ?_⟩
  · unfold srcml_unit_unparse unparseInternal
    have h1 : ¬(a.type ≠ .read ∧ a.type ≠ .rw) := by rcases ht with h | h <;> simp [h]
    cases u with
    | mk d _ _ _ =>
      cases d
      simp only at hs hb
      subst hs hb
      simp only [h1, hto, textOf, reduceCtorEq, Bool.false_eq_true, Bool.true_eq_false, false_and, if_false, if_true,
        false_or, or_self]
  · cases he : endingOf u.data.eol with
    | some ending =>
      have h0 : u.data.eol ≠ EOL_AUTO := by
        intro h; rw [h] at he; cases he
      simp only [h0, if_false]
      exact convertEol_spec he text
    | none =>
      simp only []
      split
      · rfl
      · have : ∀ s, convertEol u.data.eol s = s := by
          intro s
          have h1 : u.data.eol ≠ 1 ∧ u.data.eol ≠ 2 ∧ u.data.eol ≠ 3 := by
            unfold endingOf at he
            refine ⟨?_, ?_, ?_⟩ <;> intro h <;> rw [h] at he <;> exact absurd he (by decide)
          induction s with
          | nil => rfl
          | cons c cs ih => unfold convertEol; simp [EOL_LF, EOL_CR, EOL_CRLF, h1.1, h1.2.1, h1.2.2, ih]
        exact this text

example : srcml_unit_unparse (fun _ => []) { srcml_archive_create with type := .read } some true (.fd 1)
      (some { data := { readBody := true, src := some "a\n\nb".toList, eol := 3 } }) =
      .val (.ok, some { data := { readBody := true, src := some "a\n\nb".toList, eol := 3 } }, some "a\r\n\r\nb".toList) := by
  decide +kernel

/-- A unit without a text that was parsed or written gets it from its srcML, and that text is converted. -/
theorem C30_unparse_srcml (sax : Sax) (a : Archive) (body : UnitObj → Option UnitObj) (to : UnparseTo) (u : UnitObj) (text : Str)
    (hto : Usable to) (ht : a.type = .read ∨ a.type = .rw) (hb : u.data.readBody = true) (hs : u.data.src = none)
    (hx : extractEvents (escapeNameOf (u.data.namespaces.getD [])) (sax u.data.srcml) = .val text) :
    ∃ out, srcml_unit_unparse sax a body true to (some u) =
        .val (.ok, some { u with data := { u.data with src := some text } }, some out) ∧
      srcml_unit_unparse sax a body true to (some { u with data := { u.data with src := some text } }) =
        .val (.ok, some { u with data := { u.data with src := some text } }, some out) ∧
      match endingOf u.data.eol with
      | none => out = text
      | some ending => Converted ending text out := by
  obtain ⟨out, h1, h2⟩ := C30_unparse sax a body to { u with data := { u.data with src := some text } } text hto ht hb rfl
  refine ⟨out, ?_, h1, h2⟩
  rw [← h1]
  rw [← usable_valid] at hto
  unfold srcml_unit_unparse unparseInternal
  have h1 : ¬(a.type ≠ .read ∧ a.type ≠ .rw) := by rcases ht with h | h <;> simp [h]
  simp only [h1, hto, hb, hs, textOf, hx, reduceCtorEq, Bool.true_eq_false, false_and, if_true, if_false, or_self]

/-- A call that is refused gives the documented status, writes nothing and leaves the unit as it is; every other call
on a unit whose body was read succeeds. -/
theorem C30_refused (sax : Sax) (a : Archive) (body : UnitObj → Option UnitObj) (opened : Bool) (to : UnparseTo)
    (u : Option UnitObj) (st : Status) (h : unparseRefusal a opened to u = some st) :
    srcml_unit_unparse sax a body opened to u = .val (st, u, none) := by
  cases u with
  | none => simp only [unparseRefusal, Option.some.injEq] at h; subst h; rfl
  | some u =>
    unfold unparseRefusal at h
    unfold srcml_unit_unparse unparseInternal
    cases hv : to.valid with
    | false => simp only [hv, if_true, Option.some.injEq] at h; subst h; simp
    | true =>
      simp only [hv, Bool.true_eq_false, if_false, reduceCtorEq, or_self] at h ⊢
      cases ht : a.type <;> simp only [ht, reduceCtorEq, or_false, false_or, or_self, or_true, true_or, if_true, if_false,
        Option.some.injEq, ne_eq, not_true, not_false_eq_true, and_self, and_true, and_false, false_and, true_and] at h ⊢
      · subst h; rfl
      all_goals first
        | (subst h; rfl)
        | (split at h
           · next hr => simp only [Option.some.injEq] at h; subst h; simp [hr]
           · next hr =>
             split at h
             · next ho => simp only [Option.some.injEq] at h; subst h; simp [hr, ho]
             · cases h)

example : unparseRefusal { srcml_archive_create with type := .write } true (.fd 1) (some { data := { readBody := true } }) =
    some .invalidIoOperation := rfl

/-- Selecting a line ending: refused for every number above 3 with nothing changed, otherwise it is the selection that
is read back, and nothing else changes. -/
theorem C30_select (u : UnitData) (n : Nat) :
    (n ≤ 3 → UnitSet.run u (.eol n) = (.ok, { u with eol := n }) ∧
      srcml_unit_get_eol (some (UnitSet.run u (.eol n)).2) = n) ∧
    (3 < n → UnitSet.run u (.eol n) = (.invalidArgument, u)) ∧
    UnitSet.runPtr none (.eol n) = (.invalidArgument, none) := by
  refine ⟨fun h => ?_, fun h => ?_, rfl⟩
  · have : ¬(n > EOL_CRLF) := by simp [EOL_CRLF]; omega
    simp [UnitSet.run, this, srcml_unit_get_eol]
  · have : n > EOL_CRLF := h
    simp [UnitSet.run, this]

/-- Every number that can be selected has a meaning: after any history of setter calls on a new unit the selection is
one of the four. -/
theorem C30_reachable (cs : List UnitSet) : (runSets srcml_unit_create cs).2.eol ≤ 3 := by
  have : ∀ (cs : List UnitSet) (u : UnitData), u.eol ≤ 3 → (runSets u cs).2.eol ≤ 3 := by
    intro cs
    induction cs with
    | nil => intro u h; exact h
    | cons c cs ih =>
      intro u h
      unfold runSets
      apply ih
      cases c with
      | eol n =>
        simp only [UnitSet.run]
        split
        · exact h
        · next hn => simp only [EOL_CRLF] at hn; simp only []; omega
      | _ => exact h
  exact this cs _ (by decide)

theorem Spec.Converted.eq {ending text out : Str} (h : Converted ending text out) :
    out = text.flatMap (fun c => if c = '\n' then ending else [c]) := by
  induction h with
  | nil => rfl
  | newline _ ih => simp [ih]
  | other hc _ ih => simp [hc, ih]

/-- The conversion loses nothing: a text without carriage returns is determined by its conversion. -/
theorem C30_invertible (ending text text' out : Str) (he : ending = ['\n'] ∨ ending = ['\r'] ∨ ending = ['\r', '\n'])
    (h1 : '\r' ∉ text) (h2 : '\r' ∉ text') (hc : Converted ending text out) (hc' : Converted ending text' out) :
    text = text' := by
  have h := hc.eq.symm.trans hc'.eq
  clear hc hc'
  induction text generalizing text' with
  | nil =>
    cases text' with
    | nil => rfl
    | cons d ds =>
      simp only [List.flatMap_nil, List.flatMap_cons] at h
      split at h
      · rcases he with e | e | e <;> subst e <;> cases h
      · cases h
  | cons c cs ih =>
    simp only [List.mem_cons, not_or] at h1
    cases text' with
    | nil =>
      simp only [List.flatMap_nil, List.flatMap_cons] at h
      split at h
      · rcases he with e | e | e <;> subst e <;> cases h
      · cases h
    | cons d ds =>
      simp only [List.mem_cons, not_or] at h2
      simp only [List.flatMap_cons] at h
      by_cases hcn : c = '\n' <;> by_cases hdn : d = '\n'
      · simp only [hcn, hdn, if_true, List.append_cancel_left_eq] at h
        rw [hcn, hdn, ih ds h1.2 h2.2 h]
      · simp only [hcn, hdn, if_true, if_false] at h
        rcases he with e | e | e <;> subst e <;> simp only [List.cons_append, List.nil_append, List.cons.injEq] at h
        · exact absurd h.1.symm hdn
        · exact absurd h.1 h2.1
        · exact absurd h.1 h2.1
      · simp only [hcn, hdn, if_true, if_false] at h
        rcases he with e | e | e <;> subst e <;> simp only [List.cons_append, List.nil_append, List.cons.injEq] at h
        · exact absurd h.1 hcn
        · exact absurd h.1.symm h1.1
        · exact absurd h.1.symm h1.1
      · simp only [hcn, hdn, if_false, List.cons_append, List.nil_append, List.cons.injEq] at h
        rw [h.1, ih ds h1.2 h2.2 h.2]

/-- The memory variant reports the whole text unless it has a NUL. -/
theorem C30_memory_size (text : Str) (h : Char.ofNat 0 ∉ text) : memoryResult text = (text, text.length) := by
  have : findFirst (Char.ofNat 0) text = none := by
    induction text with
    | nil => rfl
    | cons c cs ih =>
      simp only [List.mem_cons, not_or] at h
      unfold findFirst
      rw [if_neg (fun e => h.1 e.symm), ih h.2]; rfl
  unfold memoryResult; rw [this]; rfl

/-- With a NUL in the text the reported size is that of the part before it. -/
theorem C30_finding_nul :
    memoryResult ['a', Char.ofNat 0, 'b'] = (['a', Char.ofNat 0, 'b'], 1) := by decide

/-! ### C56: the settings of a unit -/

/-- What the getters of a unit report. -/
structure UnitSettings where
  encoding : Option Str
  revision : Option Str
  language : Option Str
  filename : Option Str
  version : Option Str
  timestamp : Option Str
  hash : Option Str
  eol : Nat
  loc : Int
  deriving DecidableEq, Repr

/-- The settings as the getters report them. -/
def settingsOf (u : Option UnitData) : UnitSettings :=
  ⟨srcml_unit_get_src_encoding u, srcml_unit_get_revision u, srcml_unit_get_language u, srcml_unit_get_filename u,
   srcml_unit_get_version u, srcml_unit_get_timestamp u, srcml_unit_get_hash u, srcml_unit_get_eol u, srcml_unit_get_loc u⟩

/-- The last accepted value of a setting in a history of calls; `old` if there was none. -/
def lastSet {α : Type} (pick : UnitSet → Option α) (old : α) (cs : List UnitSet) : α :=
  ((cs.filterMap pick).getLast?).getD old

theorem lastSet_cons {α : Type} (pick : UnitSet → Option α) (old : α) (c : UnitSet) (cs : List UnitSet) :
    lastSet pick old (c :: cs) = lastSet pick ((pick c).getD old) cs := by
  unfold lastSet
  cases h : pick c with
  | none => simp [List.filterMap_cons, h]
  | some v =>
    simp only [List.filterMap_cons, h, Option.getD_some]
    cases e : cs.filterMap pick with
    | nil => rfl
    | cons a as => rw [List.getLast?_cons_cons, List.getLast?_eq_some_getLast (by simp)]; rfl

/-- After any history of setter calls each getter reports the last accepted value of its own setting, whatever the
other calls were; a null pointer unsets. -/
theorem C56_last_value (u : UnitData) (cs : List UnitSet) :
    settingsOf (some (runSets u cs).2) =
      { encoding := lastSet (fun | .encoding v => some v | _ => none) u.encoding cs
        revision := u.revision
        language := lastSet (fun | .language v => some v | _ => none) u.language cs
        filename := lastSet (fun | .filename v => some v | _ => none) u.filename cs
        version := lastSet (fun | .version v => some v | _ => none) u.version cs
        timestamp := lastSet (fun | .timestamp v => some v | _ => none) u.timestamp cs
        hash := lastSet (fun | .hash v => some v | _ => none) u.hash cs
        eol := lastSet (fun | .eol n => if n ≤ 3 then some n else none | _ => none) u.eol cs
        loc := u.loc } := by
  induction cs generalizing u with
  | nil => rfl
  | cons c cs ih =>
    have e : (runSets u (c :: cs)).2 = (runSets (c.run u).2 cs).2 := rfl
    rw [e, ih]
    simp only [lastSet_cons]
    cases c with
    | eol n =>
      simp only [UnitSet.run, EOL_CRLF]
      by_cases hn : n > 3
      · have : ¬ n ≤ 3 := by omega
        simp [hn, this]
      · have : n ≤ 3 := by omega
        simp [hn, this]
    | _ => simp [UnitSet.run]

/-- The statuses of a history: only an ending above 3 is refused. -/
theorem C56_statuses (u : UnitData) (cs : List UnitSet) :
    (runSets u cs).1 = cs.map (fun c => match c with
      | .eol n => if n ≤ 3 then Status.ok else .invalidArgument
      | _ => .ok) := by
  induction cs generalizing u with
  | nil => rfl
  | cons c cs ih =>
    have e : (runSets u (c :: cs)).1 = (c.run u).1 :: (runSets (c.run u).2 cs).1 := rfl
    rw [e, ih, List.map_cons]
    congr 1
    cases c with
    | eol n =>
      simp only [UnitSet.run, EOL_CRLF]
      by_cases hn : n > 3
      · have : ¬ n ≤ 3 := by omega
        simp [hn, this]
      · have : n ≤ 3 := by omega
        simp [hn, this]
    | _ => rfl

/-- The setters touch nothing but the settings: the text, the srcML and the line count stay. -/
theorem C56_contents_kept (u : UnitData) (cs : List UnitSet) :
    let u' := (runSets u cs).2
    u'.src = u.src ∧ u'.srcml = u.srcml ∧ u'.loc = u.loc ∧ u'.readBody = u.readBody ∧ u'.readHeader = u.readHeader ∧
      u'.attributes = u.attributes ∧ u'.namespaces = u.namespaces := by
  induction cs generalizing u with
  | nil => simp [runSets]
  | cons c cs ih =>
    have h := ih (c.run u).2
    have e : (runSets u (c :: cs)).2 = (runSets (c.run u).2 cs).2 := rfl
    rw [e]
    cases c with
    | eol n =>
      simp only [UnitSet.run] at h ⊢
      by_cases hn : n > EOL_CRLF
      · simp only [hn, if_true] at h ⊢; exact h
      · simp only [hn, if_false] at h ⊢; exact h
    | _ => simpa [UnitSet.run] using h

/-- A clone has the settings of the unit, but no contents: no srcML is given for it, its text is not known, and it has
no line count. Null gives null. -/
theorem C56_clone (u : UnitData) :
    ∃ c, srcml_unit_clone (some u) = some c ∧
      settingsOf (some c) = ({ settingsOf (some u) with loc := -1 } : UnitSettings) ∧
      c.attributes = u.attributes ∧ c.namespaces = u.namespaces ∧ c.src = none ∧ c.srcml = [] ∧
      (∀ (a : Archive) (o : UnitObj), UnitObj.getSrcml a ({ o with data := c } : UnitObj) = .val none) := by
  refine ⟨_, rfl, rfl, rfl, rfl, rfl, rfl, ?_⟩
  intro a o
  rfl

theorem C56_clone_null : srcml_unit_clone none = none := rfl

/-- Without a unit the setters refuse and the getters give their neutral values. -/
theorem C56_null (c : UnitSet) :
    UnitSet.runPtr none c = (.invalidArgument, none) ∧
    settingsOf none = ⟨none, none, none, none, none, none, none, 0, -1⟩ := ⟨rfl, rfl⟩

example : settingsOf (some (runSets srcml_unit_create
      [.language (some "C".toList), .eol 7, .eol 2, .filename (some "a".toList), .language none, .eol 4]).2) =
    { encoding := none, revision := some "1.0.0".toList, language := none, filename := some "a".toList, version := none,
      timestamp := none, hash := none, eol := 2, loc := -1 } := by decide

end Srcml
