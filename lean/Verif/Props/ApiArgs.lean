import Verif.Spec.ApiArgs
import Verif.Props.ArchiveTables
import Verif.Props.UnitApi
import Verif.Props.UnitWriter
import Verif.Props.ParseCalls
/-
C33 for the functions that open, read and write archives, for the transformations, and for the functions of units: a call without one of
its arguments gives INVALID_ARGUMENT and changes nothing; a call with all of them never gives INVALID_ARGUMENT for that reason.
-/
set_option linter.unusedSimpArgs false
namespace Srcml
open Spec

/-- Opening an archive for writing: refused exactly when the archive or an argument is missing. -/
theorem C33_write_open (opens : OpenTo → Bool) (s : Option ArchiveIO) (to : OpenTo) :
    ((s = none ∨ ¬ CompleteTarget to) → srcml_archive_write_open opens s to = (.invalidArgument, s)) ∧
    (s ≠ none → CompleteTarget to → ∃ s', srcml_archive_write_open opens s to = (.ok, some s') ∧ s'.mode = .write) := by
  cases s with
  | none => exact ⟨fun _ => rfl, fun h => absurd rfl h⟩
  | some s =>
    constructor
    · rintro (h | h)
      · cases h
      · cases to with
        | filename name =>
          cases name with
          | none => rfl
          | some n => exact absurd (.filename n) h
        | memory b z => cases b <;> cases z <;> first | rfl | exact absurd .memory h
        | FILE f => cases f <;> first | rfl | exact absurd .FILE h
        | fd n =>
          cases n with
          | ofNat n => exact absurd (.fd n) h
          | negSucc n => rfl
        | io c w cl => cases c <;> cases w <;> first | rfl | exact absurd (.io cl) h
    · intro _ h
      cases h with
      | filename name => exact ⟨_, rfl, rfl⟩
      | memory => exact ⟨_, rfl, rfl⟩
      | FILE => exact ⟨_, rfl, rfl⟩
      | fd n =>
        have : decide (0 ≤ (n : Int)) = true := by simp
        simp only [srcml_archive_write_open, this]
        exact ⟨_, rfl, rfl⟩
      | io cl => exact ⟨_, rfl, rfl⟩

theorem source_valid (from_ : OpenFrom) : from_.valid = true ↔ CompleteSource from_ := by
  constructor
  · intro h
    cases from_ with
    | filename name =>
      cases name with
      | none => cases h
      | some n => exact .filename n
    | memory b z =>
      cases b with
      | none => cases h
      | some b =>
        cases z with
        | zero => simp [OpenFrom.valid] at h
        | succ z => exact .memory b z
    | FILE f => cases f with
      | false => cases h
      | true => exact .FILE
    | fd n =>
      cases n with
      | ofNat n => exact .fd n
      | negSucc n => simp [OpenFrom.valid] at h
    | io c r cl =>
      cases c <;> cases r <;> first | exact .io cl | cases h
  · intro h
    cases h with
    | fd n => simp [OpenFrom.valid]
    | _ => rfl

theorem source_invalid {from_ : OpenFrom} (h : ¬ CompleteSource from_) : from_.valid = false := by
  cases hv : from_.valid with
  | false => rfl
  | true => exact absurd ((source_valid _).mp hv) h

/-- Opening an archive for reading: refused exactly when the archive or an argument is missing; a source that cannot be opened gives IO_ERROR and changes nothing. -/
theorem C33_read_open (units : OpenFrom → Option (List UnitData)) (s : Option ArchiveIO) (from_ : OpenFrom) :
    ((s = none ∨ ¬ CompleteSource from_) → srcml_archive_read_open units s from_ = (.invalidArgument, s)) ∧
    (s ≠ none → CompleteSource from_ → units from_ = none → srcml_archive_read_open units s from_ = (.ioError, s)) ∧
    (s ≠ none → CompleteSource from_ → units from_ ≠ none →
      ∃ s', srcml_archive_read_open units s from_ = (.ok, some s') ∧ s'.mode = .read) := by
  cases s with
  | none => exact ⟨fun _ => rfl, fun h => absurd rfl h, fun h => absurd rfl h⟩
  | some s =>
    refine ⟨?_, ?_, ?_⟩
    · rintro (h | h)
      · cases h
      · simp [srcml_archive_read_open, source_invalid h, ArchiveIO.openRead]
    · intro _ h hu
      simp [srcml_archive_read_open, (source_valid _).mpr h, ArchiveIO.openRead, hu]
    · intro _ h hu
      cases hu' : units from_ with
      | none => exact absurd hu' hu
      | some us => exact ⟨_, by simp only [srcml_archive_read_open, (source_valid _).mpr h, ArchiveIO.openRead, hu', Bool.true_eq_false, if_false]; rfl, rfl⟩

/-- Writing to an archive: without the archive, the unit or the text, or with a negative length, refused and nothing changes; and a call with all of them is
never refused with INVALID_ARGUMENT. -/
theorem C33_write (ua : Archive) (late : Option UnitData) (s : Option ArchiveIO) :
    (∀ u, s = none ∨ u = none → srcml_archive_write_unit ua late s u = .val (.invalidArgument, s)) ∧
    (∀ u s', s ≠ none → u ≠ none → srcml_archive_write_unit ua late s u ≠ .val (.invalidArgument, s')) ∧
    (∀ text len, s = none ∨ text = none ∨ len < 0 → srcml_archive_write_string s text len = .val (.invalidArgument, s)) ∧
    (∀ text len s', s ≠ none → text ≠ none → 0 ≤ len → srcml_archive_write_string s text len ≠ .val (.invalidArgument, s')) := by
  refine ⟨?_, ?_, ?_, ?_⟩
  · rintro u (rfl | rfl)
    · rfl
    · cases s <;> rfl
  · intro u s' hs hu h
    cases s with
    | none => exact hs rfl
    | some s =>
      cases u with
      | none => exact hu rfl
      | some u =>
        have h' : (s.writeUnit ua (some u) late).bind (fun r => .val (r.1, some r.2)) = .val (.invalidArgument, s') := h
        cases hw : s.writeUnit ua (some u) late with
        | ub => rw [hw] at h'; cases h'
        | val r =>
          rw [hw] at h'
          have hr : r.1 = Status.invalidArgument := by
            have := congrArg (fun x : Run (Status × Option ArchiveIO) => match x with | .val y => y.1 | .ub => .ok) h'
            exact this
          unfold ArchiveIO.writeUnit at hw
          dsimp only at hw
          generalize (if u.readBody = false then late.getD u else u) = v at hw
          split at hw
          · cases hw; cases hr
          · split at hw
            · cases hw; cases hr
            · split at hw
              · cases hw; cases hr
              · split at hw
                · cases hw
                · cases hw; cases hr
  · rintro text len (rfl | rfl | h)
    · rfl
    · cases s <;> rfl
    · cases s <;> cases text <;> simp [srcml_archive_write_string, h]
  · intro text len s' hs ht hl h
    cases s with
    | none => exact hs rfl
    | some s =>
      cases text with
      | none => exact ht rfl
      | some x =>
        unfold srcml_archive_write_string at h
        dsimp only at h
        rw [if_neg (by omega)] at h
        split at h
        · cases h
        · unfold ArchiveIO.writeString at h
          dsimp only at h
          split at h
          · cases h
          · cases h
          · split at h <;> cases h

/-- Reading from a missing archive gives no unit, skipping in it nothing, and closing it does nothing. -/
theorem C33_missing_archive :
    srcml_archive_read_unit none = (none, none) ∧ srcml_archive_skip_unit none = (0, none) ∧ srcml_archive_close none = .val none := ⟨rfl, rfl, rfl⟩

/-- The transformations of an archive: a call without the archive or one of its arguments is refused and changes nothing. With all of them it is refused
only where a parameter is given and there is no transformation, with NO_TRANSFORMATION, and then too nothing changes. -/
theorem C33_transforms (w : World) (i : Option Addr) (c : TCall) :
    ((i = none ∨ ¬ CompleteTransform c) → c.runPtr w i = (.invalidArgument, w)) ∧
    (∀ k a, i = some k → w.archives[k]? = some a → CompleteTransform c →
      (c.runPtr w i).1 = .ok ∨ c.runPtr w i = (.noTransformation, w) ∧ a.transformations = [] ∧ ∃ q n v, c = .param q n v) := by
  constructor
  · intro h
    cases i with
    | none => rfl
    | some i =>
      rcases h with h | h
      · cases h
      · cases c with
        | xpath x =>
          cases x with
          | none => rfl
          | some x => exact absurd (.xpath x) h
        | xpathAttribute x p u n v =>
          cases x <;> cases p <;> cases u <;> cases n <;> cases v <;> first | rfl | exact absurd (.xpathAttribute _ _ _ _ _) h
        | xpathElement x p u e => cases x <;> cases p <;> cases u <;> cases e <;> first | rfl | exact absurd (.xpathElement _ _ _ _) h
        | doc b d => cases d <;> first | rfl | exact absurd (.doc _ _) h
        | param q n v => cases n <;> cases v <;> first | rfl | exact absurd (.param _ _ _) h
        | clear => exact absurd .clear h
  · rintro k a rfl hk hc
    cases hc with
    | xpath x => exact .inl rfl
    | xpathElement x p u e => exact .inl rfl
    | doc b d => exact .inl rfl
    | clear =>
      left
      simp only [TCall.runPtr, TCall.run, World.clearTransforms, hk]
    | xpathAttribute x p u n v =>
      left
      simp only [TCall.runPtr, TCall.run, World.appendXPathAttribute, hk]
      split
      · split <;> rfl
      · rfl
    | param q n v =>
      simp only [TCall.runPtr, TCall.run, World.appendParam, hk]
      cases hl : a.transformations.getLast? with
      | none =>
        right
        refine ⟨rfl, ?_, _, _, _, rfl⟩
        cases ht : a.transformations with
        | nil => rfl
        | cons t ts => rw [ht] at hl; simp at hl
      | some t => exact .inl rfl

/-- Programs and schemas: without the archive or one of the arguments, or when the document cannot be read, refused and nothing changes; a program or schema is
appended. What is left out is a document that can be read and is neither, see the finding. -/
theorem C33_documents_partial (lib : DocLib) (w : World) (i : Option Addr) (xslt : Bool) (from_ : OpenFrom) :
    ((i = none ∨ ¬ CompleteSource from_ ∨ lib.read from_ = none) →
      srcml_append_transform_document lib w i xslt from_ = .val (.invalidArgument, w)) ∧
    (∀ k d, i = some k → CompleteSource from_ → lib.read from_ = some d → lib.program xslt d = true →
      srcml_append_transform_document lib w i xslt from_ = .val ((TCall.doc xslt (some d)).runPtr w i)) := by
  constructor
  · intro h
    cases i with
    | none => rfl
    | some i =>
      unfold srcml_append_transform_document
      rcases h with h | h | h
      · cases h
      · simp [source_invalid h]
      · simp [h]
  · rintro k d rfl h1 h2 h3
    simp [srcml_append_transform_document, (source_valid _).mpr h1, h2, h3]
    rfl

/-- C33 is false for documents: one that can be read and is not a program (or schema) does not give a status but terminates the process. -/
theorem C33_finding_not_a_program (lib : DocLib) (w : World) (k : Addr) (xslt : Bool) (from_ : OpenFrom) (d : Str) (h : CompleteSource from_)
    (h2 : lib.read from_ = some d) (h3 : lib.program xslt d = false) : srcml_append_transform_document lib w (some k) xslt from_ = .ub := by
  simp [srcml_append_transform_document, (source_valid _).mpr h, h2, h3]

/-- Applying the transformations without an archive or a unit is refused, and no result is stored. -/
theorem C33_apply {N D : Type} [DecidableEq N] (zero : D) (parse : Str → Option N) (view : N → NodeView) (attrsOf : Str → List (Str × Str))
    (archive : Option (List (N → TResult N D))) (unit : Option UnitData) (want : Bool) :
    (archive = none ∨ unit = none → srcml_unit_apply_transforms zero parse view attrsOf archive unit want = .val (.invalidArgument, none)) ∧
    (∀ r, archive ≠ none → unit ≠ none → srcml_unit_apply_transforms zero parse view attrsOf archive unit want ≠ .val (.invalidArgument, r)) := by
  constructor
  · rintro (rfl | rfl)
    · rfl
    · cases archive <;> rfl
  · intro r ha hu h
    cases archive with
    | none => exact ha rfl
    | some fs =>
      cases unit with
      | none => exact hu rfl
      | some u =>
        have h' : applyTransforms zero parse view attrsOf fs u want = .val (.invalidArgument, r) := h
        unfold applyTransforms at h'
        dsimp only at h'
        split at h'
        · cases h'
        · split at h'
          · cases h'
          · split at h'
            · cases h'
            · split at h'
              · split at h' <;> cases h'
              · split at h'
                · split at h' <;> cases h'
                · split at h'
                  · split at h' <;> cases h'
                  · split at h'
                    · cases h'
                    · split at h' <;> cases h'

/-- Writing a unit piece by piece: a call without the unit, or without a name, a uri of a namespace or a text, is refused and changes nothing. -/
theorem C33_write_calls (sax : Sax) (a : Archive) (th : ThreadState) (u : Option UnitObj) (c : WriteCall) (h : u = none ∨ ¬ CompleteWrite c) :
    c.runPtr sax a th u = .val (.invalidArgument, u) := by
  cases u with
  | none => rfl
  | some u =>
    rcases h with h | h
    · cases h
    · cases c with
      | startUnit => exact absurd .startUnit h
      | endUnit => exact absurd .endUnit h
      | startElement pre name uri => cases name <;> first | rfl | exact absurd (.startElement _ _ _) h
      | endElement => exact absurd .endElement h
      | «namespace» pre uri => cases uri <;> first | rfl | exact absurd (.namespace _ _) h
      | «attribute» pre name uri content => cases name <;> first | rfl | exact absurd (.attribute _ _ _ _) h
      | string content => cases content <;> first | rfl | exact absurd (.string _) h

/-- The setters of a unit, parsing and unparsing: without the unit or the source or target, refused and nothing changes. -/
theorem C33_units (lib : ParseLib) (a : Archive) (th : ThreadState) (body : UnitObj → Option UnitObj) (opened : Bool) :
    (∀ c, UnitSet.runPtr none c = (.invalidArgument, none)) ∧
    (∀ from_ u, u = none ∨ ¬ UsableSource from_ → srcml_unit_parse lib a th from_ u = .val (.invalidArgument, u)) ∧
    (∀ to u, u = none ∨ ¬ Usable to → srcml_unit_unparse lib.sax a body opened to u = .val (.invalidArgument, u, none)) := by
  refine ⟨fun c => rfl, ?_, ?_⟩
  · rintro from_ u h
    cases u with
    | none => rfl
    | some u =>
      rcases h with h | h
      · cases h
      · have hv : from_.valid = false := by
          cases hv : from_.valid with
          | false => rfl
          | true => exact absurd ((valid_iff _).mp hv) h
        unfold srcml_unit_parse
        simp [hv]
  · rintro to u h
    cases u with
    | none => rfl
    | some u =>
      rcases h with h | h
      · cases h
      · exact C30_arguments lib.sax a body opened to (some u) h

/-- C33 is false for these: freeing a missing archive or result, and asking anything of a missing result, uses the null pointer. -/
theorem C33_finding_null {D : Type} (zero : D) (index : Int) :
    srcml_archive_free none = .ub ∧ srcml_transform_free (D := D) none = .ub ∧
    srcml_transform_get_type (D := D) none = .ub ∧ srcml_transform_get_unit_size (D := D) none = .ub ∧
    srcml_transform_get_unit (D := D) index none = .ub ∧ srcml_transform_get_string (D := D) none = .ub ∧
    srcml_transform_get_number zero none = .ub ∧ srcml_transform_get_bool (D := D) none = .ub := ⟨rfl, rfl, rfl, rfl, rfl, rfl, rfl, rfl⟩

/-! ### Examples -/

/-- A new archive and its memory. -/
example : ∃ s', srcml_archive_write_open (fun _ => true) (some (newIO srcml_archive_create {})) (.memory true true) = (.ok, some s') ∧ s'.mode = .write :=
  (C33_write_open _ _ _).2 (by simp) .memory

example : ¬ CompleteTarget (.memory true false) := by intro h; cases h
example : ¬ CompleteSource (.memory (some []) 0) := by intro h; cases h
example : ¬ CompleteWrite (.attribute (some []) none (some []) (some [])) := by intro h; cases h

/-- A parameter on a new archive: refused, but not for a missing argument. -/
example : (TCall.param false (some "p".toList) (some "1".toList)).runPtr { archives := [srcml_archive_create] } (some 0) =
    (.noTransformation, { archives := [srcml_archive_create] }) := by decide +kernel

/-- The root element of a document that is no schema is enough to terminate the process. -/
example : ∃ lib : DocLib, srcml_append_transform_document lib { archives := [srcml_archive_create] } (some 0) false (.filename (some "a.xml".toList)) = .ub :=
  ⟨{ read := fun _ => some "<a/>".toList, program := fun _ _ => false }, C33_finding_not_a_program _ _ 0 false _ "<a/>".toList (.filename _) rfl rfl⟩

end Srcml
