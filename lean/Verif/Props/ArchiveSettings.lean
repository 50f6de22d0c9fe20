import Verif.Model.ArchiveSettings
import Verif.Props.Convenience
/-
C76: the settings of an archive, and those of the convenience functions.
-/
set_option linter.unusedSimpArgs false
namespace Srcml
open Spec

/-- The last value that a history of calls gave to a setting; `old` if there was none. -/
def Spec.lastValue {α C : Type} (pick : C → Option α) (old : α) (cs : List C) : α := ((cs.filterMap pick).getLast?).getD old

theorem lastValue_cons {α C : Type} (pick : C → Option α) (old : α) (c : C) (cs : List C) : lastValue pick old (c :: cs) = lastValue pick ((pick c).getD old) cs := by
  unfold lastValue
  cases h : pick c with
  | none => simp [List.filterMap_cons, h]
  | some v =>
    simp only [List.filterMap_cons, h, Option.getD_some]
    cases e : cs.filterMap pick with
    | nil => rfl
    | cons a as => rw [List.getLast?_cons_cons, List.getLast?_eq_some_getLast (by simp)]; rfl

theorem lastValue_snoc {α C : Type} (pick : C → Option α) (old : α) (c : C) (cs : List C) : lastValue pick old (cs ++ [c]) = (pick c).getD (lastValue pick old cs) := by
  unfold lastValue
  rw [List.filterMap_append]
  cases h : pick c with
  | none => simp [List.filterMap_cons, h]
  | some v => simp [List.filterMap_cons, h]

/-- What the getters of an archive report, without the tables. -/
structure Spec.ArchiveSettings where
  srcEncoding : Option Str
  xmlEncoding : Option Str
  revision : Option Str
  language : Option Str
  url : Option Str
  version : Option Str
  tabstop : Nat
  target : Run (Option Str)
  data : Run (Option Str)
  srcdiffRevision : Nat

/-- The settings as the getters report them. -/
def Spec.archiveSettings (a : Option Archive) : ArchiveSettings :=
  ⟨srcml_archive_get_src_encoding a, srcml_archive_get_xml_encoding a, srcml_archive_get_revision a, srcml_archive_get_language a, srcml_archive_get_url a, srcml_archive_get_version a,
   srcml_archive_get_tabstop a, srcml_archive_get_processing_instruction_target a, srcml_archive_get_processing_instruction_data a, srcml_archive_srcdiff_revision a⟩

/-- The settings after a history of calls, as documented: each getter gives the value of the last call of its own setter. -/
def Spec.settingsAfter (s : ArchiveSettings) (cs : List SetCall) : ArchiveSettings where
  srcEncoding := lastValue (fun | .setSrcEncoding v => some v | _ => none) s.srcEncoding cs
  xmlEncoding := lastValue (fun | .setXmlEncoding v => some v | _ => none) s.xmlEncoding cs
  revision := s.revision
  language := lastValue (fun | .setLanguage v => some v | _ => none) s.language cs
  url := lastValue (fun | .setUrl v => some v | _ => none) s.url cs
  version := lastValue (fun | .setVersion v => some v | _ => none) s.version cs
  tabstop := lastValue (fun | .setTabstop n => some n | _ => none) s.tabstop cs
  target := lastValue (fun | .setProcessingInstruction t _ => some (.val t) | _ => none) s.target cs
  data := lastValue (fun | .setProcessingInstruction _ d => some (.val d) | _ => none) s.data cs
  srcdiffRevision := lastValue (fun | .setSrcdiffRevision n => if n ≤ 1 then some n else none | _ => none) s.srcdiffRevision cs

theorem settings_step (a a' : Archive) (c : SetCall) (st : Status) (h : c.run a = .val (st, a')) (cs : List SetCall) :
    settingsAfter (archiveSettings (some a)) (c :: cs) = settingsAfter (archiveSettings (some a')) cs := by
  simp only [settingsAfter, lastValue_cons]
  cases c with
  | registerExtension e l =>
    simp only [SetCall.run, Run.val.injEq, Prod.mk.injEq] at h
    obtain ⟨-, rfl⟩ := h; rfl
  | registerNamespace p u =>
    cases p <;> cases u <;> simp only [SetCall.run, Run.val.injEq, Prod.mk.injEq] at h <;> obtain ⟨-, rfl⟩ := h <;> rfl
  | registerMacro p u =>
    cases p <;> cases u <;> simp only [SetCall.run, Run.val.injEq, Prod.mk.injEq] at h <;> obtain ⟨-, rfl⟩ := h <;> rfl
  | setProcessingInstruction t d =>
    cases t with
    | none => simp only [SetCall.run] at h; cases h
    | some t =>
      cases d with
      | none => simp only [SetCall.run] at h; cases h
      | some d =>
        simp only [SetCall.run, Run.val.injEq, Prod.mk.injEq] at h
        obtain ⟨-, rfl⟩ := h; rfl
  | setSrcdiffRevision n =>
    simp only [SetCall.run] at h
    split at h
    · rename_i hn
      simp only [Run.val.injEq, Prod.mk.injEq] at h
      obtain ⟨-, rfl⟩ := h
      have : ¬ n ≤ 1 := by omega
      simp only [this, if_false, Option.getD_none]
    · rename_i hn
      simp only [Run.val.injEq, Prod.mk.injEq] at h
      obtain ⟨-, rfl⟩ := h
      have : n ≤ 1 := by omega
      simp only [this, if_true, Option.getD_some, Option.getD_none]
      rfl
  | _ =>
    simp only [SetCall.run, Run.val.injEq, Prod.mk.injEq] at h
    obtain ⟨-, rfl⟩ := h
    rfl

/-- **C76.** After any history of set-up calls each getter of an archive reports the last accepted value of its own setting, whatever the other calls were; a null pointer unsets. -/
theorem C76_last_value (cs : List SetCall) (a a' : Archive) (h : runCalls a cs = .val a') : archiveSettings (some a') = settingsAfter (archiveSettings (some a)) cs := by
  induction cs generalizing a with
  | nil => simp only [runCalls, Run.val.injEq] at h; subst h; rfl
  | cons c cs ih =>
    simp only [runCalls] at h
    split at h
    · rename_i st a1 h1
      rw [settings_step a a1 c st h1 cs]
      exact ih a1 h
    · cases h

/-- **C76.** A new archive: no encodings, language, url, version and processing instruction; revision 1.0.0; tab stops at 8 columns; no revision of a srcDiff. -/
theorem C76_initial : archiveSettings (some srcml_archive_create) = ⟨none, none, some "1.0.0".toList, none, none, none, 8, .val none, .val none, 2⟩ := by rfl

/-- **C76.** A copy of an archive reports the same settings. -/
theorem C76_clone (a : Archive) : archiveSettings (some (cloneOf a)) = archiveSettings (some a) := rfl

/-- **C76.** Which calls are refused: a registration with a null pointer, an extension with an unknown language, a revision that is neither that of the original nor of the modified code. A refused call changes none of the settings. -/
theorem C76_statuses (c : SetCall) (a a' : Archive) (st : Status) (h : c.run a = .val (st, a')) :
    (st = .ok ↔ match c with
      | .registerNamespace p u => p ≠ none ∧ u ≠ none
      | .registerMacro p u => p ≠ none ∧ u ≠ none
      | .setSrcdiffRevision n => n = 0 ∨ n = 1
      | .registerExtension e l => (srcml_archive_register_file_extension a.registeredLanguages e l).1 = .ok
      | _ => True) ∧
    (st ≠ .ok → archiveSettings (some a') = archiveSettings (some a)) := by
  cases c with
  | registerExtension e l =>
    simp only [SetCall.run, Run.val.injEq, Prod.mk.injEq] at h
    obtain ⟨rfl, rfl⟩ := h
    exact ⟨Iff.rfl, fun _ => rfl⟩
  | registerNamespace p u =>
    cases p <;> cases u <;> simp only [SetCall.run, Run.val.injEq, Prod.mk.injEq] at h <;> obtain ⟨rfl, rfl⟩ := h <;> simp
  | registerMacro p u =>
    cases p <;> cases u <;> simp only [SetCall.run, Run.val.injEq, Prod.mk.injEq] at h <;> obtain ⟨rfl, rfl⟩ := h <;> simp
  | setProcessingInstruction t d =>
    cases t with
    | none => simp only [SetCall.run] at h; cases h
    | some t =>
      cases d with
      | none => simp only [SetCall.run] at h; cases h
      | some d =>
        simp only [SetCall.run, Run.val.injEq, Prod.mk.injEq] at h
        obtain ⟨rfl, rfl⟩ := h; simp
  | setSrcdiffRevision n =>
    simp only [SetCall.run] at h
    split at h
    · rename_i hn
      simp only [Run.val.injEq, Prod.mk.injEq] at h
      obtain ⟨rfl, rfl⟩ := h
      simp; omega
    · rename_i hn
      simp only [Run.val.injEq, Prod.mk.injEq] at h
      obtain ⟨rfl, rfl⟩ := h
      simp; omega
  | _ =>
    simp only [SetCall.run, Run.val.injEq, Prod.mk.injEq] at h
    obtain ⟨rfl, rfl⟩ := h
    simp

/-- **C76.** Without an archive the getters give null, 0 tab stops and the invalid revision; those of the processing instruction do not test the pointer. -/
theorem C76_null_partial : archiveSettings none = ⟨none, none, none, none, none, none, 0, .ub, .ub, 2⟩ := rfl

/-- Finding: a processing instruction with a null target or data is not refused. -/
theorem C76_finding_instruction (a : Archive) (t d : Option Str) (h : t = none ∨ d = none) : (SetCall.setProcessingInstruction t d).run a = .ub := by
  rcases h with rfl | rfl
  · rfl
  · cases t <;> rfl

example : ∃ a, runCalls srcml_archive_create [.setLanguage (some "C".toList), .setUrl (some "u".toList), .setLanguage none, .setSrcdiffRevision 1, .setSrcdiffRevision 7] = .val a ∧
    archiveSettings (some a) = ⟨none, none, some "1.0.0".toList, none, some "u".toList, none, 8, .val none, .val none, 1⟩ := ⟨_, rfl, rfl⟩

/-! ### The convenience functions -/

/-- The settings of the convenience functions, as `srcml_get_…` reports them. -/
structure Spec.ConvSettings where
  archive : ArchiveSettings
  filename : Option Str
  timestamp : Option Str
  hash : Option Str
  loc : Int
  eol : Nat

def Spec.convSettings (g : Conv) : ConvSettings :=
  ⟨⟨g.srcEncoding, g.xmlEncoding, g.revision, g.language, g.url, g.version, g.tabstop, g.instructionTarget, g.instructionData, g.srcdiffRevision⟩, g.filename, g.timestamp, g.hash, g.loc, g.eol⟩

/-- The settings after the calls `cs`, the last call first: each getter gives the value of the last call of its own setter. -/
def Spec.convSettingsAfter (cs : List ConvSet) : ConvSettings where
  archive :=
    { srcEncoding := lastValue (fun | .src_encoding v => some v | _ => none) none cs.reverse
      xmlEncoding := lastValue (fun | .xml_encoding v => some v | _ => none) none cs.reverse
      revision := some "1.0.0".toList
      language := lastValue (fun | .language v => some v | _ => none) none cs.reverse
      url := lastValue (fun | .url v => some v | _ => none) none cs.reverse
      version := lastValue (fun | .version v => some v | _ => none) none cs.reverse
      tabstop := lastValue (fun | .tabstop n => some n | _ => none) 8 cs.reverse
      target := lastValue (fun | .processing_instruction t _ => some (.val t) | _ => none) (.val none) cs.reverse
      data := lastValue (fun | .processing_instruction _ d => some (.val d) | _ => none) (.val none) cs.reverse
      srcdiffRevision := lastValue (fun | .srcdiff_revision n => if n ≤ 1 then some n else none | _ => none) 2 cs.reverse }
  filename := lastValue (fun | .filename v => some v | _ => none) none cs.reverse
  timestamp := lastValue (fun | .timestamp v => some v | _ => none) none cs.reverse
  hash := none
  loc := -1
  eol := lastValue (fun | .eol n => if n ≤ 3 then some n else none | _ => none) 0 cs.reverse

/-- **C76.** The same for the convenience functions. -/
theorem C76_convenience (cs : List ConvSet) (g : Conv) (h : convAfter cs = .val g) : convSettings g = convSettingsAfter cs := by
  induction cs generalizing g with
  | nil => simp only [convAfter, Run.val.injEq] at h; subst h; rfl
  | cons c cs ih =>
    simp only [convAfter] at h
    obtain ⟨g1, e1, h⟩ := conv_bind h
    obtain ⟨p, e2, h⟩ := conv_bind h
    cases h
    have hi := ih g1 e1
    have hs : convSettingsAfter (c :: cs) = (match c with
      | .src_encoding v => { convSettingsAfter cs with archive := { (convSettingsAfter cs).archive with srcEncoding := v } }
      | .xml_encoding v => { convSettingsAfter cs with archive := { (convSettingsAfter cs).archive with xmlEncoding := v } }
      | .language v => { convSettingsAfter cs with archive := { (convSettingsAfter cs).archive with language := v } }
      | .filename v => { convSettingsAfter cs with filename := v }
      | .url v => { convSettingsAfter cs with archive := { (convSettingsAfter cs).archive with url := v } }
      | .version v => { convSettingsAfter cs with archive := { (convSettingsAfter cs).archive with version := v } }
      | .timestamp v => { convSettingsAfter cs with timestamp := v }
      | .tabstop n => { convSettingsAfter cs with archive := { (convSettingsAfter cs).archive with tabstop := n } }
      | .processing_instruction t d => { convSettingsAfter cs with archive := { (convSettingsAfter cs).archive with target := .val t, data := .val d } }
      | .eol n => if n ≤ 3 then { convSettingsAfter cs with eol := n } else convSettingsAfter cs
      | .srcdiff_revision n => if n ≤ 1 then { convSettingsAfter cs with archive := { (convSettingsAfter cs).archive with srcdiffRevision := n } } else convSettingsAfter cs
      | _ => convSettingsAfter cs) := by
      unfold convSettingsAfter
      simp only [List.reverse_cons, lastValue_snoc]
      cases c with
      | eol n => by_cases hn : n ≤ 3 <;> simp [hn]
      | srcdiff_revision n => by_cases hn : n ≤ 1 <;> simp [hn]
      | _ => rfl
    rw [hs, ← hi]
    cases c with
    | register_file_extension e l => simp only [ConvSet.run, Conv.setArchive, SetCall.run, Run.bind, Run.val.injEq] at e2; subst e2; rfl
    | register_namespace p u => cases p <;> cases u <;> simp only [ConvSet.run, Conv.setArchive, SetCall.run, Run.bind, Run.val.injEq] at e2 <;> subst e2 <;> rfl
    | processing_instruction t d =>
      cases t <;> cases d <;> simp only [ConvSet.run, Conv.setArchive, SetCall.run, Run.bind, Run.val.injEq, reduceCtorEq] at e2
      subst e2; rfl
    | eol n =>
      simp only [ConvSet.run, Conv.setUnit, UnitSet.run, Run.val.injEq] at e2
      subst e2
      dsimp only
      by_cases hn : n > EOL_CRLF
      · have : ¬ n ≤ 3 := by simp [EOL_CRLF] at hn; omega
        rw [if_pos hn, if_neg this]
      · have : n ≤ 3 := by simp [EOL_CRLF] at hn; omega
        rw [if_neg hn, if_pos this]; rfl
    | srcdiff_revision n =>
      simp only [ConvSet.run, Conv.setArchive, SetCall.run] at e2
      split at e2
      · rename_i hn
        simp only [Run.bind, Run.val.injEq] at e2
        subst e2
        have : ¬ n ≤ 1 := by omega
        dsimp only
        rw [if_neg this]
      · rename_i hn
        simp only [Run.bind, Run.val.injEq] at e2
        subst e2
        have : n ≤ 1 := by omega
        dsimp only
        rw [if_pos this]; rfl
    | _ =>
      simp only [ConvSet.run, Conv.setArchive, Conv.setUnit, UnitSet.run, SetCall.run, Run.bind, Run.val.injEq] at e2
      subst e2
      rfl

/-- **C76.** The options of the convenience functions: as for an archive (C19). -/
def Spec.convOptionAfter (i : Nat) (b : Bool) : ConvSet → Bool
  | .options o => o.getLsbD i
  | .enable_option o => b || o.getLsbD i
  | .disable_option o => b && !o.getLsbD i
  | .register_namespace (some _) (some u) => b || (i = 3 ∧ u = "http://www.srcML.org/srcML/cpp".toList) || (i = 2 ∧ u = "http://www.srcML.org/srcML/position".toList)
  | _ => b

theorem C76_convenience_options (cs : List ConvSet) (g : Conv) (h : convAfter cs = .val g) (i : Nat) (hi : i < 7) : g.options.getLsbD i = cs.reverse.foldl (convOptionAfter i) false := by
  induction cs generalizing g with
  | nil =>
    simp only [convAfter, Run.val.injEq] at h; subst h
    have : ∀ i < 7, (({} : Conv).options).getLsbD i = false := by decide
    exact this i hi
  | cons c cs ih =>
    simp only [convAfter] at h
    obtain ⟨g1, e1, h⟩ := conv_bind h
    obtain ⟨p, e2, h⟩ := conv_bind h
    cases h
    rw [List.reverse_cons, List.foldl_append, ← ih g1 e1]
    have key : ∀ k : SetCall, g1.setArchive k = .val p → optionAfter i (g1.options.getLsbD i) k = convOptionAfter i (g1.options.getLsbD i) c →
        p.2.options.getLsbD i = [c].foldl (convOptionAfter i) (g1.options.getLsbD i) := by
      intro k hk hc
      unfold Conv.setArchive at hk
      obtain ⟨q, e3, hk⟩ := conv_bind hk
      cases hk
      have := C19_options_history [k] g1.archive q.2 (by simp only [runCalls, e3]) i hi
      rw [List.foldl_cons, List.foldl_nil] at this ⊢
      rw [← hc]; exact this
    have keyu : ∀ k : UnitSet, g1.setUnit k = .val p → convOptionAfter i (g1.options.getLsbD i) c = g1.options.getLsbD i →
        p.2.options.getLsbD i = [c].foldl (convOptionAfter i) (g1.options.getLsbD i) := by
      intro k hk hc
      unfold Conv.setUnit at hk
      cases hk
      rw [List.foldl_cons, List.foldl_nil, hc]; rfl
    cases c with
    | register_namespace p u => cases p <;> cases u <;> exact key _ e2 rfl
    | _ => simp only [ConvSet.run] at e2; first | exact key _ e2 rfl | exact keyu _ e2 rfl

/-- The registrations of file extensions, in order. -/
def Spec.convRegistrations (cs : List ConvSet) : List (Str × Str) := cs.reverse.filterMap (fun c => match c with | .register_file_extension (some e) (some l) => some (e, l) | _ => none)

/-- **C76.** `srcml_check_extension` follows the registrations, as for an archive (C06). -/
theorem C76_convenience_extensions (cs : List ConvSet) (g : Conv) (h : convAfter cs = .val g) (f : Option Str) :
    g.checkExtension f = srcml_archive_check_extension (runRegistrations (convRegistrations cs)) f := by
  have hr : Registered g.archive.registeredLanguages (convRegistrations cs) := by
    right
    induction cs generalizing g with
    | nil => simp only [convAfter, Run.val.injEq] at h; subst h; rfl
    | cons c cs ih =>
      simp only [convAfter] at h
      obtain ⟨g1, e1, h⟩ := conv_bind h
      obtain ⟨p, e2, h⟩ := conv_bind h
      cases h
      have hi := ih g1 e1
      unfold convRegistrations at hi ⊢
      rw [List.reverse_cons, List.filterMap_append]
      unfold globalRegistrations at hi ⊢
      rw [List.foldl_append, ← hi]
      cases c with
      | register_file_extension e l =>
        simp only [ConvSet.run, Conv.setArchive, SetCall.run, Run.bind, Run.val.injEq] at e2; subst e2
        cases e <;> cases l <;> rfl
      | register_namespace p u => cases p <;> cases u <;> simp only [ConvSet.run, Conv.setArchive, SetCall.run, Run.bind, Run.val.injEq] at e2 <;> subst e2 <;> rfl
      | processing_instruction t d =>
        cases t <;> cases d <;> simp only [ConvSet.run, Conv.setArchive, SetCall.run, Run.bind, Run.val.injEq, reduceCtorEq] at e2
        subst e2; rfl
      | srcdiff_revision n =>
        simp only [ConvSet.run, Conv.setArchive, SetCall.run] at e2
        split at e2 <;> simp only [Run.bind, Run.val.injEq] at e2 <;> subst e2 <;> rfl
      | _ =>
        simp only [ConvSet.run, Conv.setArchive, Conv.setUnit, UnitSet.run, SetCall.run, Run.bind, Run.val.injEq] at e2
        subst e2
        rfl
  exact C06_registered hr f

example : ∃ g, convAfter [.eol 9, .filename (some "b.c".toList), .language (some "C".toList), .filename (some "a.c".toList)] = .val g ∧
    g.filename = some "b.c".toList ∧ g.language = some "C".toList ∧ g.eol = 0 := ⟨_, rfl, rfl, rfl, rfl⟩

end Srcml
