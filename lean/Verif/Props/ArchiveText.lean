import Verif.Proofs.ArchiveRead
import Verif.Proofs.ReadInside
import Verif.Props.ArchiveIO
import Verif.Props.UnitParts
/-
C27: the document that is written for a sequence of units, in archive mode and in solitary mode.
-/
set_option linter.unusedSimpArgs false
namespace Srcml
open Spec

/-! ### C27: archive mode -/

/-- A unit with what its contents read as. -/
structure ReadJob extends Job where
  evs : List Ev

/-- The contents of the unit are well-formed: they read as the given events inside any element, and leave that element open.
A unit without contents is written as an empty element. -/
def ReadJob.WellFormed (j : ReadJob) : Prop :=
  match j.content with
  | some s => ReadsAs s j.evs
  | none => j.evs = []

/-- The element that a unit is written as, at the given depth. -/
def ReadJob.element (a : Archive) (depth : Nat) (j : ReadJob) : List Ev :=
  .op (jobOut a j.ua j.u depth).unitName ((jobOut a j.ua j.u depth).tagAttrs (unitMetaOf a j.ua j.u)) :: j.evs ++
    [.cl (jobOut a j.ua j.u depth).unitName]

/-- Settings that XML can carry. -/
structure CleanArchive (a : Archive) : Prop where
  prefixes : CleanPrefixes (rootOut a).namespaces
  values : CleanMeta (rootMeta a)
  macros : ∀ x ∈ a.userMacroList, ValidValue x
  prolog : CleanProlog (rootOut a)

theorem units_readsAs (a : Archive) (js : List ReadJob) (hf : ∀ j ∈ js, j.toJob.Fits a 1) (hw : ∀ j ∈ js, j.WellFormed) :
    ReadsAs ((js.map (·.toJob)).flatMap (fun j => addedText a j.ua j.u j.content))
      (js.flatMap (fun j => .ch '\n' :: .ch '\n' :: j.element a 1)) := by
  induction js with
  | nil => exact ReadsAs.nil
  | cons j js ih =>
    simp only [List.map_cons, List.flatMap_cons]
    refine ReadsAs.append ?_ (ih (fun x hx => hf x (by simp [hx])) (fun x hx => hw x (by simp [hx])))
    have hj := hf j (by simp)
    have h1 := unit_readsAs (jobOut a j.ua j.u 1) (unitMetaOf a j.ua j.u) j.content j.evs hj.prefixes hj.values (hw j (by simp))
    exact (ReadsAs.newline.append (ReadsAs.newline.append h1))

/-- C27, archive mode: units that are written one after the other to an archive in memory, which is then closed, give one
document. It has one root element, the archive; its child elements are, after the macro list, exactly the units, in the order in
which they were written; between them is only white space. For every number of units, all settings and contents that XML can
carry, on every thread. (That each call answers OK is `C24_write_accepted`.) -/
theorem C27_archive (a : Archive) (th : ThreadState) (js : List ReadJob) (hA : isoption a.options OPTION_ARCHIVE = true)
    (hne : js ≠ []) (ha : CleanArchive a) (hf : ∀ j ∈ js, j.toJob.Fits a 1) (hw : ∀ j ∈ js, j.WellFormed) :
    ∃ s doc, (newIO a th).calls (.openWrite true .memory :: writeCalls (js.map (·.toJob)) ++ [.close]) = .val s ∧
      s.delivered = some doc ∧
      readXml doc = some (.op (rootOut a).unitName ((rootOut a).tagAttrs (rootMeta a)) :: macroEvents a.userMacroList ++
        js.flatMap (fun j => .ch '\n' :: .ch '\n' :: j.element a 1) ++ [.ch '\n', .ch '\n', .cl (rootOut a).unitName]) := by
  obtain ⟨s, h1, h2, _⟩ := archive_written (th := th) hA (js := js.map (·.toJob)) (by simpa using hne) ha.prefixes ha.values
    (by simpa using hf)
  refine ⟨s, _, h1, h2, ?_⟩
  obtain ⟨p, e1, e2⟩ := run_startTag ({} : RState) (rootOut a).unitName ((rootOut a).tagAttrs (rootMeta a)) rfl
    (unitName_valid ha.prefixes) (tagAttrs_valid ha.prefixes ha.values)
  have e3 := run_closeOpen ({ pos := p } : RState) (rootOut a).unitName ((rootOut a).tagAttrs (rootMeta a)) e2
    (tagAttrs_nodup ha.prefixes ha.values) (fun _ => rfl)
  have e4 := ((macros_readsAs a.userMacroList ha.macros).append ((units_readsAs a js hf hw).append
    (ReadsAs.newline.append ReadsAs.newline))) ⟨.content, [(rootOut a).unitName], true,
      [.op (rootOut a).unitName ((rootOut a).tagAttrs (rootMeta a))]⟩ rfl (by simp) rfl
  have e5 := run_endTag ⟨.content, [(rootOut a).unitName], true, [.op (rootOut a).unitName ((rootOut a).tagAttrs (rootMeta a))] ++
    (macroEvents a.userMacroList ++ (js.flatMap (fun j => .ch '\n' :: .ch '\n' :: j.element a 1) ++ ([.ch '\n'] ++ [.ch '\n'])))⟩
    (rootOut a).unitName [] rfl (unitName_valid ha.prefixes) rfl
  have etext : archiveText a (js.map (·.toJob)) = prologText (rootOut a) ++ (('<' :: (rootOut a).unitName ++
      attrsText ((rootOut a).tagAttrs (rootMeta a))) ++ (['>'] ++ ((macrosText a.userMacroList ++
      ((js.map (·.toJob)).flatMap (fun j => addedText a j.ua j.u j.content) ++ (['\n'] ++ ['\n']))) ++
      (('<' :: '/' :: (rootOut a).unitName ++ ['>']) ++ ['\n'])))) := by
    simp [archiveText, headText, tagText]
  unfold readXml
  rw [etext, run_append_some (run_prolog ha.prolog), run_append_some e1, run_append_some e3]
  simp only [List.nil_append] at e4 e5 ⊢
  rw [run_append_some e4, run_append_some e5]
  simp [RState.run, RState.step, RState.char, xmlChar]

/-- C27, archive mode: an archive without units is written as the archive element alone, with its macro list. -/
theorem C27_empty_archive (a : Archive) (th : ThreadState) (hA : isoption a.options OPTION_ARCHIVE = true) (ha : CleanArchive a) :
    ∃ s doc, (newIO a th).calls [.openWrite true .memory, .close] = .val s ∧ s.delivered = some doc ∧
      readXml doc = some (.op (rootOut a).unitName ((rootOut a).tagAttrs (rootMeta a)) :: macroEvents a.userMacroList ++
        [.cl (rootOut a).unitName]) := by
  obtain ⟨s, h1, h2, _⟩ := close_unused a th
  rw [close_empty hA ha.prefixes ha.values] at h2
  refine ⟨s, _, h1, h2, ?_⟩
  obtain ⟨p, e1, e2⟩ := run_startTag ({} : RState) (rootOut a).unitName ((rootOut a).tagAttrs (rootMeta a)) rfl
    (unitName_valid ha.prefixes) (tagAttrs_valid ha.prefixes ha.values)
  unfold readXml emptyText tagText
  rw [List.append_assoc, run_append_some (run_prolog ha.prolog), run_append_some e1]
  by_cases hz : macrosText a.userMacroList = []
  · rw [if_pos hz]
    have hme : macroEvents a.userMacroList = [] := by
      generalize a.userMacroList = l at hz ⊢
      match l with
      | [] => rfl
      | [_] => rfl
      | t :: ty :: rest => exact absurd hz (macrosText_ne t ty rest)
    have e3 := run_emptyEnd ({ pos := p } : RState) (rootOut a).unitName ((rootOut a).tagAttrs (rootMeta a)) e2
      (tagAttrs_nodup ha.prefixes ha.values) (fun _ => rfl)
    rw [show "/>\n".toList = ['/', '>'] ++ ['\n'] from rfl, run_append_some e3, hme]
    simp [RState.run, RState.step, RState.char, xmlChar]
  · rw [if_neg hz]
    have e3 := run_closeOpen ({ pos := p } : RState) (rootOut a).unitName ((rootOut a).tagAttrs (rootMeta a)) e2
      (tagAttrs_nodup ha.prefixes ha.values) (fun _ => rfl)
    have e4 := (macros_readsAs a.userMacroList ha.macros) ⟨.content, [(rootOut a).unitName], true,
      [.op (rootOut a).unitName ((rootOut a).tagAttrs (rootMeta a))]⟩ rfl (by simp) rfl
    have e5 := run_endTag ⟨.content, [(rootOut a).unitName], true, [.op (rootOut a).unitName ((rootOut a).tagAttrs (rootMeta a))] ++
      macroEvents a.userMacroList⟩ (rootOut a).unitName [] rfl (unitName_valid ha.prefixes) rfl
    have et : '>' :: macrosText a.userMacroList ++ '<' :: '/' :: (rootOut a).unitName ++ ">\n".toList =
        ['>'] ++ (macrosText a.userMacroList ++ (('<' :: '/' :: (rootOut a).unitName ++ ['>']) ++ ['\n'])) := by simp
    rw [et, run_append_some e3]
    simp only [List.nil_append] at e4 e5 ⊢
    rw [run_append_some e4, run_append_some e5]
    simp [RState.run, RState.step, RState.char, xmlChar]

/-! ### C27: solitary mode -/

/-- C27, solitary mode: a single unit is written as the root of the document, without an archive element. The clause of C27 that
at most one unit is written in this mode is false of the code, see `C27_finding_second_solitary_unit`. -/
theorem C27_solitary_partial (a : Archive) (th : ThreadState) (j : ReadJob) (hA : isoption a.options OPTION_ARCHIVE = false)
    (hp : CleanProlog (rootOut a)) (hf : j.toJob.Fits a 0) (hw : j.WellFormed) :
    ∃ s doc, (newIO a th).calls (.openWrite true .memory :: writeCalls [j.toJob] ++ [.close]) = .val s ∧ s.delivered = some doc ∧
      readXml doc = some (j.element a 0) := by
  obtain ⟨s, h1, h2, _⟩ := solitary_written (th := th) hA hf
  refine ⟨s, _, h1, h2, ?_⟩
  unfold readXml solitaryText
  rw [List.append_assoc, run_append_some (run_prolog hp)]
  have e := run_unit ({} : RState) (jobOut a j.ua j.u 0) (unitMetaOf a j.ua j.u) j.content j.evs rfl (fun _ => rfl) hf.prefixes
    hf.values hw
  rw [run_append_some e]
  simp [RState.run, RState.step, RState.char, xmlChar, ReadJob.element]

/-! ### Units that the library made itself -/

/-- The contents that a unit is written with: its inner text, or nothing. -/
theorem content_of_parts {ua : Archive} {u : UnitData} {name : Str} {attrs : List (Str × Str)} {inner : Option Str}
    (hp : Parts u name attrs inner) (hr : ua.revisionNumber = none) :
    unitContent ua u = .val (if inner.getD [] = [] then none else some (inner.getD [])) := by
  unfold unitContent
  simp only [hr]
  have hb := hp.contentBegin
  have he := hp.contentEnd
  cases inner with
  | none =>
    have : ((u.contentEnd : Int) - u.contentBegin - 1) = -1 := by
      rw [he]; simp only; omega
    rw [this]
    simp
  | some i =>
    have hsz : ((u.contentEnd : Int) - u.contentBegin - 1) = i.length := by
      rw [he]; simp only; omega
    rw [hsz]
    have ht : (u.srcml.drop u.contentBegin).take i.length = i := by
      rw [hp.text, hb, tailOf, show '<' :: name ++ attrsText attrs ++ ('>' :: i ++ ('<' :: '/' :: name ++ ['>'])) =
        ('<' :: name ++ attrsText attrs ++ ['>']) ++ (i ++ ('<' :: '/' :: name ++ ['>'])) by simp,
        show ('<' :: name ++ attrsText attrs).length + 1 = ('<' :: name ++ attrsText attrs ++ ['>']).length by simp; omega,
        List.drop_left, List.take_left]
    simp only [Int.toNat_natCast, ht, Option.getD_some]
    by_cases h : i = []
    · subst h; simp
    · have : 0 < i.length := List.length_pos_iff.mpr h
      simp [h, this]

/-- A finished unit, as it is handed to an archive. -/
def finishedJob (ua : Archive) (u : UnitData) (inner : Option Str) (evs : List Ev) : ReadJob :=
  { ua := ua, u := u, content := if inner.getD [] = [] then none else some (inner.getD []), evs := evs }

/-- A finished unit that is a well-formed document has well-formed contents. -/
theorem finished_wellFormed {ua : Archive} {u : UnitData} {name : Str} {attrs : List (Str × Str)} {inner : Option Str} {evs : List Ev}
    (hp : Parts u name attrs inner) (hn : ValidName name) (hv : ∀ a ∈ attrs, ValidName a.1 ∧ ValidValue a.2)
    (hd : (attrs.map (·.1)).Nodup) (hr : readXml u.srcml = some (.op name attrs :: evs ++ [.cl name])) :
    (finishedJob ua u inner evs).WellFormed := by
  rw [hp.text] at hr
  unfold ReadJob.WellFormed finishedJob
  simp only
  cases inner with
  | none =>
    simp only [Option.getD_none, if_true]
    obtain ⟨p, e1, e2⟩ := run_startTag ({} : RState) name attrs rfl hn hv
    have e3 := run_emptyEnd ({ pos := p } : RState) name attrs e2 hd (fun _ => rfl)
    unfold readXml tailOf at hr
    rw [run_append_some e1, e3] at hr
    simp at hr
    exact hr
  | some i =>
    have := reads_inside hn hv hd hr
    simp only [Option.getD_some]
    by_cases h : i = []
    · subst h
      rw [if_pos rfl]
      have h2 := this ⟨.content, [['a']], true, []⟩ rfl (by simp) rfl
      simp [RState.run] at h2
      exact h2
    · rw [if_neg h]; exact this

/-- The unit was made with the library, and its contents should be the given events: either its elements were written one by one, or
source text was parsed. The conditions are those of C31. -/
inductive Made : UnitData → List Ev → Prop
  | written (sax : Sax) (a : Archive) (thread : ThreadState) (u u' : UnitObj) (cs : List WriteCall) (sts : List Status) (b : Build)
      (ok : WriteOk a u.data) (calls : ({} : Build).calls cs = some (sts, b))
      (src : u.data.src = none → Reads sax ∧
        ∀ attrs, Ev.op (escapeNameOf (namespacesOf a u.data)) attrs ∈ b.events → attrs ≠ [])
      (run : runWrites sax a thread u (.startUnit :: cs ++ [.endUnit]) = .val (.ok :: sts ++ [.ok], u')) : Made u'.data b.events
  | parsed (sax : Sax) (a : Archive) (thread : ThreadState) (u u' : UnitObj) (encoding : Option Str) (toks : List Tok)
      (evs : List Ev) (s : Str) (ok : WriteOk a (beforeParse a u.data encoding))
      (agrees : (unitOut a (beforeParse a u.data encoding) thread).ThreadAgrees)
      (text : ∀ x ∈ toks, x.text.all xmlChar = true)
      (events : tokenEvents (unitOut a (beforeParse a u.data encoding) thread).env [] toks = some (evs, []))
      (carries : Carries toks s) (reads : Reads sax) (src : u.data.src = none) (hash : Option Str) (valid : ∀ h, hash = some h → ValidValue h)
      (run : u.parseTokens sax a thread encoding toks hash = .val (.ok, u')) : Made u'.data evs

theorem made_finished {u : UnitData} {evs : List Ev} (h : Made u evs) : ∃ name attrs inner, Parts u name attrs inner ∧
    ValidName name ∧ (∀ a ∈ attrs, ValidName a.1 ∧ ValidValue a.2) ∧ (attrs.map (·.1)).Nodup ∧
    readXml u.srcml = some (.op name attrs :: evs ++ [.cl name]) := by
  cases h with
  | written sax a thread u u' cs sts b ok calls src run =>
    obtain ⟨v, inner, f1, f2, f3, _⟩ := written_parts sax a thread u cs sts b ok calls src
    rw [run] at f1
    cases f1
    exact ⟨_, _, inner, f2, unitName_valid ok.clean, tagAttrs_valid ok.clean ok.metadata, tagAttrs_nodup ok.clean ok.metadata, f3⟩
  | parsed sax a thread u u' encoding toks evs s ok agrees text events carries reads src hash valid run =>
    obtain ⟨v, inner, f1, f2, f3, _⟩ := parsed_parts sax a thread u encoding toks evs s ok agrees text events carries reads src hash valid
    rw [run] at f1
    cases f1
    obtain ⟨ok2, _⟩ := afterParse_ok ok thread toks hash valid
    exact ⟨_, _, inner, f2, unitName_valid ok.clean, tagAttrs_valid ok2.clean ok2.metadata, tagAttrs_nodup ok2.clean ok2.metadata, f3⟩

/-- A unit made with the library, the archive it belongs to, and the events of its contents. -/
structure MadeUnit where
  ua : Archive
  u : UnitData
  evs : List Ev

/-- The element that such a unit is written as. -/
def MadeUnit.element (a : Archive) (depth : Nat) (m : MadeUnit) : List Ev :=
  .op (jobOut a m.ua m.u depth).unitName ((jobOut a m.ua m.u depth).tagAttrs (unitMetaOf a m.ua m.u)) :: m.evs ++
    [.cl (jobOut a m.ua m.u depth).unitName]

/-- The unit was made, its archive selects no revision, and the metadata can be written to `a`. -/
structure MadeUnit.Fits (a : Archive) (depth : Nat) (m : MadeUnit) : Prop where
  made : Made m.u m.evs
  revision : m.ua.revisionNumber = none
  prefixes : CleanPrefixes (jobOut a m.ua m.u depth).namespaces
  values : CleanMeta (unitMetaOf a m.ua m.u)

theorem made_job {a : Archive} {d : Nat} {m : MadeUnit} (h : m.Fits a d) : ∃ j : ReadJob, j.ua = m.ua ∧ j.u = m.u ∧ j.evs = m.evs ∧
    j.toJob.Fits a d ∧ j.WellFormed := by
  obtain ⟨name, attrs, inner, hp, hn, hv, hd, hr⟩ := made_finished h.made
  exact ⟨finishedJob m.ua m.u inner m.evs, rfl, rfl, rfl, ⟨hp.body, content_of_parts hp h.revision, h.prefixes, h.values⟩,
    finished_wellFormed hp hn hv hd hr⟩

theorem made_jobs {a : Archive} {d : Nat} : ∀ ms : List MadeUnit, (∀ m ∈ ms, m.Fits a d) → ∃ js : List ReadJob,
    writeCalls (js.map (·.toJob)) = ms.map (fun m => .writeUnit m.ua (some m.u) none) ∧
    (∀ f : List Ev → List Ev, js.flatMap (fun j => f (j.element a d)) = ms.flatMap (fun m => f (m.element a d))) ∧
    (∀ j ∈ js, j.toJob.Fits a d) ∧ (∀ j ∈ js, j.WellFormed) ∧ (js = [] → ms = [])
  | [], _ => ⟨[], rfl, fun _ => rfl, by simp, by simp, fun _ => rfl⟩
  | m :: ms, h => by
    obtain ⟨j, j1, j2, j3, j4, j5⟩ := made_job (h m (by simp))
    obtain ⟨js, k1, k2, k3, k4, _⟩ := made_jobs ms (fun x hx => h x (by simp [hx]))
    refine ⟨j :: js, ?_, ?_, ?_, ?_, by simp⟩
    · unfold writeCalls at k1 ⊢
      rw [List.map_cons, List.map_cons, List.map_cons, k1, j1, j2]
    · intro f
      rw [List.flatMap_cons, List.flatMap_cons, k2]
      unfold ReadJob.element MadeUnit.element
      rw [j1, j2, j3]
    · simpa using ⟨j4, k3⟩
    · simpa using ⟨j5, k4⟩

/-- C27 with C31: units that were made with the library — parsed from source text, or written element by element — are written one
after the other to an archive in memory, which is then closed. The document has one root element, the archive; its child elements are,
after the macro list, exactly those units in that order, each with exactly the contents that it was made with. -/
theorem C27_archive_of_made_units (a : Archive) (th : ThreadState) (ms : List MadeUnit) (hA : isoption a.options OPTION_ARCHIVE = true)
    (hne : ms ≠ []) (ha : CleanArchive a) (hm : ∀ m ∈ ms, m.Fits a 1) :
    ∃ s doc, (newIO a th).calls (.openWrite true .memory :: ms.map (fun m => .writeUnit m.ua (some m.u) none) ++ [.close]) = .val s ∧
      s.delivered = some doc ∧
      readXml doc = some (.op (rootOut a).unitName ((rootOut a).tagAttrs (rootMeta a)) :: macroEvents a.userMacroList ++
        ms.flatMap (fun m => .ch '\n' :: .ch '\n' :: m.element a 1) ++ [.ch '\n', .ch '\n', .cl (rootOut a).unitName]) := by
  obtain ⟨js, k1, k2, k3, k4, k5⟩ := made_jobs ms hm
  have := C27_archive a th js hA (fun h => hne (k5 h)) ha k3 k4
  rw [k1, k2 (fun x => .ch '\n' :: .ch '\n' :: x)] at this
  exact this

/-- C27 with C31, solitary mode: a single unit that was made with the library is the root of the document, with exactly the contents
that it was made with. For what is missing see `C27_solitary_partial`. -/
theorem C27_solitary_made_unit_partial (a : Archive) (th : ThreadState) (m : MadeUnit) (hA : isoption a.options OPTION_ARCHIVE = false)
    (hp : CleanProlog (rootOut a)) (hm : m.Fits a 0) :
    ∃ s doc, (newIO a th).calls [.openWrite true .memory, .writeUnit m.ua (some m.u) none, .close] = .val s ∧ s.delivered = some doc ∧
      readXml doc = some (m.element a 0) := by
  obtain ⟨j, j1, j2, j3, j4, j5⟩ := made_job hm
  have := C27_solitary_partial a th j hA hp j4 j5
  unfold writeCalls ReadJob.element at this
  simp only [List.map_cons, List.map_nil, j1, j2, j3] at this
  exact this

/-! #### Instances and findings -/

/-- A new archive, in archive mode or not. -/
def modeArchive (archive : Bool) : Archive :=
  { srcml_archive_create with options := if archive then OPTION_ARCHIVE ||| OPTION_NAMESPACE_DECL else OPTION_NAMESPACE_DECL }

/-- A unit of the sample archive that was written: the sample calls. -/
@[irreducible] def writtenSample : UnitObj :=
  match runWrites sampleSax sampleArchive {} sampleUnit (.startUnit :: sampleCalls ++ [.endUnit]) with
  | .val (_, u) => u
  | .ub => {}

/-- A unit of the sample archive that was parsed as C++: the sample tokens. -/
@[irreducible] def parsedSample : UnitObj :=
  match ({ sampleUnit with data := { sampleUnit.data with derivedLanguage := LANGUAGE_CXX } } : UnitObj).parseTokens sampleSax sampleArchive {} none sampleToks with
  | .val (_, u) => u
  | .ub => {}

theorem written_made : Made writtenSample.data sampleBuild.events := by
  refine .written sampleSax sampleArchive {} sampleUnit writtenSample sampleCalls
    [.ok, .ok, .invalidArgument, .ok, .ok, .invalidInput, .ok] sampleBuild sample_writeOk
    (by decide +kernel) (fun _ => ⟨sampleSax_reads, ?_⟩) (by decide +kernel)
  intro attrs h
  have : ∀ e ∈ sampleBuild.events, ∀ as, e = Ev.op (escapeNameOf (namespacesOf sampleArchive sampleUnit.data)) as → as ≠ [] := by
    intro e he as heq
    have he' : e ∈ [Ev.op "name".toList [("p:k".toList, "<".toList), ("xmlns:p".toList, "u".toList)],
        .op "x:op".toList [("xmlns:x".toList, "v".toList)], .ch 'a', .ch '"', .ch '<', .cl "x:op".toList, .cl "name".toList] := he
    simp only [List.mem_cons, List.not_mem_nil, or_false] at he'
    rcases he' with rfl | rfl | rfl | rfl | rfl | rfl | rfl <;> cases heq <;> simp
  exact this _ h attrs rfl

theorem parsed_made : Made parsedSample.data [.op "cpp:directive".toList [], .ch '#', .ch 'a', .cl "cpp:directive".toList] := by
  refine .parsed sampleSax sampleArchive {} { sampleUnit with data := { sampleUnit.data with derivedLanguage := LANGUAGE_CXX } } parsedSample none sampleToks _ "#a".toList ?_
    ⟨Or.inl rfl, Or.inl rfl⟩ (by decide +kernel) (by decide +kernel)
    (Carries.markup _ _ _ (by decide +kernel)
      (Carries.text _ _ [] (by decide +kernel) (by decide +kernel) (Carries.markup _ _ _ (by decide +kernel) .nil)))
    sampleSax_reads rfl none (by simp) (by decide +kernel)
  exact ⟨sample_writeOk.decl, sample_writeOk.clean, sample_writeOk.flags, sample_writeOk.metadata⟩

/-- The two sample units, as they are handed to an archive. -/
def sampleMade : List MadeUnit :=
  [{ ua := sampleArchive, u := writtenSample.data, evs := sampleBuild.events },
   { ua := sampleArchive, u := parsedSample.data, evs := [.op "cpp:directive".toList [], .ch '#', .ch 'a', .cl "cpp:directive".toList] }]

theorem sample_fits (archive : Bool) (d : Nat) : ∀ m ∈ sampleMade, m.Fits (modeArchive archive) d := by
  have hmeta : ∀ l : Str, l = [] ∨ l = "C++".toList →
      CleanMeta { language := some l, revision := some "1.0.0".toList, filename := some "a&b.cpp".toList } := by
    intro l hl
    refine ⟨?_, by simp [attrPairs], by simp [attrPairs], by simp [attrPairs]⟩
    intro v hv
    simp only [List.mem_cons, List.not_mem_nil, or_false, Option.some.injEq, reduceCtorEq, false_or] at hv
    rcases hv with rfl | rfl | rfl
    · decide
    · rcases hl with rfl | rfl <;> decide
    · decide
  intro m hm
  simp only [sampleMade, List.mem_cons, List.not_mem_nil, or_false] at hm
  rcases hm with rfl | rfl
  · refine ⟨written_made, rfl, ?_, ?_⟩
    · have : (jobOut (modeArchive archive) sampleArchive writtenSample.data d).namespaces = defaultNamespaces := by
        show (jobOut (modeArchive archive) sampleArchive writtenSample.data 0).namespaces = _
        cases archive <;> decide +kernel
      simp only [this]
      constructor <;> decide +kernel
    · have : unitMetaOf (modeArchive archive) sampleArchive writtenSample.data =
          { language := some [], revision := some "1.0.0".toList, filename := some "a&b.cpp".toList } := by
        cases archive <;> decide +kernel
      simp only [this]
      exact hmeta _ (by simp)
  · refine ⟨parsed_made, rfl, ?_, ?_⟩
    · have : (jobOut (modeArchive archive) sampleArchive parsedSample.data d).namespaces.map (·.prefix_) =
          defaultNamespaces.map (·.prefix_) := by
        show (jobOut (modeArchive archive) sampleArchive parsedSample.data 0).namespaces.map (·.prefix_) = _
        cases archive <;> decide +kernel
      have h2 : (jobOut (modeArchive archive) sampleArchive parsedSample.data d).namespaces.map (·.uri) =
          defaultNamespaces.map (·.uri) := by
        show (jobOut (modeArchive archive) sampleArchive parsedSample.data 0).namespaces.map (·.uri) = _
        cases archive <;> decide +kernel
      exact CleanPrefixes.congr (a := defaultNamespaces) (by constructor <;> decide +kernel) this h2
    · have : unitMetaOf (modeArchive archive) sampleArchive parsedSample.data =
          { language := some "C++".toList, revision := some "1.0.0".toList, filename := some "a&b.cpp".toList } := by
        cases archive <;> decide +kernel
      simp only [this]
      exact hmeta _ (by simp)

theorem mode_prolog (archive : Bool) : CleanProlog (rootOut (modeArchive archive)) := by
  cases archive <;> exact ⟨by decide +kernel, by intro t d h; cases h⟩

theorem mode_clean : CleanArchive (modeArchive true) := by
  refine ⟨?_, ?_, ?_, mode_prolog true⟩
  · have : (rootOut (modeArchive true)).namespaces = defaultNamespaces := by decide +kernel
    rw [this]
    constructor <;> decide +kernel
  · refine ⟨?_, by simp [rootMeta, modeArchive, srcml_archive_create, attrPairs], by simp [rootMeta, modeArchive, srcml_archive_create, attrPairs],
      by simp [rootMeta, modeArchive, srcml_archive_create, attrPairs]⟩
    have : [(rootMeta (modeArchive true)).revision, (rootMeta (modeArchive true)).language, (rootMeta (modeArchive true)).url,
        (rootMeta (modeArchive true)).filename, (rootMeta (modeArchive true)).version, (rootMeta (modeArchive true)).timestamp,
        (rootMeta (modeArchive true)).hash, (rootMeta (modeArchive true)).encoding] =
        [some "1.0.0".toList, none, none, none, none, none, none, none] := by decide +kernel
    rw [this]
    intro v hv
    simp only [List.mem_cons, List.not_mem_nil, or_false, Option.some.injEq, reduceCtorEq, false_or] at hv
    subst hv
    decide
  · have : (modeArchive true).userMacroList = [] := rfl
    rw [this]; simp

/-- An instance of `C27_archive_of_made_units`, and so of `C27_archive`: a unit that was written and one that was parsed. -/
example : ∃ s doc, (newIO (modeArchive true) {}).calls (.openWrite true .memory ::
      sampleMade.map (fun m => .writeUnit m.ua (some m.u) none) ++ [.close]) = .val s ∧ s.delivered = some doc ∧
    readXml doc = some ([.op "unit".toList [("xmlns".toList, SRC_NS_URI), ("revision".toList, "1.0.0".toList)],
      .ch '\n', .ch '\n', .op "unit".toList [("revision".toList, "1.0.0".toList), ("language".toList, []), ("filename".toList, "a&b.cpp".toList)]] ++
      sampleBuild.events ++ [.cl "unit".toList,
      .ch '\n', .ch '\n', .op "unit".toList [("xmlns:cpp".toList, CPP_NS_URI), ("revision".toList, "1.0.0".toList), ("language".toList, "C++".toList), ("filename".toList, "a&b.cpp".toList)],
      .op "cpp:directive".toList [], .ch '#', .ch 'a', .cl "cpp:directive".toList, .cl "unit".toList,
      .ch '\n', .ch '\n', .cl "unit".toList]) := by
  obtain ⟨s, doc, h1, h2, h3⟩ := C27_archive_of_made_units (modeArchive true) {} sampleMade (by decide) (by simp [sampleMade]) mode_clean (sample_fits true 1)
  refine ⟨s, doc, h1, h2, h3.trans ?_⟩
  decide +kernel

/-- An instance of `C27_solitary_made_unit_partial`. -/
example : ∃ s doc, (newIO (modeArchive false) {}).calls [.openWrite true .memory, .writeUnit sampleArchive (some writtenSample.data) none, .close] = .val s ∧
    s.delivered = some doc ∧ readXml doc = some ([.op "unit".toList [("xmlns".toList, SRC_NS_URI), ("revision".toList, "1.0.0".toList),
      ("language".toList, []), ("filename".toList, "a&b.cpp".toList)]] ++ sampleBuild.events ++ [.cl "unit".toList]) := by
  obtain ⟨s, doc, h1, h2, h3⟩ := C27_solitary_made_unit_partial (modeArchive false) {} _ (by decide) (mode_prolog false)
    (sample_fits false 0 _ List.mem_cons_self)
  refine ⟨s, doc, h1, h2, h3.trans ?_⟩
  decide +kernel

example : ∃ s doc, (newIO (modeArchive true) {}).calls [.openWrite true .memory, .close] = .val s ∧ s.delivered = some doc ∧
    readXml doc = some [.op "unit".toList [("xmlns".toList, SRC_NS_URI), ("revision".toList, "1.0.0".toList)], .cl "unit".toList] := by
  obtain ⟨s, doc, h1, h2, h3⟩ := C27_empty_archive (modeArchive true) {} (by decide) mode_clean
  refine ⟨s, doc, h1, h2, h3.trans ?_⟩
  decide +kernel

/-- What the user gets from a sequence of calls on an archive, and how it reads. -/
def readsAfter (a : Archive) (cs : List IoCall) : Option (Str × Option (List Ev)) :=
  match (newIO a {}).calls cs with
  | .ub => none
  | .val s => s.delivered.map (fun d => (d, readXml d))

/-- The results of a sequence of calls. -/
def resultsOf (s : ArchiveIO) : List IoCall → Run (List IoResult)
  | [] => .val []
  | c :: cs =>
    match s.call c with
    | .ub => .ub
    | .val (r, s) =>
      match resultsOf s cs with
      | .ub => .ub
      | .val rs => .val (r :: rs)

/-- Finding: C27 says that solitary mode writes at most one unit. A second `srcml_archive_write_unit` answers OK, and the document then has
two root elements: it is not well-formed. -/
theorem C27_finding_second_solitary_unit :
    resultsOf (newIO (modeArchive false) {}) [.openWrite true .memory, .writeUnit sampleArchive (some writtenSample.data) none,
      .writeUnit sampleArchive (some parsedSample.data) none, .close] = .val [.status .ok, .status .ok, .status .ok, .nothing] ∧
    (readsAfter (modeArchive false) [.openWrite true .memory, .writeUnit sampleArchive (some writtenSample.data) none,
      .writeUnit sampleArchive (some parsedSample.data) none, .close]).map (·.2) = some none := by
  constructor <;> decide +kernel

/-- Finding: a unit whose elements were written one by one, in an archive that has the language, says `language="C++"` itself, but
is written to an archive with `language=""`: only parsing records the language that was found. -/
theorem C27_finding_language_lost :
    (readXml writtenSample.data.srcml).bind List.head? = some (.op "unit".toList [("xmlns".toList, SRC_NS_URI), ("revision".toList, "1.0.0".toList),
        ("language".toList, "C++".toList), ("filename".toList, "a&b.cpp".toList)]) ∧
    ((readsAfter (modeArchive false) [.openWrite true .memory, .writeUnit sampleArchive (some writtenSample.data) none, .close]).bind
        (·.2)).bind List.head? = some (.op "unit".toList [("xmlns".toList, SRC_NS_URI), ("revision".toList, "1.0.0".toList),
        ("language".toList, []), ("filename".toList, "a&b.cpp".toList)]) := by
  constructor <;> decide +kernel

/-- Finding: closing a solitary archive without a unit gives a document that has no element at all. -/
theorem C27_finding_solitary_without_units :
    readsAfter (modeArchive false) [.openWrite true .memory, .close] =
      some ("<?xml version=\"1.0\" encoding=\"UTF-8\" standalone=\"yes\"?>\n".toList, none) := by
  decide +kernel

end Srcml
