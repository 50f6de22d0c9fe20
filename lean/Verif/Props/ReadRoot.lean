import Verif.Proofs.ReadRoot
import Verif.Props.SrcSaxSolo
/-
C78: the settings of an archive survive writing and reading.
-/
set_option linter.unusedSimpArgs false
namespace Srcml
open Spec

/-- The table of an archive, as the library makes it: each uri once, and the marks are those of the standard namespaces. -/
structure MadeTable (a : Archive) : Prop where
  flags : ∀ n ∈ a.namespaces, FlagsSound n ∧ hasFlag n.flags NS_USED = false
  nodup : (a.namespaces.map (·.uri)).Nodup
  src : SRC_NS_URI ∈ a.namespaces.map (·.uri)

/-- The settings that the root of an archive can carry: no uri is one of the old project, a macro has a token and a type, the tab stop is an `int`, the encoding has no quotation
mark, and the attributes are pairs without prefixes. For each of them see `C78_finding_…`. -/
structure PlainSettings (a : Archive) : Prop where
  revision : a.revision ≠ none
  uris : ∀ n ∈ a.namespaces, srcmlUriNormalize n.uri = n.uri
  names : ∀ p ∈ attrPairs a.attributes, ':' ∉ p.1
  pairs : a.attributes.length % 2 = 0
  tabs : isoption a.options OPTION_POSITION = true → a.tabstop < 2 ^ 31
  macroPairs : a.userMacroList.length % 2 = 0
  macros : ∀ x ∈ a.userMacroList, x ≠ []
  encoding : '"' ∉ a.encoding.getD "UTF-8".toList

theorem created_madeTable (calls : List SetCall) (a : Archive) (h : runCalls srcml_archive_create calls = .val a) : MadeTable a := by
  refine ⟨created_table calls a h, ?_, ?_⟩ <;> rw [uris_history calls srcml_archive_create a [SRC_NS_URI] rfl h]
  · exact firstOccurrences_nodup _
  · rw [mem_firstOccurrences]; simp

theorem MadeTable.table {a : Archive} (h : MadeTable a) : TableOk (rootOut a).namespaces := merge_ok default_tableOk (fun n hn => (h.flags n hn).1)

/-- What the root of an archive declares. -/
theorem root_declared {a : Archive} (h : MadeTable a) (hA : isoption a.options OPTION_ARCHIVE = true) (u : Str) :
    u ∈ (rootOut a).marked.declared.map (·.uri) ↔
      u = SRC_NS_URI ∨ (u = POSITION_NS_URI ∧ isoption a.options OPTION_POSITION = true) ∨ (u = ERROR_NS_URI ∧ isoption a.options OPTION_DEBUG = true) ∨
        (u ∉ standardUris ∧ u ∈ a.namespaces.map (·.uri)) := by
  have hT := h.table
  rw [declared_iff (o := (rootOut a).marked) (markUsed_ok hT .SRC)]
  have e : (rootOut a).marked.namespaces.map (·.uri) = (rootOut a).namespaces.map (·.uri) := markUsed_uris _ _
  rw [e]
  have hdep : (rootOut a).marked.depth = 0 := rfl
  have hopt : (rootOut a).marked.options = a.options := rfl
  have hnu : ∀ v, v ≠ SRC_NS_URI → ¬ usedIn (rootOut a).marked.namespaces v := by
    intro v hv ⟨n, h1, h2⟩
    have hne : ¬ usedIn (rootOut a).namespaces v := not_used_merge (default_not_used v) (fun n hn _ => (h.flags n hn).2)
    apply hne
    have hget := findUri_mem h1
    have : n ∈ markUsed (rootOut a).namespaces .SRC := hget
    unfold markUsed at this
    obtain ⟨i, hi⟩ := List.mem_iff_getElem?.mp this
    rw [List.getElem?_modify] at hi
    by_cases h0 : Prefixes.SRC.index = i
    · simp only [h0, if_true] at hi
      cases hg : (rootOut a).namespaces[i]? with
      | none => rw [hg] at hi; cases hi
      | some x =>
        rw [hg] at hi
        simp only [Option.map_eq_map, Option.map_some, Option.some.injEq] at hi
        exfalso
        have hstd := hT.std
        have hx : ((rootOut a).namespaces.map (·.uri))[0]? = some x.uri := by
          rw [List.getElem?_map]
          have : i = 0 := by rw [← h0]; rfl
          rw [← this, hg]; rfl
        have : (((rootOut a).namespaces.map (·.uri)).take 5)[0]? = some SRC_NS_URI := by rw [hstd]; rfl
        rw [List.getElem?_take_of_lt (by omega), hx] at this
        simp only [Option.some.injEq] at this
        have hu := findUri_uri h1
        rw [← hi] at hu
        exact hv (hu.symm.trans this)
    · simp only [h0, if_false, Option.map_eq_map, Option.map_id_fun', id_eq] at hi
      have hm : n ∈ (rootOut a).namespaces := List.mem_iff_getElem?.mpr ⟨i, hi⟩
      refine ⟨n, ?_, h2⟩
      rw [← findUri_uri h1]
      exact findUri_of_mem hT.nodup hm
  obtain ⟨s1, s2, s3, s4, s5, s6, s7, s8⟩ := src_not
  have hpe : POSITION_NS_URI ≠ ERROR_NS_URI := by decide +kernel
  have hmem : u ∉ standardUris → (u ∈ (rootOut a).namespaces.map (·.uri) ↔ u ∈ a.namespaces.map (·.uri)) := by
    intro hu
    have e : u ∈ (rootOut a).namespaces.map (·.uri) ↔ _ := mem_merge_uris defaultNamespaces a.namespaces u
    rw [e, default_uris]
    exact ⟨fun h => h.elim (fun h => absurd h hu) id, .inr⟩
  rw [hdep, hopt]
  simp only [hA, Bool.true_eq_false, or_false, Nat.zero_ne_one, false_and, true_and]
  constructor
  · rintro (h | ⟨h, h'⟩ | ⟨h, h'⟩)
    · exact .inl h
    · unfold inUse at h'
      rw [hopt] at h'
      rcases h' with h' | h' | h' | h'
      · refine absurd h' (hnu u ?_)
        rcases h with h | h <;> rw [h]
        · exact s2.symm
        · exact s3.symm
      · rcases h with h | h <;> rw [h] at h'
        · exact absurd h'.1.symm s5
        · exact absurd h'.1.symm s6
      · exact .inr (.inl h')
      · exact .inr (.inr (.inl h'))
    · exact .inr (.inr (.inr ⟨h, (hmem h).mp h'⟩))
  · rintro (h | h | h | ⟨h, h'⟩)
    · exact .inl h
    · exact .inr (.inl ⟨.inr h.1, .inr (.inr (.inl h))⟩)
    · exact .inr (.inl ⟨.inl h.1, .inr (.inr (.inr h))⟩)
    · exact .inr (.inr ⟨h, (hmem h).mpr h'⟩)

theorem uri_normal : ∀ u ∈ standardUris, srcmlUriNormalize u = u := by decide +kernel

/-- The settings of the archive that is opened. -/
theorem opened_settings {a : Archive} (hA : isoption a.options OPTION_ARCHIVE = true) (hD : isoption a.options OPTION_NAMESPACE_DECL = true) (ht : MadeTable a)
    (hc : CleanArchive a) (hs : PlainSettings a) (wants : List Bool) {us : List UnitText} (hne : us ≠ []) {h : Sax2} (hi : h.isArchive = true)
    (hl : h.log = archiveCalls ((rootOut a).tagAttrs (rootMeta a)) a.userMacroList wants us) :
    ∃ b, openedArchive srcml_archive_create (if isoption a.options OPTION_NO_XML_DECL then none else some (a.encoding.getD "UTF-8".toList)) h = .val b ∧ SettingsBack a b ∧
      b.namespaces = registerAll startingNamespaces (rootOut a).marked.declared := by
  have hnorm : ∀ n ∈ (rootOut a).namespaces, srcmlUriNormalize n.uri = n.uri := by
    intro n hn
    have : n.uri ∈ (rootOut a).namespaces.map (·.uri) := List.mem_map_of_mem hn
    have e : n.uri ∈ (rootOut a).namespaces.map (·.uri) ↔ _ := mem_merge_uris defaultNamespaces a.namespaces n.uri
    rcases e.mp this with h | h
    · rw [default_uris] at h
      exact uri_normal _ h
    · obtain ⟨m, h1, h2⟩ := List.mem_map.mp h
      rw [← h2]; exact hs.uris m h1
  have hread := fun r => read_root (o := rootOut a) (m := rootMeta a) hc.prefixes hc.values hs.names hs.pairs hs.tabs hD hnorm true r
  have key : openedArchive srcml_archive_create (if isoption a.options OPTION_NO_XML_DECL then none else some (a.encoding.getD "UTF-8".toList)) h =
      .val { rootRead true (rootOut a) (rootMeta a) { srcml_archive_create with
        encoding := some ((if isoption a.options OPTION_NO_XML_DECL then none else some (a.encoding.getD "UTF-8".toList)).getD "UTF-8".toList)
        userMacroList := a.userMacroList } with type := .read } := by
    unfold openedArchive
    rw [hl, archiveCalls_head _ _ _ hne, readUppers_append, hi, read_macros _ _ _ hs.macroPairs hs.macros]
    show (Run.bind (readUppers true _ [.startRoot _]) _) = _
    unfold readUppers readUpper
    dsimp only
    rw [hread]
    rfl
  refine ⟨_, key, ?_, rfl⟩
  have hdecl := root_declared ht hA
  have hcpp : CPP_NS_URI ∉ (rootOut a).marked.declared.map (·.uri) := by
    intro hm
    obtain ⟨s1, s2, s3, s4, s5, s6, s7, s8⟩ := src_not
    rcases (hdecl _).mp hm with h | h | h | h
    · exact s1 h.symm
    · exact s6 h.1
    · exact s5 h.1
    · exact h.1 (by simp [standardUris])
  have hnodup : ((rootOut a).marked.declared.map (·.uri)).Nodup := declared_uris_nodup (markUsed_ok ht.table .SRC)
  have hpre : ∀ u, prefixAt (registerAll startingNamespaces (rootOut a).marked.declared) u =
      (if u ∈ (rootOut a).marked.declared.map (·.uri) then (prefixAt a.namespaces u).or (prefixAt defaultNamespaces u) else none).or (prefixAt startingNamespaces u) := by
    intro u
    rw [prefixAt_registerAll _ hnodup]
    by_cases hu : u ∈ (rootOut a).marked.declared.map (·.uri)
    · rw [if_pos hu, declared_prefix ht.table hu, rootOut_prefix ht.nodup]
    · rw [if_neg hu, prefixAt_none.mpr hu]
  have hopts : registerAllOptions (readSettings (rootOut a) (rootMeta a) { srcml_archive_create with
        encoding := some ((if isoption a.options OPTION_NO_XML_DECL then none else some (a.encoding.getD "UTF-8".toList)).getD "UTF-8".toList)
        userMacroList := a.userMacroList }).options (rootOut a).marked.declared = srcml_archive_create.options ||| (a.options &&& rootOptions) := by
    rw [registerAllOptions_mem _ _ hcpp]
    have e1 : (if ERROR_NS_URI ∈ (rootOut a).marked.declared.map (·.uri) then OPTION_DEBUG else 0) = a.options &&& OPTION_DEBUG := by
      have hb := isoption_bit a.options (k := 11) (by decide)
      rw [show (1#64 <<< 11) = OPTION_DEBUG from rfl] at hb
      rw [← hb]
      congr 1
      rw [hdecl]
      have n1 : ERROR_NS_URI ≠ SRC_NS_URI := by decide +kernel
      have n2 : ERROR_NS_URI ≠ POSITION_NS_URI := by decide +kernel
      have n3 : ERROR_NS_URI ∈ standardUris := by decide +kernel
      simp [n1, n2, n3]
    have e2 : (if POSITION_NS_URI ∈ (rootOut a).marked.declared.map (·.uri) then OPTION_POSITION else 0) = a.options &&& OPTION_POSITION := by
      have hb := isoption_bit a.options (k := 2) (by decide)
      rw [show (1#64 <<< 2) = OPTION_POSITION from rfl] at hb
      rw [← hb]
      congr 1
      rw [hdecl]
      have n1 : POSITION_NS_URI ≠ SRC_NS_URI := by decide +kernel
      have n2 : POSITION_NS_URI ≠ ERROR_NS_URI := by decide +kernel
      have n3 : POSITION_NS_URI ∈ standardUris := by decide +kernel
      simp [n1, n2, n3]
    rw [e1, e2]
    show (srcml_archive_create.options ||| (a.options &&& (OPTION_CPP_TEXT_ELSE ||| OPTION_CPP_MARKUP_IF0 ||| OPTION_LINE))) ||| _ ||| _ = _
    unfold rootOptions
    rw [and_or a.options _ OPTION_POSITION, and_or a.options _ OPTION_DEBUG]
    simp only [BitVec.or_assoc]
  refine ⟨?_, ?_, ?_, ?_, rfl, ?_, ?_, ?_, ?_, ?_, ?_, ?_, rfl, rfl, fun _ => rfl, fun _ => rfl, ?_⟩
  · show a.revision.or _ = a.revision
    cases hr : a.revision with
    | none => exact absurd hr hs.revision
    | some x => rfl
  · show a.url.or none = a.url
    cases a.url <;> rfl
  · show a.version.or none = a.version
    cases a.version <;> rfl
  · show some _ = some _
    congr 1
    split <;> rfl
  · refine Eq.trans (congrArg (fun x : Opts => Run.val (decide (x &&& OPTION_ARCHIVE = 0))) hopts) ?_
    congr 1
    rw [decide_eq_false_iff_not]
    intro h0
    rw [BitVec.and_comm, and_or] at h0
    have h1 := (BitVec.or_eq_zero_iff.mp h0).1
    exact absurd h1 (by decide)
  · exact hopts
  · intro u hu
    show prefixAt (registerAll startingNamespaces (rootOut a).marked.declared) u = prefixAt a.namespaces u
    rw [hpre]
    have hdef : u ∉ standardUris → prefixAt defaultNamespaces u = none := fun h => prefixAt_none.mpr (by rw [default_uris]; exact h)
    have hst : u ≠ SRC_NS_URI → prefixAt startingNamespaces u = none := fun h => prefixAt_none.mpr (by simpa [startingNamespaces] using h)
    rcases hu with rfl | hu
    · rw [if_pos ((hdecl _).mpr (.inl rfl))]
      cases hx : prefixAt a.namespaces SRC_NS_URI with
      | none => exact absurd ht.src (prefixAt_none.mp hx)
      | some p => rfl
    · have hns : u ∉ standardUris := hu
      have hne' : u ≠ SRC_NS_URI := by rintro rfl; exact hu (by simp)
      rw [hst hne', hdef hns, Option.or_none, Option.or_none]
      by_cases hm : u ∈ a.namespaces.map (·.uri)
      · rw [if_pos ((hdecl _).mpr (.inr (.inr (.inr ⟨hns, hm⟩))))]
      · rw [prefixAt_none.mpr hm]; split <;> rfl
  · intro hP
    show prefixAt (registerAll startingNamespaces (rootOut a).marked.declared) POSITION_NS_URI = some ((prefixAt a.namespaces POSITION_NS_URI).getD "pos".toList)
    rw [hpre, if_pos ((hdecl _).mpr (.inr (.inl ⟨rfl, hP⟩)))]
    have : prefixAt defaultNamespaces POSITION_NS_URI = some "pos".toList := by decide +kernel
    rw [this]
    cases prefixAt a.namespaces POSITION_NS_URI <;> rfl
  · intro hP
    show prefixAt (registerAll startingNamespaces (rootOut a).marked.declared) ERROR_NS_URI = some ((prefixAt a.namespaces ERROR_NS_URI).getD "err".toList)
    rw [hpre, if_pos ((hdecl _).mpr (.inr (.inr (.inl ⟨rfl, hP⟩))))]
    have : prefixAt defaultNamespaces ERROR_NS_URI = some "err".toList := by decide +kernel
    rw [this]
    cases prefixAt a.namespaces ERROR_NS_URI <;> rfl
  · have hno : ∀ u, u ≠ SRC_NS_URI → u ∉ (rootOut a).marked.declared.map (·.uri) →
        prefixAt (registerAll startingNamespaces (rootOut a).marked.declared) u = none := by
      intro u h1 h2
      rw [hpre, if_neg h2, prefixAt_none.mpr (by simpa [startingNamespaces] using h1)]
      rfl
    obtain ⟨s1, s2, s3, s4, s5, s6, s7, s8⟩ := src_not
    have hpe : POSITION_NS_URI ≠ ERROR_NS_URI := by decide +kernel
    refine ⟨hno _ s1.symm hcpp, hno _ s4.symm ?_, fun hf => hno _ s3.symm ?_, fun hf => hno _ s2.symm ?_⟩
    · intro hm
      rcases (hdecl _).mp hm with h | h | h | h
      · exact s4 h.symm
      · exact s8 h.1
      · exact s7 h.1
      · exact h.1 (by simp [standardUris])
    · intro hm
      rcases (hdecl _).mp hm with h | h | h | h
      · exact s3 h.symm
      · rw [hf] at h; exact absurd h.2 (by simp)
      · exact hpe h.1
      · exact h.1 (by simp [standardUris])
    · intro hm
      rcases (hdecl _).mp hm with h | h | h | h
      · exact s2 h.symm
      · exact hpe h.1.symm
      · rw [hf] at h; exact absurd h.2 (by simp)
      · exact h.1 (by simp [standardUris])
  · exact registerAll_nodup (ns := startingNamespaces) _ (by decide)
  · show [] ++ readAttributes (rootOut a) (rootMeta a) = _
    unfold readAttributes
    rw [List.nil_append]
    rfl

/-! ### Archives that were set up with the library -/

/-- The settings that the root of an archive can carry: no uri is one of the old project, a macro has a token and a type, the tab stop is an `int`, and the encoding has no quotation mark. -/
structure KeptSettings (a : Archive) : Prop where
  uris : ∀ n ∈ a.namespaces, srcmlUriNormalize n.uri = n.uri
  tabs : isoption a.options OPTION_POSITION = true → a.tabstop < 2 ^ 31
  macros : ∀ x ∈ a.userMacroList, x ≠ []
  encoding : '"' ∉ a.encoding.getD "UTF-8".toList

theorem revision_step (a a' : Archive) (c : SetCall) (st : Status) (h : c.run a = .val (st, a')) : a'.revision = a.revision ∧ a'.attributes = a.attributes := by
  cases c with
  | registerNamespace p u =>
    cases p <;> cases u <;> simp only [SetCall.run, Run.val.injEq, Prod.mk.injEq] at h <;>
      obtain ⟨-, rfl⟩ := h <;> exact ⟨rfl, rfl⟩
  | setProcessingInstruction t d =>
    cases t <;> cases d <;> simp only [SetCall.run, reduceCtorEq, Run.val.injEq, Prod.mk.injEq] at h
    obtain ⟨-, rfl⟩ := h; exact ⟨rfl, rfl⟩
  | registerMacro t d =>
    cases t <;> cases d <;> simp only [SetCall.run, reduceCtorEq, Run.val.injEq, Prod.mk.injEq] at h <;>
      obtain ⟨-, rfl⟩ := h <;> exact ⟨rfl, rfl⟩
  | setSrcdiffRevision n =>
    simp only [SetCall.run] at h
    split at h <;> simp only [Run.val.injEq, Prod.mk.injEq] at h <;> obtain ⟨-, rfl⟩ := h <;> exact ⟨rfl, rfl⟩
  | _ =>
    simp only [SetCall.run, Run.val.injEq, Prod.mk.injEq] at h
    obtain ⟨-, rfl⟩ := h; exact ⟨rfl, rfl⟩

theorem revision_history (calls : List SetCall) (a a' : Archive) (h : runCalls a calls = .val a') : a'.revision = a.revision ∧ a'.attributes = a.attributes := by
  induction calls generalizing a with
  | nil => simp only [runCalls, Run.val.injEq] at h; subst h; exact ⟨rfl, rfl⟩
  | cons c cs ih =>
    simp only [runCalls] at h
    split at h
    · rename_i st a1 h1
      obtain ⟨e1, e2⟩ := revision_step a a1 c st h1
      obtain ⟨e3, e4⟩ := ih a1 h
      exact ⟨e3.trans e1, e4.trans e2⟩
    · cases h

theorem created_plain (calls : List SetCall) (a : Archive) (h : runCalls srcml_archive_create calls = .val a) (hk : KeptSettings a) : PlainSettings a := by
  obtain ⟨e1, e2⟩ := revision_history calls _ a h
  obtain ⟨ps, e3, _⟩ := macros_history calls srcml_archive_create a [] [] rfl rfl h
  refine ⟨?_, hk.uris, ?_, ?_, hk.tabs, ?_, hk.macros, hk.encoding⟩
  · rw [e1]; exact nofun
  · rw [e2]; exact nofun
  · rw [e2]; rfl
  · rw [e3, flatten_length]; omega

/-- The encoding in the declaration of an archive. -/
theorem archive_encoding {a : Archive} {js : List ReadJob} (ha : CarriedArchive a) (hk : '"' ∉ a.encoding.getD "UTF-8".toList) :
    declaredEncoding (archiveText a (js.map (·.toJob))) =
        if isoption a.options OPTION_NO_XML_DECL then none else some (a.encoding.getD "UTF-8".toList) := by
  rw [archiveText_body]
  have hn := unitName_valid (o := rootOut a) ha.prefixes
  obtain ⟨x, n, hxn⟩ : ∃ x n, (rootOut a).unitName = x :: n := by
    cases hq : (rootOut a).unitName with
    | nil => exact absurd hq hn.1
    | cons x n => exact ⟨x, n, rfl⟩
  have hx : x ≠ '?' := by
    have := hn.2
    rw [hxn] at this
    intro e
    subst e
    simp [List.all_cons] at this
    exact absurd this.1 (by decide)
  obtain ⟨rest, hrest⟩ : ∃ rest, archiveBody (rootOut a).unitName ((rootOut a).tagAttrs (rootMeta a)) a.userMacroList (js.map (·.unitText a)) = '<' :: x :: rest := by
    rw [hxn]
    unfold archiveBody
    exact ⟨_, rfl⟩
  rw [hrest]
  exact declaredEncoding_prolog ha.prolog' hk x rest hx

/-- C78. An archive is created and set up by any calls of the library, units are written to it, and it is closed; the text is then opened for reading, in whatever pieces libxml2 delivers it.
The archive that is opened has the revision, the url, the version, the encoding, the namespaces, the macros, the attributes, the options that are in the root, and, if positions are
written, the tab stop of the archive that was written. -/
theorem C78_settings_partial (calls : List SetCall) (a : Archive) (hmade : runCalls srcml_archive_create calls = .val a) (th : ThreadState) (js : List ReadJob)
    (hA : isoption a.options OPTION_ARCHIVE = true) (hD : isoption a.options OPTION_NAMESPACE_DECL = true) (hne : js ≠ []) (ha : CarriedArchive a)
    (hj : ∀ j ∈ js, CarriedJob a j) (hk : KeptSettings a) :
    ∃ s doc, (newIO a th).calls (.openWrite true .memory :: writeCalls (js.map (·.toJob)) ++ [.close]) = .val s ∧ s.delivered = some doc ∧
      ∀ fs wants, Delivers doc fs → ∃ h : Sax2, ({ wants := wants } : Sax2).feeds fs = .val h ∧
        ∃ b, openedArchive srcml_archive_create (declaredEncoding doc) h = .val b ∧ SettingsBack a b := by
  obtain ⟨s, h1, h2, _⟩ := archive_written (th := th) hA (js := js.map (·.toJob)) (by simpa using hne) ha.prefixes ha.values
    (by simpa using fun j hjm => (hj j hjm).fits)
  refine ⟨s, _, h1, h2, ?_⟩
  intro fs wants hd
  rw [archiveText_body] at hd
  obtain ⟨h', e1, e2, e3⟩ := document_feeds (wants := wants) ha.prolog' ha.good (us := js.map (·.unitText a)) (by
    intro u hu
    obtain ⟨j, hjm, rfl⟩ := List.mem_map.mp hu
    exact (hj j hjm).good) (by simpa using hne) fs hd
  refine ⟨h', e1, ?_⟩
  rw [archive_encoding ha hk.encoding]
  obtain ⟨b, b1, b2, _⟩ := opened_settings hA hD (created_madeTable calls a hmade) ha.toCleanArchive (created_plain calls a hmade hk) wants (us := js.map (·.unitText a)) (by simpa using hne) e3 e2
  exact ⟨b, b1, b2⟩

/-! ### A document of one unit -/

theorem declaredUris_tag {o : Out} {m : UnitMeta} (hp : CleanPrefixes o.namespaces) (hm : CleanMeta m) (hD : isoption o.options OPTION_NAMESPACE_DECL = true) :
    declaredUris (o.tagAttrs m) = o.marked.declared.map (·.uri) := by
  unfold declaredUris
  rw [filter_tagAttrs hp hm]
  unfold Out.tagNs
  rw [if_pos hD, List.map_map]
  rfl

theorem declaration_of {o : Out} {m : UnitMeta} (hp : CleanPrefixes o.namespaces) (hm : CleanMeta m) (hD : isoption o.options OPTION_NAMESPACE_DECL = true) {x u : Str}
    (hx : isNsDecl x = true) (h : (x, u) ∈ o.tagAttrs m) : ∃ n ∈ o.marked.declared, xmlnsName (nullIfEmpty n.prefix_) = x ∧ n.uri = u := by
  have h1 : (x, u) ∈ (o.tagAttrs m).filter (fun p => isNsDecl p.1) := List.mem_filter.mpr ⟨h, hx⟩
  rw [filter_tagAttrs hp hm] at h1
  unfold Out.tagNs at h1
  rw [if_pos hD] at h1
  obtain ⟨n, h2, h3⟩ := List.mem_map.mp h1
  simp only [nsAttr, Prod.mk.injEq] at h3
  exact ⟨n, h2, h3⟩

/-- The archive that is opened for a document of one unit. -/
theorem solo_opened {a : Archive} {j : ReadJob} (hD : isoption a.options OPTION_NAMESPACE_DECL = true)
    (hj : CarriedSolo a j) (hc : ∀ p ∈ attrPairs j.u.attributes, ':' ∉ p.1) (he : j.u.attributes.length % 2 = 0)
    (ht : isoption a.options OPTION_POSITION = true → a.tabstop < 2 ^ 31) (hq : '"' ∉ a.encoding.getD "UTF-8".toList)
    (hflags : ∀ n ∈ unitNamespaces j.ua j.u, FlagsSound n ∧ srcmlUriNormalize n.uri = n.uri) {w : Bool} {h' : Sax2}
    (e2 : h'.log = soloCalls ((jobOut a j.ua j.u 0).tagAttrs (unitMetaOf a j.ua j.u)) (jobOut a j.ua j.u 0).unitName j.content j.evs w) (e3 : h'.isArchive = false) :
    openedArchive srcml_archive_create (declaredEncoding (solitaryText a j.toJob)) h' = .val { rootRead false (jobOut a j.ua j.u 0) (unitMetaOf a j.ua j.u) { srcml_archive_create with
      encoding := some ((if isoption a.options OPTION_NO_XML_DECL then none else some (a.encoding.getD "UTF-8".toList)).getD "UTF-8".toList) } with type := .read } := by
  have hn := unitName_valid hj.fits.prefixes
  have henc : declaredEncoding (solitaryText a j.toJob) = if isoption a.options OPTION_NO_XML_DECL then none else some (a.encoding.getD "UTF-8".toList) := by
    rw [solo_text]
    obtain ⟨x, n, hxn⟩ : ∃ x n, (jobOut a j.ua j.u 0).unitName = x :: n := by
      cases hq : (jobOut a j.ua j.u 0).unitName with
      | nil => exact absurd hq hn.1
      | cons x n => exact ⟨x, n, rfl⟩
    have hx : x ≠ '?' := by
      have := hn.2
      rw [hxn] at this
      simp only [List.all_cons, Bool.and_eq_true] at this
      rintro rfl
      exact absurd this.1 (by decide)
    obtain ⟨rest, hrest⟩ : ∃ rest, unitElement (jobOut a j.ua j.u 0).unitName ((jobOut a j.ua j.u 0).tagAttrs (unitMetaOf a j.ua j.u)) j.content ++ ['\n'] = '<' :: x :: rest := by
      rw [unitElement_eq, hxn]
      exact ⟨_, rfl⟩
    rw [hrest]
    exact declaredEncoding_prolog hj.prolog hq x rest hx
  have hnorm : ∀ n ∈ (jobOut a j.ua j.u 0).namespaces, srcmlUriNormalize n.uri = n.uri := by
    intro n hn
    have : n.uri ∈ (jobOut a j.ua j.u 0).namespaces.map (·.uri) := List.mem_map_of_mem hn
    have e : n.uri ∈ (jobOut a j.ua j.u 0).namespaces.map (·.uri) ↔ _ := mem_merge_uris defaultNamespaces (unitNamespaces j.ua j.u) n.uri
    rcases e.mp this with h | h
    · rw [default_uris] at h
      exact uri_normal _ h
    · obtain ⟨m, h1, h2⟩ := List.mem_map.mp h
      rw [← h2]; exact (hflags m h1).2
  have hread := fun r => read_root (o := jobOut a j.ua j.u 0) (m := unitMetaOf a j.ua j.u) hj.fits.prefixes hj.fits.values hc he ht hD hnorm false r
  rw [henc]
  unfold openedArchive
  rw [e2, e3]
  have hlog : ∀ w, ((soloCalls ((jobOut a j.ua j.u 0).tagAttrs (unitMetaOf a j.ua j.u)) (jobOut a j.ua j.u 0).unitName j.content j.evs w).takeWhile (fun c => !c.isUnit)) =
      (if textOnly j.content j.evs then [.endUnit none] else []) ++ [.startRoot ((jobOut a j.ua j.u 0).tagAttrs (unitMetaOf a j.ua j.u))] := by
    intro w
    unfold soloCalls
    cases textOnly j.content j.evs <;> rfl
  rw [hlog]
  have hskip : ∀ r cs, readUppers false r ((if textOnly j.content j.evs then [.endUnit none] else []) ++ cs) = readUppers false r cs := by
    intro r cs
    cases textOnly j.content j.evs <;> rfl
  rw [hskip]
  unfold readUppers readUpper
  dsimp only
  rw [hread]
  rfl

/-- C78, solitary mode. A unit is written to an archive that is not in archive mode, and the document is then opened for reading. The archive that is opened is solitary; it has the revision, the encoding and, if positions are
written, the tab stop of the archive that was written; the url and the version are those of the unit; the namespaces are those that the document declares. -/
theorem C78_solitary (a : Archive) (th : ThreadState) (j : ReadJob) (hA : isoption a.options OPTION_ARCHIVE = false) (hD : isoption a.options OPTION_NAMESPACE_DECL = true)
    (hj : CarriedSolo a j) (hc : ∀ p ∈ attrPairs j.u.attributes, ':' ∉ p.1) (he : j.u.attributes.length % 2 = 0)
    (hr : a.revision ≠ none) (ht : isoption a.options OPTION_POSITION = true → a.tabstop < 2 ^ 31) (hq : '"' ∉ a.encoding.getD "UTF-8".toList)
    (hflags : ∀ n ∈ unitNamespaces j.ua j.u, FlagsSound n ∧ srcmlUriNormalize n.uri = n.uri) :
    ∃ s doc, (newIO a th).calls (.openWrite true .memory :: writeCalls [j.toJob] ++ [.close]) = .val s ∧ s.delivered = some doc ∧
      ∀ fs wants, Delivers doc fs → ∃ h : Sax2, ({ wants := wants } : Sax2).feeds fs = .val h ∧
        ∃ attrs c b, unitsOf h.log = [(attrs, c)] ∧ openedArchive srcml_archive_create (declaredEncoding doc) h = .val b ∧
          SoloSettings a attrs (unit_update_attributes {} (plainAttrs attrs)) b := by
  obtain ⟨s, h1, h2, _⟩ := solitary_written (th := th) hA hj.fits
  refine ⟨s, _, h1, h2, ?_⟩
  intro fs wants hd
  have hn := unitName_valid hj.fits.prefixes
  rw [solo_text] at hd
  obtain ⟨h', e1, e2, e3⟩ := solo_document (wants := wants) hj.prolog hj.instruction (unitName_local hj.fits.prefixes) hj.cpp
    hn (tagAttrs_valid hj.fits.prefixes hj.fits.values) (tagAttrs_nodup hj.fits.prefixes hj.fits.values)
    ⟨hj.wellFormed, hj.escapes⟩ hj.names fs hd
  refine ⟨h', e1, (jobOut a j.ua j.u 0).tagAttrs (unitMetaOf a j.ua j.u), _, { rootRead false (jobOut a j.ua j.u 0) (unitMetaOf a j.ua j.u) { srcml_archive_create with
      encoding := some ((if isoption a.options OPTION_NO_XML_DECL then none else some (a.encoding.getD "UTF-8".toList)).getD "UTF-8".toList) } with type := .read },
    by rw [e2, solo_units], ?_, ?_⟩
  · exact solo_opened hD hj hc he ht hq hflags e2 e3
  · have hT : TableOk (jobOut a j.ua j.u 0).namespaces := merge_ok default_tableOk (fun n hn => (hflags n hn).1)
    have hnodup : ((jobOut a j.ua j.u 0).marked.declared.map (·.uri)).Nodup := declared_uris_nodup (markUsed_ok hT .SRC)
    have hu := update_unitAttrs (u := {}) (o := jobOut a j.ua j.u 0) hj.fits.prefixes hj.fits.values hc he rfl
    have hopts : registerAllOptions (readSettings (jobOut a j.ua j.u 0) (unitMetaOf a j.ua j.u) { srcml_archive_create with options := srcml_archive_create.options &&& ~~~OPTION_ARCHIVE }).options
        (jobOut a j.ua j.u 0).marked.declared = (srcml_archive_create.options &&& ~~~OPTION_ARCHIVE) |||
          (a.options &&& (OPTION_CPP_TEXT_ELSE ||| OPTION_CPP_MARKUP_IF0 ||| OPTION_LINE)) ||| namespaceOptions (declaredUris ((jobOut a j.ua j.u 0).tagAttrs (unitMetaOf a j.ua j.u))) := by
      rw [registerAllOptions_eq, declaredUris_tag hj.fits.prefixes hj.fits.values hD]
      rfl
    have hpre : ∀ n ∈ (jobOut a j.ua j.u 0).marked.declared, prefixAt (registerAll startingNamespaces (jobOut a j.ua j.u 0).marked.declared) n.uri = some n.prefix_ := by
      intro n hn
      rw [prefixAt_registerAll _ hnodup]
      unfold prefixAt
      rw [findUri_of_mem hnodup hn]
      rfl
    have hrev : (unitMetaOf a j.ua j.u).revision = a.revision := by
      unfold unitMetaOf unitMeta
      show (if (isoption a.options OPTION_ARCHIVE && j.u.revision.isSome) = true then _ else a.revision) = a.revision
      rw [hA]
      rfl
    refine ⟨?_, ?_, ?_, ?_, ?_, rfl, ?_, ?_, ?_, ?_, ?_⟩
    · refine Eq.trans (congrArg (fun x : Opts => Run.val (decide (x &&& OPTION_ARCHIVE = 0))) hopts) ?_
      congr 1
      rw [decide_eq_true_iff, BitVec.and_comm, and_or, and_or]
      have e1 : OPTION_ARCHIVE &&& (srcml_archive_create.options &&& ~~~OPTION_ARCHIVE) = 0 := by decide
      have e2 : OPTION_ARCHIVE &&& (a.options &&& (OPTION_CPP_TEXT_ELSE ||| OPTION_CPP_MARKUP_IF0 ||| OPTION_LINE)) = 0 := by
        rw [BitVec.and_comm a.options, ← BitVec.and_assoc]
        have : OPTION_ARCHIVE &&& (OPTION_CPP_TEXT_ELSE ||| OPTION_CPP_MARKUP_IF0 ||| OPTION_LINE) = 0 := by decide
        rw [this]; exact BitVec.zero_and
      have e3 : ∀ us, OPTION_ARCHIVE &&& namespaceOptions us = 0 := by
        intro us
        unfold namespaceOptions
        split <;> split <;> split <;> decide
      rw [e1, e2, e3]
      rfl
    · show (unitMetaOf a j.ua j.u).revision.or _ = a.revision
      rw [hrev]
      cases hx : a.revision with
      | none => exact absurd hx hr
      | some x => rfl
    · rw [hu]; rfl
    · rw [hu]; rfl
    · show some _ = some _
      congr 1
      split <;> rfl
    · exact hopts
    · intro u hu'
      obtain ⟨n, h1, h2, rfl⟩ := declaration_of hj.fits.prefixes hj.fits.values hD (by decide) hu'
      have : n.prefix_ = [] := by
        cases hp : n.prefix_ with
        | nil => rfl
        | cons c cs => rw [hp] at h2; exact absurd (congrArg List.length h2) (by simp [xmlnsName, nullIfEmpty])
      rw [← this]
      exact hpre n h1
    · intro p u hp hu'
      obtain ⟨n, h1, h2, rfl⟩ := declaration_of hj.fits.prefixes hj.fits.values hD (by unfold isNsDecl; simp) hu'
      have : n.prefix_ = p := by
        cases hp' : n.prefix_ with
        | nil =>
          rw [hp'] at h2
          exact absurd (congrArg List.length h2) (by simp [xmlnsName, nullIfEmpty])
        | cons c cs =>
          rw [hp'] at h2
          simpa [xmlnsName, nullIfEmpty] using h2
      rw [← this]
      exact hpre n h1
    · show [].length / 2 = 0
      rfl
    · rw [hu]; rfl

/-! ### Instances and findings -/

/-- An archive is written with two units, its text is opened for reading, and `f` is what the user asks of the archive that is opened; `none` if something fails. -/
def asked {α : Type} (a : Archive) (f : Archive → α) : Option α :=
  match (newIO a {}).calls (.openWrite true .memory :: sampleMade.map (fun m => .writeUnit m.ua (some m.u) none) ++ [.close]) with
  | .val s =>
    match s.delivered with
    | some doc =>
      match ({ wants := [true, true] } : Sax2).feeds (pieces doc) with
      | .val h =>
        match openedArchive srcml_archive_create (declaredEncoding doc) h with
        | .val b => some (f b)
        | .ub => none
      | .ub => none
    | none => none
  | .ub => none

/-- The calls that set up an archive: a url, a namespace, a macro, another tab stop, positions, another encoding. -/
def backCalls : List SetCall :=
  [.setUrl (some "u&v".toList), .registerNamespace (some "ex".toList) (some "http://e.org".toList), .registerMacro (some "M".toList) (some "src:macro".toList),
   .setTabstop 4, .enableOption OPTION_POSITION, .setXmlEncoding (some "ISO-8859-1".toList), .registerNamespace (some "s".toList) (some SRC_NS_URI)]

/-- The archive that they make. -/
def backArchive : Archive :=
  match runCalls srcml_archive_create backCalls with
  | .val a => a
  | .ub => srcml_archive_create

/-- A unit of that archive. -/
def backJob : ReadJob := { ua := backArchive, u := { srcml := "<unit>a</unit>".toList, contentBegin := 6, contentEnd := 8, readHeader := true, readBody := true }, content := some ['a'], evs := [.ch 'a'] }

theorem back_kept : KeptSettings backArchive := by
  refine ⟨by decide +kernel, fun _ => by decide +kernel, by decide +kernel, by decide +kernel⟩

theorem back_carried : CarriedArchive backArchive where
  prefixes := by constructor <;> decide +kernel
  values := by
    refine ⟨?_, (fun p hp => nomatch hp), by decide +kernel, (fun p hp => nomatch hp)⟩
    intro v hv
    have e : [(rootMeta backArchive).revision, (rootMeta backArchive).language, (rootMeta backArchive).url, (rootMeta backArchive).filename, (rootMeta backArchive).version,
        (rootMeta backArchive).timestamp, (rootMeta backArchive).hash, (rootMeta backArchive).encoding] =
        [some "1.0.0".toList, none, some "u&v".toList, none, none, none, none, none] := by decide +kernel
    rw [e] at hv
    simp only [List.mem_cons, List.not_mem_nil, or_false, Option.some.injEq, reduceCtorEq, false_or] at hv
    rcases hv with rfl | rfl <;> decide
  macros := by decide +kernel
  prolog := ⟨by decide +kernel, by intro t d h; cases h⟩
  prolog' := ⟨⟨by decide +kernel, by intro t d h; cases h⟩, by decide +kernel, by intro t d h; cases h⟩
  uris := by unfold PlainUris; decide +kernel
  cpp := by decide +kernel

theorem back_job : CarriedJob backArchive backJob where
  fits := by
    refine ⟨rfl, by decide +kernel, ?_, ?_⟩
    · constructor <;> decide +kernel
    · refine ⟨?_, (fun p hp => nomatch hp), by decide +kernel, (fun p hp => nomatch hp)⟩
      intro v hv
      have e : [(unitMetaOf backArchive backJob.ua backJob.u).revision, (unitMetaOf backArchive backJob.ua backJob.u).language, (unitMetaOf backArchive backJob.ua backJob.u).url,
          (unitMetaOf backArchive backJob.ua backJob.u).filename, (unitMetaOf backArchive backJob.ua backJob.u).version, (unitMetaOf backArchive backJob.ua backJob.u).timestamp,
          (unitMetaOf backArchive backJob.ua backJob.u).hash, (unitMetaOf backArchive backJob.ua backJob.u).encoding] =
          [some "1.0.0".toList, some [], none, none, none, none, none, none] := by decide +kernel
      rw [e] at hv
      simp only [List.mem_cons, List.not_mem_nil, or_false, Option.some.injEq, reduceCtorEq, false_or] at hv
      rcases hv with rfl | rfl <;> decide
  wellFormed := by
    intro r p q k
    obtain ⟨pos, st, ro, evs⟩ := r
    simp only at p q k
    subst p
    simp [RState.run, RState.step, RState.char, q, xmlChar, backJob]
  escapes := by intro name attrs h; simp [backJob] at h
  cpp := by decide +kernel

/-- The hypotheses of `C78_settings_partial` are met by an archive with a url, a namespace, a macro, positions, another tab stop and encoding; and this is what the user finds. -/
example : runCalls srcml_archive_create backCalls = .val backArchive ∧ CarriedArchive backArchive ∧ (∀ j ∈ [backJob], CarriedJob backArchive j) ∧ KeptSettings backArchive ∧
    isoption backArchive.options OPTION_ARCHIVE = true ∧ isoption backArchive.options OPTION_NAMESPACE_DECL = true ∧
    asked backArchive (fun b => (srcml_archive_get_url (some b), srcml_archive_get_tabstop (some b))) = some (some "u&v".toList, 4) ∧
    asked backArchive (fun b => srcml_archive_get_xml_encoding (some b)) = some (some "ISO-8859-1".toList) ∧
    asked backArchive (fun b => (srcml_archive_get_prefix_from_uri b (some "http://e.org".toList), srcml_archive_get_prefix_from_uri b (some SRC_NS_URI))) = some (some "ex".toList, some "s".toList) ∧
    asked backArchive srcml_archive_get_macro_list_size = some 1 := by
  refine ⟨by decide +kernel, back_carried, by simpa using back_job, back_kept, by decide +kernel, by decide +kernel, by decide +kernel, by decide +kernel, by decide +kernel, by decide +kernel⟩

/-- The archive with one more call. -/
def backWith (c : SetCall) : Archive :=
  match c.run (modeArchive true) with
  | .val (_, a) => a
  | .ub => modeArchive true

/-- C78 is false for the processing instruction, which is in the document: the reader ignores it. -/
theorem C78_finding_instruction : asked (backWith (.setProcessingInstruction (some "xml-stylesheet".toList) (some "x".toList))) (fun b => srcml_archive_get_processing_instruction_target (some b)) = some (.val none) := by
  decide +kernel

/-- C78 is false for the language of the archive: it is not written. -/
theorem C78_finding_language : asked (backWith (.setLanguage (some "C".toList))) (fun b => srcml_archive_get_language (some b)) = some none := by
  decide +kernel

/-- C78 is false for the tab stop if no positions are written. -/
theorem C78_finding_tabstop : asked (backWith (.setTabstop 4)) (fun b => srcml_archive_get_tabstop (some b)) = some 8 := by
  decide +kernel

/-- C78 is false for a macro whose type is empty: it is in the document, and is lost. -/
theorem C78_finding_empty_macro : asked (backWith (.registerMacro (some "M".toList) (some []))) srcml_archive_get_macro_list_size = some 0 := by
  decide +kernel

/-- C78 is false for a registered prefix of the cpp namespace: the root does not declare it. -/
theorem C78_finding_cpp_prefix : asked (backWith (.registerNamespace (some "q".toList) (some CPP_NS_URI))) (fun b => srcml_archive_get_prefix_from_uri b (some CPP_NS_URI)) = some none := by
  decide +kernel

/-- C78 is false for a namespace of the old project: the uri is another one after reading. -/
theorem C78_finding_old_uri : asked (backWith (.registerNamespace (some "q".toList) (some "http://www.sdml.info/srcML/modifier".toList)))
    (fun b => srcml_archive_get_prefix_from_uri b (some "http://www.sdml.info/srcML/modifier".toList)) = some none := by
  decide +kernel

/-- C78 is false for a tab stop that is no `int`: the reader converts it with `atoi`, whose result is undefined. -/
theorem C78_finding_large_tabstop : asked { backWith (.setTabstop (2 ^ 31)) with options := (modeArchive true).options ||| OPTION_POSITION } (fun b => srcml_archive_get_tabstop (some b)) = none := by
  decide +kernel

/-- C78 is false for the stored source encoding: after reading it is an attribute. -/
theorem C78_finding_src_encoding : asked (backWith (.enableOption OPTION_STORE_ENCODING)) (fun b => (srcml_archive_get_src_encoding (some b), b.attributes)) =
    some (none, ["src-encoding".toList, "UTF-8".toList]) := by
  decide +kernel

/-- The archive `backArchive` without the archive mode. -/
def soloBackArchive : Archive := { backArchive with options := backArchive.options &&& ~~~OPTION_ARCHIVE }

/-- The hypotheses of `C78_solitary` are met. -/
example : CarriedSolo soloBackArchive backJob ∧ isoption soloBackArchive.options OPTION_ARCHIVE = false ∧ isoption soloBackArchive.options OPTION_NAMESPACE_DECL = true ∧
    (∀ n ∈ unitNamespaces backJob.ua backJob.u, FlagsSound n ∧ srcmlUriNormalize n.uri = n.uri) ∧ soloBackArchive.tabstop < 2 ^ 31 ∧ soloBackArchive.revision ≠ none := by
  refine ⟨⟨⟨⟨by decide +kernel, by intro t d h; cases h⟩, by decide +kernel, by intro t d h; cases h⟩, by decide +kernel, ?_, back_job.wellFormed, back_job.escapes, by decide +kernel, ?_⟩,
    by decide +kernel, by decide +kernel, ?_, by decide +kernel, by decide +kernel⟩
  · refine ⟨rfl, by decide +kernel, ?_, ?_⟩
    · constructor <;> decide +kernel
    · refine ⟨?_, (fun p hp => nomatch hp), by decide +kernel, (fun p hp => nomatch hp)⟩
      intro v hv
      have e : [(unitMetaOf soloBackArchive backJob.ua backJob.u).revision, (unitMetaOf soloBackArchive backJob.ua backJob.u).language, (unitMetaOf soloBackArchive backJob.ua backJob.u).url,
          (unitMetaOf soloBackArchive backJob.ua backJob.u).filename, (unitMetaOf soloBackArchive backJob.ua backJob.u).version, (unitMetaOf soloBackArchive backJob.ua backJob.u).timestamp,
          (unitMetaOf soloBackArchive backJob.ua backJob.u).hash, (unitMetaOf soloBackArchive backJob.ua backJob.u).encoding] =
          [some "1.0.0".toList, some [], none, none, none, none, none, none] := by decide +kernel
      rw [e] at hv
      simp only [List.mem_cons, List.not_mem_nil, or_false, Option.some.injEq, reduceCtorEq, false_or] at hv
      rcases hv with rfl | rfl <;> decide
  · intro n h
    simp [backJob] at h
  · have hf := (created_madeTable backCalls backArchive (by decide +kernel)).flags
    intro n hn
    exact ⟨(hf n hn).1, back_kept.uris n hn⟩

end Srcml
