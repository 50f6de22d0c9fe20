import Verif.Proofs.CopyUnits
import Verif.Spec.CopyUnits
/-
C79: units that were read are written to another archive, and read again.
-/
set_option linter.unusedSimpArgs false
namespace Srcml
open Spec

/-- The unit `v`, and the archive `b` from which it was read. The document is one that the library wrote: `j` is the unit as it was written. Either it is one of the units of an
archive, or the root of the document. Every setting, every content and every way to deliver the document is meant, as in C25 and C78; the namespaces of srcML have their usual prefixes, and no source encoding is stored. -/
inductive Spec.ReadBack : Archive → UnitData → ReadJob → Prop
  | archive (calls : List SetCall) (a : Archive) (hmade : runCalls srcml_archive_create calls = .val a) (th : ThreadState) (js : List ReadJob)
      (hA : isoption a.options OPTION_ARCHIVE = true) (hD : isoption a.options OPTION_NAMESPACE_DECL = true)
      (hS : isoption a.options OPTION_STORE_ENCODING = false) (ha : CarriedArchive a) (hk : KeptSettings a) (hu : UsualPrefixes a.namespaces)
      (hj : ∀ j ∈ js, CarriedJob a j) (hm : ∀ j ∈ js, (∀ p ∈ attrPairs j.u.attributes, ':' ∉ p.1) ∧ j.u.attributes.length % 2 = 0)
      (s : ArchiveIO) (doc : Str)
      (hw : (newIO a th).calls (.openWrite true .memory :: writeCalls (js.map (·.toJob)) ++ [.close]) = .val s) (hd : s.delivered = some doc)
      (fs : List Feed) (wants : List Bool) (hf : Delivers doc fs) (h : Sax2) (hh : ({ wants := wants } : Sax2).feeds fs = .val h)
      (b : Archive) (hb : openedArchive srcml_archive_create (declaredEncoding doc) h = .val b)
      (i : Nat) (hi : i < js.length) (v : UnitData) (hv : gets h.log (some (some i, some i)) = some v) : ReadBack b v js[i]
  | solitary (a : Archive) (th : ThreadState) (j : ReadJob)
      (hA : isoption a.options OPTION_ARCHIVE = false) (hD : isoption a.options OPTION_NAMESPACE_DECL = true)
      (hS : isoption a.options OPTION_STORE_ENCODING = false) (hj : CarriedSolo a j)
      (hc : ∀ p ∈ attrPairs j.u.attributes, ':' ∉ p.1) (he : j.u.attributes.length % 2 = 0)
      (ht : isoption a.options OPTION_POSITION = true → a.tabstop < 2 ^ 31) (hq : '"' ∉ a.encoding.getD "UTF-8".toList)
      (hflags : ∀ n ∈ unitNamespaces j.ua j.u, FlagsSound n ∧ srcmlUriNormalize n.uri = n.uri)
      (honce : ((unitNamespaces j.ua j.u).map (·.uri)).Nodup) (hu : UsualPrefixes (unitNamespaces j.ua j.u))
      (s : ArchiveIO) (doc : Str)
      (hw : (newIO a th).calls (.openWrite true .memory :: writeCalls [j.toJob] ++ [.close]) = .val s) (hd : s.delivered = some doc)
      (fs : List Feed) (wants : List Bool) (hf : Delivers doc fs) (h : Sax2) (hh : ({ wants := wants } : Sax2).feeds fs = .val h)
      (b : Archive) (hb : openedArchive srcml_archive_create (declaredEncoding doc) h = .val b)
      (v : UnitData) (hv : gets h.log (some (some 0, some 0)) = some v) : ReadBack b v j

/-! ### The prefixes -/

theorem usual_default : ∀ p ∈ usualPrefixes, prefixAt defaultNamespaces p.1 = some p.2 := by decide +kernel

theorem usual_at {ns : List Namespace} (h : UsualPrefixes ns) {p : Str × Str} (hp : p ∈ usualPrefixes) : prefixAt ns p.1 = none ∨ prefixAt ns p.1 = some p.2 := by
  unfold prefixAt
  cases hf : findUri ns p.1 with
  | none => exact .inl rfl
  | some n =>
    have := h n (findUri_mem hf) p hp (findUri_uri hf)
    exact .inr (by simp [this])

theorem usual_or {ns : List Namespace} (h : UsualPrefixes ns) {p : Str × Str} (hp : p ∈ usualPrefixes) : (prefixAt ns p.1).or (prefixAt defaultNamespaces p.1) = some p.2 := by
  rw [usual_default p hp]
  rcases usual_at h hp with e | e <;> rw [e] <;> rfl

theorem standard_usual {u : Str} (h : u ∈ standardUris) (hs : u ≠ SRC_NS_URI) : ∃ p ∈ usualPrefixes, p.1 = u := by
  have : ∀ u ∈ standardUris, u ≠ SRC_NS_URI → ∃ p ∈ usualPrefixes, p.1 = u := by decide +kernel
  exact this u h hs

theorem archive_prefix {a b : Archive} (hn : (a.namespaces.map (·.uri)).Nodup) (hs : SettingsBack a b) (hu : UsualPrefixes a.namespaces) (u : Str) :
    (prefixAt b.namespaces u).or (prefixAt defaultNamespaces u) = prefixAt (rootOut a).namespaces u := by
  rw [rootOut_prefix hn]
  by_cases hstd : u ∈ standardUris ∧ u ≠ SRC_NS_URI
  · obtain ⟨p, hp, rfl⟩ := standard_usual hstd.1 hstd.2
    rw [usual_or hu hp]
    suffices prefixAt b.namespaces p.1 = none ∨ prefixAt b.namespaces p.1 = some p.2 by
      rw [usual_default p hp]
      rcases this with e | e <;> rw [e] <;> rfl
    have key : ∀ (f : Opts) (d : Str), prefixAt defaultNamespaces p.1 = some d → (isoption a.options f = true → prefixAt b.namespaces p.1 = some ((prefixAt a.namespaces p.1).getD d)) →
        (isoption a.options f = false → prefixAt b.namespaces p.1 = none) → prefixAt b.namespaces p.1 = none ∨ prefixAt b.namespaces p.1 = some p.2 := by
      intro f d hd h1 h2
      cases hf : isoption a.options f with
      | false => exact .inl (h2 hf)
      | true =>
        right
        rw [h1 hf]
        have : d = p.2 := by have := usual_default p hp; rw [hd] at this; simpa using this
        subst this
        rcases usual_at hu hp with e | e <;> rw [e] <;> rfl
    obtain ⟨x1, x2, x3, x4⟩ := hs.absent
    have hp' := hp
    simp only [usualPrefixes, List.mem_cons, List.not_mem_nil, or_false] at hp'
    rcases hp' with e | e | e | e
    · subst e; exact .inl x1
    · subst e; exact key OPTION_DEBUG _ (usual_default _ hp) hs.errors x4
    · subst e; exact key OPTION_POSITION _ (usual_default _ hp) hs.positions x3
    · subst e; exact .inl x2
  · have : u = SRC_NS_URI ∨ u ∉ [SRC_NS_URI, CPP_NS_URI, ERROR_NS_URI, POSITION_NS_URI, OPENMP_NS_URI] := by
      by_cases h1 : u = SRC_NS_URI
      · exact .inl h1
      · exact .inr (fun h2 => hstd ⟨h2, h1⟩)
    have e : prefixAt b.namespaces u = prefixAt a.namespaces u := hs.prefixes u this
    rw [e]

theorem solo_prefix {a : Archive} {j : Job} (hA : isoption a.options OPTION_ARCHIVE = false) (hT : TableOk (jobOut a j.ua j.u 0).namespaces)
    (honce : ((unitNamespaces j.ua j.u).map (·.uri)).Nodup) (hu : UsualPrefixes (unitNamespaces j.ua j.u)) (u : Str) :
    (prefixAt (registerAll startingNamespaces (jobOut a j.ua j.u 0).marked.declared) u).or (prefixAt defaultNamespaces u) = prefixAt (jobOut a j.ua j.u 0).namespaces u := by
  have hnodup : ((jobOut a j.ua j.u 0).marked.declared.map (·.uri)).Nodup := declared_uris_nodup (markUsed_ok hT .SRC)
  rw [prefixAt_registerAll _ hnodup]
  by_cases hd : u ∈ (jobOut a j.ua j.u 0).marked.declared.map (·.uri)
  · rw [declared_prefix hT hd]
    cases hx : prefixAt (jobOut a j.ua j.u 0).namespaces u with
    | some p => rfl
    | none =>
      rw [← declared_prefix hT hd] at hx
      exact absurd hd (prefixAt_none.mp hx)
  · rw [prefixAt_none.mpr hd]
    have hd' := hd
    rw [declared_iff (o := (jobOut a j.ua j.u 0).marked) (markUsed_ok hT .SRC)] at hd'
    have e : (jobOut a j.ua j.u 0).marked.namespaces.map (·.uri) = (jobOut a j.ua j.u 0).namespaces.map (·.uri) := markUsed_uris _ _
    have hdep : (jobOut a j.ua j.u 0).marked.depth = 0 := rfl
    rw [e, hdep] at hd'
    simp only [true_or, true_and, not_or] at hd'
    obtain ⟨⟨n1, _, n3⟩, _⟩ := hd'
    rw [prefixAt_none.mpr (by simpa [startingNamespaces] using n1 : u ∉ startingNamespaces.map (·.uri))]
    show prefixAt defaultNamespaces u = _
    by_cases hs : u ∈ standardUris
    · obtain ⟨p, hp, rfl⟩ := standard_usual hs n1
      have : prefixAt (jobOut a j.ua j.u 0).namespaces p.1 = _ := merge_default_prefix honce p.1
      rw [this, usual_or hu hp, usual_default p hp]
    · rw [prefixAt_none.mpr (fun h => n3 ⟨hs, h⟩), prefixAt_none.mpr (by rw [default_uris]; exact hs)]

/-! ### Units that were read can be written -/

theorem unitContent_of {b : Archive} (hr : b.revisionNumber = none) {v : UnitData} {c : Option Str} {pre post : Str}
    (h1 : v.srcml = pre ++ (c.getD [] ++ post) ∨ c.getD [] = []) (h2 : v.contentBegin = pre.length) (h3 : (v.contentEnd : Int) = pre.length + (c.getD []).length + 1) :
    unitContent b v = .val (contentOf c) := by
  unfold unitContent contentOf
  rw [hr]
  dsimp only
  have hsz : (v.contentEnd : Int) - v.contentBegin - 1 = ((c.getD []).length : Nat) := by rw [h3, h2]; omega
  rw [hsz]
  cases c with
  | none => rfl
  | some s =>
    simp only [Option.getD_some] at h1 ⊢
    by_cases hs : s = []
    · subst hs; rfl
    · have hpos : 0 < s.length := List.length_pos_iff.mpr hs
      rw [if_pos (by omega), if_neg hs, h2]
      rcases h1 with h1 | h1
      · rw [h1, List.drop_left, Int.toNat_natCast, List.take_left]
      · exact absurd h1 hs

theorem read_unitContent {b : Archive} (hr : b.revisionNumber = none) (root attrs : List (Str × Str)) (name : Str) (c : Option Str) (evs : List Ev) (cpp : Bool) :
    unitContent b (readUnitData attrs (readUnit root attrs name c evs cpp)) = .val (contentOf c) := by
  refine unitContent_of hr (pre := readTag root attrs name ++ ['>']) (post := '<' :: '/' :: name ++ ['>']) ?_ ?_ ?_
  · cases c with
    | none => exact .inr rfl
    | some s => left; simp [readUnitData, readUnit, readText]
  · simp [readUnitData, readUnit]
  · simp only [readUnitData, readUnit, List.length_append, List.length_cons, List.length_nil]
    omega

theorem solo_unitContent {b : Archive} (hr : b.revisionNumber = none) (attrs : List (Str × Str)) (name : Str) (c : Option Str) (evs : List Ev) :
    unitContent b (readUnitData attrs (soloUnit attrs name c evs)) = .val (contentOf c) := by
  refine unitContent_of hr (pre := '<' :: name ++ attrsText attrs ++ ['>']) (post := '<' :: '/' :: name ++ ['>']) ?_ ?_ ?_
  · cases c with
    | none => exact .inr rfl
    | some s => left; simp [readUnitData, soloUnit, unitElement]
  · simp [readUnitData, soloUnit]
    omega
  · simp only [readUnitData, soloUnit, List.length_append, List.length_cons, List.length_nil]
    omega

/-- A unit that was read from `b` can be written again, if the table of `b` is that of a clean table `T`. -/
theorem copyable_of {o : Out} {m : UnitMeta} {b : Archive} {T : List Namespace} {c : Option Str} {col : Collected} (hp : CleanPrefixes o.namespaces) (hm : CleanMeta m)
    (hc : ∀ p ∈ attrPairs m.attributes, ':' ∉ p.1) (he : m.attributes.length % 2 = 0) (hS : isoption o.options OPTION_STORE_ENCODING = false)
    (hl : ∃ l, m.language = some l) (hr : b.revisionNumber = none) (hn : (b.namespaces.map (·.uri)).Nodup) (hT : CleanPrefixes T) (hTn : (T.map (·.uri)).Nodup)
    (hT2 : ∀ u, (prefixAt b.namespaces u).or (prefixAt defaultNamespaces u) = prefixAt T u) (hcpp : prefixAt T CPP_NS_URI = some "cpp".toList)
    (hcont : unitContent b (readUnitData (o.tagAttrs m) col) = .val (contentOf c)) :
    Copyable b (readUnitData (o.tagAttrs m) col) c := by
  have hu := update_unitAttrs (u := {}) hp hm hc he rfl
  have hattr : readAttributes o m = m.attributes := by
    unfold readAttributes
    rw [hS]
    rfl
  rw [hattr] at hu
  have htab : (readUnitData (o.tagAttrs m) col).namespaces = none ∨ (readUnitData (o.tagAttrs m) col).namespaces = some (markUriUsed defaultNamespaces CPP_NS_URI) := by
    unfold readUnitData
    cases col.cpp
    · exact .inl rfl
    · exact .inr rfl
  obtain ⟨k1, k2⟩ := copy_prefix (v := readUnitData (o.tagAttrs m) col) hn hr htab
  have k3 : ∀ u, prefixAt (mergeNamespaces defaultNamespaces (unitNamespaces b (readUnitData (o.tagAttrs m) col))) u = prefixAt T u := fun u => (k2 u).trans (hT2 u)
  obtain ⟨l, hl⟩ := hl
  have hdata : readUnitData (o.tagAttrs m) col = readUnitData (o.tagAttrs m) col := rfl
  have hform : readUnitData (o.tagAttrs m) col = { ({} : UnitData) with
      revision := m.revision.or ({} : UnitData).revision, language := m.language.or none, url := m.url.or none, filename := m.filename.or none, version := m.version.or none,
      timestamp := m.timestamp.or none, hash := m.hash.or none, attributes := m.attributes,
      namespaces := if col.cpp then some (markUriUsed defaultNamespaces CPP_NS_URI) else none, readHeader := true, readBody := true, srcml := col.srcml, src := some col.src,
      contentBegin := col.contentBegin, contentEnd := col.contentEnd, insertBegin := col.insertBegin, insertEnd := col.insertEnd, loc := col.loc } := by
    unfold readUnitData
    rw [hu]
  refine ⟨htab, hn, rfl, hr, hcont, hT.of_prefixAt hTn k1 k3, k1, by rw [k3, hcpp]; decide, by rw [hform], ?_, ?_, ?_, ?_, ?_, ?_⟩
  · rw [hform]
    intro x hx
    simp only [Option.or_none] at hx
    have hv := hm.values x
    simp only [List.mem_cons, List.not_mem_nil, or_false] at hv hx
    rcases hx with hx | hx | hx | hx | hx | hx | hx
    · cases hr' : m.revision with
      | none =>
        rw [hr'] at hx
        have hx : some x = some "1.0.0".toList := hx
        simp only [Option.some.injEq] at hx
        subst hx
        decide
      | some r => rw [hr'] at hx; exact hv (.inl (by rw [hr']; exact hx))
    · exact hv (.inr (.inl hx))
    · exact hv (.inr (.inr (.inl hx)))
    · exact hv (.inr (.inr (.inr (.inl hx))))
    · exact hv (.inr (.inr (.inr (.inr (.inl hx)))))
    · exact hv (.inr (.inr (.inr (.inr (.inr (.inl hx))))))
    · exact hv (.inr (.inr (.inr (.inr (.inr (.inr (.inl hx)))))))
  · exact ⟨l, by rw [hform, hl]; rfl⟩
  · rw [hform]
    cases m.revision with
    | none => exact ⟨_, rfl⟩
    | some r => exact ⟨r, rfl⟩
  · rw [hform]; exact hm.userNames
  · rw [hform]; exact hm.userNodup
  · rw [hform]; exact hm.userValues

/-- What is known of a unit that was read. -/
structure Known (b : Archive) (v : UnitData) (j : ReadJob) : Prop where
  copyable : Copyable b v j.content
  wellFormed : j.WellFormed
  escapes : EscapesOk j.evs
  inner : (UnitObj.getInner { data := v }).1 = some (j.content.getD [])
  src : v.src = some (sourceOf j.evs)
  names : ∀ p ∈ attrPairs v.attributes, ':' ∉ p.1
  pairs : v.attributes.length % 2 = 0

theorem meta_language (a ua : Archive) (u : UnitData) : ∃ l, (unitMetaOf a ua u).language = some l := ⟨_, rfl⟩

theorem read_known {b : Archive} {v : UnitData} {j : ReadJob} (h : ReadBack b v j) : Known b v j := by
  cases h with
  | archive calls a hmade th js hA hD hS ha hk hu hj hm s doc hw hd fs wants hf h hh b hb i hi v hv =>
    have hne : js ≠ [] := by rintro rfl; exact absurd hi (by simp)
    obtain ⟨s', h1, h2, _⟩ := archive_written (th := th) hA (js := js.map (·.toJob)) (by simpa using hne) ha.prefixes ha.values
      (by simpa using fun j hjm => (hj j hjm).fits)
    cases hw.symm.trans h1
    rw [hd] at h2
    simp only [Option.some.injEq] at h2
    subst h2
    have hf' := hf
    rw [archiveText_body] at hf'
    obtain ⟨h', e1, e2, e3⟩ := document_feeds (wants := wants) ha.prolog' ha.good (us := js.map (·.unitText a)) (by
      intro u hu
      obtain ⟨j, hjm, rfl⟩ := List.mem_map.mp hu
      exact (hj j hjm).good) (by simpa using hne) fs hf'
    rw [hh] at e1
    cases e1
    have hT := created_madeTable calls a hmade
    obtain ⟨b', e4, hs, hbn⟩ := opened_settings hA hD hT ha.toCleanArchive (created_plain calls a hmade hk) wants (us := js.map (·.unitText a)) (by simpa using hne) e3 e2
    rw [← archive_encoding ha hk.encoding (js := js), hb] at e4
    cases e4
    obtain ⟨c, hget⟩ := handed_get ((rootOut a).tagAttrs (rootMeta a)) (js.map (·.unitText a))
      (decide (CPP_NS_URI ∈ declaredUris ((rootOut a).tagAttrs (rootMeta a)))) wants i (by simpa using hi)
    simp only [gets] at hv
    rw [e2, unitsOf_archive, hget] at hv
    have hji := hj js[i] (List.getElem_mem hi)
    have hmi := hm js[i] (List.getElem_mem hi)
    cases hwi : (wants[i]?).getD false with
    | false => rw [hwi] at hv; simp at hv
    | true =>
      rw [hwi] at hv
      simp only [if_true, Option.some.injEq, List.getElem_map] at hv
      have hcont := read_content ha hji c
      have hmeta := read_meta hji hmi.1 hmi.2 (readUnit ((rootOut a).tagAttrs (rootMeta a)) ((jobOut a js[i].ua js[i].u 1).tagAttrs (unitMetaOf a js[i].ua js[i].u))
        (jobOut a js[i].ua js[i].u 1).unitName js[i].content js[i].evs c)
      have hcopy : Copyable b _ js[i].content := copyable_of (o := jobOut a js[i].ua js[i].u 1) (m := unitMetaOf a js[i].ua js[i].u) (T := (rootOut a).namespaces) hji.fits.prefixes hji.fits.values hmi.1 hmi.2 hS
        (meta_language _ _ _) hs.srcdiff hs.once ha.prefixes hT.table.nodup (archive_prefix hT.nodup hs hu)
        (by rw [rootOut_prefix hT.nodup]; exact usual_or hu (p := (CPP_NS_URI, "cpp".toList)) (by simp [usualPrefixes]))
        (read_unitContent hs.srcdiff ((rootOut a).tagAttrs (rootMeta a)) _ (jobOut a js[i].ua js[i].u 1).unitName js[i].content js[i].evs c)
      have hattr := hmeta.attributes
      rw [show (jobOut a js[i].ua js[i].u 1).options = a.options from rfl, hS] at hattr
      simp only [Bool.false_eq_true, if_false, List.nil_append] at hattr
      subst hv
      exact ⟨hcopy, hji.wellFormed, hji.escapes, hcont.inner, hcont.src, (by
        intro p hp
        exact hmi.1 p (by rw [← hattr]; exact hp)), (by
        refine Eq.trans (congrArg (fun l => l.length % 2) hattr) hmi.2)⟩
  | solitary a th j hA hD hS hj hc he ht hq hflags honce hu s doc hw hd fs wants hf h hh b hb v hv =>
    obtain ⟨s', h1, h2, _⟩ := solitary_written (th := th) hA hj.fits
    cases hw.symm.trans h1
    rw [hd] at h2
    simp only [Option.some.injEq] at h2
    subst h2
    have hf' := hf
    rw [solo_text] at hf'
    obtain ⟨h', e1, e2, e3⟩ := solo_document (wants := wants) hj.prolog hj.instruction (unitName_local hj.fits.prefixes) hj.cpp
      (unitName_valid hj.fits.prefixes) (tagAttrs_valid hj.fits.prefixes hj.fits.values) (tagAttrs_nodup hj.fits.prefixes hj.fits.values)
      ⟨hj.wellFormed, hj.escapes⟩ hj.names fs hf'
    rw [hh] at e1
    cases e1
    have e4 := solo_opened hD hj hc he ht hq hflags e2 e3
    rw [hb] at e4
    simp only [Run.val.injEq] at e4
    have hr : b.revisionNumber = none := by rw [e4]; rfl
    have hbn : b.namespaces = registerAll startingNamespaces (jobOut a j.ua j.u 0).marked.declared := by rw [e4]; rfl
    have hT : TableOk (jobOut a j.ua j.u 0).namespaces := merge_ok default_tableOk (fun n hn => (hflags n hn).1)
    simp only [gets] at hv
    rw [e2, solo_units] at hv
    cases hwi : wants.headD false with
    | false => rw [hwi] at hv; simp at hv
    | true =>
      rw [hwi] at hv
      simp only [if_true, List.getElem?_cons_zero, Option.some.injEq] at hv
      have hcont := solo_content hj
      have hmeta := solo_meta hj hc he (soloUnit ((jobOut a j.ua j.u 0).tagAttrs (unitMetaOf a j.ua j.u)) (jobOut a j.ua j.u 0).unitName j.content j.evs)
      have hcopy : Copyable b _ j.content := copyable_of (o := jobOut a j.ua j.u 0) (m := unitMetaOf a j.ua j.u) (T := (jobOut a j.ua j.u 0).namespaces) hj.fits.prefixes hj.fits.values hc he hS
        (meta_language _ _ _) hr (by rw [hbn]; exact registerAll_nodup (ns := startingNamespaces) _ (by decide)) hj.fits.prefixes hT.nodup
        (by rw [hbn]; exact solo_prefix hA hT honce hu)
        (by rw [← usual_or hu (p := (CPP_NS_URI, "cpp".toList)) (by simp [usualPrefixes])]; exact merge_default_prefix honce _)
        (solo_unitContent hr _ (jobOut a j.ua j.u 0).unitName j.content j.evs)
      have hattr := hmeta.attributes
      rw [show (jobOut a j.ua j.u 1).options = a.options from rfl, hS] at hattr
      simp only [Bool.false_eq_true, if_false, List.nil_append] at hattr
      subst hv
      exact ⟨hcopy, hj.wellFormed, hj.escapes, hcont.inner, hcont.src, (by
        intro p hp
        exact hc p (by rw [← hattr]; exact hp)), (by
        refine Eq.trans (congrArg (fun l => l.length % 2) hattr) he)⟩

/-! ### The copies -/

/-- A unit that was read, as it is written again. -/
def copyJob (x : Archive × UnitData × ReadJob) : ReadJob := ⟨⟨x.1, x.2.1, contentOf x.2.2.content⟩, x.2.2.evs⟩

theorem rootMeta_revision {a : Archive} (h : CarriedArchive a) : ∀ r, a.revision = some r → ValidValue r := by
  intro r hr
  refine h.values.values r ?_
  rw [← hr]
  exact List.mem_cons_self

theorem known_carried {a' : Archive} (ha : CarriedArchive a') {x : Archive × UnitData × ReadJob} (k : Known x.1 x.2.1 x.2.2) : CarriedJob a' (copyJob x) :=
  ⟨k.copyable.job a' (rootMeta_revision ha) 1, contentOf_wellFormed k.wellFormed _ _, k.escapes, k.copyable.noCpp a' 1 (k.copyable.meta a' (rootMeta_revision ha))⟩

theorem copy_carried {a' : Archive} (ha : CarriedArchive a') {x : Archive × UnitData × ReadJob} (hx : ReadBack x.1 x.2.1 x.2.2) : CarriedJob a' (copyJob x) := known_carried ha (read_known hx)

theorem same_of_meta {a' b : Archive} {v w : UnitData} {j : ReadJob} (k : Known b v j) (hm : SameMeta a' (copyJob (b, v, j)) w)
    (hi : (UnitObj.getInner { data := w }).1 = some ((copyJob (b, v, j)).content.getD [])) (hs : w.src = some (sourceOf (copyJob (b, v, j)).evs)) : SameUnitData v w := by
  obtain ⟨l, hl⟩ := k.copyable.language
  refine ⟨?_, ?_, ?_, ?_, ?_, ?_, ?_⟩
  · rw [hi, k.inner]
    exact congrArg some (contentOf_getD _)
  · rw [hs, k.src]; rfl
  · rw [hm.language, hl]
    show some (v.language.getD _) = _
    rw [hl]; rfl
  · exact hm.filename.trans (revisionOf_none k.copyable.revisionNumber _)
  · exact hm.version.trans (revisionOf_none k.copyable.revisionNumber _)
  · exact hm.timestamp.trans (revisionOf_none k.copyable.revisionNumber _)
  · exact hm.hash.trans (revisionOf_none k.copyable.revisionNumber _)

/-- The same for units of which enough is known. -/
theorem known_copy (xs : List (Archive × UnitData × ReadJob)) (hx : ∀ x ∈ xs, Known x.1 x.2.1 x.2.2) (hne : xs ≠ []) (a' : Archive) (th : ThreadState)
    (hA : isoption a'.options OPTION_ARCHIVE = true) (ha : CarriedArchive a') :
    ∃ s doc, (newIO a' th).calls (.openWrite true .memory :: xs.map (fun x => .writeUnit x.1 (some x.2.1) none) ++ [.close]) = .val s ∧ s.delivered = some doc ∧
      ∀ fs wants, Delivers doc fs → ∃ h : Sax2, ({ wants := wants } : Sax2).feeds fs = .val h ∧ AnyCalls h.log ∧
        ∀ (fin : Finish) (r : Reader), Reach { todo := h.log.filterMap saxCall, finish := fin } Reader.Step r →
          (∀ i (hi : i < r.log.length), (wants[i]?).getD false = decide ((r.log[i]).1 = .read)) →
          ∀ i (hi : i < r.log.length),
            (∀ hn : i < xs.length, (r.log[i]).1 = .read → ∃ w, gets h.log (r.log[i]).2 = some w ∧ SameUnitData xs[i].2.1 w ∧ w.revision = xs[i].2.1.revision ∧ w.url = none ∧
              (isoption a'.options OPTION_STORE_ENCODING = false → w.attributes = xs[i].2.1.attributes)) ∧
            (xs.length ≤ i → (r.log[i]).2 = none) := by
  have hjobs : ∀ j ∈ xs.map copyJob, CarriedJob a' j := by
    intro j hj
    obtain ⟨x, h1, rfl⟩ := List.mem_map.mp hj
    exact known_carried ha (hx x h1)
  have hnames : ∀ j ∈ xs.map copyJob, (∀ p ∈ attrPairs j.u.attributes, ':' ∉ p.1) ∧ j.u.attributes.length % 2 = 0 := by
    intro j hj
    obtain ⟨x, h1, rfl⟩ := List.mem_map.mp hj
    exact ⟨(hx x h1).names, (hx x h1).pairs⟩
  obtain ⟨s, doc, h1, h2, h3⟩ := C25_reads a' th (xs.map copyJob) hA (by simpa using hne) ha hjobs hnames
  refine ⟨s, doc, ?_, h2, ?_⟩
  · rw [← h1]
    congr 3
    unfold writeCalls
    simp [copyJob]
  · intro fs wants hd
    obtain ⟨h, e1, e2, e3⟩ := h3 fs wants hd
    refine ⟨h, e1, e2, ?_⟩
    intro fin r hr hw i hi
    obtain ⟨g1, g2⟩ := e3 fin r hr hw i hi
    refine ⟨?_, fun hl => g2 (by simpa using hl)⟩
    intro hn hread
    obtain ⟨w, w1, w2, w3⟩ := g1 (by simpa using hn) hread
    rw [List.getElem_map] at w2 w3
    have k := hx xs[i] (List.getElem_mem hn)
    obtain ⟨r, hrev⟩ := k.copyable.revision
    refine ⟨w, w1, same_of_meta k w2 w3.inner w3.src, ?_, ?_, ?_⟩
    · rw [w2.revision, hrev]
      show some ((if isoption a'.options OPTION_ARCHIVE && xs[i].2.1.revision.isSome then xs[i].2.1.revision else a'.revision).getD _) = _
      rw [hA, hrev]; rfl
    · rw [w2.url]
      show (if isoption a'.options OPTION_ARCHIVE then none else _) = none
      rw [hA]; rfl
    · intro ho
      rw [w2.attributes]
      show (if isoption a'.options OPTION_STORE_ENCODING = true then _ else []) ++ xs[i].2.1.attributes = _
      rw [ho]; rfl

/-- C79. Units that were read from documents of the library, each from its own, or several from the same, are written to another archive, with any settings, in memory; the archive is closed, and the text is read. Nothing
fails, and in every interleaving of the two threads of the reader the `i`-th call of the user, if it is a read, gives the copy of the `i`-th unit: the inner text is the same, character by character, and so are the source text and
all metadata, and the attributes, unless the new archive stores the encoding; only the url of a unit that was the root of its document is lost. After the last copy every call gives the end.
Partial: the namespaces of srcML, but that of srcML itself, have their usual prefixes in the first archive, which stores no encoding: see `C79_finding_…`. -/
theorem C79_copy_partial (xs : List (Archive × UnitData × ReadJob)) (hx : ∀ x ∈ xs, ReadBack x.1 x.2.1 x.2.2) (hne : xs ≠ []) (a' : Archive) (th : ThreadState)
    (hA : isoption a'.options OPTION_ARCHIVE = true) (ha : CarriedArchive a') :
    ∃ s doc, (newIO a' th).calls (.openWrite true .memory :: xs.map (fun x => .writeUnit x.1 (some x.2.1) none) ++ [.close]) = .val s ∧ s.delivered = some doc ∧
      ∀ fs wants, Delivers doc fs → ∃ h : Sax2, ({ wants := wants } : Sax2).feeds fs = .val h ∧ AnyCalls h.log ∧
        ∀ (fin : Finish) (r : Reader), Reach { todo := h.log.filterMap saxCall, finish := fin } Reader.Step r →
          (∀ i (hi : i < r.log.length), (wants[i]?).getD false = decide ((r.log[i]).1 = .read)) →
          ∀ i (hi : i < r.log.length),
            (∀ hn : i < xs.length, (r.log[i]).1 = .read → ∃ w, gets h.log (r.log[i]).2 = some w ∧ SameUnitData xs[i].2.1 w ∧ w.revision = xs[i].2.1.revision ∧ w.url = none ∧
              (isoption a'.options OPTION_STORE_ENCODING = false → w.attributes = xs[i].2.1.attributes)) ∧
            (xs.length ≤ i → (r.log[i]).2 = none) :=
  known_copy xs (fun x h => read_known (hx x h)) hne a' th hA ha

theorem known_copy_solitary (b : Archive) (v : UnitData) (j : ReadJob) (k : Known b v j) (a' : Archive) (th : ThreadState)
    (hA : isoption a'.options OPTION_ARCHIVE = false) (hrev : ∀ r, a'.revision = some r → ValidValue r) (hp : PlainProlog (rootOut a')) (hpi : (rootOut a').processingInstruction = none)
    (hn : PlainNames j.evs) :
    ∃ s doc, (newIO a' th).calls [.openWrite true .memory, .writeUnit b (some v) none, .close] = .val s ∧ s.delivered = some doc ∧
      ∀ fs wants, Delivers doc fs → ∃ h : Sax2, ({ wants := wants } : Sax2).feeds fs = .val h ∧ AnyCalls h.log ∧
        ∀ (fin : Finish) (r : Reader), Reach { todo := h.log.filterMap saxCall, finish := fin } Reader.Step r →
          (∀ hi : 0 < r.log.length, wants.headD false = decide ((r.log[0]).1 = .read)) →
          ∀ i (hi : i < r.log.length),
            (i = 0 → (r.log[i]).1 = .read → ∃ w, gets h.log (r.log[i]).2 = some w ∧ SameUnitData v w ∧ w.revision = some (a'.revision.getD "1.0.0".toList) ∧ w.url = v.url ∧
              (isoption a'.options OPTION_STORE_ENCODING = false → w.attributes = v.attributes)) ∧
            (0 < i → (r.log[i]).2 = none) := by
  have hm := k.copyable.meta a' hrev
  have hj : CarriedSolo a' (copyJob (b, v, j)) := ⟨hp, hpi, k.copyable.job a' hrev 0, contentOf_wellFormed k.wellFormed _ _, k.escapes, k.copyable.noCpp a' 0 hm, hn⟩
  obtain ⟨s, doc, h1, h2, h3⟩ := C25_solitary_reads a' th (copyJob (b, v, j)) hA hj k.names k.pairs
  refine ⟨s, doc, h1, h2, ?_⟩
  intro fs wants hd
  obtain ⟨h, e1, e2, e3⟩ := h3 fs wants hd
  refine ⟨h, e1, e2, ?_⟩
  intro fin r hr hw i hi
  obtain ⟨g1, g2⟩ := e3 fin r hr hw i hi
  refine ⟨?_, g2⟩
  intro h0 hread
  obtain ⟨w, w1, w2, w3⟩ := g1 h0 hread
  refine ⟨w, w1, same_of_meta k w2 w3.inner w3.src, ?_, ?_, ?_⟩
  · rw [w2.revision]
    show some ((if isoption a'.options OPTION_ARCHIVE && v.revision.isSome then v.revision else a'.revision).getD _) = _
    rw [hA]; rfl
  · rw [w2.url]
    show (if isoption a'.options OPTION_ARCHIVE then none else revisionOf b v.url) = v.url
    rw [hA, revisionOf_none k.copyable.revisionNumber]; rfl
  · intro ho
    rw [w2.attributes]
    show (if isoption a'.options OPTION_STORE_ENCODING = true then _ else []) ++ v.attributes = _
    rw [ho]; rfl

/-- C79, solitary mode: the unit is written as the root of a document. The url of a unit that was the root of its document is kept; the revision is that of the new archive. -/
theorem C79_copy_solitary_partial (b : Archive) (v : UnitData) (j : ReadJob) (hx : ReadBack b v j) (a' : Archive) (th : ThreadState)
    (hA : isoption a'.options OPTION_ARCHIVE = false) (hrev : ∀ r, a'.revision = some r → ValidValue r) (hp : PlainProlog (rootOut a')) (hpi : (rootOut a').processingInstruction = none)
    (hn : PlainNames j.evs) :
    ∃ s doc, (newIO a' th).calls [.openWrite true .memory, .writeUnit b (some v) none, .close] = .val s ∧ s.delivered = some doc ∧
      ∀ fs wants, Delivers doc fs → ∃ h : Sax2, ({ wants := wants } : Sax2).feeds fs = .val h ∧ AnyCalls h.log ∧
        ∀ (fin : Finish) (r : Reader), Reach { todo := h.log.filterMap saxCall, finish := fin } Reader.Step r →
          (∀ hi : 0 < r.log.length, wants.headD false = decide ((r.log[0]).1 = .read)) →
          ∀ i (hi : i < r.log.length),
            (i = 0 → (r.log[i]).1 = .read → ∃ w, gets h.log (r.log[i]).2 = some w ∧ SameUnitData v w ∧ w.revision = some (a'.revision.getD "1.0.0".toList) ∧ w.url = v.url ∧
              (isoption a'.options OPTION_STORE_ENCODING = false → w.attributes = v.attributes)) ∧
            (0 < i → (r.log[i]).2 = none) :=
  known_copy_solitary b v j (read_known hx) a' th hA hrev hp hpi hn

/-- The unit `w`, read from `b'`, is a copy of the unit `v`, read from `b`, or a copy of a copy of it, and so on. Each time units that were read, from whatever documents, are written to an archive that was set up with the library, the text
is delivered in any pieces, and the unit is read again. -/
inductive Spec.CopyOf (b : Archive) (v : UnitData) : Archive → UnitData → Prop
  | itself : CopyOf b v b v
  | copy (b₁ : Archive) (v₁ : UnitData) (hcopy : CopyOf b v b₁ v₁) (xs : List (Archive × UnitData × ReadJob)) (hx : ∀ x ∈ xs, ReadBack x.1 x.2.1 x.2.2)
      (calls : List SetCall) (a : Archive) (hmade : runCalls srcml_archive_create calls = .val a) (th : ThreadState)
      (hA : isoption a.options OPTION_ARCHIVE = true) (hD : isoption a.options OPTION_NAMESPACE_DECL = true)
      (hS : isoption a.options OPTION_STORE_ENCODING = false) (ha : CarriedArchive a) (hk : KeptSettings a) (hu : UsualPrefixes a.namespaces)
      (s : ArchiveIO) (doc : Str)
      (hw : (newIO a th).calls (.openWrite true .memory :: xs.map (fun x => .writeUnit x.1 (some x.2.1) none) ++ [.close]) = .val s) (hd : s.delivered = some doc)
      (fs : List Feed) (wants : List Bool) (hf : Delivers doc fs) (h : Sax2) (hh : ({ wants := wants } : Sax2).feeds fs = .val h)
      (b' : Archive) (hb : openedArchive srcml_archive_create (declaredEncoding doc) h = .val b')
      (i : Nat) (hi : i < xs.length) (h₁ : xs[i].1 = b₁ ∧ xs[i].2.1 = v₁) (w : UnitData) (hv : gets h.log (some (some i, some i)) = some w) : CopyOf b v b' w

/-- C79. However often a unit is copied, it stays the same: inner text, source text, metadata, revision and attributes. -/
theorem C79_any_number_partial (b : Archive) (v : UnitData) (j : ReadJob) (hx : ReadBack b v j) (b' : Archive) (w : UnitData) (h : CopyOf b v b' w) :
    SameUnitData v w ∧ w.revision = v.revision ∧ w.attributes = v.attributes ∧ ∃ j', ReadBack b' w j' := by
  induction h with
  | itself => exact ⟨⟨rfl, rfl, rfl, rfl, rfl, rfl, rfl⟩, rfl, rfl, j, hx⟩
  | copy b₁ v₁ hcopy xs hxs calls a hmade th hA hD hS ha hk hu s doc hw hd fs wants hf h hh b' hb i hi h₁ w hv ih =>
    obtain ⟨rfl, rfl⟩ := h₁
    obtain ⟨i1, i2, i3, -⟩ := ih
    have hne : xs ≠ [] := by rintro rfl; exact absurd hi (by simp)
    have hjobs : ∀ j ∈ xs.map copyJob, CarriedJob a j := by
      intro j hj
      obtain ⟨x, h1, rfl⟩ := List.mem_map.mp hj
      exact copy_carried ha (hxs x h1)
    have hnames : ∀ j ∈ xs.map copyJob, (∀ p ∈ attrPairs j.u.attributes, ':' ∉ p.1) ∧ j.u.attributes.length % 2 = 0 := by
      intro j hj
      obtain ⟨x, h1, rfl⟩ := List.mem_map.mp hj
      exact ⟨(read_known (hxs x h1)).names, (read_known (hxs x h1)).pairs⟩
    have hcalls : (.openWrite true .memory :: xs.map (fun x => .writeUnit x.1 (some x.2.1) none) ++ [.close] : List IoCall) =
        .openWrite true .memory :: writeCalls ((xs.map copyJob).map (·.toJob)) ++ [.close] := by
      congr 2
      unfold writeCalls
      simp [copyJob]
    rw [hcalls] at hw
    obtain ⟨s', doc', h1, h2, h3⟩ := C25_round_trip_partial a th (xs.map copyJob) hA (by simpa using hne) ha hjobs hnames
    cases hw.symm.trans h1
    cases hd.symm.trans h2
    obtain ⟨h', e1, _, _, e4⟩ := h3 fs wants hf
    cases hh.symm.trans e1
    obtain ⟨attrs, c, g1, g2, _, g4⟩ := e4 i (by simpa using hi)
    simp only [gets, g1] at hv
    have hback : ReadBack b' w ((xs.map copyJob)[i]'(by simpa using hi)) := .archive calls a hmade th (xs.map copyJob) hA hD hS ha hk hu hjobs hnames s doc hw hd fs wants hf h hh b' hb i (by simpa using hi) w (by simp only [gets, g1]; exact hv)
    cases c with
    | none => simp at hv
    | some c =>
      simp only [Option.some.injEq] at hv
      obtain ⟨w2, w3⟩ := g4 c rfl
      rw [hv] at w2 w3
      rw [List.getElem_map] at w2 w3
      have k := read_known (hxs xs[i] (List.getElem_mem hi))
      obtain ⟨r, hrev⟩ := k.copyable.revision
      have hs := same_of_meta k w2 w3.inner w3.src
      refine ⟨⟨hs.inner.trans i1.inner, hs.src.trans i1.src, hs.language.trans i1.language, hs.filename.trans i1.filename, hs.version.trans i1.version, hs.timestamp.trans i1.timestamp, hs.hash.trans i1.hash⟩, ?_, ?_, _, hback⟩
      · rw [← i2, w2.revision, hrev]
        show some ((if isoption a.options OPTION_ARCHIVE && xs[i].2.1.revision.isSome then xs[i].2.1.revision else a.revision).getD _) = _
        rw [hA, hrev]; rfl
      · rw [← i3, w2.attributes]
        show (if isoption a.options OPTION_STORE_ENCODING = true then _ else []) ++ xs[i].2.1.attributes = _
        rw [hS]; rfl

/-! ### Instances and findings -/

/-- The units of a document, and the archive that is opened. -/
def readDoc (doc : Str) (n : Nat) : Option (Archive × List UnitData) :=
  match ({ wants := List.replicate n true } : Sax2).feeds (pieces doc) with
  | .val h =>
    match openedArchive srcml_archive_create (declaredEncoding doc) h with
    | .val b => some (b, (List.range n).filterMap (fun i => gets h.log (some (some i, some i))))
    | .ub => none
  | .ub => none

/-- The text of an archive with the units. -/
def written (a : Archive) (us : List (Archive × UnitData)) : Option Str :=
  match (newIO a {}).calls (.openWrite true .memory :: us.map (fun x => .writeUnit x.1 (some x.2) none) ++ [.close]) with
  | .val s => s.delivered
  | .ub => none

/-- A unit is written to `a` and read, and the copy written to `a'`: the text of the second document. -/
def copied (a a' : Archive) (u : UnitData) : Option Str :=
  match written a [(a, u)] with
  | some doc =>
    match readDoc doc 1 with
    | some (b, [v]) => written a' [(b, v)]
    | _ => none
  | none => none

/-- The text of the archive `backArchive` with one unit. -/
@[irreducible] def copyDoc : Str := (written backArchive [(backArchive, backJob.u)]).getD []

/-- The hypotheses of `C79_copy_partial`, of `C79_copy_solitary_partial` and of `C79_any_number_partial` are met: a unit that was read from the archive `backArchive`. -/
theorem copy_sample : ∃ b v, ReadBack b v backJob ∧ v.src = some ['a'] ∧ PlainNames backJob.evs ∧
    b.namespaces.map (fun n => (n.uri, n.prefix_)) = [(SRC_NS_URI, "s".toList), (POSITION_NS_URI, "pos".toList), ("http://e.org".toList, "ex".toList)] ∧ isoption b.options OPTION_DEBUG = false := by
  have hw : ∃ s, (newIO backArchive {}).calls (.openWrite true .memory :: writeCalls ([backJob].map (·.toJob)) ++ [.close]) = .val s ∧ s.delivered = some copyDoc := by
    cases he : (newIO backArchive {}).calls (.openWrite true .memory :: writeCalls ([backJob].map (·.toJob)) ++ [.close]) with
    | ub => exact absurd he (by decide +kernel)
    | val s =>
      refine ⟨s, rfl, ?_⟩
      have hk : (match (newIO backArchive {}).calls (.openWrite true .memory :: writeCalls ([backJob].map (·.toJob)) ++ [.close]) with
        | .val s => s.delivered
        | .ub => none) = some copyDoc := by decide +kernel
      rw [he] at hk
      exact hk
  obtain ⟨s, hs, hd⟩ := hw
  have hdel : Delivers copyDoc (pieces copyDoc) := by
    have h : ∃ d, ({} : Drive).run (afterDecl copyDoc) = some d ∧ d.1.r.pos = .content ∧ d.1.r.stack = [] := by
      refine ⟨(({} : Drive).run (afterDecl copyDoc)).get (by decide +kernel), by simp, ?_, ?_⟩ <;> decide +kernel
    obtain ⟨⟨d, fs⟩, h1, h2, h3⟩ := h
    exact delivers_pieces h1 h2 h3
  have hfind : ∃ h b v, ({ wants := [true] } : Sax2).feeds (pieces copyDoc) = .val h ∧ openedArchive srcml_archive_create (declaredEncoding copyDoc) h = .val b ∧
      gets h.log (some (some 0, some 0)) = some v ∧ v.src = some ['a'] ∧
      b.namespaces.map (fun n => (n.uri, n.prefix_)) = [(SRC_NS_URI, "s".toList), (POSITION_NS_URI, "pos".toList), ("http://e.org".toList, "ex".toList)] ∧ isoption b.options OPTION_DEBUG = false := by
    cases he : ({ wants := [true] } : Sax2).feeds (pieces copyDoc) with
    | ub => exact absurd he (by decide +kernel)
    | val h =>
      have k1 : (match ({ wants := [true] } : Sax2).feeds (pieces copyDoc) with
        | .val h => (match openedArchive srcml_archive_create (declaredEncoding copyDoc) h with
          | .val b => decide (b.namespaces.map (fun n => (n.uri, n.prefix_)) = [(SRC_NS_URI, "s".toList), (POSITION_NS_URI, "pos".toList), ("http://e.org".toList, "ex".toList)]) && !isoption b.options OPTION_DEBUG
          | .ub => false)
        | .ub => false) = true := by decide +kernel
      have k2 : (match ({ wants := [true] } : Sax2).feeds (pieces copyDoc) with
        | .val h => (gets h.log (some (some 0, some 0))).bind (·.src)
        | .ub => none) = some ['a'] := by decide +kernel
      rw [he] at k1 k2
      cases hb : openedArchive srcml_archive_create (declaredEncoding copyDoc) h with
      | ub => dsimp only at k1; rw [hb] at k1; cases k1
      | val b =>
        cases hv : gets h.log (some (some 0, some 0)) with
        | none => dsimp only at k2; rw [hv] at k2; cases k2
        | some v =>
          dsimp only at k2
          rw [hv] at k2
          dsimp only at k1
          rw [hb] at k1
          simp only [Bool.and_eq_true, decide_eq_true_eq, Bool.not_eq_true'] at k1
          exact ⟨h, b, v, rfl, hb, hv, k2, k1⟩
  obtain ⟨h, b, v, f1, f2, f3, f4, f5⟩ := hfind
  refine ⟨b, v, ?_, f4, ?_, f5⟩
  · exact .archive backCalls backArchive (by decide +kernel) {} [backJob] (by decide +kernel) (by decide +kernel) (by decide +kernel) back_carried back_kept (by unfold UsualPrefixes; decide +kernel)
      (by simpa using back_job) (by intro j hj; simp only [List.mem_singleton] at hj; subst hj; exact ⟨(fun p hp => nomatch hp), rfl⟩)
      s copyDoc hs hd (pieces copyDoc) [true] hdel h f1 b f2 0 (by decide) v f3
  · intro n h
    simp [backJob] at h

/-- And the archives to which it is written. -/
example : (isoption backArchive.options OPTION_ARCHIVE = true ∧ CarriedArchive backArchive) ∧ (isoption soloBackArchive.options OPTION_ARCHIVE = false ∧ (rootOut soloBackArchive).processingInstruction = none) := by
  exact ⟨⟨by decide +kernel, back_carried⟩, by decide +kernel, by decide +kernel⟩

/-- A unit with an element of the namespace `uri`. -/
def usingUnit (p : Str) (uri text : Str) : UnitData :=
  { srcml := "<unit>".toList ++ text ++ "</unit>".toList, contentBegin := 6, contentEnd := 7 + text.length, readHeader := true, readBody := true, namespaces := some (markUriUsed (registerNs defaultNamespaces p uri) uri) }

/-- Finding: the prefix of the cpp namespace is another one than usual. The copy declares the usual prefix, and the prefix in the contents is not declared. -/
theorem C79_finding_cpp_prefix : copied (backWith (.registerNamespace (some "q".toList) (some CPP_NS_URI))) (modeArchive true) (usingUnit "q".toList CPP_NS_URI "<q:if/>".toList) =
    some ("<?xml version=\"1.0\" encoding=\"UTF-8\" standalone=\"yes\"?>\n<unit xmlns=\"http://www.srcML.org/srcML/src\" revision=\"1.0.0\">\n\n".toList ++
      "<unit xmlns:cpp=\"http://www.srcML.org/srcML/cpp\" revision=\"1.0.0\" language=\"\"><q:if/></unit>\n\n</unit>\n".toList) := by
  decide +kernel

/-- Finding: a unit with elements of OpenMP is copied: the namespace is not declared any more. -/
theorem C79_finding_openmp : copied (modeArchive true) (modeArchive true) (usingUnit "omp".toList OPENMP_NS_URI "<omp:if/>".toList) =
    some ("<?xml version=\"1.0\" encoding=\"UTF-8\" standalone=\"yes\"?>\n<unit xmlns=\"http://www.srcML.org/srcML/src\" revision=\"1.0.0\">\n\n".toList ++
      "<unit revision=\"1.0.0\" language=\"\"><omp:if/></unit>\n\n</unit>\n".toList) := by
  decide +kernel

/-- Finding: a unit is copied to an archive with another prefix of the srcML namespace, and without positions: the unit keeps the prefixes, which nothing declares. -/
theorem C79_finding_other_prefix : copied backArchive (modeArchive true) (usingUnit "cpp".toList CPP_NS_URI "<s:a pos:start=\"1:1\"/>".toList) =
    some ("<?xml version=\"1.0\" encoding=\"UTF-8\" standalone=\"yes\"?>\n<unit xmlns=\"http://www.srcML.org/srcML/src\" revision=\"1.0.0\">\n\n".toList ++
      "<s:unit xmlns:cpp=\"http://www.srcML.org/srcML/cpp\" revision=\"1.0.0\" language=\"\"><s:a pos:start=\"1:1\"/></s:unit>\n\n</unit>\n".toList) := by
  decide +kernel

/-- Finding: the source encoding is stored, and the unit is copied: it has the attribute twice, and the document is not well-formed. -/
theorem C79_finding_encoding_twice : copied (backWith (.enableOption OPTION_STORE_ENCODING)) (backWith (.enableOption OPTION_STORE_ENCODING)) (usingUnit "cpp".toList CPP_NS_URI "a".toList) =
    some ("<?xml version=\"1.0\" encoding=\"UTF-8\" standalone=\"yes\"?>\n<unit xmlns=\"http://www.srcML.org/srcML/src\" revision=\"1.0.0\" src-encoding=\"UTF-8\">\n\n".toList ++
      "<unit xmlns:cpp=\"http://www.srcML.org/srcML/cpp\" revision=\"1.0.0\" language=\"\" src-encoding=\"UTF-8\" src-encoding=\"UTF-8\">a</unit>\n\n</unit>\n".toList) := by
  decide +kernel

end Srcml
