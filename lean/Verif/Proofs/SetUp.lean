import Verif.Props.ParseCalls
import Verif.Props.ArchiveTables
/-
What every archive has that was set up with the calls of the library, and that a unit parsed under such an archive can be written to it.
-/
set_option linter.unusedSimpArgs false
namespace Srcml
open Spec

/-- The invariant of the set-up calls. -/
structure SetUpOk (a : Archive) : Prop where
  uris : (a.namespaces.map (·.uri)).Nodup
  flags : ∀ n ∈ a.namespaces, FlagsSound n
  revision : a.revision = some "1.0.0".toList
  attributes : a.attributes = []
  registered : ∃ hist, Registered a.registeredLanguages hist

theorem registered_step {r : Registry} {hist : List (Str × Str)} (h : Registered r hist) (e l : Option Str) :
    ∃ hist', Registered (srcml_archive_register_file_extension r e l).2 hist' := by
  cases e with
  | none => exact ⟨hist, h⟩
  | some e => cases l with
    | none => exact ⟨hist, h⟩
    | some l =>
      refine ⟨hist ++ [(e, l)], ?_⟩
      rcases h with rfl | rfl
      · left; unfold runRegistrations; rw [List.foldl_append]; rfl
      · right; unfold globalRegistrations; rw [List.foldl_append]; rfl

theorem setUp_step {a a' : Archive} {c : SetCall} {st : Status} (ha : SetUpOk a) (h : c.run a = .val (st, a')) : SetUpOk a' := by
  have hns := namespaces_step a a' c st h
  have huris : (a'.namespaces.map (·.uri)).Nodup ∧ ∀ n ∈ a'.namespaces, FlagsSound n := by
    rw [hns]
    split
    · refine ⟨?_, registerNs_sound ha.flags _ _⟩
      rw [registerNs_uris]
      split
      · exact ha.uris
      · rename_i hn
        rw [List.nodup_append]
        refine ⟨ha.uris, by simp, ?_⟩
        intro x hx y hy
        simp only [List.mem_singleton] at hy
        subst hy
        intro e; subst e
        exact hn hx
    · exact ⟨ha.uris, ha.flags⟩
  refine ⟨huris.1, huris.2, ?_, ?_, ?_⟩
  · cases c with
    | registerNamespace p u =>
      cases p <;> cases u <;> simp only [SetCall.run, Run.val.injEq, Prod.mk.injEq] at h <;>
        obtain ⟨-, rfl⟩ := h <;> exact ha.revision
    | setProcessingInstruction t d =>
      cases t <;> cases d <;> simp only [SetCall.run, reduceCtorEq, Run.val.injEq, Prod.mk.injEq] at h
      obtain ⟨-, rfl⟩ := h; exact ha.revision
    | registerMacro t d =>
      cases t <;> cases d <;> simp only [SetCall.run, reduceCtorEq, Run.val.injEq, Prod.mk.injEq] at h <;>
        obtain ⟨-, rfl⟩ := h <;> exact ha.revision
    | setSrcdiffRevision n =>
      simp only [SetCall.run] at h
      split at h <;> simp only [Run.val.injEq, Prod.mk.injEq] at h <;> obtain ⟨-, rfl⟩ := h <;> exact ha.revision
    | _ =>
      simp only [SetCall.run, Run.val.injEq, Prod.mk.injEq] at h
      obtain ⟨-, rfl⟩ := h; exact ha.revision
  · cases c with
    | registerNamespace p u =>
      cases p <;> cases u <;> simp only [SetCall.run, Run.val.injEq, Prod.mk.injEq] at h <;>
        obtain ⟨-, rfl⟩ := h <;> exact ha.attributes
    | setProcessingInstruction t d =>
      cases t <;> cases d <;> simp only [SetCall.run, reduceCtorEq, Run.val.injEq, Prod.mk.injEq] at h
      obtain ⟨-, rfl⟩ := h; exact ha.attributes
    | registerMacro t d =>
      cases t <;> cases d <;> simp only [SetCall.run, reduceCtorEq, Run.val.injEq, Prod.mk.injEq] at h <;>
        obtain ⟨-, rfl⟩ := h <;> exact ha.attributes
    | setSrcdiffRevision n =>
      simp only [SetCall.run] at h
      split at h <;> simp only [Run.val.injEq, Prod.mk.injEq] at h <;> obtain ⟨-, rfl⟩ := h <;> exact ha.attributes
    | _ =>
      simp only [SetCall.run, Run.val.injEq, Prod.mk.injEq] at h
      obtain ⟨-, rfl⟩ := h; exact ha.attributes
  · obtain ⟨hist, hr⟩ := ha.registered
    cases c with
    | registerExtension e l =>
      simp only [SetCall.run, Run.val.injEq, Prod.mk.injEq] at h
      obtain ⟨-, rfl⟩ := h
      exact registered_step hr e l
    | registerNamespace p u =>
      cases p <;> cases u <;> simp only [SetCall.run, Run.val.injEq, Prod.mk.injEq] at h <;>
        obtain ⟨-, rfl⟩ := h <;> exact ⟨hist, hr⟩
    | setProcessingInstruction t d =>
      cases t <;> cases d <;> simp only [SetCall.run, reduceCtorEq, Run.val.injEq, Prod.mk.injEq] at h
      obtain ⟨-, rfl⟩ := h; exact ⟨hist, hr⟩
    | registerMacro t d =>
      cases t <;> cases d <;> simp only [SetCall.run, reduceCtorEq, Run.val.injEq, Prod.mk.injEq] at h <;>
        obtain ⟨-, rfl⟩ := h <;> exact ⟨hist, hr⟩
    | setSrcdiffRevision n =>
      simp only [SetCall.run] at h
      split at h <;> simp only [Run.val.injEq, Prod.mk.injEq] at h <;> obtain ⟨-, rfl⟩ := h <;> exact ⟨hist, hr⟩
    | _ =>
      simp only [SetCall.run, Run.val.injEq, Prod.mk.injEq] at h
      obtain ⟨-, rfl⟩ := h; exact ⟨hist, hr⟩

theorem setUp_calls : ∀ (cs : List SetCall) {a a' : Archive}, SetUpOk a → runCalls a cs = .val a' → SetUpOk a'
  | [], a, a', ha, h => by simp only [runCalls, Run.val.injEq] at h; exact h ▸ ha
  | c :: cs, a, a', ha, h => by
    simp only [runCalls] at h
    split at h
    · rename_i st a1 h1
      exact setUp_calls cs (setUp_step ha h1) h
    · cases h

theorem setUp_create : SetUpOk srcml_archive_create where
  uris := by decide +kernel
  flags := starting_sound
  revision := rfl
  attributes := rfl
  registered := ⟨[], .inl rfl⟩

theorem setUp_static : SetUpOk {} where
  uris := by decide +kernel
  flags := starting_sound
  revision := rfl
  attributes := rfl
  registered := ⟨[], .inr rfl⟩

theorem setUp_clone {a : Archive} (h : SetUpOk a) : SetUpOk (cloneOf a) := ⟨h.uris, h.flags, h.revision, h.attributes, h.registered⟩

/-! ### The cpp namespace in the start tag -/

theorem unit_attr_names {o : Out} {m : UnitMeta} (hm : CleanMeta m) {p : Str × Str} (hp : p ∈ present (unitAttrs o m)) : p.1 ≠ "xmlns".toList := by
  unfold present at hp
  obtain ⟨⟨k, v⟩, h1, h2⟩ := List.mem_filterMap.1 hp
  simp only [Option.map_eq_some_iff] at h2
  obtain ⟨v', h3, h4⟩ := h2
  have hk : p.1 = k := by rw [← h4]
  rw [hk]
  unfold unitAttrs at h1
  rcases List.mem_append.1 h1 with h1 | h1
  · simp only [List.mem_cons, Prod.mk.injEq, List.not_mem_nil, or_false] at h1
    rcases h1 with h | h | h | h | h | h | h | h | h | h
    any_goals (rw [h.1]; decide)
    rw [h.1]
    unfold tabsName
    intro e
    split at e
    · revert e; decide
    · have hc : ':' ∈ "xmlns".toList := by rw [← e]; simp
      revert hc; decide
  · have := (hm.userNames _ h1).2.2.1
    intro e
    apply this
    show k.take 5 = _
    rw [e]; rfl

theorem tag_no_cpp {o : Out} {m : UnitMeta} (hm : CleanMeta m) (hp : prefixAt o.namespaces CPP_NS_URI ≠ some []) (hn : (o.namespaces.map (·.uri)).Nodup) :
    ("xmlns".toList, CPP_NS_URI) ∉ o.tagAttrs m := by
  intro h
  unfold Out.tagAttrs at h
  rcases List.mem_append.1 h with h | h
  · unfold Out.tagNs at h
    split at h
    · obtain ⟨n, h1, h2⟩ := List.mem_map.1 h
      unfold nsAttr at h2
      simp only [Prod.mk.injEq] at h2
      have hempty : n.prefix_ = [] := by
        by_cases he : n.prefix_ = []
        · exact he
        · have h3 := h2.1
          unfold nullIfEmpty at h3
          rw [if_neg he] at h3
          unfold xmlnsName at h3
          have := congrArg List.length h3
          simp at this
      unfold Out.declared at h1
      have h1 := (List.mem_filter.1 h1).1
      have hu : (markByOptions o.marked.namespaces o.marked.options).map (·.uri) = o.namespaces.map (·.uri) := by
        rw [markByOptions_uris]; exact markUsed_uris _ _
      have hpre : (markByOptions o.marked.namespaces o.marked.options).map (·.prefix_) = o.namespaces.map (·.prefix_) := by
        rw [markByOptions_prefixes]; exact markUsed_prefixes _ _
      apply hp
      rw [← prefixAt_congr hn hu hpre]
      unfold prefixAt
      rw [← h2.2, findUri_of_mem (by rw [hu]; exact hn) h1]
      simp [hempty]
    · cases h
  · exact unit_attr_names hm h rfl

/-! ### A parsed unit can be written -/

theorem language_valid (n : Nat) (h : n ∈ languageNumbers) : ValidValue (getLanguageString n) := by
  have : ∀ n ∈ languageNumbers, ValidValue (getLanguageString n) := by
    intro n hn
    simp only [languageNumbers, List.mem_cons, List.not_mem_nil, or_false] at hn
    rcases hn with rfl | rfl | rfl | rfl | rfl <;> decide +kernel
  exact this n h

/-- The namespaces with which a unit is written that was parsed under its archive without namespaces of its own. -/
theorem parsed_tables {a : Archive} {n : Nat} {u v : UnitData} {text : Str} {evs : List Ev} (ha : SetUpOk a) (hnum : a.revisionNumber = none) (hn : u.namespaces = none)
    (hp : ParsedUnit a n u v text evs) (d : Nat) :
    (jobOut a a v d).namespaces.map (·.uri) = (mergeNamespaces defaultNamespaces a.namespaces).map (·.uri) ∧
    (jobOut a a v d).namespaces.map (·.prefix_) = (mergeNamespaces defaultNamespaces a.namespaces).map (·.prefix_) := by
  obtain ⟨ns, h1, h2, h3⟩ := hp.namespaces
  have e : namespacesOf a u = a.namespaces := by unfold namespacesOf; rw [hn]; rfl
  rw [e] at h2 h3
  have : (jobOut a a v d).namespaces = mergeNamespaces defaultNamespaces (mergeNamespaces a.namespaces ns) := by
    show mergeNamespaces defaultNamespaces (unitNamespaces a v) = _
    unfold unitNamespaces
    rw [h1, hnum]
    rfl
  rw [this]
  exact merge_back ha.uris h3 h2

theorem parsed_meta {a : Archive} {n : Nat} {u v : UnitData} {enc text : Str} {evs : List Ev} (ha : SetUpOk a) (hnum : a.revisionNumber = none)
    (hl : n ∈ languageNumbers) (hok : WriteOk a (beforeParse a { u with derivedLanguage := n } (some enc))) (hp : ParsedUnit a n u v text evs)
    (he : v.encoding = some enc) : CleanMeta (unitMetaOf a a v) := by
  have hof : ∀ x, revisionOf a x = x := by
    intro x
    unfold revisionOf
    simp only [hnum]
    cases x <;> rfl
  have hm := hok.metadata
  have hvals := hm.values
  simp only [startMeta, beforeParse, List.mem_cons, List.not_mem_nil, or_false] at hvals
  have hattr : v.attributes = u.attributes := hp.same.attributes
  refine ⟨?_, ?_, ?_, ?_⟩
  · intro x hx
    unfold unitMetaOf unitMeta at hx
    simp only [hof, List.mem_cons, List.not_mem_nil, or_false, Option.some.injEq] at hx
    rcases hx with hx | hx | hx | hx | hx | hx | hx | hx
    · split at hx
      · exact hvals x (.inl (hx.trans hp.same.revision))
      · rw [show (archiveTranslator a {}).revision = a.revision from rfl, ha.revision] at hx
        cases hx; decide +kernel
    · rw [hx, show v.language = u.language from hp.same.language, show v.derivedLanguage = n from hp.same.derivedLanguage]
      cases hu : u.language with
      | none => exact language_valid n hl
      | some l =>
        apply hvals l
        right; left
        rw [hu]; rfl
    · split at hx
      · cases hx
      · rw [hp.url] at hx
        exact hvals x (by rw [hx]; simp)
    · exact hvals x (by rw [hx, show v.filename = u.filename from hp.same.filename]; simp)
    · exact hvals x (by rw [hx, show v.version = u.version from hp.same.version]; simp)
    · exact hvals x (by rw [hx, show v.timestamp = u.timestamp from hp.same.timestamp]; simp)
    · rcases hp.hash x hx.symm with h | h
      · exact hvals x (by rw [h]; simp)
      · exact h
    · rw [he] at hx
      cases hx
      exact hvals _ (by simp)
  · show ∀ p ∈ attrPairs v.attributes, _
    rw [hattr]; exact hm.userNames
  · show ((attrPairs v.attributes).map (·.1)).Nodup
    rw [hattr]; exact hm.userNodup
  · show ∀ p ∈ attrPairs v.attributes, _
    rw [hattr]; exact hm.userValues

/-- The cpp namespace has a prefix. -/
def Spec.CppPrefix (a : Archive) : Prop := srcml_archive_get_prefix_from_uri a (some CPP_NS_URI) ≠ some []

/-- A unit that was parsed under an archive can be written to it, in both modes, and read back. -/
theorem parsed_fits {a : Archive} {n : Nat} {u v : UnitData} {enc text : Str} {evs : List Ev} (ha : SetUpOk a) (hnum : a.revisionNumber = none) (hcpp : CppPrefix a)
    (hl : n ∈ languageNumbers) (hn : u.namespaces = none) (hok : WriteOk a (beforeParse a { u with derivedLanguage := n } (some enc))) (hp : ParsedUnit a n u v text evs)
    (he : v.encoding = some enc) (d : Nat) :
    (MadeUnit.mk a v evs).Fits a d ∧ ("xmlns".toList, CPP_NS_URI) ∉ (jobOut a a v d).tagAttrs (unitMetaOf a a v) := by
  obtain ⟨h1, h2⟩ := parsed_tables ha hnum hn hp d
  have hmeta := parsed_meta ha hnum hl hok hp he
  have hns : namespacesOf a (beforeParse a { u with derivedLanguage := n } (some enc)) = a.namespaces := by
    show u.namespaces.getD _ = _
    rw [hn]; rfl
  have hclean := hok.clean
  rw [hns] at hclean
  have hD : (defaultNamespaces.map (·.uri)).Nodup := by rw [default_uris]; exact standardUris_nodup
  have hW : ((mergeNamespaces defaultNamespaces a.namespaces).map (·.uri)).Nodup := merge_nodup hD _
  refine ⟨⟨hp.made, hnum, CleanPrefixes.congr hclean h2 h1, hmeta⟩, tag_no_cpp hmeta ?_ (by rw [h1]; exact hW)⟩
  rw [prefixAt_congr hW h1 h2]
  intro hx
  cases hc : prefixAt a.namespaces CPP_NS_URI with
  | none =>
    rw [prefixAt_merge_not hc] at hx
    revert hx; decide +kernel
  | some p =>
    rw [prefixAt_merge ha.uris hc (.inr (.inr rfl))] at hx
    rw [hx] at hc
    exact hcpp hc

end Srcml
