import Verif.Props.ReadRoot
/-
Units that were read are written to another archive (C79).
-/
set_option linter.unusedSimpArgs false
namespace Srcml
open Spec

/-- A table with the prefixes of a clean one is clean. -/
theorem CleanPrefixes.of_prefixAt {a b : List Namespace} (h : CleanPrefixes a) (ha : (a.map (·.uri)).Nodup) (hb : (b.map (·.uri)).Nodup)
    (he : ∀ u, prefixAt b u = prefixAt a u) : CleanPrefixes b := by
  have key : ∀ n ∈ b, ∃ m ∈ a, m.uri = n.uri ∧ m.prefix_ = n.prefix_ := by
    intro n hn
    have h1 : prefixAt b n.uri = some n.prefix_ := by
      unfold prefixAt
      rw [findUri_of_mem hb hn]; rfl
    rw [he] at h1
    unfold prefixAt at h1
    cases hf : findUri a n.uri with
    | none => rw [hf] at h1; cases h1
    | some m =>
      rw [hf] at h1
      exact ⟨m, findUri_mem hf, findUri_uri hf, by simpa using h1⟩
  refine ⟨?_, ?_, ?_, ?_, ?_⟩
  · intro n hn
    obtain ⟨m, h1, _, h3⟩ := key n hn
    rw [← h3]; exact h.legal m h1
  · intro n hn
    obtain ⟨m, h1, _, h3⟩ := key n hn
    rw [← h3]; exact h.ncname m h1
  · have hp : b.Pairwise (fun x y => x.uri ≠ y.uri) := List.pairwise_map.mp hb
    refine List.pairwise_map.mpr (hp.imp_of_mem ?_)
    intro x y hx hy hne hpe
    obtain ⟨m, h1, h2, h3⟩ := key x hx
    obtain ⟨m', h1', h2', h3'⟩ := key y hy
    apply hne
    rw [← h2, ← h2']
    obtain ⟨i, hi, rfl⟩ := List.getElem_of_mem h1
    obtain ⟨k, hk, rfl⟩ := List.getElem_of_mem h1'
    have hd := h.distinct
    have hik : i = k := by
      refine (List.getElem_inj (xs := a.map (·.prefix_)) (h₀ := by simpa using hi) (h₁ := by simpa using hk) hd).mp ?_
      simp only [List.getElem_map]
      rw [h3, h3', hpe]
    subst hik
    rfl
  · intro n hn
    obtain ⟨m, h1, _, h3⟩ := key n hn
    rw [← h3]; exact h.reserved m h1
  · intro n hn
    obtain ⟨m, h1, h2, _⟩ := key n hn
    rw [← h2]; exact h.uris m h1

/-- A prefix that is not the default one is kept. -/
theorem prefixAt_merge_keep {ns other : List Namespace} {u q d : Str} (hn : (other.map (·.uri)).Nodup) (hd : prefixAt defaultNamespaces u = some d)
    (h : prefixAt ns u = some q) (hq : q ≠ d) : prefixAt (mergeNamespaces ns other) u = some q := by
  unfold prefixAt at h hd ⊢
  cases hf : findUri other u with
  | none => rw [findUri_merge_not other u ((findUri_none _ _).mp hf)]; exact h
  | some n =>
    rw [findUri_merge other u hn n hf ns]
    have hu := findUri_uri hf
    subst hu
    unfold mergeOne
    cases hx : findUri ns n.uri with
    | none => rw [hx] at h; cases h
    | some it =>
      rw [hx] at h
      cases hy : findUri defaultNamespaces n.uri with
      | none => rw [hy] at hd; cases hd
      | some e =>
        rw [hy] at hd
        simp only [Option.map_some, Option.some.injEq] at h hd
        simp only [decide_eq_true_eq]
        rw [if_neg (by rw [h, hd]; exact hq), hx]
        simp [h]

theorem default_nodup : (defaultNamespaces.map (·.uri)).Nodup := by rw [default_uris]; exact standardUris_nodup

theorem used_default_prefix (u : Str) : prefixAt (markUriUsed defaultNamespaces CPP_NS_URI) u = prefixAt defaultNamespaces u :=
  prefixAt_congr default_nodup (markUriUsed_uris _ _) (by decide +kernel) u

theorem merge_default_prefix {ns : List Namespace} (hn : (ns.map (·.uri)).Nodup) (u : Str) :
    prefixAt (mergeNamespaces defaultNamespaces ns) u = (prefixAt ns u).or (prefixAt defaultNamespaces u) := by
  cases ha : prefixAt ns u with
  | none => rw [prefixAt_merge_not ha]; rfl
  | some p => rw [prefixAt_merge hn ha (.inr (.inr rfl))]; rfl

/-- The prefixes with which a unit that was read is written: those of the archive from which it was read, and the defaults. -/
theorem copy_prefix {b : Archive} {v : UnitData} (hn : (b.namespaces.map (·.uri)).Nodup) (hr : b.revisionNumber = none)
    (hv : v.namespaces = none ∨ v.namespaces = some (markUriUsed defaultNamespaces CPP_NS_URI)) :
    ((mergeNamespaces defaultNamespaces (unitNamespaces b v)).map (·.uri)).Nodup ∧
    ∀ u, prefixAt (mergeNamespaces defaultNamespaces (unitNamespaces b v)) u = (prefixAt b.namespaces u).or (prefixAt defaultNamespaces u) := by
  refine ⟨merge_nodup default_nodup _, ?_⟩
  intro u
  rcases hv with hv | hv
  · have : unitNamespaces b v = b.namespaces := by unfold unitNamespaces; rw [hr, hv]; rfl
    rw [this, merge_default_prefix hn]
  · have : unitNamespaces b v = mergeNamespaces b.namespaces (markUriUsed defaultNamespaces CPP_NS_URI) := by unfold unitNamespaces; rw [hr, hv]; rfl
    rw [this, merge_default_prefix (merge_nodup hn _)]
    have ht : ((markUriUsed defaultNamespaces CPP_NS_URI).map (·.uri)).Nodup := by rw [markUriUsed_uris]; exact default_nodup
    cases hd : prefixAt defaultNamespaces u with
    | none => rw [prefixAt_merge_not (by rw [used_default_prefix, hd])]
    | some d =>
      cases hb : prefixAt b.namespaces u with
      | none =>
        rw [prefixAt_merge ht (p := d) (by rw [used_default_prefix, hd]) (.inl hb)]; rfl
      | some q =>
        by_cases e : q = d
        · subst e
          rw [prefixAt_merge ht (p := q) (by rw [used_default_prefix, hd]) (.inr (.inl hb))]
        · rw [prefixAt_merge_keep ht hd hb e]

/-- The contents that are written for a unit that was read. -/
def contentOf (c : Option Str) : Option Str := if c.getD [] = [] then none else c

theorem contentOf_getD (c : Option Str) : (contentOf c).getD [] = c.getD [] := by
  unfold contentOf
  split
  · rename_i h; rw [h]; rfl
  · rfl

theorem contentOf_wellFormed {c : Option Str} {evs : List Ev} {ua : Archive} {u : UnitData} (h : ReadJob.WellFormed ⟨⟨ua, u, c⟩, evs⟩) (ua' : Archive) (u' : UnitData) :
    ReadJob.WellFormed ⟨⟨ua', u', contentOf c⟩, evs⟩ := by
  by_cases hc : c.getD [] = []
  · have e : contentOf c = none := if_pos hc
    rw [e]
    cases c with
    | none => exact h
    | some s =>
      have hs : s = [] := hc
      subst hs
      have h' : ReadsAs [] evs := h
      have := h' { pos := .content, stack := [[]], rooted := true, evs := [] } rfl (by simp) rfl
      simp [RState.run] at this
      exact this
  · have e : contentOf c = c := if_neg hc
    rw [e]
    exact h

/-- A unit that was read from `b` and can be written again; `c` are its contents. -/
structure Copyable (b : Archive) (v : UnitData) (c : Option Str) : Prop where
  table : v.namespaces = none ∨ v.namespaces = some (markUriUsed defaultNamespaces CPP_NS_URI)
  archiveOnce : (b.namespaces.map (·.uri)).Nodup
  body : v.readBody = true
  revisionNumber : b.revisionNumber = none
  content : unitContent b v = .val (contentOf c)
  prefixes : CleanPrefixes (mergeNamespaces defaultNamespaces (unitNamespaces b v))
  once : ((mergeNamespaces defaultNamespaces (unitNamespaces b v)).map (·.uri)).Nodup
  cpp : prefixAt (mergeNamespaces defaultNamespaces (unitNamespaces b v)) CPP_NS_URI ≠ some []
  encoding : v.encoding = none
  values : ∀ x, some x ∈ [v.revision, v.language, v.url, v.filename, v.version, v.timestamp, v.hash] → ValidValue x
  language : ∃ l, v.language = some l
  revision : ∃ r, v.revision = some r
  userNames : ∀ a ∈ attrPairs v.attributes, ValidName a.1 ∧ a.1 ∉ fixedNames ∧ a.1.take 5 ≠ "xmlns".toList ∧ a.1.drop (a.1.length - 4) ≠ "tabs".toList
  userNodup : ((attrPairs v.attributes).map (·.1)).Nodup
  userValues : ∀ a ∈ attrPairs v.attributes, ∀ x, a.2 = some x → ValidValue x

theorem revisionOf_none {b : Archive} (h : b.revisionNumber = none) (x : Option Str) : revisionOf b x = x := by
  unfold revisionOf
  rw [h]
  cases x <;> rfl

theorem Copyable.meta {b : Archive} {v : UnitData} {c : Option Str} (h : Copyable b v c) (a' : Archive) (hrev : ∀ r, a'.revision = some r → ValidValue r) :
    CleanMeta (unitMetaOf a' b v) := by
  refine ⟨?_, h.userNames, h.userNodup, h.userValues⟩
  intro x hx
  obtain ⟨l, hl⟩ := h.language
  unfold unitMetaOf unitMeta at hx
  simp only [revisionOf_none h.revisionNumber, h.encoding, hl, Option.getD_some, List.mem_cons, List.not_mem_nil, or_false, reduceCtorEq] at hx
  have hv := h.values x
  simp only [List.mem_cons, List.not_mem_nil, or_false] at hv
  rcases hx with hx | hx | hx | hx | hx | hx | hx
  · split at hx
    · exact hv (.inl hx)
    · exact hrev x hx.symm
  · exact hv (.inr (.inl (by rw [hl]; exact hx)))
  · split at hx
    · cases hx
    · exact hv (.inr (.inr (.inl hx)))
  · exact hv (.inr (.inr (.inr (.inl hx))))
  · exact hv (.inr (.inr (.inr (.inr (.inl hx)))))
  · exact hv (.inr (.inr (.inr (.inr (.inr (.inl hx))))))
  · exact hv (.inr (.inr (.inr (.inr (.inr (.inr hx))))))

theorem Copyable.noCpp {b : Archive} {v : UnitData} {c : Option Str} (h : Copyable b v c) (a' : Archive) (d : Nat) (hm : CleanMeta (unitMetaOf a' b v)) :
    ("xmlns".toList, CPP_NS_URI) ∉ (jobOut a' b v d).tagAttrs (unitMetaOf a' b v) := by
  intro hx
  have h1 : ("xmlns".toList, CPP_NS_URI) ∈ ((jobOut a' b v d).tagAttrs (unitMetaOf a' b v)).filter (fun p => isNsDecl p.1) := List.mem_filter.mpr ⟨hx, by decide⟩
  rw [filter_tagAttrs (o := jobOut a' b v d) h.prefixes hm] at h1
  unfold Out.tagNs at h1
  split at h1
  · obtain ⟨n, h2, h3⟩ := List.mem_map.mp h1
    simp only [nsAttr, Prod.mk.injEq] at h3
    have hp : n.prefix_ = [] := by
      cases hq : n.prefix_ with
      | nil => rfl
      | cons x xs => rw [hq] at h3; exact absurd (congrArg List.length h3.1) (by simp [xmlnsName, nullIfEmpty])
    have h4 : n ∈ markByOptions (jobOut a' b v d).marked.namespaces (jobOut a' b v d).marked.options := (List.mem_filter.mp h2).1
    have hu : (markByOptions (jobOut a' b v d).marked.namespaces (jobOut a' b v d).marked.options).map (·.uri) = (mergeNamespaces defaultNamespaces (unitNamespaces b v)).map (·.uri) := by
      rw [markByOptions_uris]
      exact markUsed_uris _ _
    have hpp : (markByOptions (jobOut a' b v d).marked.namespaces (jobOut a' b v d).marked.options).map (·.prefix_) = (mergeNamespaces defaultNamespaces (unitNamespaces b v)).map (·.prefix_) := by
      rw [markByOptions_prefixes]
      exact markUsed_prefixes _ _
    have h5 := prefixAt_congr h.once hu hpp CPP_NS_URI
    apply h.cpp
    rw [← h5]
    unfold prefixAt
    rw [← h3.2, findUri_of_mem (by rw [hu]; exact h.once) h4, ← hp]
    rfl
  · cases h1

/-- The unit can be written to every archive. -/
theorem Copyable.job {b : Archive} {v : UnitData} {c : Option Str} (h : Copyable b v c) (a' : Archive) (hrev : ∀ r, a'.revision = some r → ValidValue r) (d : Nat) :
    Job.Fits a' d ⟨b, v, contentOf c⟩ :=
  ⟨h.body, h.content, h.prefixes, h.meta a' hrev⟩

end Srcml
