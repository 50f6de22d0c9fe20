import Verif.Proofs.ParseCalls
/-
A unit that was parsed can be written to the archive it belongs to: what the namespaces and the metadata are by then.
-/
set_option linter.unusedSimpArgs false
namespace Srcml
open Spec

/-- The prefix that a table has for a uri. -/
def prefixAt (ns : List Namespace) (u : Str) : Option Str := (findUri ns u).map (·.prefix_)

theorem prefixAt_merge_not {ns other : List Namespace} {u : Str} (h : prefixAt other u = none) : prefixAt (mergeNamespaces ns other) u = prefixAt ns u := by
  unfold prefixAt at *
  have h : findUri other u = none := by simpa using h
  rw [findUri_merge_not other u ((findUri_none _ _).mp h)]

theorem findUri_uri' {ns : List Namespace} {u : Str} {n : Namespace} (h : findUri ns u = some n) : n.uri = u := findUri_uri h

/-- The prefix is that of the table which is merged in, if the merge takes it. -/
theorem prefixAt_merge {ns other : List Namespace} {u p : Str} (hn : (other.map (·.uri)).Nodup) (h : prefixAt other u = some p)
    (hs : prefixAt ns u = none ∨ prefixAt ns u = some p ∨ prefixAt ns u = prefixAt defaultNamespaces u) : prefixAt (mergeNamespaces ns other) u = some p := by
  unfold prefixAt at h
  cases hf : findUri other u with
  | none => rw [hf] at h; cases h
  | some n =>
    rw [hf] at h
    have hp : n.prefix_ = p := by simpa using h
    have hu := findUri_uri' hf
    unfold prefixAt
    rw [findUri_merge other u hn n hf ns]
    subst hu
    unfold mergeOne
    unfold prefixAt at hs
    cases hx : findUri ns n.uri with
    | none => simp only [findUri_append, hx]; simp [findUri, hp]
    | some it =>
      rw [hx] at hs
      simp only [Option.map_some, reduceCtorEq, Option.some.injEq, false_or] at hs
      have f : findUri (modifyUri ns n.uri (fun t => { t with prefix_ := n.prefix_, flags := t.flags ||| n.flags })) n.uri
          = (findUri ns n.uri).map (fun t => { t with prefix_ := n.prefix_, flags := t.flags ||| n.flags }) :=
        findUri_modifyUri_self ns n.uri _ (fun _ => rfl)
      cases hd : findUri defaultNamespaces n.uri with
      | none =>
        simp only [if_true]
        rw [f, hx]
        simp [hp]
      | some d =>
        rw [hd] at hs
        simp only [Option.map_some, Option.some.injEq] at hs
        simp only [decide_eq_true_eq]
        split
        · rw [f, hx]; simp [hp]
        · rename_i hne
          rcases hs with hs | hs
          · rw [hx]; simp [hs]
          · exact absurd hs hne

theorem prefixes_eq {a b : List Namespace} (hn : (a.map (·.uri)).Nodup) (hu : b.map (·.uri) = a.map (·.uri))
    (hp : ∀ u, u ∈ a.map (·.uri) → prefixAt b u = prefixAt a u) : b.map (·.prefix_) = a.map (·.prefix_) := by
  have hlen : b.length = a.length := by simpa using congrArg List.length hu
  have hnb : (b.map (·.uri)).Nodup := by rw [hu]; exact hn
  apply List.ext_getElem (by simpa using hlen)
  intro i h1 h2
  simp only [List.length_map] at h1 h2
  simp only [List.getElem_map]
  have hui : b[i].uri = a[i].uri := by
    have := List.getElem_of_eq hu (i := i) (by simpa using h1)
    simpa using this
  have e1 : findUri b b[i].uri = some b[i] := findUri_of_mem hnb (List.getElem_mem h1)
  have e2 : findUri a a[i].uri = some a[i] := findUri_of_mem hn (List.getElem_mem h2)
  have := hp a[i].uri (List.mem_map_of_mem (List.getElem_mem h2))
  unfold prefixAt at this
  rw [e2, ← hui, e1] at this
  simpa using this

theorem prefixAt_congr {a b : List Namespace} (hn : (a.map (·.uri)).Nodup) (hu : b.map (·.uri) = a.map (·.uri))
    (hp : b.map (·.prefix_) = a.map (·.prefix_)) (u : Str) : prefixAt b u = prefixAt a u := by
  have hlen : b.length = a.length := by simpa using congrArg List.length hu
  have hnb : (b.map (·.uri)).Nodup := by rw [hu]; exact hn
  by_cases h : u ∈ a.map (·.uri)
  · obtain ⟨n, h1, rfl⟩ := List.mem_map.mp h
    obtain ⟨i, hi, rfl⟩ := List.getElem_of_mem h1
    have hib : i < b.length := by omega
    have hui : b[i].uri = a[i].uri := by
      have := List.getElem_of_eq hu (i := i) (by simpa using hib)
      simpa using this
    have hpi : b[i].prefix_ = a[i].prefix_ := by
      have := List.getElem_of_eq hp (i := i) (by simpa using hib)
      simpa using this
    have e1 : findUri b b[i].uri = some b[i] := findUri_of_mem hnb (List.getElem_mem hib)
    have e2 : findUri a a[i].uri = some a[i] := findUri_of_mem hn (List.getElem_mem hi)
    unfold prefixAt
    rw [e2, ← hui, e1]
    simp [hpi]
  · unfold prefixAt
    rw [(findUri_none a u).mpr h, (findUri_none b u).mpr (by rw [hu]; exact h)]

theorem prefixAt_none {ns : List Namespace} {u : Str} : prefixAt ns u = none ↔ u ∉ ns.map (·.uri) := by
  unfold prefixAt
  rw [Option.map_eq_none_iff]
  exact findUri_none ns u

/-- The table of a parsed unit, merged with the table of its archive and then with the default table, is the table that the unit was parsed with. -/
theorem merge_back {A V : List Namespace} (hA : (A.map (·.uri)).Nodup) (hu : V.map (·.uri) = (mergeNamespaces defaultNamespaces A).map (·.uri))
    (hp : V.map (·.prefix_) = (mergeNamespaces defaultNamespaces A).map (·.prefix_)) :
    (mergeNamespaces defaultNamespaces (mergeNamespaces A V)).map (·.uri) = (mergeNamespaces defaultNamespaces A).map (·.uri) ∧
    (mergeNamespaces defaultNamespaces (mergeNamespaces A V)).map (·.prefix_) = (mergeNamespaces defaultNamespaces A).map (·.prefix_) := by
  have hD : (defaultNamespaces.map (·.uri)).Nodup := by rw [default_uris]; exact standardUris_nodup
  have hW : ((mergeNamespaces defaultNamespaces A).map (·.uri)).Nodup := merge_nodup hD A
  have hV : (V.map (·.uri)).Nodup := by rw [hu]; exact hW
  have hX : ((mergeNamespaces A V).map (·.uri)).Nodup := merge_nodup hA V
  have huris : (mergeNamespaces defaultNamespaces (mergeNamespaces A V)).map (·.uri) = (mergeNamespaces defaultNamespaces A).map (·.uri) := by
    rw [merge_uris _ _ hX, merge_uris _ _ hV, hu, merge_uris _ _ hA, default_uris]
    generalize A.map (·.uri) = X
    congr 1
    rw [List.filter_append]
    have h2 : ((standardUris ++ X.filter (fun u => u ∉ standardUris)).filter (fun u => u ∉ X)).filter (fun u => u ∉ standardUris) = [] := by
      rw [List.filter_eq_nil_iff]
      intro u h
      simp only [List.mem_filter, List.mem_append, decide_eq_true_eq] at h ⊢
      rcases h with ⟨h | h, h2⟩
      · exact fun k => k h
      · exact absurd h.1 h2
    rw [h2, List.append_nil]
  refine ⟨huris, prefixes_eq hW huris ?_⟩
  intro u _
  have hpa := prefixAt_congr hW hu hp u
  -- the table with which the unit was parsed
  have hw : prefixAt (mergeNamespaces defaultNamespaces A) u = (prefixAt A u).or (prefixAt defaultNamespaces u) := by
    cases ha : prefixAt A u with
    | none => rw [prefixAt_merge_not ha]; rfl
    | some p => rw [prefixAt_merge hA ha (.inr (.inr rfl))]; rfl
  have hx : prefixAt (mergeNamespaces A V) u = (prefixAt A u).or (prefixAt defaultNamespaces u) := by
    cases hv : prefixAt V u with
    | none =>
      rw [prefixAt_merge_not hv]
      rw [hv, hw] at hpa
      cases ha : prefixAt A u with
      | none => rw [ha] at hpa; exact hpa
      | some p => rw [ha] at hpa; cases hpa
    | some p =>
      rw [hv, hw] at hpa
      rw [← hpa]
      refine prefixAt_merge hV hv ?_
      cases ha : prefixAt A u with
      | none => exact .inl rfl
      | some q => rw [ha] at hpa; right; left; exact hpa.symm ▸ rfl
  rw [hw]
  cases hc : prefixAt (mergeNamespaces A V) u with
  | none =>
    rw [prefixAt_merge_not hc]
    rw [hx] at hc
    cases ha : prefixAt A u with
    | none => rfl
    | some p => rw [ha] at hc; cases hc
  | some p =>
    rw [prefixAt_merge hX hc (.inr (.inr rfl)), ← hx, hc]

/-- The namespaces of a unit after it was parsed: those of the output with which it was parsed. -/
theorem parseTokens_namespaces {sax : Sax} {a : Archive} {th : ThreadState} {u u' : UnitObj} {encoding : Option Str} {toks : List Tok} {hash : Option Str}
    (hok : WriteOk a (beforeParse a u.data encoding)) (h : u.parseTokens sax a th encoding toks hash = .val (.ok, u')) :
    ∃ ns, u'.data.namespaces = some ns ∧ ns.map (·.prefix_) = (mergeNamespaces defaultNamespaces (namespacesOf a u.data)).map (·.prefix_) ∧
      ns.map (·.uri) = (mergeNamespaces defaultNamespaces (namespacesOf a u.data)).map (·.uri) := by
  obtain ⟨bb, ee, t0, s1, s2, s3, s4⟩ := writeStartUnit_ok (u := { u with data := beforeParse a u.data encoding }) hok th
  obtain ⟨p1, p2, p3⟩ := parse_tables hok th toks
  unfold UnitObj.parseTokens at h
  simp only [] at h
  rw [show ({ u with data := { u.data with encoding := encoding, url := a.url } } : UnitObj) =
    { u with data := beforeParse a u.data encoding } from rfl, s1] at h
  simp only [s3] at h
  refine ⟨_, ?_, p2, p3⟩
  generalize hns : (((unitOut a (beforeParse a u.data encoding) th).startUnit (startMeta a (beforeParse a u.data encoding)) false).consume toks).namespaces = ns at h ⊢
  unfold UnitObj.writeEndUnit at h
  simp only [] at h
  split at h
  · cases h
  · split at h
    · cases h
    · split at h
      · cases h
      · rename_i st u2 h2
        have hd : u2.data.namespaces = some ns := by
          unfold UnitObj.writeStartUnit at h2
          simp only [] at h2
          split at h2
          · cases h2
          · cases h2; rfl
        split at h
        · cases h
        · split at h
          · cases h
          · cases h; exact hd

end Srcml
