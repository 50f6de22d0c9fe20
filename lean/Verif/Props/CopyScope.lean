import Verif.Props.CopyUnits
/-
C79: the namespaces of the copies.
-/
set_option linter.unusedSimpArgs false
namespace Srcml
open Spec

theorem handed_get_cpp (root : List (Str × Str)) (us : List UnitText) : ∀ (cpp : Bool) (wants : List Bool) (i : Nat) (hi : i < us.length),
    ∃ c, (CPP_NS_URI ∈ declaredUris us[i].attrs → c = true) ∧ (handed root cpp wants us)[i]? = some (us[i].attrs, if (wants[i]?).getD false then
      some (readUnit root us[i].attrs us[i].name us[i].content us[i].evs c) else none) := by
  induction us with
  | nil => intro _ _ i hi; exact absurd hi (by simp)
  | cons u us ih =>
    intro cpp wants i hi
    cases i with
    | zero =>
      refine ⟨cpp || decide (CPP_NS_URI ∈ declaredUris u.attrs), ?_, ?_⟩
      · intro h
        simp only [List.getElem_cons_zero] at h
        simp [h]
      · cases wants <;> rfl
    | succ i =>
      obtain ⟨c, hc, h⟩ := ih (cpp || decide (CPP_NS_URI ∈ declaredUris u.attrs)) wants.tail i (by simpa using hi)
      refine ⟨c, by simpa using hc, ?_⟩
      simp only [handed, List.getElem?_cons_succ, List.getElem_cons_succ]
      rw [h]
      cases wants <;> rfl

/-- A mark of use is kept when tables are merged. -/
theorem used_merge {ns other : List Namespace} {u : Str} (hn : (other.map (·.uri)).Nodup) (h : usedIn other u)
    (hs : prefixAt ns u = none ∨ prefixAt ns u = prefixAt defaultNamespaces u) : usedIn (mergeNamespaces ns other) u := by
  obtain ⟨n, hf, hused⟩ := h
  unfold usedIn
  rw [findUri_merge other u hn n hf ns]
  have hu := findUri_uri hf
  subst hu
  unfold mergeOne
  unfold prefixAt at hs
  cases hx : findUri ns n.uri with
  | none => simp only [findUri_append, hx]; exact ⟨n, by simp [findUri], hused⟩
  | some it =>
    rw [hx] at hs
    simp only [Option.map_some, reduceCtorEq, false_or] at hs
    have f : findUri (modifyUri ns n.uri (fun t => { t with prefix_ := n.prefix_, flags := t.flags ||| n.flags })) n.uri
        = (findUri ns n.uri).map (fun t => { t with prefix_ := n.prefix_, flags := t.flags ||| n.flags }) :=
      findUri_modifyUri_self ns n.uri _ (fun _ => rfl)
    cases hd : findUri defaultNamespaces n.uri with
    | none => rw [hd] at hs; cases hs
    | some d =>
      rw [hd] at hs
      simp only [Option.map_some, Option.some.injEq] at hs
      simp only [hs, decide_true, if_true]
      rw [f, hx]
      exact ⟨_, rfl, by rw [hasFlag_or, hused, Bool.or_true]⟩

theorem declared_entry {o : Out} (hT : TableOk o.namespaces) {n : Namespace} (h : n ∈ o.marked.declared) : prefixAt o.namespaces n.uri = some n.prefix_ := by
  have h1 : n.uri ∈ o.marked.declared.map (·.uri) := List.mem_map_of_mem h
  rw [← declared_prefix hT h1]
  unfold prefixAt
  rw [findUri_of_mem (declared_uris_nodup (markUsed_ok hT .SRC)) h]
  rfl

theorem entry_of {o : Out} (hT : TableOk o.namespaces) {u : Str} (h : u ∈ o.marked.declared.map (·.uri)) {p : Str} (hp : prefixAt o.namespaces u = some p) :
    ∃ n ∈ o.marked.declared, n.uri = u ∧ n.prefix_ = p := by
  obtain ⟨n, h1, rfl⟩ := List.mem_map.mp h
  have := declared_entry hT h1
  rw [hp] at this
  exact ⟨n, h1, rfl, by simpa using this.symm⟩

/-- What a unit in an archive declares. -/
theorem unit_declares {a ua : Archive} {u : UnitData} (hA : isoption a.options OPTION_ARCHIVE = true) (hT : TableOk (jobOut a ua u 1).namespaces) {x : Str}
    (h : x ∈ (jobOut a ua u 1).marked.declared.map (·.uri)) : x = CPP_NS_URI ∨ x = OPENMP_NS_URI := by
  rw [declared_iff (o := (jobOut a ua u 1).marked) (markUsed_ok hT .SRC)] at h
  have hdep : (jobOut a ua u 1).marked.depth = 1 := rfl
  have hopt : (jobOut a ua u 1).marked.options = a.options := rfl
  rw [hdep, hopt, hA] at h
  simp only [Nat.one_ne_zero, Bool.true_eq_false, or_self, false_and, false_or, true_and] at h
  exact h.2.1

theorem nsDecls_mem {o : Out} {m : UnitMeta} (hp : CleanPrefixes o.namespaces) (hm : CleanMeta m) (hD : isoption o.options OPTION_NAMESPACE_DECL = true) {d : Str × Str} :
    d ∈ nsDecls (o.tagAttrs m) ↔ ∃ n ∈ o.marked.declared, nsAttr n = d := by
  have e : nsDecls (o.tagAttrs m) = o.tagNs := filter_tagAttrs hp hm
  rw [e]
  unfold Out.tagNs
  rw [if_pos hD, List.mem_map]

/-- No prefix is declared twice. -/
theorem scope_nodup {a ua : Archive} {u : UnitData} {m : UnitMeta} (hA : isoption a.options OPTION_ARCHIVE = true) (hD : isoption a.options OPTION_NAMESPACE_DECL = true)
    (ht : MadeTable a) (hc : CleanArchive a) (hu : UsualPrefixes a.namespaces) (hT : TableOk (jobOut a ua u 1).namespaces) (hp : CleanPrefixes (jobOut a ua u 1).namespaces) (hm : CleanMeta m)
    (hus : ∀ p ∈ usualPrefixes, prefixAt (jobOut a ua u 1).namespaces p.1 = some p.2) :
    ((nsDecls ((rootOut a).tagAttrs (rootMeta a)) ++ (jobOut a ua u 1).tagAttrs m).map (·.1)).Nodup := by
  rw [List.map_append, List.nodup_append]
  refine ⟨?_, tagAttrs_nodup hp hm, ?_⟩
  · exact List.Sublist.nodup ((List.filter_sublist).map _) (tagAttrs_nodup hc.prefixes hc.values)
  · intro x hx y hy hxy
    subst hxy
    obtain ⟨d, h1, rfl⟩ := List.mem_map.mp hx
    obtain ⟨e, h2, h3⟩ := List.mem_map.mp hy
    have hns : isNsDecl d.1 = true := by
      unfold nsDecls at h1
      exact (List.mem_filter.mp h1).2
    obtain ⟨n, n1, rfl⟩ := (nsDecls_mem hc.prefixes hc.values hD).mp h1
    obtain ⟨k, k1, k2⟩ := (nsDecls_mem (o := jobOut a ua u 1) hp hm hD).mp (List.mem_filter.mpr ⟨h2, by rw [h3]; exact hns⟩)
    have hpe : n.prefix_ = k.prefix_ := by
      apply xmlnsName_inj
      show (nsAttr n).1 = (nsAttr k).1
      rw [k2, h3]
    have hk := unit_declares hA hT (List.mem_map_of_mem k1)
    have hke := declared_entry hT k1
    have hne := declared_entry ht.table n1
    -- the entry of the root with the uri of `k`
    have hroot : prefixAt (rootOut a).namespaces k.uri = some k.prefix_ := by
      rw [rootOut_prefix ht.nodup, ← hke]
      rcases hk with hk | hk <;> rw [hk]
      · rw [hus (CPP_NS_URI, "cpp".toList) (by simp [usualPrefixes])]
        exact usual_or hu (p := (CPP_NS_URI, "cpp".toList)) (by simp [usualPrefixes])
      · rw [hus (OPENMP_NS_URI, "omp".toList) (by simp [usualPrefixes])]
        exact usual_or hu (p := (OPENMP_NS_URI, "omp".toList)) (by simp [usualPrefixes])
    have huri : n.uri = k.uri := by
      unfold prefixAt at hroot hne
      obtain ⟨x, x1, x2⟩ := Option.map_eq_some_iff.mp hroot
      obtain ⟨y, y1, y2⟩ := Option.map_eq_some_iff.mp hne
      have hx' := findUri_mem x1
      have hy' := findUri_mem y1
      have : x = y := by
        obtain ⟨i, hi, rfl⟩ := List.getElem_of_mem hx'
        obtain ⟨l, hl, rfl⟩ := List.getElem_of_mem hy'
        have hd := hc.prefixes.distinct
        have hil : i = l := by
          refine (List.getElem_inj (xs := (rootOut a).namespaces.map (·.prefix_)) (h₀ := by simpa using hi) (h₁ := by simpa using hl) hd).mp ?_
          simp only [List.getElem_map]
          rw [x2, y2, hpe]
        subst hil
        rfl
      rw [← findUri_uri x1, ← findUri_uri y1, this]
    have hdecl : n.uri ∈ (rootOut a).marked.declared.map (·.uri) := List.mem_map_of_mem n1
    rw [huri, root_declared ht hA] at hdecl
    obtain ⟨s1, s2, s3, s4, s5, s6, s7, s8⟩ := src_not
    rcases hk with hk | hk <;> rw [hk] at hdecl <;> rcases hdecl with h | h | h | h
    · exact s1 h.symm
    · exact s6 h.1
    · exact s5 h.1
    · exact h.1 (by simp [standardUris])
    · exact s4 h.symm
    · exact s8 h.1
    · exact s7 h.1
    · exact h.1 (by simp [standardUris])

theorem registerAll_sound : ∀ (l ns : List Namespace), (∀ n ∈ ns, FlagsSound n) → ∀ n ∈ registerAll ns l, FlagsSound n
  | [], _, h => h
  | m :: l, ns, h => registerAll_sound l _ (registerNs_sound h m.prefix_ m.uri)

/-- The name of a unit has the prefix of srcML. -/
theorem unitName_prefix {o : Out} (hT : TableOk o.namespaces) {p : Str} (hp : prefixAt o.namespaces SRC_NS_URI = some p) : o.unitName = qname (nullIfEmpty p) "unit".toList := by
  unfold Out.unitName
  suffices prefixOf o.namespaces .SRC = p by rw [this]
  have h0 : (o.namespaces.map (·.uri))[0]? = some SRC_NS_URI := by
    have := hT.std
    have h1 : ((o.namespaces.map (·.uri)).take 5)[0]? = some SRC_NS_URI := by rw [this]; rfl
    rw [List.getElem?_take_of_lt (by omega)] at h1
    exact h1
  rw [List.getElem?_map] at h0
  cases hx : o.namespaces[0]? with
  | none => rw [hx] at h0; cases h0
  | some n =>
    rw [hx] at h0
    simp only [Option.map_some, Option.some.injEq] at h0
    have hmem : n ∈ o.namespaces := List.mem_iff_getElem?.mpr ⟨0, hx⟩
    unfold prefixAt at hp
    rw [← h0, findUri_of_mem hT.nodup hmem] at hp
    unfold prefixOf
    show ((o.namespaces[0]?).map (·.prefix_)).getD [] = p
    rw [hx]
    simpa using hp

/-- The start tag of a unit that was read: what the archive knows of the declarations. -/
structure Scoped (b : Archive) (v : UnitData) (j : ReadJob) (name : Str) (attrs : List (Str × Str)) : Prop where
  text : readXml v.srcml = some (.op name attrs :: j.evs ++ [.cl name])
  named : ∀ p, prefixAt b.namespaces SRC_NS_URI = some p → name = qname (nullIfEmpty p) "unit".toList
  known : prefixAt b.namespaces SRC_NS_URI ≠ none
  sound : ∀ n ∈ b.namespaces, FlagsSound n
  declared : ∀ d ∈ attrs, isNsDecl d.1 = true → ∃ n : Namespace, nsAttr n = d ∧
    (n.uri = CPP_NS_URI → n.prefix_ = "cpp".toList ∧ v.namespaces = some (markUriUsed defaultNamespaces CPP_NS_URI)) ∧
    (n.uri ≠ CPP_NS_URI → n.uri ≠ OPENMP_NS_URI → prefixAt b.namespaces n.uri = some n.prefix_ ∧
      (n.uri = POSITION_NS_URI → isoption b.options OPTION_POSITION = true) ∧ (n.uri = ERROR_NS_URI → isoption b.options OPTION_DEBUG = true))

theorem isoption_or_right {x y f : Opts} (h : isoption y f = true) : isoption (x ||| y) f = true := by
  unfold isoption at h ⊢
  rw [decide_eq_true_eq] at h ⊢
  intro h0
  rw [BitVec.and_comm, and_or] at h0
  have := (BitVec.or_eq_zero_iff.mp h0).2
  rw [BitVec.and_comm] at this
  exact h this

theorem isoption_and {x m : Opts} {k : Nat} (hk : k < 64) (h : isoption x (1#64 <<< k) = true) (hm : m.getLsbD k = true) : isoption (x &&& m) (1#64 <<< k) = true := by
  have hb := isoption_bit x hk
  rw [h] at hb
  simp only [if_true] at hb
  have e : (x &&& m) &&& (1#64 <<< k) = m &&& (1#64 <<< k) := by
    rw [BitVec.and_comm x m, BitVec.and_assoc, ← hb]
  unfold isoption
  rw [e, decide_eq_true_eq]
  intro h0
  have := congrArg (fun z => z.getLsbD k) h0
  simp only [BitVec.getLsbD_and, hm, Bool.true_and] at this
  simp [hk] at this

theorem prefixAt_registered {ns l : List Namespace} (hn : (l.map (·.uri)).Nodup) {n : Namespace} (h : n ∈ l) : prefixAt (registerAll ns l) n.uri = some n.prefix_ := by
  rw [prefixAt_registerAll _ hn]
  unfold prefixAt
  rw [findUri_of_mem hn h]
  rfl

/-- The unit as it was written: the table of its namespaces is one that the library makes, and the prefixes are the usual ones. -/
structure Spec.UsualUnit (b : Archive) (j : ReadJob) : Prop where
  sound : ∀ n ∈ unitNamespaces j.ua j.u, FlagsSound n
  once : ((unitNamespaces j.ua j.u).map (·.uri)).Nodup
  usual : UsualPrefixes (unitNamespaces j.ua j.u)
  /-- The prefix of srcML is that of the archive. -/
  srcml : prefixAt (unitNamespaces j.ua j.u) SRC_NS_URI = prefixAt b.namespaces SRC_NS_URI

theorem read_scoped {b : Archive} {v : UnitData} {j : ReadJob} (h : ReadBack b v j) (hj' : UsualUnit b j) : ∃ name attrs, Scoped b v j name attrs := by
  cases h with
  | archive calls a hmade th js hA hD hS ha hk hu hj hm s doc hw hd fs wants hf h hh b hb i hi v hv =>
    have hne : js ≠ [] := by rintro rfl; exact absurd hi (by simp)
    obtain ⟨s', h1, h2, _⟩ := archive_written (th := th) hA (js := js.map (·.toJob)) (by simpa using hne) ha.prefixes ha.values
      (by simpa using fun j hjm => (hj j hjm).fits)
    cases hw.symm.trans h1
    rw [hd] at h2
    simp only [Option.some.injEq] at h2
    subst h2
    have hf' := hf
    rw [archiveText_body] at hf'
    obtain ⟨h', e1, e2, e3⟩ := document_feeds (wants := wants) ha.prolog' ha.good (us := js.map (·.unitText a)) (by
      intro u hu
      obtain ⟨j, hjm, rfl⟩ := List.mem_map.mp hu
      exact (hj j hjm).good) (by simpa using hne) fs hf'
    rw [hh] at e1
    cases e1
    have hT := created_madeTable calls a hmade
    obtain ⟨b', e4, hs, hbn⟩ := opened_settings hA hD hT ha.toCleanArchive (created_plain calls a hmade hk) wants (us := js.map (·.unitText a)) (by simpa using hne) e3 e2
    rw [← archive_encoding ha hk.encoding (js := js), hb] at e4
    cases e4
    obtain ⟨c, hcpp, hget⟩ := handed_get_cpp ((rootOut a).tagAttrs (rootMeta a)) (js.map (·.unitText a))
      (decide (CPP_NS_URI ∈ declaredUris ((rootOut a).tagAttrs (rootMeta a)))) wants i (by simpa using hi)
    simp only [gets] at hv
    rw [e2, unitsOf_archive, hget] at hv
    have hji := hj js[i] (List.getElem_mem hi)
    rw [List.getElem_map] at hcpp
    have hTu : TableOk (jobOut a js[i].ua js[i].u 1).namespaces := merge_ok default_tableOk hj'.sound
    have hus : ∀ p ∈ usualPrefixes, prefixAt (jobOut a js[i].ua js[i].u 1).namespaces p.1 = some p.2 := by
      intro p hp
      rw [← usual_or hj'.usual hp]
      exact merge_default_prefix hj'.once p.1
    have hnodup : ((rootOut a).marked.declared.map (·.uri)).Nodup := declared_uris_nodup (markUsed_ok hT.table .SRC)
    cases hwi : (wants[i]?).getD false with
    | false => rw [hwi] at hv; simp at hv
    | true =>
      rw [hwi] at hv
      simp only [if_true, Option.some.injEq, List.getElem_map] at hv
      have hcont := read_content ha hji c
      refine ⟨(jobOut a js[i].ua js[i].u 1).unitName, nsDecls ((rootOut a).tagAttrs (rootMeta a)) ++ (jobOut a js[i].ua js[i].u 1).tagAttrs (unitMetaOf a js[i].ua js[i].u), ?_, ?_, ?_, ?_, ?_⟩
      · rw [← hv]
        exact hcont.whole (scope_nodup hA hD hT ha.toCleanArchive hu hTu hji.fits.prefixes hji.fits.values hus)
      · intro p hp
        refine unitName_prefix hTu ?_
        have : prefixAt (jobOut a js[i].ua js[i].u 1).namespaces SRC_NS_URI = _ := merge_default_prefix hj'.once SRC_NS_URI
        rw [this, hj'.srcml, hp]
        rfl
      · intro h0
        have : prefixAt b.namespaces SRC_NS_URI = prefixAt a.namespaces SRC_NS_URI := hs.prefixes SRC_NS_URI (.inl rfl)
        exact absurd hT.src (prefixAt_none.mp (this.symm.trans h0))
      · rw [hbn]; exact registerAll_sound _ _ starting_sound
      · intro d hd hns
        rcases List.mem_append.mp hd with hd | hd
        · obtain ⟨n, n1, rfl⟩ := (nsDecls_mem ha.prefixes ha.values hD).mp hd
          have hdecl : n.uri ∈ (rootOut a).marked.declared.map (·.uri) := List.mem_map_of_mem n1
          rw [root_declared hT hA] at hdecl
          obtain ⟨s1, s2, s3, s4, s5, s6, s7, s8⟩ := src_not
          refine ⟨n, rfl, ?_, ?_⟩
          · intro hc
            rw [hc] at hdecl
            rcases hdecl with h | h | h | h
            · exact absurd h.symm s1
            · exact absurd h.1 s6
            · exact absurd h.1 s5
            · exact absurd (by simp [standardUris]) h.1
          · intro _ _
            refine ⟨by rw [hbn]; exact prefixAt_registered hnodup n1, ?_, ?_⟩
            · intro hp
              rw [hp] at hdecl
              rw [hs.options]
              refine isoption_or_right (isoption_and (k := 2) (by decide) ?_ (by decide))
              rcases hdecl with h | h | h | h
              · exact absurd h.symm s3
              · exact h.2
              · exact absurd h.1 (by decide +kernel)
              · exact absurd (by simp [standardUris]) h.1
            · intro hp
              rw [hp] at hdecl
              rw [hs.options]
              refine isoption_or_right (isoption_and (k := 11) (by decide) ?_ (by decide))
              rcases hdecl with h | h | h | h
              · exact absurd h.symm s2
              · exact absurd h.1 (by decide +kernel)
              · exact h.2
              · exact absurd (by simp [standardUris]) h.1
        · obtain ⟨n, n1, rfl⟩ := (nsDecls_mem (o := jobOut a js[i].ua js[i].u 1) hji.fits.prefixes hji.fits.values hD).mp (List.mem_filter.mpr ⟨hd, hns⟩)
          refine ⟨n, rfl, ?_, ?_⟩
          · intro hc
            constructor
            · have := declared_entry hTu n1
              rw [hc, hus (CPP_NS_URI, "cpp".toList) (by simp [usualPrefixes])] at this
              simpa using this.symm
            · have : c = true := hcpp (by
                show CPP_NS_URI ∈ declaredUris ((jobOut a js[i].ua js[i].u 1).tagAttrs (unitMetaOf a js[i].ua js[i].u))
                rw [declaredUris_tag (o := jobOut a js[i].ua js[i].u 1) hji.fits.prefixes hji.fits.values hD, ← hc]
                exact List.mem_map_of_mem n1)
              rw [← hv, this]
              rfl
          · intro h1 h2
            rcases unit_declares hA hTu (List.mem_map_of_mem n1) with h | h
            · exact absurd h h1
            · exact absurd h h2
  | solitary a th j hA hD hS hj hc he ht hq hflags honce hu s doc hw hd fs wants hf h hh b hb v hv =>
    obtain ⟨s', h1, h2, _⟩ := solitary_written (th := th) hA hj.fits
    cases hw.symm.trans h1
    rw [hd] at h2
    simp only [Option.some.injEq] at h2
    subst h2
    have hf' := hf
    rw [solo_text] at hf'
    obtain ⟨h', e1, e2, e3⟩ := solo_document (wants := wants) hj.prolog hj.instruction (unitName_local hj.fits.prefixes) hj.cpp
      (unitName_valid hj.fits.prefixes) (tagAttrs_valid hj.fits.prefixes hj.fits.values) (tagAttrs_nodup hj.fits.prefixes hj.fits.values)
      ⟨hj.wellFormed, hj.escapes⟩ hj.names fs hf'
    rw [hh] at e1
    cases e1
    have e4 := solo_opened hD hj hc he ht hq hflags e2 e3
    rw [hb] at e4
    simp only [Run.val.injEq] at e4
    have hbn : b.namespaces = registerAll startingNamespaces (jobOut a j.ua j.u 0).marked.declared := by rw [e4]; rfl
    have hT : TableOk (jobOut a j.ua j.u 0).namespaces := merge_ok default_tableOk (fun n hn => (hflags n hn).1)
    have hnodup : ((jobOut a j.ua j.u 0).marked.declared.map (·.uri)).Nodup := declared_uris_nodup (markUsed_ok hT .SRC)
    have hbo : ∃ x, b.options = x ||| namespaceOptions ((jobOut a j.ua j.u 0).marked.declared.map (·.uri)) := by
      rw [e4]
      exact ⟨_, registerAllOptions_eq _ _⟩
    obtain ⟨x, hbo⟩ := hbo
    simp only [gets] at hv
    rw [e2, solo_units] at hv
    cases hwi : wants.headD false with
    | false => rw [hwi] at hv; simp at hv
    | true =>
      rw [hwi] at hv
      simp only [if_true, List.getElem?_cons_zero, Option.some.injEq] at hv
      have hcont := solo_content hj
      have hsrc : SRC_NS_URI ∈ (jobOut a j.ua j.u 0).marked.declared.map (·.uri) := by
        rw [declared_iff (o := (jobOut a j.ua j.u 0).marked) (markUsed_ok hT .SRC)]
        exact .inl ⟨.inl rfl, .inl rfl⟩
      refine ⟨(jobOut a j.ua j.u 0).unitName, (jobOut a j.ua j.u 0).tagAttrs (unitMetaOf a j.ua j.u), ?_, ?_, ?_, ?_, ?_⟩
      · rw [← hv]
        exact hcont.whole
      · intro p hp
        refine unitName_prefix hT ?_
        have : prefixAt (jobOut a j.ua j.u 0).namespaces SRC_NS_URI = _ := merge_default_prefix honce SRC_NS_URI
        rw [this, hj'.srcml, hp]
        rfl
      · rw [hbn, prefixAt_registerAll _ hnodup]
        intro h0
        cases hx : prefixAt (jobOut a j.ua j.u 0).marked.declared SRC_NS_URI with
        | none => exact absurd hsrc (prefixAt_none.mp hx)
        | some p => rw [hx] at h0; cases h0
      · rw [hbn]; exact registerAll_sound _ _ starting_sound
      · intro d hd hns
        obtain ⟨n, n1, rfl⟩ := (nsDecls_mem (o := jobOut a j.ua j.u 0) hj.fits.prefixes hj.fits.values hD).mp (List.mem_filter.mpr ⟨hd, hns⟩)
        refine ⟨n, rfl, ?_, ?_⟩
        · intro hcu
          constructor
          · have := declared_entry hT n1
            have e : prefixAt (jobOut a j.ua j.u 0).namespaces CPP_NS_URI = _ := merge_default_prefix honce CPP_NS_URI
            rw [hcu, e, usual_or hu (p := (CPP_NS_URI, "cpp".toList)) (by simp [usualPrefixes])] at this
            simpa using this.symm
          · have : CPP_NS_URI ∈ declaredUris ((jobOut a j.ua j.u 0).tagAttrs (unitMetaOf a j.ua j.u)) := by
              rw [declaredUris_tag (o := jobOut a j.ua j.u 0) hj.fits.prefixes hj.fits.values hD, ← hcu]
              exact List.mem_map_of_mem n1
            rw [← hv]
            simp [readUnitData, soloUnit, this]
        · intro _ _
          refine ⟨by rw [hbn]; exact prefixAt_registered hnodup n1, ?_, ?_⟩
          · intro hp
            rw [hbo]
            refine isoption_or_right ?_
            unfold namespaceOptions
            rw [if_pos (c := POSITION_NS_URI ∈ _) (by rw [← hp]; exact List.mem_map_of_mem n1)]
            exact isoption_or_right (by decide)
          · intro hp
            rw [hbo]
            refine isoption_or_right ?_
            unfold namespaceOptions
            rw [if_pos (c := ERROR_NS_URI ∈ _) (by rw [← hp]; exact List.mem_map_of_mem n1), BitVec.or_assoc, BitVec.or_comm OPTION_DEBUG, ← BitVec.or_assoc]
            exact isoption_or_right (by decide)

/-- The unit `w` is the same XML as the unit `v`: an element with the same name and the same contents, in which at least the same prefixes are declared, for the same namespaces. The namespace of OpenMP is left out: see `C79_finding_openmp`. -/
def Spec.SameXml (v w : UnitData) : Prop :=
  ∃ name attrs attrs' evs, readXml v.srcml = some (.op name attrs :: evs ++ [.cl name]) ∧ readXml w.srcml = some (.op name attrs' :: evs ++ [.cl name]) ∧
    ∀ d ∈ attrs, isNsDecl d.1 = true → d.2 ≠ OPENMP_NS_URI → d ∈ attrs'

/-- The archive `a` knows every namespace that the archive `b` knows, with the same prefix, and has positions and debug elements if `b` has them. -/
structure Spec.Knows (a b : Archive) : Prop where
  prefixes : ∀ u p, srcml_archive_get_prefix_from_uri b (some u) = some p → srcml_archive_get_prefix_from_uri a (some u) = some p
  positions : isoption b.options OPTION_POSITION = true → srcml_archive_get_prefix_from_uri b (some POSITION_NS_URI) ≠ none → isoption a.options OPTION_POSITION = true
  debug : isoption b.options OPTION_DEBUG = true → srcml_archive_get_prefix_from_uri b (some ERROR_NS_URI) ≠ none → isoption a.options OPTION_DEBUG = true

theorem same_xml_of {b : Archive} {v : UnitData} {j : ReadJob} (k : Known b v j) {name : Str} {attrs : List (Str × Str)} (hs : Scoped b v j name attrs) {a' : Archive} (hA : isoption a'.options OPTION_ARCHIVE = true)
    (hD : isoption a'.options OPTION_NAMESPACE_DECL = true) (ht : MadeTable a') (ha : CarriedArchive a') (hu : UsualPrefixes a'.namespaces) (hk : Knows a' b) {w : UnitData}
    (hw : SameContent a' (copyJob (b, v, j)) w) : SameXml v w := by
  have hv : v.namespaces = none ∨ v.namespaces = some (markUriUsed defaultNamespaces CPP_NS_URI) := k.copyable.table
  have hbonce := k.copyable.archiveOnce
  obtain ⟨-, hpre⟩ := copy_prefix hbonce k.copyable.revisionNumber hv
  have hsound : ∀ n ∈ unitNamespaces b v, FlagsSound n := by
    unfold unitNamespaces
    rw [k.copyable.revisionNumber]
    rcases hv with hv | hv <;> rw [hv]
    · exact hs.sound
    · refine merge_sound hs.sound ?_
      intro n hn
      exact ((modifyUri_flag_ok default_tableOk CPP_NS_URI).flags n hn).sound
  have hT : TableOk (jobOut a' b v 1).namespaces := merge_ok default_tableOk hsound
  have husb : ∀ p ∈ usualPrefixes, prefixAt b.namespaces p.1 = none ∨ prefixAt b.namespaces p.1 = some p.2 := by
    intro p hp
    cases hq : prefixAt b.namespaces p.1 with
    | none => exact .inl rfl
    | some q =>
      right
      have h1 : prefixAt a'.namespaces p.1 = some q := hk.prefixes p.1 q hq
      rcases usual_at hu hp with e | e
      · rw [e] at h1; cases h1
      · rw [e] at h1; exact h1.symm
  have hus : ∀ p ∈ usualPrefixes, prefixAt (jobOut a' b v 1).namespaces p.1 = some p.2 := by
    intro p hp
    have e : prefixAt (jobOut a' b v 1).namespaces p.1 = _ := hpre p.1
    rw [e, usual_default p hp]
    rcases husb p hp with e | e <;> rw [e] <;> rfl
  have hm := k.copyable.meta a' (rootMeta_revision ha)
  have hwhole := hw.whole (scope_nodup hA hD ht ha.toCleanArchive hu hT k.copyable.prefixes hm hus)
  have hname : (jobOut a' b v 1).unitName = name := by
    cases hp : prefixAt b.namespaces SRC_NS_URI with
    | none => exact absurd hp hs.known
    | some p =>
      rw [hs.named p hp]
      refine unitName_prefix hT ?_
      have e : prefixAt (jobOut a' b v 1).namespaces SRC_NS_URI = _ := hpre SRC_NS_URI
      rw [e, hp]
      rfl
  refine ⟨name, attrs, nsDecls ((rootOut a').tagAttrs (rootMeta a')) ++ (jobOut a' b v 1).tagAttrs (unitMetaOf a' b v), j.evs, hs.text, ?_, ?_⟩
  · rw [← hname]
    exact hwhole
  · intro d hd hns homp
    obtain ⟨n, rfl, h1, h2⟩ := hs.declared d hd hns
    by_cases hcpp : n.uri = CPP_NS_URI
    · obtain ⟨q1, q2⟩ := h1 hcpp
      refine List.mem_append.mpr (.inr ?_)
      have hused : usedIn (jobOut a' b v 1).namespaces CPP_NS_URI := by
        show usedIn (mergeNamespaces defaultNamespaces (unitNamespaces b v)) CPP_NS_URI
        have e : unitNamespaces b v = mergeNamespaces b.namespaces (markUriUsed defaultNamespaces CPP_NS_URI) := by
          unfold unitNamespaces; rw [k.copyable.revisionNumber, q2]; rfl
        rw [e]
        refine used_merge (merge_nodup hbonce _) (used_merge (by rw [markUriUsed_uris]; exact default_nodup) ?_ ?_) (.inr rfl)
        · exact ⟨(findUri (markUriUsed defaultNamespaces CPP_NS_URI) CPP_NS_URI).get (by decide +kernel), by simp, by decide +kernel⟩
        · rw [usual_default (CPP_NS_URI, "cpp".toList) (by simp [usualPrefixes])]
          exact husb (CPP_NS_URI, "cpp".toList) (by simp [usualPrefixes])
      have hdecl : CPP_NS_URI ∈ (jobOut a' b v 1).marked.declared.map (·.uri) := by
        rw [declared_iff (o := (jobOut a' b v 1).marked) (markUsed_ok hT .SRC)]
        refine .inr ⟨.inl rfl, .inl rfl, .inl ?_⟩
        exact (usedIn_markUsed hT .SRC CPP_NS_URI).mpr (.inl hused)
      obtain ⟨m, m1, m2, m3⟩ := entry_of hT hdecl (hus (CPP_NS_URI, "cpp".toList) (by simp [usualPrefixes]))
      have he : nsAttr m = nsAttr n := by unfold nsAttr; rw [m2, m3, q1, hcpp]
      rw [← he]
      exact (List.mem_filter.mp ((nsDecls_mem (o := jobOut a' b v 1) k.copyable.prefixes hm hD).mpr ⟨m, m1, rfl⟩)).1
    · obtain ⟨q1, q2, q3⟩ := h2 hcpp homp
      refine List.mem_append.mpr (.inl ?_)
      have hap : prefixAt a'.namespaces n.uri = some n.prefix_ := hk.prefixes _ _ q1
      have hdecl : n.uri ∈ (rootOut a').marked.declared.map (·.uri) := by
        rw [root_declared ht hA]
        by_cases hstd : n.uri ∈ standardUris
        · have : n.uri = SRC_NS_URI ∨ n.uri = POSITION_NS_URI ∨ n.uri = ERROR_NS_URI := by
            simp only [standardUris, List.mem_cons, List.not_mem_nil, or_false] at hstd
            rcases hstd with h | h | h | h | h
            · exact .inl h
            · exact absurd h hcpp
            · exact .inr (.inr h)
            · exact .inr (.inl h)
            · exact absurd h homp
          rcases this with h | h | h
          · exact .inl h
          · exact .inr (.inl ⟨h, hk.positions (q2 h) (by rw [← h]; exact fun h0 => absurd (q1.symm.trans h0) (by simp))⟩)
          · exact .inr (.inr (.inl ⟨h, hk.debug (q3 h) (by rw [← h]; exact fun h0 => absurd (q1.symm.trans h0) (by simp))⟩))
        · refine .inr (.inr (.inr ⟨hstd, ?_⟩))
          apply Classical.byContradiction
          intro h0
          rw [prefixAt_none.mpr h0] at hap
          cases hap
      have hrp : prefixAt (rootOut a').namespaces n.uri = some n.prefix_ := by rw [rootOut_prefix ht.nodup, hap]; rfl
      obtain ⟨m, m1, m2, m3⟩ := entry_of ht.table hdecl hrp
      have he : nsAttr m = nsAttr n := by unfold nsAttr; rw [m2, m3]
      rw [← he]
      exact (nsDecls_mem ha.prefixes ha.values hD).mpr ⟨m, m1, rfl⟩

theorem known_same_xml (xs : List (Archive × UnitData × ReadJob)) (hx : ∀ x ∈ xs, Known x.1 x.2.1 x.2.2 ∧ ∃ name attrs, Scoped x.1 x.2.1 x.2.2 name attrs) (hne : xs ≠ []) (a' : Archive)
    (ht : MadeTable a') (th : ThreadState) (hA : isoption a'.options OPTION_ARCHIVE = true) (hD : isoption a'.options OPTION_NAMESPACE_DECL = true)
    (ha : CarriedArchive a') (hu : UsualPrefixes a'.namespaces) (hk : ∀ x ∈ xs, Knows a' x.1) :
    ∃ s doc, (newIO a' th).calls (.openWrite true .memory :: xs.map (fun x => .writeUnit x.1 (some x.2.1) none) ++ [.close]) = .val s ∧ s.delivered = some doc ∧
      ∀ fs wants, Delivers doc fs → ∃ h : Sax2, ({ wants := wants } : Sax2).feeds fs = .val h ∧ AnyCalls h.log ∧
        ∀ (fin : Finish) (r : Reader), Reach { todo := h.log.filterMap saxCall, finish := fin } Reader.Step r →
          (∀ i (hi : i < r.log.length), (wants[i]?).getD false = decide ((r.log[i]).1 = .read)) →
          ∀ i (hi : i < r.log.length) (hn : i < xs.length), (r.log[i]).1 = .read → ∃ w, gets h.log (r.log[i]).2 = some w ∧ SameUnitData xs[i].2.1 w ∧ SameXml xs[i].2.1 w := by
  have hjobs : ∀ j ∈ xs.map copyJob, CarriedJob a' j := by
    intro j hj
    obtain ⟨x, h1, rfl⟩ := List.mem_map.mp hj
    exact known_carried ha (hx x h1).1
  have hnames : ∀ j ∈ xs.map copyJob, (∀ p ∈ attrPairs j.u.attributes, ':' ∉ p.1) ∧ j.u.attributes.length % 2 = 0 := by
    intro j hj
    obtain ⟨x, h1, rfl⟩ := List.mem_map.mp hj
    exact ⟨(hx x h1).1.names, (hx x h1).1.pairs⟩
  obtain ⟨s, doc, h1, h2, h3⟩ := C25_reads a' th (xs.map copyJob) hA (by simpa using hne) ha hjobs hnames
  refine ⟨s, doc, ?_, h2, ?_⟩
  · rw [← h1]
    congr 3
    unfold writeCalls
    simp [copyJob]
  · intro fs wants hd
    obtain ⟨h, e1, e2, e3⟩ := h3 fs wants hd
    refine ⟨h, e1, e2, ?_⟩
    intro fin r hr hw i hi hn hread
    obtain ⟨w, w1, w2, w3⟩ := (e3 fin r hr hw i hi).1 (by simpa using hn) hread
    rw [List.getElem_map] at w2 w3
    have hmem := List.getElem_mem hn
    obtain ⟨k1, name, attrs, k2⟩ := hx _ hmem
    exact ⟨w, w1, same_of_meta k1 w2 w3.inner w3.src, same_xml_of k1 k2 hA hD ht ha hu (hk _ hmem) w3⟩

/-- C79, namespaces. If the new archive, which was set up with the library, knows the namespaces of the archives from which the units were read, with the same prefixes (as the command srcml registers them), then each copy is the same XML as the
unit: the same element with the same contents, and each prefix that was declared for the unit is declared for the copy, for the same namespace.
Partial: the namespace of OpenMP is left out, and the namespaces of srcML, but that of srcML itself, have their usual prefixes. -/
theorem C79_same_xml_partial (xs : List (Archive × UnitData × ReadJob)) (hx : ∀ x ∈ xs, ReadBack x.1 x.2.1 x.2.2) (hj : ∀ x ∈ xs, UsualUnit x.1 x.2.2) (hne : xs ≠ []) (calls : List SetCall) (a' : Archive)
    (hmade : runCalls srcml_archive_create calls = .val a') (th : ThreadState) (hA : isoption a'.options OPTION_ARCHIVE = true) (hD : isoption a'.options OPTION_NAMESPACE_DECL = true)
    (ha : CarriedArchive a') (hu : UsualPrefixes a'.namespaces) (hk : ∀ x ∈ xs, Knows a' x.1) :
    ∃ s doc, (newIO a' th).calls (.openWrite true .memory :: xs.map (fun x => .writeUnit x.1 (some x.2.1) none) ++ [.close]) = .val s ∧ s.delivered = some doc ∧
      ∀ fs wants, Delivers doc fs → ∃ h : Sax2, ({ wants := wants } : Sax2).feeds fs = .val h ∧ AnyCalls h.log ∧
        ∀ (fin : Finish) (r : Reader), Reach { todo := h.log.filterMap saxCall, finish := fin } Reader.Step r →
          (∀ i (hi : i < r.log.length), (wants[i]?).getD false = decide ((r.log[i]).1 = .read)) →
          ∀ i (hi : i < r.log.length) (hn : i < xs.length), (r.log[i]).1 = .read → ∃ w, gets h.log (r.log[i]).2 = some w ∧ SameUnitData xs[i].2.1 w ∧ SameXml xs[i].2.1 w :=
  known_same_xml xs (fun x h => ⟨read_known (hx x h), read_scoped (hx x h) (hj x h)⟩) hne a' (created_madeTable calls a' hmade) th hA hD ha hu hk

/-! ### An instance -/

/-- An archive that knows the namespaces of the archive `backArchive` after it was read. -/
def knowingCalls : List SetCall := backCalls ++ [.registerNamespace (some "pos".toList) (some POSITION_NS_URI)]

/-- The archive that they make. -/
def knowingArchive : Archive :=
  match runCalls srcml_archive_create knowingCalls with
  | .val a => a
  | .ub => srcml_archive_create

theorem knowing_carried : CarriedArchive knowingArchive where
  prefixes := by constructor <;> decide +kernel
  values := by
    have e : rootMeta knowingArchive = rootMeta backArchive := by
      have h1 : ∀ a : Archive, (rootMeta a) = { rootMeta srcml_archive_create with revision := a.revision, url := a.url, version := a.version, attributes := a.attributes } := fun _ => rfl
      rw [h1 knowingArchive, h1 backArchive, show knowingArchive.revision = backArchive.revision by decide +kernel, show knowingArchive.url = backArchive.url by decide +kernel,
        show knowingArchive.version = backArchive.version by decide +kernel, show knowingArchive.attributes = backArchive.attributes by decide +kernel]
    rw [e]
    exact back_carried.values
  macros := by decide +kernel
  prolog := ⟨by decide +kernel, by intro t d h; cases h⟩
  prolog' := ⟨⟨by decide +kernel, by intro t d h; cases h⟩, by decide +kernel, by intro t d h; cases h⟩
  uris := by unfold PlainUris; decide +kernel
  cpp := by decide +kernel

theorem prefix_of_map (l : List Namespace) (u : Str) : prefixAt l u = ((l.map (fun n => (n.uri, n.prefix_))).find? (fun p => p.1 == u)).map (·.2) := by
  unfold prefixAt findUri
  induction l with
  | nil => rfl
  | cons n l ih =>
    simp only [List.map_cons, List.find?_cons]
    by_cases h : n.uri = u
    · simp [h]
    · simp only [beq_eq_false_iff_ne.mpr h]
      simpa [h] using ih

theorem sample_usual {b : Archive} (h4 : b.namespaces.map (fun n => (n.uri, n.prefix_)) = [(SRC_NS_URI, "s".toList), (POSITION_NS_URI, "pos".toList), ("http://e.org".toList, "ex".toList)]) : UsualUnit b backJob := by
  refine ⟨?_, by decide +kernel, by unfold UsualPrefixes; decide +kernel, ?_⟩
  · exact fun n hn => ((created_madeTable backCalls backArchive (by decide +kernel)).flags n hn).1
  · rw [prefix_of_map b.namespaces, h4]; decide +kernel

/-- The hypotheses of `C79_same_xml_partial` are met: a unit that was read from the archive `backArchive`, with another prefix of srcML, a namespace of its own, and positions. -/
example : ∃ b v, ReadBack b v backJob ∧ UsualUnit b backJob ∧ runCalls srcml_archive_create knowingCalls = .val knowingArchive ∧ isoption knowingArchive.options OPTION_ARCHIVE = true ∧
    isoption knowingArchive.options OPTION_NAMESPACE_DECL = true ∧ CarriedArchive knowingArchive ∧ UsualPrefixes knowingArchive.namespaces ∧ Knows knowingArchive b := by
  obtain ⟨b, v, h1, _, _, h4, h5⟩ := copy_sample
  refine ⟨b, v, h1, sample_usual h4, by decide +kernel, by decide +kernel, by decide +kernel, knowing_carried, by unfold UsualPrefixes; decide +kernel, ?_, ?_, ?_⟩
  · intro u p hp
    have hp : prefixAt b.namespaces u = some p := hp
    rw [prefix_of_map b.namespaces, h4] at hp
    obtain ⟨x, x1, rfl⟩ := Option.map_eq_some_iff.mp hp
    have hu : x.1 = u := by simpa using List.find?_some x1
    subst hu
    have hall : ∀ x ∈ [(SRC_NS_URI, "s".toList), (POSITION_NS_URI, "pos".toList), ("http://e.org".toList, "ex".toList)], srcml_archive_get_prefix_from_uri knowingArchive (some x.1) = some x.2 := by decide +kernel
    exact hall x (List.mem_of_find?_eq_some x1)
  · intro _ _; decide +kernel
  · intro h; rw [h5] at h; cases h

end Srcml
