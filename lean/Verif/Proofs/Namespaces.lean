import Verif.Proofs.Output
import Verif.Proofs.Tables
/-
The namespace table of the output.
-/
set_option linter.unusedSimpArgs false
namespace Srcml
open Spec

/-- The uris of the five standard namespaces. -/
def standardUris : List Str := [SRC_NS_URI, CPP_NS_URI, ERROR_NS_URI, POSITION_NS_URI, OPENMP_NS_URI]

theorem standardUris_nodup : standardUris.Nodup := by decide +kernel

theorem default_uris : defaultNamespaces.map (·.uri) = standardUris := rfl

theorem hasFlag_or (a b f : Nat) : hasFlag (a ||| b) f = (hasFlag a f || hasFlag b f) := by
  unfold hasFlag
  rw [Nat.and_or_distrib_right]
  by_cases h1 : a &&& f = 0 <;> by_cases h2 : b &&& f = 0 <;> simp [h1, h2, Nat.or_eq_zero_iff]

/-- Flags of an entry that are no more than its uri allows. -/
structure FlagsSound (n : Namespace) : Prop where
  std : hasFlag n.flags NS_STANDARD = true → n.uri ∈ standardUris
  req : hasFlag n.flags NS_REQUIRED = true → n.uri = SRC_NS_URI
  root : hasFlag n.flags NS_ROOT = true → n.uri = ERROR_NS_URI ∨ n.uri = POSITION_NS_URI
  reg : n.uri ∉ standardUris → hasFlag n.flags NS_REGISTERED = true

/-- Flags of an entry that are exactly what its uri demands. -/
structure FlagsExact (n : Namespace) : Prop where
  std : hasFlag n.flags NS_STANDARD = true ↔ n.uri ∈ standardUris
  req : hasFlag n.flags NS_REQUIRED = true ↔ n.uri = SRC_NS_URI
  root : hasFlag n.flags NS_ROOT = true ↔ (n.uri = ERROR_NS_URI ∨ n.uri = POSITION_NS_URI)
  reg : n.uri ∉ standardUris → hasFlag n.flags NS_REGISTERED = true

/-- The table of the output: standard entries first, each uri once, flags as demanded. -/
structure TableOk (ns : List Namespace) : Prop where
  nodup : (ns.map (·.uri)).Nodup
  std : (ns.map (·.uri)).take 5 = standardUris
  flags : ∀ n ∈ ns, FlagsExact n

theorem default_tableOk : TableOk defaultNamespaces := by
  refine ⟨standardUris_nodup, rfl, ?_⟩
  intro n hn
  simp only [defaultNamespaces, List.mem_cons, List.not_mem_nil, or_false] at hn
  rcases hn with rfl | rfl | rfl | rfl | rfl <;>
    exact ⟨by decide +kernel, by decide +kernel, by decide +kernel, by decide +kernel⟩

theorem mem_modifyUri {ns : List Namespace} {u : Str} {f : Namespace → Namespace} {x : Namespace}
    (h : x ∈ modifyUri ns u f) : x ∈ ns ∨ ∃ y ∈ ns, y.uri = u ∧ x = f y := by
  induction ns with
  | nil => simp [modifyUri] at h
  | cons n rest ih =>
    unfold modifyUri at h
    split at h
    · simp only [List.mem_cons] at h
      rcases h with rfl | h
      · exact Or.inr ⟨n, by simp, by assumption, rfl⟩
      · exact Or.inl (by simp [h])
    · simp only [List.mem_cons] at h
      rcases h with rfl | h
      · exact Or.inl (by simp)
      · rcases ih h with h | ⟨y, hy, e1, e2⟩
        · exact Or.inl (by simp [h])
        · exact Or.inr ⟨y, by simp [hy], e1, e2⟩

theorem mergeOne_uris (ns : List Namespace) (n : Namespace) :
    (mergeOne ns n).map (·.uri) =
      if n.uri ∈ ns.map (·.uri) then ns.map (·.uri) else ns.map (·.uri) ++ [n.uri] := by
  unfold mergeOne
  cases h : findUri ns n.uri with
  | none => rw [if_neg ((findUri_none ns n.uri).mp h)]; simp
  | some it =>
    have hm : n.uri ∈ ns.map (·.uri) := by
      apply Classical.byContradiction
      intro hc
      rw [(findUri_none ns n.uri).mpr hc] at h; cases h
    rw [if_pos hm]
    simp only []
    split
    · split
      · exact modifyUri_uris _ _ _ (fun _ => rfl)
      · rfl
    · split
      · exact modifyUri_uris _ _ _ (fun _ => rfl)
      · rfl

theorem flags_or_exact {t n : Namespace} (ht : FlagsExact t) (hn : FlagsSound n) (hu : t.uri = n.uri) (p : Str) :
    FlagsExact { t with prefix_ := p, flags := t.flags ||| n.flags } := by
  refine ⟨?_, ?_, ?_, ?_⟩
  · simp only [hasFlag_or, Bool.or_eq_true]
    exact ⟨fun h => h.elim ht.std.mp (fun h => hu ▸ hn.std h), fun h => Or.inl (ht.std.mpr h)⟩
  · simp only [hasFlag_or, Bool.or_eq_true]
    exact ⟨fun h => h.elim ht.req.mp (fun h => hu ▸ hn.req h), fun h => Or.inl (ht.req.mpr h)⟩
  · simp only [hasFlag_or, Bool.or_eq_true]
    exact ⟨fun h => h.elim ht.root.mp (fun h => hu ▸ hn.root h), fun h => Or.inl (ht.root.mpr h)⟩
  · intro h; simp only [hasFlag_or, Bool.or_eq_true]; exact Or.inl (ht.reg h)

theorem mergeOne_ok {ns : List Namespace} (h : TableOk ns) {n : Namespace} (hn : FlagsSound n) :
    TableOk (mergeOne ns n) := by
  have h5 : 5 ≤ (ns.map (·.uri)).length := by
    have := congrArg List.length h.std
    simp only [List.length_take, standardUris, List.length_cons, List.length_nil] at this
    omega
  have hmod : ∀ p, ∀ x ∈ modifyUri ns n.uri (fun t => { t with prefix_ := p, flags := t.flags ||| n.flags }),
      FlagsExact x := by
    intro p x hx
    rcases mem_modifyUri hx with hx | ⟨y, hy, e1, rfl⟩
    · exact h.flags x hx
    · exact flags_or_exact (h.flags y hy) hn e1 p
  refine ⟨?_, ?_, ?_⟩
  · rw [mergeOne_uris]
    split
    · exact h.nodup
    · rename_i hm
      rw [List.nodup_append]
      refine ⟨h.nodup, by simp, ?_⟩
      intro a ha b hb
      simp only [List.mem_singleton] at hb
      rintro rfl
      exact hm (hb ▸ ha)
  · rw [mergeOne_uris]
    split
    · exact h.std
    · rw [List.take_append_of_le_length h5]; exact h.std
  · intro x hx
    unfold mergeOne at hx
    cases hf : findUri ns n.uri with
    | none =>
      simp only [hf, List.mem_append, List.mem_singleton] at hx
      rcases hx with hx | rfl
      · exact h.flags x hx
      · -- a uri that is not in the table is not a standard one
        have hns : n.uri ∉ standardUris := by
          intro hc
          rw [← h.std] at hc
          exact (findUri_none ns n.uri).mp hf (List.mem_of_mem_take hc)
        refine ⟨⟨fun hh => hn.std hh, fun hh => absurd hh hns⟩, ⟨fun hh => hn.req hh, ?_⟩,
          ⟨fun hh => hn.root hh, ?_⟩, fun _ => hn.reg hns⟩
        · intro e
          exact absurd (show n.uri ∈ standardUris by rw [show n.uri = SRC_NS_URI from e]; simp [standardUris]) hns
        · intro e
          refine absurd (show n.uri ∈ standardUris from ?_) hns
          rcases e with e | e <;> (rw [show n.uri = _ from e]; simp [standardUris])
    | some it =>
      simp only [hf] at hx
      split at hx
      · split at hx
        · exact hmod _ x hx
        · exact h.flags x hx
      · split at hx
        · exact hmod _ x hx
        · exact h.flags x hx

theorem merge_ok {ns : List Namespace} (h : TableOk ns) {other : List Namespace} (ho : ∀ n ∈ other, FlagsSound n) :
    TableOk (mergeNamespaces ns other) := by
  unfold mergeNamespaces
  induction other generalizing ns with
  | nil => exact h
  | cons n rest ih =>
    exact ih (mergeOne_ok h (ho n (by simp))) (fun x hx => ho x (by simp [hx]))

/-- The flags of the table of an archive stay sound under registrations. -/
theorem registerNs_sound {ns : List Namespace} (h : ∀ n ∈ ns, FlagsSound n) (p u : Str) :
    ∀ n ∈ registerNs ns p u, FlagsSound n := by
  intro x hx
  unfold registerNs at hx
  split at hx
  · rcases mem_modifyUri hx with hx | ⟨y, hy, e1, rfl⟩
    · exact h x hx
    · exact ⟨(h y hy).std, (h y hy).req, (h y hy).root, (h y hy).reg⟩
  · simp only [List.mem_append, List.mem_singleton] at hx
    rcases hx with hx | rfl
    · exact h x hx
    · refine ⟨fun hh => ?_, fun hh => ?_, fun hh => ?_, fun _ => ?_⟩
      · exact absurd (show hasFlag NS_REGISTERED NS_STANDARD = true from hh) (by decide)
      · exact absurd (show hasFlag NS_REGISTERED NS_REQUIRED = true from hh) (by decide)
      · exact absurd (show hasFlag NS_REGISTERED NS_ROOT = true from hh) (by decide)
      · show hasFlag NS_REGISTERED NS_REGISTERED = true; decide

theorem starting_sound : ∀ n ∈ startingNamespaces, FlagsSound n := by
  intro n hn
  simp only [startingNamespaces, List.mem_singleton] at hn
  subst hn
  exact ⟨by decide +kernel, by decide +kernel, by decide +kernel, by decide +kernel⟩

/-! ### Marks -/

theorem markUriUsed_uris (ns : List Namespace) (u : Str) : (markUriUsed ns u).map (·.uri) = ns.map (·.uri) :=
  modifyUri_uris ns u _ (fun _ => rfl)

theorem modifyUri_flag_ok {ns : List Namespace} (h : TableOk ns) (u : Str) :
    TableOk (markUriUsed ns u) := by
  refine ⟨?_, ?_, ?_⟩
  · rw [markUriUsed_uris]; exact h.nodup
  · rw [markUriUsed_uris]; exact h.std
  · intro x hx
    rcases mem_modifyUri hx with hx | ⟨y, hy, _, rfl⟩
    · exact h.flags x hx
    · have := h.flags y hy
      have e1 : ∀ a f, hasFlag NS_USED f = false → hasFlag (a ||| NS_USED) f = hasFlag a f := by
        intro a f hf; rw [hasFlag_or, hf, Bool.or_false]
      exact ⟨by rw [e1 _ _ (by decide)]; exact this.std, by rw [e1 _ _ (by decide)]; exact this.req,
        by rw [e1 _ _ (by decide)]; exact this.root, by rw [e1 _ _ (by decide)]; exact this.reg⟩

theorem markByOptions_ok {ns : List Namespace} (h : TableOk ns) (o : Opts) : TableOk (markByOptions ns o) := by
  unfold markByOptions
  have h1 : TableOk (if isoption o OPTION_CPP_DECLARED then markUriUsed ns CPP_NS_URI else ns) := by
    split
    · exact modifyUri_flag_ok h _
    · exact h
  generalize (if isoption o OPTION_CPP_DECLARED then markUriUsed ns CPP_NS_URI else ns) = n1 at h1
  have h2 : TableOk (if isoption o OPTION_POSITION then markUriUsed n1 POSITION_NS_URI else n1) := by
    split
    · exact modifyUri_flag_ok h1 _
    · exact h1
  simp only []
  generalize (if isoption o OPTION_POSITION then markUriUsed n1 POSITION_NS_URI else n1) = n2 at h2
  split
  · exact modifyUri_flag_ok h2 _
  · exact h2

theorem markUsed_uris (ns : List Namespace) (p : Prefixes) : (markUsed ns p).map (·.uri) = ns.map (·.uri) := by
  unfold markUsed
  apply List.ext_getElem?
  intro i
  simp only [List.getElem?_map, List.getElem?_modify]
  split
  · cases ns[i]? <;> rfl
  · simp

theorem markUsed_ok {ns : List Namespace} (h : TableOk ns) (p : Prefixes) : TableOk (markUsed ns p) := by
  refine ⟨by rw [markUsed_uris]; exact h.nodup, by rw [markUsed_uris]; exact h.std, ?_⟩
  intro x hx
  obtain ⟨i, hi, rfl⟩ := List.getElem_of_mem hx
  have hi' : i < ns.length := by simpa [markUsed] using hi
  simp only [markUsed, List.getElem_modify]
  have := h.flags ns[i] (List.getElem_mem hi')
  split
  · have e1 : ∀ a f, hasFlag NS_USED f = false → hasFlag (a ||| NS_USED) f = hasFlag a f := by
      intro a f hf; rw [hasFlag_or, hf, Bool.or_false]
    exact ⟨by rw [e1 _ _ (by decide)]; exact this.std, by rw [e1 _ _ (by decide)]; exact this.req,
      by rw [e1 _ _ (by decide)]; exact this.root, by rw [e1 _ _ (by decide)]; exact this.reg⟩
  · exact this

/-! ### What is declared -/

theorem findUri_uri {ns : List Namespace} {u : Str} {n : Namespace} (h : findUri ns u = some n) : n.uri = u := by
  unfold findUri at h
  simpa using List.find?_some h

theorem findUri_mem {ns : List Namespace} {u : Str} {n : Namespace} (h : findUri ns u = some n) : n ∈ ns :=
  List.mem_of_find?_eq_some h

theorem findUri_of_mem {ns : List Namespace} (hn : (ns.map (·.uri)).Nodup) {n : Namespace} (h : n ∈ ns) :
    findUri ns n.uri = some n := by
  obtain ⟨i, hi, rfl⟩ := List.getElem_of_mem h
  exact findUri_of_getElem ns hn i _ (List.getElem?_eq_getElem hi)

theorem findUri_markUriUsed (ns : List Namespace) (u v : Str) :
    findUri (markUriUsed ns u) v =
      (findUri ns v).map (fun n => if v = u then { n with flags := n.flags ||| NS_USED } else n) := by
  by_cases h : v = u
  · subst h
    unfold markUriUsed
    have := findUri_modifyUri_self ns v (fun n => { n with flags := n.flags ||| NS_USED }) (fun _ => rfl)
    rw [this]
    simp
  · unfold markUriUsed
    have := findUri_modifyUri_ne ns u v h (fun n => { n with flags := n.flags ||| NS_USED }) (fun _ => rfl)
    rw [this]
    simp [h]

/-- The entry of a uri after the marks by options: same prefix, and marked if an option says so. -/
theorem findUri_markByOptions (ns : List Namespace) (o : Opts) (v : Str) :
    ∀ n, findUri (markByOptions ns o) v = some n →
      ∃ m, findUri ns v = some m ∧ n.prefix_ = m.prefix_ ∧
        (hasFlag n.flags NS_USED = (hasFlag m.flags NS_USED ||
          (decide (v = CPP_NS_URI) && isoption o OPTION_CPP_DECLARED) ||
          (decide (v = POSITION_NS_URI) && isoption o OPTION_POSITION) ||
          (decide (v = ERROR_NS_URI) && isoption o OPTION_DEBUG))) := by
  have hu : ∀ a, hasFlag (a ||| NS_USED) NS_USED = true := by
    intro a; rw [hasFlag_or]; simp [show hasFlag NS_USED NS_USED = true from by decide]
  have step : ∀ (l : List Namespace) (u : Str) (b : Bool) n,
      findUri (if b then markUriUsed l u else l) v = some n →
      ∃ m, findUri l v = some m ∧ n.prefix_ = m.prefix_ ∧
        hasFlag n.flags NS_USED = (hasFlag m.flags NS_USED || (decide (v = u) && b)) := by
    intro l u b n hn
    cases b with
    | false => exact ⟨n, by simpa using hn, rfl, by simp⟩
    | true =>
      rw [if_pos rfl, findUri_markUriUsed, Option.map_eq_some_iff] at hn
      obtain ⟨m, hm, rfl⟩ := hn
      refine ⟨m, hm, ?_, ?_⟩
      · split <;> rfl
      · by_cases h : v = u
        · simp [h, hu]
        · simp [h]
  intro n hn
  unfold markByOptions at hn
  obtain ⟨m3, h3, p3, f3⟩ := step _ _ _ _ hn
  obtain ⟨m2, h2, p2, f2⟩ := step _ _ _ _ h3
  obtain ⟨m1, h1, p1, f1⟩ := step _ _ _ _ h2
  exact ⟨m1, h1, by rw [p3, p2, p1], by rw [f3, f2, f1]⟩

theorem markByOptions_uris (ns : List Namespace) (o : Opts) :
    (markByOptions ns o).map (·.uri) = ns.map (·.uri) := by
  unfold markByOptions
  simp only []
  split <;> split <;> split <;> simp only [markUriUsed_uris]

/-- The namespaces that `outputNamespaces` writes. -/
def Out.declared (o : Out) : List Namespace :=
  (markByOptions o.namespaces o.options).filter (declares o.options o.depth)

theorem declared_uris_nodup {o : Out} (h : TableOk o.namespaces) : (o.declared.map (·.uri)).Nodup := by
  have := (markByOptions_ok h o.options).nodup
  exact List.Sublist.nodup ((List.filter_sublist).map _) this

/-- Is a namespace in use: by a mark in the table or by an option. -/
def inUse (o : Out) (u : Str) : Prop :=
  (∃ n, findUri o.namespaces u = some n ∧ hasFlag n.flags NS_USED = true) ∨
  (u = CPP_NS_URI ∧ isoption o.options OPTION_CPP_DECLARED = true) ∨
  (u = POSITION_NS_URI ∧ isoption o.options OPTION_POSITION = true) ∨
  (u = ERROR_NS_URI ∧ isoption o.options OPTION_DEBUG = true)

theorem src_not : SRC_NS_URI ≠ CPP_NS_URI ∧ SRC_NS_URI ≠ ERROR_NS_URI ∧ SRC_NS_URI ≠ POSITION_NS_URI ∧
    SRC_NS_URI ≠ OPENMP_NS_URI ∧ CPP_NS_URI ≠ ERROR_NS_URI ∧ CPP_NS_URI ≠ POSITION_NS_URI ∧
    OPENMP_NS_URI ≠ ERROR_NS_URI ∧ OPENMP_NS_URI ≠ POSITION_NS_URI := by decide +kernel

/-- Which uris are declared. -/
theorem declared_iff {o : Out} (h : TableOk o.namespaces) (u : Str) :
    u ∈ o.declared.map (·.uri) ↔
      ((o.depth = 0 ∨ isoption o.options OPTION_ARCHIVE = false) ∧
        (u = SRC_NS_URI ∨ ((u = ERROR_NS_URI ∨ u = POSITION_NS_URI) ∧ inUse o u) ∨
          (u ∉ standardUris ∧ u ∈ o.namespaces.map (·.uri)))) ∨
      ((o.depth = 1 ∨ isoption o.options OPTION_ARCHIVE = false) ∧
        ((u = CPP_NS_URI ∨ u = OPENMP_NS_URI) ∧ inUse o u)) := by
  have hT := markByOptions_ok h o.options
  -- the entry of the uri
  have key : u ∈ o.declared.map (·.uri) ↔
      ∃ n, findUri (markByOptions o.namespaces o.options) u = some n ∧ declares o.options o.depth n = true := by
    unfold Out.declared
    simp only [List.mem_map, List.mem_filter]
    constructor
    · rintro ⟨n, ⟨hm, hd⟩, rfl⟩; exact ⟨n, findUri_of_mem hT.nodup hm, hd⟩
    · rintro ⟨n, hn, hd⟩; exact ⟨n, ⟨findUri_mem hn, hd⟩, findUri_uri hn⟩
  rw [key]
  have hmem : u ∈ o.namespaces.map (·.uri) ↔ ∃ n, findUri (markByOptions o.namespaces o.options) u = some n := by
    rw [← markByOptions_uris o.namespaces o.options]
    constructor
    · intro hm
      cases hf : findUri (markByOptions o.namespaces o.options) u with
      | none => exact absurd hm ((findUri_none _ _).mp hf)
      | some n => exact ⟨n, rfl⟩
    · rintro ⟨n, hn⟩
      apply Classical.byContradiction
      intro hc
      rw [(findUri_none _ _).mpr hc] at hn; cases hn
  have hstdmem : ∀ v ∈ standardUris, v ∈ o.namespaces.map (·.uri) := by
    intro v hv; rw [← h.std] at hv; exact List.mem_of_mem_take hv
  have huse : ∀ n, findUri (markByOptions o.namespaces o.options) u = some n →
      (hasFlag n.flags NS_USED = true ↔ inUse o u) := by
    intro n hn
    obtain ⟨m, hm, _, hf⟩ := findUri_markByOptions _ _ _ n hn
    rw [hf]
    unfold inUse
    constructor
    · intro hh
      simp only [Bool.or_eq_true, Bool.and_eq_true, decide_eq_true_eq] at hh
      rcases hh with ((hh | hh) | hh) | hh
      · exact Or.inl ⟨m, hm, hh⟩
      · exact Or.inr (Or.inl hh)
      · exact Or.inr (Or.inr (Or.inl hh))
      · exact Or.inr (Or.inr (Or.inr hh))
    · intro hh
      simp only [Bool.or_eq_true, Bool.and_eq_true, decide_eq_true_eq]
      rcases hh with ⟨m', hm', hh⟩ | hh | hh | hh
      · rw [hm] at hm'; cases hm'; exact Or.inl (Or.inl (Or.inl hh))
      · exact Or.inl (Or.inl (Or.inr hh))
      · exact Or.inl (Or.inr hh)
      · exact Or.inr hh
  obtain ⟨s1, s2, s3, s4, s5, s6, s7, s8⟩ := src_not
  have hdecl : ∀ n, findUri (markByOptions o.namespaces o.options) u = some n →
      (declares o.options o.depth n = true ↔
      ((o.depth = 0 ∨ isoption o.options OPTION_ARCHIVE = false) ∧
        (u = SRC_NS_URI ∨ ((u = ERROR_NS_URI ∨ u = POSITION_NS_URI) ∧ inUse o u) ∨ u ∉ standardUris)) ∨
      ((o.depth = 1 ∨ isoption o.options OPTION_ARCHIVE = false) ∧
        ((u = CPP_NS_URI ∨ u = OPENMP_NS_URI) ∧ inUse o u))) := by
    intro n hn
    have hu := findUri_uri hn
    have hfl := hT.flags n (findUri_mem hn)
    have hstd := hfl.std; have hreq := hfl.req; have hroot := hfl.root; have hreg := hfl.reg
    rw [hu] at hstd hreq hroot hreg
    have hus := huse n hn
    unfold declares
    simp only [Bool.or_eq_true, Bool.and_eq_true, decide_eq_true_eq, Bool.not_eq_true', ← Bool.not_eq_true,
      hstd, hreq, hroot, hus]
    have hA : (¬ isoption o.options OPTION_ARCHIVE = true) ↔ isoption o.options OPTION_ARCHIVE = false := by simp
    have hregi : (hasFlag n.flags NS_REGISTERED = true ∧ u ∉ standardUris) ↔ u ∉ standardUris :=
      ⟨fun h => h.2, fun h => ⟨hreg h, h⟩⟩
    rw [hA, hregi]
    have e1 : (u ∈ standardUris ∧ (u = SRC_NS_URI ∨ (u = ERROR_NS_URI ∨ u = POSITION_NS_URI) ∧ inUse o u) ↔
        (u = SRC_NS_URI ∨ (u = ERROR_NS_URI ∨ u = POSITION_NS_URI) ∧ inUse o u)) := by
      constructor
      · exact fun h => h.2
      · intro hh
        refine ⟨?_, hh⟩
        rcases hh with rfl | ⟨rfl | rfl, _⟩ <;> simp [standardUris]
    have e2 : (((u ∈ standardUris ∧ ¬(u = ERROR_NS_URI ∨ u = POSITION_NS_URI)) ∧ ¬u = SRC_NS_URI) ∧ inUse o u) ↔
        ((u = CPP_NS_URI ∨ u = OPENMP_NS_URI) ∧ inUse o u) := by
      constructor
      · rintro ⟨⟨⟨hm, hn1⟩, hn2⟩, hi⟩
        refine ⟨?_, hi⟩
        simp only [standardUris, List.mem_cons, List.not_mem_nil, or_false] at hm
        rcases hm with hm | hm | hm | hm | hm
        · exact absurd hm hn2
        · exact Or.inl hm
        · exact absurd (Or.inl hm) hn1
        · exact absurd (Or.inr hm) hn1
        · exact Or.inr hm
      · rintro ⟨hm, hi⟩
        refine ⟨⟨⟨?_, ?_⟩, ?_⟩, hi⟩
        · rcases hm with rfl | rfl <;> simp [standardUris]
        · rintro (e | e) <;> rcases hm with hm | hm <;> rw [hm] at e
          · exact s5 e
          · exact s7 e
          · exact s6 e
          · exact s8 e
        · rintro e; rcases hm with hm | hm <;> rw [hm] at e
          · exact s1 e.symm
          · exact s4 e.symm
    rw [e1, e2, or_assoc]
  constructor
  · rintro ⟨n, hn, hd⟩
    rw [hdecl n hn] at hd
    rcases hd with ⟨h1, h2 | h2 | h2⟩ | hd
    · exact Or.inl ⟨h1, Or.inl h2⟩
    · exact Or.inl ⟨h1, Or.inr (Or.inl h2)⟩
    · exact Or.inl ⟨h1, Or.inr (Or.inr ⟨h2, hmem.mpr ⟨n, hn⟩⟩)⟩
    · exact Or.inr hd
  · intro hh
    have hin : u ∈ o.namespaces.map (·.uri) := by
      rcases hh with ⟨_, rfl | ⟨rfl | rfl, _⟩ | ⟨_, h2⟩⟩ | ⟨_, rfl | rfl, _⟩
      · exact hstdmem _ (by simp [standardUris])
      · exact hstdmem _ (by simp [standardUris])
      · exact hstdmem _ (by simp [standardUris])
      · exact h2
      · exact hstdmem _ (by simp [standardUris])
      · exact hstdmem _ (by simp [standardUris])
    obtain ⟨n, hn⟩ := hmem.mp hin
    refine ⟨n, hn, (hdecl n hn).mpr ?_⟩
    rcases hh with ⟨h1, h2 | h2 | h2⟩ | hd
    · exact Or.inl ⟨h1, Or.inl h2⟩
    · exact Or.inl ⟨h1, Or.inr (Or.inl h2)⟩
    · exact Or.inl ⟨h1, Or.inr (Or.inr h2.1)⟩
    · exact Or.inr hd

end Srcml
