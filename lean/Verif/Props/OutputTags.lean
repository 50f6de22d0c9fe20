import Verif.Model.ReadAttrs
import Verif.Props.OutputUnit
set_option linter.unusedSimpArgs false
/-
C18: the metadata of a unit survives writing and reading. C17: the namespace declarations of start tags.
C55: the output does not depend on what the thread did before.
-/
namespace Srcml
open Spec

/-! ### C18 -/

theorem attrPairs_flat : ∀ (l : List Str), l.length % 2 = 0 →
    (present (attrPairs l)).flatMap (fun a => [a.1, a.2]) = l
  | [], _ => rfl
  | [_], h => by simp at h
  | n :: v :: rest, h => by
    have ih := attrPairs_flat rest (by simp only [List.length_cons] at h; omega)
    simp only [attrPairs, present, List.filterMap_cons, Option.map_some, List.flatMap_cons] at ih ⊢
    rw [ih]; rfl

/-- The names in a vector of names and values. -/
theorem updatePair_new : ∀ (l : List Str) (n v : Str), n ∉ (attrPairs l).map (·.1) → (updatePair n v l).2 = false
  | [], _, _, _ => rfl
  | [_], _, _, _ => rfl
  | a :: b :: rest, n, v, h => by
    simp only [attrPairs, List.map_cons, List.mem_cons, not_or] at h
    unfold updatePair
    rw [if_neg (fun e => h.1 e.symm)]
    exact updatePair_new rest n v h.2

theorem attrPairs_append : ∀ (a b : List Str), a.length % 2 = 0 → attrPairs (a ++ b) = attrPairs a ++ attrPairs b
  | [], _, _ => rfl
  | [_], _, h => by simp at h
  | n :: v :: rest, b, h => by
    have ih := attrPairs_append rest b (by simp only [List.length_cons] at h; omega)
    simp only [List.cons_append, attrPairs, ih]

theorem update_user (as : List (Str × Str)) : ∀ (u : UnitData), u.attributes.length % 2 = 0 →
    (∀ a ∈ as, a.1 ∉ fixedNames ∧ a.1 ≠ "tabs".toList) →
    ((attrPairs u.attributes).map (·.1) ++ as.map (·.1)).Nodup →
    unit_update_attributes u as = { u with attributes := u.attributes ++ as.flatMap (fun a => [a.1, a.2]) } := by
  induction as with
  | nil => intro u _ _ _; simp [unit_update_attributes]
  | cons a as ih =>
    intro u hl hn hd
    have ha := hn a (by simp)
    simp only [fixedNames, List.mem_cons, List.not_mem_nil, or_false, not_or] at ha
    obtain ⟨⟨h1, h2, h3, h4, h5, h6, h7, h8, h9⟩, h10⟩ := ha
    have hnew : a.1 ∉ (attrPairs u.attributes).map (·.1) := by
      intro hm
      rw [List.nodup_append] at hd
      exact hd.2.2 a.1 hm a.1 (by simp) rfl
    have e : updateAttribute u a = { u with attributes := u.attributes ++ [a.1, a.2] } := by
      unfold updateAttribute
      rw [if_neg h6, if_neg h7, if_neg h2, if_neg h1, if_neg h4, if_neg h3, if_neg h5, if_neg (not_or.mpr ⟨h10, h9⟩)]
      have := updatePair_new u.attributes a.1 a.2 hnew
      split
      · rename_i as' he; rw [he] at this; cases this
      · rfl
    have := ih { u with attributes := u.attributes ++ [a.1, a.2] }
      (by simp only [List.length_append, List.length_cons, List.length_nil]; omega)
      (fun x hx => hn x (by simp [hx]))
      (by
        simp only [attrPairs_append _ _ hl, List.map_append, List.append_assoc]
        simpa [attrPairs] using hd)
    unfold unit_update_attributes at this ⊢
    rw [List.foldl_cons, e, this]
    simp

theorem localName_plain {n : Str} (h : ':' ∉ n) : localName n = n := by simp [localName, h]

theorem dropWhile_no_colon : ∀ (p : Str), ':' ∉ p → p.dropWhile (· ≠ ':') = []
  | [], _ => rfl
  | c :: cs, h => by
    simp only [List.mem_cons, not_or] at h
    rw [List.dropWhile_cons_of_pos (by simpa using fun e => h.1 e.symm)]
    exact dropWhile_no_colon cs h.2

theorem localName_tabs (p : Str) (h : ':' ∉ p) : localName (tabsName p) = "tabs".toList := by
  unfold tabsName
  split
  · rfl
  · unfold localName
    rw [if_pos (by simp)]
    have : (p ++ ":tabs".toList).dropWhile (· ≠ ':') = ":tabs".toList := by
      rw [List.dropWhile_append]
      rw [dropWhile_no_colon p h]; rfl
    rw [this]; rfl

theorem plainAttrs_append (a b : List (Str × Str)) : plainAttrs (a ++ b) = plainAttrs a ++ plainAttrs b := by
  simp [plainAttrs]

theorem isNsDecl_xmlnsName (p : Option Str) : isNsDecl (xmlnsName p) = true := by
  cases p with
  | none => rfl
  | some p => simp [isNsDecl, xmlnsName, List.isPrefixOf]

theorem isNsDecl_take {n : Str} (h : n.take 5 ≠ "xmlns".toList) : isNsDecl n = false := by
  unfold isNsDecl
  have h1 : n ≠ "xmlns".toList := by rintro rfl; exact h rfl
  have h2 : "xmlns:".toList.isPrefixOf n = false := by
    apply Bool.eq_false_iff.mpr
    intro hp
    rw [List.isPrefixOf_iff_prefix] at hp
    obtain ⟨t, rfl⟩ := hp
    exact h (by simp)
  rw [h2, Bool.or_false, decide_eq_false h1]

theorem plainAttrs_ns (o : Out) : plainAttrs o.tagNs = [] := by
  unfold plainAttrs
  rw [List.filter_eq_nil_iff.mpr]
  · rfl
  · intro a ha
    unfold Out.tagNs at ha
    split at ha
    · obtain ⟨n, _, rfl⟩ := List.mem_map.mp ha
      simp [nsAttr, isNsDecl_xmlnsName]
    · simp at ha

theorem tabs_take {p : Str} (h : p ≠ "xmlns".toList) (hc : ':' ∉ p) : isNsDecl (tabsName p) = false := by
  by_cases hp : p = []
  · subst hp; rfl
  · have hx : ∀ q, xmlnsName (nullIfEmpty q) ≠ tabsName p := tabsName_not_xmlns h hc
    apply Bool.eq_false_iff.mpr
    intro hd
    simp only [isNsDecl, Bool.or_eq_true, decide_eq_true_eq] at hd
    rcases hd with hd | hd
    · exact hx [] (by rw [hd]; rfl)
    · rw [List.isPrefixOf_iff_prefix] at hd
      obtain ⟨t, ht⟩ := hd
      by_cases h0 : t = []
      · subst h0
        have := tabsName_end p
        rw [← ht] at this
        exact absurd this (by decide)
      · exact hx t (by rw [← ht]; simp [nullIfEmpty, h0, xmlnsName])

theorem fixedNames_no_colon : ∀ x ∈ fixedNames, ':' ∉ x := by decide +kernel

/-- The attributes written, as a reader reports them. -/
theorem plain_unitAttrs {o : Out} {m : UnitMeta} (hp : CleanPrefixes o.namespaces) (hm : CleanMeta m)
    (hc : ∀ a ∈ attrPairs m.attributes, ':' ∉ a.1) :
    plainAttrs (present (unitAttrs o m)) = present ((unitAttrs o m).map (fun a =>
      (if a.1 = tabsName (prefixOf o.namespaces .POS) then "tabs".toList else a.1, a.2))) := by
  have key : ∀ a ∈ unitAttrs o m, isNsDecl a.1 = false ∧ localName a.1 =
      (if a.1 = tabsName (prefixOf o.namespaces .POS) then "tabs".toList else a.1) := by
    intro a ha
    by_cases ht : a.1 = tabsName (prefixOf o.namespaces .POS)
    · rw [if_pos ht, ht]
      exact ⟨tabs_take (hp.prefixOf_ne .POS) (hp.prefixOf_colon .POS), localName_tabs _ (hp.prefixOf_colon .POS)⟩
    · rw [if_neg ht]
      have h1 : a.1 ∈ (unitAttrs o m).map (·.1) := List.mem_map_of_mem ha
      rw [unitAttrs_names] at h1
      simp only [List.mem_append, List.mem_singleton] at h1
      have hf : a.1 ∈ fixedNames → isNsDecl a.1 = false ∧ localName a.1 = a.1 := by
        intro hf
        refine ⟨isNsDecl_take (fixedNames_not_xmlns _ hf), localName_plain ?_⟩
        exact fixedNames_no_colon _ hf
      rcases h1 with ((h1 | h1) | h1) | h1
      · apply hf
        simp only [List.mem_cons, List.not_mem_nil, or_false, fixedNames] at h1 ⊢
        rcases h1 with h1 | h1 | h1 | h1 | h1 <;> simp [h1]
      · exact absurd h1 ht
      · apply hf
        simp only [List.mem_cons, List.not_mem_nil, or_false, fixedNames] at h1 ⊢
        rcases h1 with h1 | h1 | h1 | h1 <;> simp [h1]
      · obtain ⟨b, hb, e⟩ := List.mem_map.mp h1
        rw [← e]
        exact ⟨isNsDecl_take (hm.userNames b hb).2.2.1, localName_plain (hc b hb)⟩
  generalize unitAttrs o m = l at key
  induction l with
  | nil => rfl
  | cons a l ih =>
    have hk := key a (by simp)
    have ih := ih (fun x hx => key x (by simp [hx]))
    obtain ⟨n, v⟩ := a
    cases v with
    | none => simpa [present, plainAttrs] using ih
    | some v =>
      simp only [present, plainAttrs, List.filterMap_cons, Option.map_some, List.map_cons] at ih ⊢
      simp only [List.filter_cons, hk.1, Bool.not_false, if_true, List.map_cons, hk.2, ih]

/-- Storing an attribute that may be absent. -/
def updateOpt (u : UnitData) (a : Str × Option Str) : UnitData :=
  match a.2 with
  | none => u
  | some v => updateAttribute u (a.1, v)

theorem update_present (as : List (Str × Option Str)) (u : UnitData) :
    unit_update_attributes u (present as) = as.foldl updateOpt u := by
  induction as generalizing u with
  | nil => rfl
  | cons a as ih =>
    obtain ⟨n, v⟩ := a
    cases v with
    | none => simpa [present, updateOpt] using ih u
    | some v => exact ih (updateAttribute u (n, v))

theorem update_a1 (u : UnitData) (v : Option Str) : updateOpt u ("revision".toList, v) = { u with revision := v.or u.revision } := by
  cases v <;> rfl

theorem update_a2 (u : UnitData) (v : Option Str) : updateOpt u ("language".toList, v) = { u with language := v.or u.language } := by
  cases v <;> rfl

theorem update_a3 (u : UnitData) (v : Option Str) : updateOpt u ("url".toList, v) = { u with url := v.or u.url } := by
  cases v <;> rfl

theorem update_a4 (u : UnitData) (v : Option Str) : updateOpt u ("filename".toList, v) = { u with filename := v.or u.filename } := by
  cases v <;> rfl

theorem update_a5 (u : UnitData) (v : Option Str) : updateOpt u ("version".toList, v) = { u with version := v.or u.version } := by
  cases v <;> rfl

theorem update_a6 (u : UnitData) (v : Option Str) : updateOpt u ("timestamp".toList, v) = { u with timestamp := v.or u.timestamp } := by
  cases v <;> rfl

theorem update_a7 (u : UnitData) (v : Option Str) : updateOpt u ("hash".toList, v) = { u with hash := v.or u.hash } := by
  cases v <;> rfl

theorem update_a8 (u : UnitData) (v : Option Str) : updateOpt u ("tabs".toList, v) = u := by
  cases v <;> rfl

theorem update_a9 (u : UnitData) (v : Option Str) : updateOpt u ("options".toList, v) = u := by
  cases v <;> rfl

theorem update_a10 (u : UnitData) (v : Str) (h : u.attributes = []) :
    updateOpt u ("src-encoding".toList, some v) = { u with attributes := ["src-encoding".toList, v] } := by
  have e : updateOpt u ("src-encoding".toList, some v) =
    (match updatePair "src-encoding".toList v u.attributes with
      | (as, true) => { u with attributes := as }
      | (_, false) => { u with attributes := u.attributes ++ ["src-encoding".toList, v] }) := rfl
  rw [e, h]; rfl

theorem update_a11 (u : UnitData) : updateOpt u ("src-encoding".toList, none) = u := rfl

/-- The user attributes a reader finds: a stored encoding comes first. -/
def readAttributes (o : Out) (m : UnitMeta) : List Str :=
  (if isoption o.options OPTION_STORE_ENCODING then ["src-encoding".toList, defaultEncoding m.encoding] else [])
    ++ m.attributes

theorem update_fixed (u : UnitData) (r l ul f v tb t h e op : Option Str) :
    [("revision".toList, r), ("language".toList, l), ("url".toList, ul), ("filename".toList, f),
      ("version".toList, v), ("tabs".toList, tb), ("timestamp".toList, t), ("hash".toList, h),
      ("src-encoding".toList, e), ("options".toList, op)].foldl updateOpt u =
    updateOpt { u with
        revision := r.or u.revision
        language := l.or u.language
        url := ul.or u.url
        filename := f.or u.filename
        version := v.or u.version
        timestamp := t.or u.timestamp
        hash := h.or u.hash } ("src-encoding".toList, e) := by
  simp only [List.foldl_cons, List.foldl_nil]
  rw [update_a1, update_a2, update_a3, update_a4, update_a5, update_a8, update_a6, update_a7, update_a9]

theorem mem_fixed (i : Nat) (h : i < fixedNames.length) : fixedNames[i] ∈ fixedNames := List.getElem_mem h

theorem unitAttrs_renamed {o : Out} {m : UnitMeta} (hm : CleanMeta m) :
    (unitAttrs o m).map (fun a =>
      (if a.1 = tabsName (prefixOf o.namespaces .POS) then "tabs".toList else a.1, a.2)) =
    [("revision".toList, m.revision), ("language".toList, m.language), ("url".toList, m.url),
      ("filename".toList, m.filename), ("version".toList, m.version),
      ("tabs".toList, if isoption o.options OPTION_POSITION then some (decDigits o.tabsize) else none),
      ("timestamp".toList, m.timestamp), ("hash".toList, m.hash),
      ("src-encoding".toList,
        if isoption o.options OPTION_STORE_ENCODING then some (defaultEncoding m.encoding) else none),
      ("options".toList, if o.depth = 0 ∧ soptions o.options ≠ [] then some (soptions o.options) else none)]
      ++ attrPairs m.attributes := by
  have hf : ∀ x ∈ fixedNames, ¬ (x = tabsName (prefixOf o.namespaces .POS)) := by
    intro x hx e
    exact fixedNames_not_tabs x hx (by rw [e]; exact tabsName_end _)
  have hn : (attrPairs m.attributes).map (fun a =>
      (if a.1 = tabsName (prefixOf o.namespaces .POS) then "tabs".toList else a.1, a.2)) = attrPairs m.attributes := by
    have : ∀ a ∈ attrPairs m.attributes, (fun a : Str × Option Str =>
      (if a.1 = tabsName (prefixOf o.namespaces .POS) then "tabs".toList else a.1, a.2)) a = id a := by
      intro a ha
      simp only [id]
      rw [if_neg]
      intro e
      exact (hm.userNames a ha).2.2.2 (by rw [e]; exact tabsName_end _)
    rw [List.map_congr_left this, List.map_id]
  have ht : ∀ v : Option Str, (fun a : Str × Option Str =>
      (if a.1 = tabsName (prefixOf o.namespaces .POS) then "tabs".toList else a.1, a.2))
      (tabsName (prefixOf o.namespaces .POS), v) = ("tabs".toList, v) := by
    intro v; simp only [if_true]
  have hg : ∀ x ∈ fixedNames, ∀ v : Option Str, (fun a : Str × Option Str =>
      (if a.1 = tabsName (prefixOf o.namespaces .POS) then "tabs".toList else a.1, a.2)) (x, v) = (x, v) := by
    intro x hx v
    simp only [if_neg (hf x hx)]
  unfold unitAttrs
  rw [List.map_append, hn]
  generalize (fun a : Str × Option Str =>
      (if a.1 = tabsName (prefixOf o.namespaces .POS) then "tabs".toList else a.1, a.2)) = g at ht hg
  rw [List.map_cons, List.map_cons, List.map_cons, List.map_cons, List.map_cons, List.map_cons, List.map_cons,
    List.map_cons, List.map_cons, List.map_cons, List.map_nil]
  rw [hg "revision".toList (mem_fixed 0 (by decide)), hg "language".toList (mem_fixed 1 (by decide)), hg "url".toList (mem_fixed 2 (by decide)),
    hg "filename".toList (mem_fixed 3 (by decide)), hg "version".toList (mem_fixed 4 (by decide)), ht, hg "timestamp".toList (mem_fixed 5 (by decide)),
    hg "hash".toList (mem_fixed 6 (by decide)), hg "src-encoding".toList (mem_fixed 7 (by decide)), hg "options".toList (mem_fixed 8 (by decide))]

theorem update_attrPairs {m : UnitMeta} (hm : CleanMeta m) (heven : m.attributes.length % 2 = 0) (x : UnitData)
    (hx : x.attributes.length % 2 = 0) (hxf : ∀ n ∈ (attrPairs x.attributes).map (·.1), n ∈ fixedNames)
    (hxd : ((attrPairs x.attributes).map (·.1)).Nodup) :
    unit_update_attributes x (present (attrPairs m.attributes)) =
      { x with attributes := x.attributes ++ m.attributes } := by
  rw [update_user _ x hx, attrPairs_flat _ heven]
  · intro a ha
    have := mem_present.mp ha
    have := hm.userNames _ this
    refine ⟨this.2.1, ?_⟩
    intro e; exact this.2.2.2 (by rw [e]; decide)
  · rw [List.nodup_append]
    refine ⟨hxd, (present_sublist _).nodup hm.userNodup, ?_⟩
    intro y hy z hz e
    subst e
    have hz' := (present_sublist _).subset hz
    obtain ⟨b, hb, e⟩ := List.mem_map.mp hz'
    rw [← e] at hy
    exact (hm.userNames b hb).2.1 (hxf _ hy)

theorem update_unitAttrs {o : Out} {m : UnitMeta} (hp : CleanPrefixes o.namespaces) (hm : CleanMeta m)
    (hc : ∀ a ∈ attrPairs m.attributes, ':' ∉ a.1) (heven : m.attributes.length % 2 = 0) (u : UnitData)
    (hu : u.attributes = []) :
    unit_update_attributes u (plainAttrs (o.tagAttrs m)) =
      { u with
        revision := m.revision.or u.revision
        language := m.language.or u.language
        url := m.url.or u.url
        filename := m.filename.or u.filename
        version := m.version.or u.version
        timestamp := m.timestamp.or u.timestamp
        hash := m.hash.or u.hash
        attributes := readAttributes o m } := by
  unfold Out.tagAttrs
  rw [plainAttrs_append, plainAttrs_ns, List.nil_append, plain_unitAttrs hp hm hc, update_present,
    unitAttrs_renamed hm, List.foldl_append, ← update_present (attrPairs m.attributes), update_fixed]
  unfold readAttributes
  by_cases hs : isoption o.options OPTION_STORE_ENCODING = true
  · rw [if_pos hs, if_pos hs, update_a10 _ _ (by exact hu), update_attrPairs hm heven]
    · simp [attrPairs, fixedNames]
    · simp [attrPairs, fixedNames]
    · simp [attrPairs]
  · rw [if_neg hs, if_neg hs, update_a11, update_attrPairs hm heven _ (by simp [hu]) (by simp [hu, attrPairs])
      (by simp [hu, attrPairs])]
    simp only [hu]

/-- C18: a unit with its metadata is written; the document is read, and the attributes of its start tag are
stored in a new unit: it has exactly the metadata written, an absent value stays what it is in a new unit
(absent, except for the revision), and the user attributes are the same and in the same order. With the
option to store the encoding, the reader takes it for a user attribute. -/
theorem C18_metadata_reads_back_partial (o : Out) (m : UnitMeta) (ts : List Tok) (evs : List Ev)
    (hw : o.w = {}) (hp : CleanPrefixes o.namespaces) (hm : CleanMeta m) (ht : o.ThreadAgrees)
    (htext : ∀ t ∈ ts, t.text.all xmlChar = true)
    (hev : tokenEvents o.env [] ts = some (evs, []))
    (hc : ∀ a ∈ attrPairs m.attributes, ':' ∉ a.1) (heven : m.attributes.length % 2 = 0) :
    ∃ attrs, readXml (o.unitDocument m ts) = some (.op o.unitName attrs :: evs ++ [.cl o.unitName]) ∧
      (let u := unit_update_attributes {} (plainAttrs attrs)
       u.revision = some (m.revision.getD ({} : UnitData).revision.get!) ∧ u.language = m.language ∧ u.url = m.url ∧
       u.filename = m.filename ∧ u.version = m.version ∧ u.timestamp = m.timestamp ∧ u.hash = m.hash ∧
       u.attributes = (if isoption o.options OPTION_STORE_ENCODING
         then ["src-encoding".toList, defaultEncoding m.encoding] else []) ++ m.attributes) := by
  refine ⟨_, C12_unit_document_partial o m ts evs hw hp hm ht htext hev, ?_⟩
  rw [update_unitAttrs hp hm hc heven {} rfl]
  refine ⟨?_, ?_, ?_, ?_, ?_, ?_, ?_, rfl⟩ <;> simp only [Option.or_none]
  cases m.revision <;> rfl

/-- Metadata with markup characters and user attributes. -/
def sampleMeta : UnitMeta where
  language := some "C".toList
  filename := some "a&b<c>.c".toList
  attributes := ["k".toList, "v".toList, "l".toList, "\n\"".toList]

/-- Two user attributes and a filename with markup characters survive. -/
example : ∃ attrs, readXml (sampleOut.unitDocument sampleMeta []) =
      some [.op "unit".toList attrs, .cl "unit".toList] ∧
    (unit_update_attributes {} (plainAttrs attrs)).filename = some "a&b<c>.c".toList ∧
    (unit_update_attributes {} (plainAttrs attrs)).timestamp = none ∧
    (unit_update_attributes {} (plainAttrs attrs)).attributes =
      ["k".toList, "v".toList, "l".toList, "\n\"".toList] := by
  refine ⟨[("xmlns".toList, SRC_NS_URI), ("language".toList, "C".toList), ("filename".toList, "a&b<c>.c".toList),
    ("k".toList, "v".toList), ("l".toList, "\n\"".toList)], ?_, ?_, ?_, ?_⟩ <;> decide +kernel

/-- C18 is false for the stored encoding: the reader takes it for a user attribute, and when such a unit is
written again with the same option, the start tag has the attribute twice and cannot be read. -/
theorem C18_finding_src_encoding :
    let o : Out := { sampleOut with options := sampleOut.options ||| OPTION_STORE_ENCODING }
    ∃ attrs, readXml (o.unitDocument { encoding := some "UTF-8".toList } []) =
        some [.op "unit".toList attrs, .cl "unit".toList] ∧
      (let u := unit_update_attributes {} (plainAttrs attrs)
       u.attributes = ["src-encoding".toList, "UTF-8".toList] ∧ u.encoding = none ∧
       readXml (o.unitDocument { encoding := some "UTF-8".toList, attributes := u.attributes } []) = none) := by
  refine ⟨[("xmlns".toList, SRC_NS_URI), ("src-encoding".toList, "UTF-8".toList)], ?_, ?_⟩ <;> decide +kernel

/-- C18 is false for a user attribute with the name of a standard one: the document cannot be read. -/
theorem C18_finding_duplicate_name :
    readXml (sampleOut.unitDocument (⟨none, none, none, some "a.c".toList, none, none, none, none,
      ["filename".toList, "b.c".toList]⟩) []) = none := by decide +kernel

theorem updatePair_value : ∀ (l : List Str) (n v : Str), n ∈ (attrPairs l).map (·.1) →
    (updatePair n v l).2 = true ∧
    (attrPairs (updatePair n v l).1).lookup n = some (some v) ∧
    (∀ m, m ≠ n → (attrPairs (updatePair n v l).1).lookup m = (attrPairs l).lookup m) ∧
    (attrPairs (updatePair n v l).1).map (·.1) = (attrPairs l).map (·.1)
  | [], _, _, h => by simp [attrPairs] at h
  | [_], _, _, h => by simp [attrPairs] at h
  | a :: b :: rest, n, v, h => by
    unfold updatePair
    by_cases e : a = n
    · subst e
      rw [if_pos rfl]
      refine ⟨rfl, by simp [attrPairs], ?_, by simp [attrPairs]⟩
      intro m hm
      have : (m == a) = false := by simpa using hm
      simp [attrPairs, List.lookup_cons, this]
    · have h' : n ∈ (attrPairs rest).map (·.1) := by
        simp only [attrPairs, List.map_cons, List.mem_cons] at h
        exact h.resolve_left (fun x => e x.symm)
      obtain ⟨i1, i2, i3, i4⟩ := updatePair_value rest n v h'
      rw [if_neg e]
      have en : (n == a) = false := by simpa using fun x => e x.symm
      refine ⟨i1, ?_, ?_, ?_⟩
      · simp only [attrPairs, List.lookup_cons, en]; exact i2
      · intro m hm
        simp only [attrPairs, List.lookup_cons]
        rw [i3 m hm]
      · simp only [attrPairs, List.map_cons, i4]

/-- C18: an attribute whose (local) name is already in the unit replaces the value, and leaves every other user
attribute alone. -/
theorem C18_last_value_wins (u : UnitData) (n v : Str) (hf : n ∉ fixedNames ∧ n ≠ "tabs".toList)
    (h : n ∈ (attrPairs u.attributes).map (·.1)) :
    (attrPairs (unit_update_attributes u [(n, v)]).attributes).lookup n = some (some v) ∧
    (∀ m, m ≠ n → (attrPairs (unit_update_attributes u [(n, v)]).attributes).lookup m =
      (attrPairs u.attributes).lookup m) ∧
    { unit_update_attributes u [(n, v)] with attributes := u.attributes } = u := by
  have ha := hf
  simp only [fixedNames, List.mem_cons, List.not_mem_nil, or_false, not_or] at ha
  obtain ⟨⟨h1, h2, h3, h4, h5, h6, h7, h8, h9⟩, h10⟩ := ha
  obtain ⟨p1, p2, p3, _⟩ := updatePair_value u.attributes n v h
  have e : unit_update_attributes u [(n, v)] = { u with attributes := (updatePair n v u.attributes).1 } := by
    unfold unit_update_attributes updateAttribute
    simp only [List.foldl_cons, List.foldl_nil]
    rw [if_neg h6, if_neg h7, if_neg h2, if_neg h1, if_neg h4, if_neg h3, if_neg h5, if_neg (not_or.mpr ⟨h10, h9⟩)]
    split
    · rename_i as' he; rw [he]
    · rename_i as' he; rw [he] at p1; cases p1
  rw [e]
  exact ⟨p2, p3, rfl⟩

example : (unit_update_attributes { attributes := ["a".toList, "1".toList, "b".toList, "2".toList] }
    [("b".toList, "3".toList)]).attributes = ["a".toList, "1".toList, "b".toList, "3".toList] := by decide +kernel

/-- C18 is false for a user attribute with a prefix: it is read without the prefix. -/
theorem C18_finding_prefixed_attribute :
    (unit_update_attributes {} (plainAttrs [("p:x".toList, "1".toList)])).attributes = ["x".toList, "1".toList] := by
  decide +kernel

/-! ### C17 -/

theorem mem_mergeOne_uris (ns : List Namespace) (n : Namespace) (u : Str) :
    u ∈ (mergeOne ns n).map (·.uri) ↔ u ∈ ns.map (·.uri) ∨ u = n.uri := by
  rw [mergeOne_uris]
  split
  · rename_i h
    exact ⟨Or.inl, fun e => e.elim id (fun e => e ▸ h)⟩
  · simp

theorem mem_merge_uris (ns other : List Namespace) (u : Str) :
    u ∈ (mergeNamespaces ns other).map (·.uri) ↔ u ∈ ns.map (·.uri) ∨ u ∈ other.map (·.uri) := by
  unfold mergeNamespaces
  induction other generalizing ns with
  | nil => simp
  | cons n rest ih =>
    rw [List.foldl_cons, ih, mem_mergeOne_uris, List.map_cons, List.mem_cons, or_assoc]

/-- The mark of use of a uri in a table. -/
def usedIn (ns : List Namespace) (u : Str) : Prop :=
  ∃ n, findUri ns u = some n ∧ hasFlag n.flags NS_USED = true

theorem mergeOne_cases (ns : List Namespace) (n : Namespace) :
    (∃ it, findUri ns n.uri = some it ∧ (mergeOne ns n = ns ∨ mergeOne ns n =
      modifyUri ns n.uri (fun t => { t with prefix_ := n.prefix_, flags := t.flags ||| n.flags }))) ∨
    (findUri ns n.uri = none ∧ mergeOne ns n = ns ++ [⟨n.prefix_, n.uri, n.flags⟩]) := by
  unfold mergeOne
  cases hn : findUri ns n.uri with
  | none => exact Or.inr ⟨rfl, rfl⟩
  | some it =>
    refine Or.inl ⟨it, rfl, ?_⟩
    simp only []
    repeat' split
    all_goals first | exact Or.inl rfl | exact Or.inr rfl

theorem usedIn_mergeOne {ns : List Namespace} {n : Namespace} {u : Str} (h : usedIn (mergeOne ns n) u) :
    usedIn ns u ∨ (n.uri = u ∧ hasFlag n.flags NS_USED = true) := by
  obtain ⟨x, hx, hf⟩ := h
  rcases mergeOne_cases ns n with ⟨it, hn, e | e⟩ | ⟨hn, e⟩ <;> rw [e] at hx
  · exact Or.inl ⟨x, hx, hf⟩
  · by_cases hu : u = n.uri
    · subst hu
      rw [findUri_modifyUri_self ns n.uri (fun t => { t with prefix_ := n.prefix_, flags := t.flags ||| n.flags })
        (fun _ => rfl), hn] at hx
      simp only [Option.map_some, Option.some.injEq] at hx
      subst hx
      simp only [hasFlag_or, Bool.or_eq_true] at hf
      rcases hf with hf | hf
      · exact Or.inl ⟨it, hn, hf⟩
      · exact Or.inr ⟨rfl, hf⟩
    · rw [findUri_modifyUri_ne ns n.uri u hu
        (fun t => { t with prefix_ := n.prefix_, flags := t.flags ||| n.flags }) (fun _ => rfl)] at hx
      exact Or.inl ⟨x, hx, hf⟩
  · simp only [findUri_append] at hx
    cases hu : findUri ns u with
    | some y =>
      rw [hu, Option.some_or] at hx
      simp only [Option.some.injEq] at hx
      subst hx
      exact Or.inl ⟨y, hu, hf⟩
    | none =>
      rw [hu, Option.none_or] at hx
      simp only [findUri, List.find?_cons, List.find?_nil] at hx
      split at hx
      · rename_i e; cases hx; exact Or.inr ⟨by simpa using e, hf⟩
      · cases hx

theorem not_used_merge {ns other : List Namespace} {u : Str} (h : ¬ usedIn ns u)
    (ho : ∀ n ∈ other, n.uri = u → hasFlag n.flags NS_USED = false) : ¬ usedIn (mergeNamespaces ns other) u := by
  unfold mergeNamespaces
  induction other generalizing ns with
  | nil => exact h
  | cons n rest ih =>
    refine ih ?_ (fun x hx => ho x (by simp [hx]))
    intro hu
    rcases usedIn_mergeOne hu with hu | ⟨e, hf⟩
    · exact h hu
    · rw [ho n (by simp) e] at hf; cases hf

/-- Tables reached by set-up calls: sound flags, and nothing marked as used. -/
theorem archive_table (calls : List SetCall) : ∀ (a a' : Archive),
    (∀ n ∈ a.namespaces, FlagsSound n ∧ hasFlag n.flags NS_USED = false) → runCalls a calls = .val a' →
    ∀ n ∈ a'.namespaces, FlagsSound n ∧ hasFlag n.flags NS_USED = false := by
  induction calls with
  | nil => intro a a' h hr; simp only [runCalls, Run.val.injEq] at hr; subst hr; exact h
  | cons c cs ih =>
    intro a a' h hr
    simp only [runCalls] at hr
    split at hr
    · rename_i st a1 h1
      refine ih a1 a' ?_ hr
      have hs := namespaces_step a a1 c st h1
      split at hs
      · rename_i p u _
        rw [hs]
        intro n hn
        refine ⟨registerNs_sound (fun x hx => (h x hx).1) p u n hn, ?_⟩
        unfold registerNs at hn
        split at hn
        · rcases mem_modifyUri hn with hn | ⟨y, hy, _, rfl⟩
          · exact (h n hn).2
          · exact (h y hy).2
        · simp only [List.mem_append, List.mem_singleton] at hn
          rcases hn with hn | rfl
          · exact (h n hn).2
          · exact (by decide : hasFlag NS_REGISTERED NS_USED = false)
      · rw [hs]; exact h
    · cases hr

theorem created_table (calls : List SetCall) (a : Archive) (h : runCalls srcml_archive_create calls = .val a) :
    ∀ n ∈ a.namespaces, FlagsSound n ∧ hasFlag n.flags NS_USED = false := by
  refine archive_table calls srcml_archive_create a ?_ h
  intro n hn
  refine ⟨starting_sound n hn, ?_⟩
  have : n = ⟨[], SRC_NS_URI, NS_STANDARD ||| NS_REQUIRED⟩ := by
    have : n ∈ startingNamespaces := hn
    simpa [startingNamespaces] using this
  subst this; decide

theorem default_not_used (u : Str) : ¬ usedIn defaultNamespaces u := by
  rintro ⟨n, hn, hf⟩
  have := findUri_mem hn
  have hall : ∀ n ∈ defaultNamespaces, hasFlag n.flags NS_USED = false := by decide +kernel
  rw [hall n this] at hf; cases hf

theorem declaredUris_tagAttrs {o : Out} {m : UnitMeta} (hp : CleanPrefixes o.namespaces) (hm : CleanMeta m) :
    declaredUris (o.tagAttrs m) = o.tagNs.map (·.2) := by
  unfold declaredUris Out.tagAttrs
  rw [List.filter_append, List.map_append]
  have h1 : o.tagNs.filter (fun a => isNsDecl a.1) = o.tagNs := by
    rw [List.filter_eq_self]
    intro a ha
    unfold Out.tagNs at ha
    split at ha
    · obtain ⟨n, _, rfl⟩ := List.mem_map.mp ha
      exact isNsDecl_xmlnsName _
    · simp at ha
  have h2 : (present (unitAttrs o m)).filter (fun a => isNsDecl a.1) = [] := by
    rw [List.filter_eq_nil_iff]
    intro a ha hd
    have h1 : a.1 ∈ (unitAttrs o m).map (·.1) := List.mem_map_of_mem (mem_present.mp ha)
    rw [unitAttrs_names] at h1
    simp only [List.mem_append, List.mem_singleton] at h1
    have hf : a.1 ∉ fixedNames := by
      intro hf
      rw [isNsDecl_take (fixedNames_not_xmlns _ hf)] at hd; cases hd
    rcases h1 with ((h1 | h1) | h1) | h1
    · apply hf
      simp only [List.mem_cons, List.not_mem_nil, or_false, fixedNames] at h1 ⊢
      rcases h1 with h1 | h1 | h1 | h1 | h1 <;> simp [h1]
    · rw [h1, tabs_take (hp.prefixOf_ne .POS) (hp.prefixOf_colon .POS)] at hd; cases hd
    · apply hf
      simp only [List.mem_cons, List.not_mem_nil, or_false, fixedNames] at h1 ⊢
      rcases h1 with h1 | h1 | h1 | h1 <;> simp [h1]
    · obtain ⟨b, hb, e⟩ := List.mem_map.mp h1
      rw [← e, isNsDecl_take (hm.userNames b hb).2.2.1] at hd; cases hd
  rw [h1, h2]; simp

theorem inUse_marked (o : Out) (u : Str) (hu : u ≠ SRC_NS_URI) (h : TableOk o.namespaces) :
    inUse o.marked u ↔ inUse o u := by
  have key : ∀ f, (findUri (markUsed o.namespaces .SRC) u = some f ↔ findUri o.namespaces u = some f) := by
    intro f
    have hsrc : ∃ n rest, o.namespaces = n :: rest ∧ n.uri = SRC_NS_URI := by
      have := h.std
      cases hns : o.namespaces with
      | nil => rw [hns] at this; simp [standardUris] at this
      | cons n rest =>
        rw [hns] at this
        simp only [List.map_cons, List.take_succ_cons, standardUris, List.cons.injEq] at this
        exact ⟨n, rest, rfl, this.1⟩
    obtain ⟨n, rest, e, hn⟩ := hsrc
    rw [e]
    have : markUsed (n :: rest) .SRC = { n with flags := n.flags ||| NS_USED } :: rest := rfl
    rw [this]
    simp only [findUri, List.find?_cons, hn]
    rw [decide_eq_false (fun e => hu e.symm)]
  unfold inUse Out.marked
  simp only [key]

/-- C17: what the start tag of a unit declares when namespaces are written at all. At the root (depth 0) of
an archive: the srcML namespace, the error and position namespaces if in use, and every registered namespace;
in a unit nested in it (depth 1): the preprocessor and OpenMP namespaces if in use; in a solitary unit all of
these. No namespace and no prefix is declared twice. -/
theorem C17_start_tag (o : Out) (m : UnitMeta) (ts : List Tok) (evs : List Ev)
    (hw : o.w = {}) (hp : CleanPrefixes o.namespaces) (hm : CleanMeta m) (ht : o.ThreadAgrees)
    (htext : ∀ t ∈ ts, t.text.all xmlChar = true)
    (hev : tokenEvents o.env [] ts = some (evs, []))
    (hT : TableOk o.namespaces) (hd : isoption o.options OPTION_NAMESPACE_DECL = true) :
    ∃ attrs, readXml (o.unitDocument m ts) = some (.op o.unitName attrs :: evs ++ [.cl o.unitName]) ∧
      (attrs.map (·.1)).Nodup ∧ (declaredUris attrs).Nodup ∧
      ∀ u, u ∈ declaredUris attrs ↔
        ((o.depth = 0 ∨ isoption o.options OPTION_ARCHIVE = false) ∧
          (u = SRC_NS_URI ∨ ((u = ERROR_NS_URI ∨ u = POSITION_NS_URI) ∧ inUse o u) ∨
            (u ∉ standardUris ∧ u ∈ o.namespaces.map (·.uri)))) ∨
        ((o.depth = 1 ∨ isoption o.options OPTION_ARCHIVE = false) ∧
          ((u = CPP_NS_URI ∨ u = OPENMP_NS_URI) ∧ inUse o u)) := by
  refine ⟨_, C12_unit_document_partial o m ts evs hw hp hm ht htext hev, tagAttrs_nodup hp hm, ?_, ?_⟩
  all_goals rw [declaredUris_tagAttrs hp hm]
  all_goals unfold Out.tagNs
  all_goals rw [if_pos hd, List.map_map, show ((fun a : Str × Str => a.2) ∘ nsAttr) = (fun n : Namespace => n.uri) from rfl]
  · exact declared_uris_nodup (markUsed_ok hT .SRC)
  · intro u
    rw [declared_iff (o := o.marked) (markUsed_ok hT .SRC)]
    have e : o.marked.namespaces.map (·.uri) = o.namespaces.map (·.uri) := markUsed_uris _ _
    rw [e]
    show ((o.depth = 0 ∨ isoption o.options OPTION_ARCHIVE = false) ∧ _) ∨
      ((o.depth = 1 ∨ isoption o.options OPTION_ARCHIVE = false) ∧ _) ↔ _
    obtain ⟨s1, s2, s3, s4, s5, s6, s7, s8⟩ := src_not
    have i1 : ((u = ERROR_NS_URI ∨ u = POSITION_NS_URI) ∧ inUse o.marked u) ↔
        ((u = ERROR_NS_URI ∨ u = POSITION_NS_URI) ∧ inUse o u) := by
      constructor <;> rintro ⟨h1, h2⟩ <;> refine ⟨h1, ?_⟩
      · exact (inUse_marked o u (by rcases h1 with rfl | rfl; exact s2.symm; exact s3.symm) hT).mp h2
      · exact (inUse_marked o u (by rcases h1 with rfl | rfl; exact s2.symm; exact s3.symm) hT).mpr h2
    have i2 : ((u = CPP_NS_URI ∨ u = OPENMP_NS_URI) ∧ inUse o.marked u) ↔
        ((u = CPP_NS_URI ∨ u = OPENMP_NS_URI) ∧ inUse o u) := by
      constructor <;> rintro ⟨h1, h2⟩ <;> refine ⟨h1, ?_⟩
      · exact (inUse_marked o u (by rcases h1 with rfl | rfl; exact s1.symm; exact s4.symm) hT).mp h2
      · exact (inUse_marked o u (by rcases h1 with rfl | rfl; exact s1.symm; exact s4.symm) hT).mpr h2
    rw [i1, i2]

/-- C17: the root of an archive set up by any history of calls declares the srcML namespace, the position and
error namespaces exactly if their options are on, and every registered namespace that is not standard. -/
theorem C17_root_partial (calls : List SetCall) (a : Archive) (h : runCalls srcml_archive_create calls = .val a)
    (hA : isoption a.options OPTION_ARCHIVE = true) (hD : isoption a.options OPTION_NAMESPACE_DECL = true)
    (m : UnitMeta) (hm : CleanMeta m) (hp : CleanPrefixes (archiveTranslator a {}).out.namespaces) :
    let o := (archiveTranslator a {}).out
    ∃ attrs, readXml (o.unitDocument m []) = some [.op o.unitName attrs, .cl o.unitName] ∧
      (attrs.map (·.1)).Nodup ∧ (declaredUris attrs).Nodup ∧
      ∀ u, u ∈ declaredUris attrs ↔
        (u = SRC_NS_URI ∨ (u = POSITION_NS_URI ∧ isoption a.options OPTION_POSITION = true) ∨
          (u = ERROR_NS_URI ∧ isoption a.options OPTION_DEBUG = true) ∨
          (u ∉ standardUris ∧ u ∈ registeredUris calls)) := by
  intro o
  have ht := created_table calls a h
  have hT : TableOk o.namespaces := merge_ok default_tableOk (fun n hn => (ht n hn).1)
  obtain ⟨attrs, h1, h2, h3, h4⟩ := C17_start_tag o m [] [] rfl hp hm ⟨Or.inl rfl, Or.inl rfl⟩ (by simp) rfl hT hD
  refine ⟨attrs, h1, h2, h3, ?_⟩
  intro u
  rw [h4 u]
  have hdep : o.depth = 0 := rfl
  have hopt : o.options = a.options := rfl
  have hnu : ∀ u, ¬ usedIn o.namespaces u := fun u =>
    not_used_merge (default_not_used u) (fun n hn _ => (ht n hn).2)
  have hreg : u ∉ standardUris → (u ∈ o.namespaces.map (·.uri) ↔ u ∈ registeredUris calls) := by
    intro hu
    have e : u ∈ o.namespaces.map (·.uri) ↔ _ := mem_merge_uris defaultNamespaces a.namespaces u
    rw [e, default_uris, uris_history calls srcml_archive_create a [SRC_NS_URI] rfl h, mem_firstOccurrences]
    simp only [List.cons_append, List.nil_append, List.mem_cons]
    constructor
    · rintro (h | h | h)
      · exact absurd h hu
      · exact absurd (by rw [h]; simp [standardUris]) hu
      · exact h
    · exact fun h => Or.inr (Or.inr h)
  have huse : inUse o u ↔ (u = CPP_NS_URI ∧ isoption a.options OPTION_CPP_DECLARED = true) ∨
      (u = POSITION_NS_URI ∧ isoption a.options OPTION_POSITION = true) ∨
      (u = ERROR_NS_URI ∧ isoption a.options OPTION_DEBUG = true) :=
    ⟨fun h => h.elim (fun h => absurd h (hnu u)) id, Or.inr⟩
  have hpe : POSITION_NS_URI ≠ ERROR_NS_URI := by decide +kernel
  obtain ⟨s1, s2, s3, s4, s5, s6, s7, s8⟩ := src_not
  rw [huse, hdep, hopt]
  simp only [hA, Bool.true_eq_false, or_false, Nat.zero_ne_one, false_and, true_and]
  constructor
  · rintro (h | ⟨h, h'⟩ | ⟨h, h'⟩)
    · exact Or.inl h
    · rcases h' with ⟨e, _⟩ | h' | h'
      · rcases h with h | h <;> rw [h] at e
        · exact absurd e.symm s5
        · exact absurd e.symm s6
      · exact Or.inr (Or.inl h')
      · exact Or.inr (Or.inr (Or.inl h'))
    · exact Or.inr (Or.inr (Or.inr ⟨h, (hreg h).mp h'⟩))
  · rintro (h | h | h | ⟨h, h'⟩)
    · exact Or.inl h
    · exact Or.inr (Or.inl ⟨Or.inr h.1, Or.inr (Or.inl h)⟩)
    · exact Or.inr (Or.inl ⟨Or.inl h.1, Or.inr (Or.inr h)⟩)
    · exact Or.inr (Or.inr ⟨h, (hreg h).mpr h'⟩)

/-! Use of namespaces by the elements of a unit. -/

/-- The uri of a standard prefix. -/
def Prefixes.uri : Prefixes → Str
  | .SRC => SRC_NS_URI | .CPP => CPP_NS_URI | .ERR => ERROR_NS_URI | .POS => POSITION_NS_URI | .OMP => OPENMP_NS_URI

theorem prefixes_uri_getElem {ns : List Namespace} (h : TableOk ns) (p : Prefixes) :
    ∃ n, ns[p.index]? = some n ∧ n.uri = p.uri := by
  have h1 : ∀ i, i < 5 → (ns.map (·.uri))[i]? = standardUris[i]? := by
    intro i hi
    rw [← h.std, List.getElem?_take_of_lt hi]
  have h2 : (ns.map (·.uri))[p.index]? = some p.uri := by
    rw [h1 p.index (by cases p <;> decide)]
    cases p <;> rfl
  rw [List.getElem?_map, Option.map_eq_some_iff] at h2
  exact h2

theorem findUri_markUsed {ns : List Namespace} (h : TableOk ns) (p : Prefixes) (u : Str) :
    findUri (markUsed ns p) u =
      (findUri ns u).map (fun n => if u = p.uri then { n with flags := n.flags ||| NS_USED } else n) := by
  obtain ⟨n, hn, hu⟩ := prefixes_uri_getElem h p
  have hm := (markUsed_ok h p).nodup
  cases hf : findUri ns u with
  | none =>
    rw [Option.map_none, findUri_none, markUsed_uris, ← findUri_none]; exact hf
  | some x =>
    obtain ⟨i, hi, e⟩ := List.getElem_of_mem (findUri_mem hf)
    have hg : (markUsed ns p)[i]? = some (if u = p.uri then { x with flags := x.flags ||| NS_USED } else x) := by
      unfold markUsed
      rw [List.getElem?_modify, List.getElem?_eq_getElem hi, e]
      show some (if p.index = i then { x with flags := x.flags ||| NS_USED } else x) = _
      by_cases hpi : p.index = i
      · subst hpi
        rw [List.getElem?_eq_getElem hi, e] at hn
        cases hn
        rw [if_pos rfl, if_pos (by rw [← hu]; exact (findUri_uri hf).symm)]
      · rw [if_neg hpi, if_neg]
        intro e2
        · have h1 : findUri ns n.uri = some n := findUri_of_getElem ns h.nodup _ _ hn
          rw [hu, ← e2, hf] at h1
          cases h1
          have hlt : p.index < ns.length := by
            rcases Nat.lt_or_ge p.index ns.length with h | h
            · exact h
            · rw [List.getElem?_eq_none h] at hn; cases hn
          have hlt' : p.index < (ns.map (·.uri)).length := by simpa using hlt
          exact hpi ((List.getElem?_inj hlt' h.nodup).mp (by
            rw [List.getElem?_map, List.getElem?_map, hn, List.getElem?_eq_getElem hi, e]))
    have := findUri_of_getElem _ hm i _ hg
    have hxu := findUri_uri hf
    rw [Option.map_some, ← this]
    congr 1
    split <;> exact hxu.symm

theorem usedIn_markUsed {ns : List Namespace} (h : TableOk ns) (p : Prefixes) (u : Str) :
    usedIn (markUsed ns p) u ↔ usedIn ns u ∨ u = p.uri := by
  unfold usedIn
  rw [findUri_markUsed h]
  constructor
  · rintro ⟨n, hn, hf⟩
    obtain ⟨m, hm, rfl⟩ := Option.map_eq_some_iff.mp hn
    by_cases hu : u = p.uri
    · exact Or.inr hu
    · rw [if_neg hu] at hf; exact Or.inl ⟨m, hm, hf⟩
  · rintro (⟨n, hn, hf⟩ | hu)
    · refine ⟨_, by rw [hn]; rfl, ?_⟩
      split
      · simp only [hasFlag_or, hf, Bool.true_or]
      · exact hf
    · obtain ⟨n, hn, e⟩ := prefixes_uri_getElem h p
      have : findUri ns u = some n := by rw [hu, ← e]; exact findUri_of_getElem ns h.nodup _ _ hn
      refine ⟨_, by rw [this]; rfl, ?_⟩
      simp only [if_pos hu, hasFlag_or]
      rw [show hasFlag NS_USED NS_USED = true from by decide, Bool.or_true]

/-- What a token does to the table: the namespace of its element is marked. -/
theorem outputToken_namespaces (o : Out) (t : Tok) :
    (o.outputToken t).namespaces =
      if t.type = chars! "SUNIT" then o.namespaces
      else match elementOf t.type with
        | some e => markUsed o.namespaces e.pre
        | none => o.namespaces := by
  have hp : ∀ (o : Out) t, (o.addPosition t).namespaces = o.namespaces := by
    intro o t; unfold Out.addPosition; split <;> rfl
  have hs : ∀ (o : Out) t b n p a1 v1 a2 v2, (o.startTag t b n p a1 v1 a2 v2).namespaces = o.namespaces := by
    intro o t b n p a1 v1 a2 v2
    unfold Out.startTag
    simp only []
    split
    · rw [hp]
    · rfl
  have hk : ∀ (o : Out) t n p a1 v1 a2 v2, (o.processToken t n p a1 v1 a2 v2).namespaces = o.namespaces := by
    intro o t n p a1 v1 a2 v2
    unfold Out.processToken
    split
    · rfl
    · simp only []
      have he : ∀ o : Out, o.endTag.namespaces = o.namespaces := fun _ => rfl
      split <;> split <;> first | (rw [he, hs]; rfl) | (rw [hs]; rfl) | (rw [he]; rfl) | rfl
  unfold Out.outputToken
  rw [processFind_eq]
  split
  · rfl
  · cases elementOf t.type with
    | none => rfl
    | some e => simp only []; rw [hk]

/-- Does a token write an element of the namespace? -/
def usesNamespace (p : Prefixes) (t : Tok) : Prop :=
  t.type ≠ chars! "SUNIT" ∧ ∃ e, elementOf t.type = some e ∧ e.pre = p

theorem consume_table (ts : List Tok) : ∀ (o : Out), TableOk o.namespaces →
    TableOk (o.consume ts).namespaces ∧
    ∀ p : Prefixes, usedIn (o.consume ts).namespaces p.uri ↔
      usedIn o.namespaces p.uri ∨ ∃ t ∈ ts, usesNamespace p t := by
  induction ts with
  | nil => intro o h; exact ⟨h, fun p => by simp [Out.consume]⟩
  | cons t ts ih =>
    intro o h
    have hn := outputToken_namespaces o t
    have inj : ∀ p q : Prefixes, p.uri = q.uri → p = q := by
      intro p q; cases p <;> cases q <;> first | (intro _; rfl) | (intro e; exact absurd e (by decide +kernel))
    have key : TableOk (o.outputToken t).namespaces ∧ ∀ p : Prefixes,
        usedIn (o.outputToken t).namespaces p.uri ↔ usedIn o.namespaces p.uri ∨ usesNamespace p t := by
      rw [hn]
      unfold usesNamespace
      split
      · rename_i hu; exact ⟨h, fun p => by simp [hu]⟩
      · rename_i hu
        cases he : elementOf t.type with
        | none => exact ⟨h, fun p => by simp⟩
        | some e =>
          refine ⟨markUsed_ok h _, fun p => ?_⟩
          simp only []
          rw [usedIn_markUsed h]
          constructor
          · rintro (h1 | h1)
            · exact Or.inl h1
            · exact Or.inr ⟨hu, e, rfl, (inj _ _ h1).symm⟩
          · rintro (h1 | ⟨_, e', h2, h3⟩)
            · exact Or.inl h1
            · cases h2; rw [h3]; exact Or.inr rfl
    obtain ⟨h1, h2⟩ := ih (o.outputToken t) key.1
    refine ⟨h1, fun p => ?_⟩
    have := h2 p
    unfold Out.consume at this ⊢
    rw [List.foldl_cons, this, key.2 p]
    simp [or_assoc]

theorem findUri_mergeOne_ne (ns : List Namespace) (n : Namespace) (u : Str) (h : n.uri ≠ u) :
    findUri (mergeOne ns n) u = findUri ns u := by
  rcases mergeOne_cases ns n with ⟨it, hn, e | e⟩ | ⟨hn, e⟩ <;> rw [e]
  · rw [findUri_modifyUri_ne ns n.uri u (fun e => h e.symm)
      (fun t => { t with prefix_ := n.prefix_, flags := t.flags ||| n.flags }) (fun _ => rfl)]
  · rw [findUri_append]
    simp [findUri, h]

theorem findUri_merge_not (other : List Namespace) (u : Str) (h : u ∉ other.map (·.uri)) :
    ∀ ns, findUri (mergeNamespaces ns other) u = findUri ns u := by
  unfold mergeNamespaces
  induction other with
  | nil => intro ns; rfl
  | cons n rest ih =>
    intro ns
    simp only [List.map_cons, List.mem_cons, not_or] at h
    rw [List.foldl_cons, ih h.2, findUri_mergeOne_ne _ _ _ (fun e => h.1 e.symm)]

theorem mergeOne_find_congr {a b : List Namespace} (n : Namespace) (u : Str) (hu : n.uri = u)
    (h : findUri a u = findUri b u) : findUri (mergeOne a n) u = findUri (mergeOne b n) u := by
  subst hu
  unfold mergeOne
  rw [h]
  cases hb : findUri b n.uri with
  | none => simp only [findUri_append, h, hb]
  | some it =>
    have f : ∀ l, findUri (modifyUri l n.uri (fun t => { t with prefix_ := n.prefix_, flags := t.flags ||| n.flags })) n.uri
        = (findUri l n.uri).map (fun t => { t with prefix_ := n.prefix_, flags := t.flags ||| n.flags }) :=
      fun l => findUri_modifyUri_self l n.uri _ (fun _ => rfl)
    simp only []
    repeat' split
    all_goals first | (rw [f, f, h]; done) | exact h

theorem findUri_merge (other : List Namespace) (u : Str) (hn : (other.map (·.uri)).Nodup) (n : Namespace)
    (h : findUri other u = some n) : ∀ ns, findUri (mergeNamespaces ns other) u = findUri (mergeOne ns n) u := by
  induction other with
  | nil => cases h
  | cons m rest ih =>
    intro ns
    simp only [List.map_cons, List.nodup_cons] at hn
    by_cases e : m.uri = u
    · have : m = n := by simpa [findUri, e] using h
      subst this
      have := findUri_merge_not rest u (by rw [← e]; exact hn.1) (mergeOne ns m)
      simpa [mergeNamespaces] using this
    · have h2 : findUri rest u = some n := by simpa [findUri, e] using h
      have := ih hn.2 h2 (mergeOne ns m)
      unfold mergeNamespaces at this ⊢
      rw [List.foldl_cons, this]
      rcases mergeOne_cases ns m with ⟨it, hn, e' | e'⟩ | ⟨hn, e'⟩
      · rw [e']
      · rw [e']; exact mergeOne_find_congr _ _ (findUri_uri h2) (by
          rw [findUri_modifyUri_ne ns m.uri u (fun x => e x.symm)
            (fun t => { t with prefix_ := m.prefix_, flags := t.flags ||| m.flags }) (fun _ => rfl)])
      · rw [e']; exact mergeOne_find_congr _ _ (findUri_uri h2) (by rw [findUri_append]; simp [findUri, e])

theorem mergeOne_flags_new {ns : List Namespace} {n : Namespace} (h : findUri ns n.uri = none) :
    findUri (mergeOne ns n) n.uri = some n := by
  rcases mergeOne_cases ns n with ⟨it, hn, _⟩ | ⟨_, e⟩
  · rw [h] at hn; cases hn
  · rw [e, findUri_append, h]; simp [findUri]

theorem mergeOne_default {n d : Namespace} (h : findUri defaultNamespaces n.uri = some d) :
    findUri (mergeOne defaultNamespaces n) n.uri =
      some { d with prefix_ := n.prefix_, flags := d.flags ||| n.flags } := by
  unfold mergeOne
  rw [h]
  simp only [decide_true, if_true]
  rw [findUri_modifyUri_self defaultNamespaces n.uri
    (fun t => { t with prefix_ := n.prefix_, flags := t.flags ||| n.flags }) (fun _ => rfl), h]
  rfl

theorem FlagsExact.sound {n : Namespace} (h : FlagsExact n) : FlagsSound n :=
  ⟨h.std.mp, h.req.mp, h.root.mp, h.reg⟩

theorem merge_sound {ns other : List Namespace} (h : ∀ n ∈ ns, FlagsSound n) (ho : ∀ n ∈ other, FlagsSound n) :
    ∀ n ∈ mergeNamespaces ns other, FlagsSound n := by
  unfold mergeNamespaces
  induction other generalizing ns with
  | nil => exact h
  | cons m rest ih =>
    refine ih ?_ (fun x hx => ho x (by simp [hx]))
    have hm := ho m (by simp)
    intro x hx
    rcases mergeOne_cases ns m with ⟨it, hn, e | e⟩ | ⟨hn, e⟩ <;> rw [e] at hx
    · exact h x hx
    · rcases mem_modifyUri hx with hx | ⟨y, hy, e1, rfl⟩
      · exact h x hx
      · have hy := h y hy
        refine ⟨?_, ?_, ?_, ?_⟩ <;> simp only [hasFlag_or, Bool.or_eq_true]
        · exact fun hh => hh.elim hy.std (fun h => e1 ▸ hm.std h)
        · exact fun hh => hh.elim hy.req (fun h => e1 ▸ hm.req h)
        · exact fun hh => hh.elim hy.root (fun h => e1 ▸ hm.root h)
        · exact fun hh => Or.inl (hy.reg hh)
    · simp only [List.mem_append, List.mem_singleton] at hx
      rcases hx with hx | rfl
      · exact h x hx
      · exact hm

theorem merge_nodup {ns : List Namespace} (h : (ns.map (·.uri)).Nodup) (other : List Namespace) :
    ((mergeNamespaces ns other).map (·.uri)).Nodup := by
  unfold mergeNamespaces
  induction other generalizing ns with
  | nil => exact h
  | cons m rest ih =>
    refine ih ?_
    rw [mergeOne_uris]
    split
    · exact h
    · rename_i hn
      rw [List.nodup_append]
      refine ⟨h, by simp, ?_⟩
      intro a ha b hb e
      simp only [List.mem_singleton] at hb
      exact hn (by rw [← hb, ← e]; exact ha)

/-- The output object that a unit of an archive is written with when it is added to the archive after other
output. -/
def nestedOut (a : Archive) (u : UnitData) : Out :=
  { (archiveTranslator a {}).out.initNamespaces (unitNamespaces a u) with depth := 1 }

/-- The output object a unit of an archive is parsed with, src/libsrcml/srcml_unit.cpp:885-925: the options
without the archive bit. -/
def parseOut (a : Archive) : Out :=
  { (archiveTranslator a {}).out with options := a.options &&& ~~~OPTION_ARCHIVE }

theorem startUnit_usedIn (o : Out) (m : UnitMeta) (h : TableOk o.namespaces) (u : Str) (hu : u = CPP_NS_URI ∨ u = OPENMP_NS_URI) :
    TableOk (o.startUnit m false).namespaces ∧
    (usedIn (o.startUnit m false).namespaces u ↔ usedIn o.namespaces u ∨
      (u = CPP_NS_URI ∧ isoption o.options OPTION_CPP_DECLARED = true ∧
        isoption o.options OPTION_NAMESPACE_DECL = true)) := by
  obtain ⟨s1, s2, s3, s4, s5, s6, s7, s8⟩ := src_not
  have hus : u ≠ SRC_NS_URI := by rcases hu with rfl | rfl; exact s1.symm; exact s4.symm
  have hup : u ≠ POSITION_NS_URI := by rcases hu with rfl | rfl; exact s6; exact s8
  have hue : u ≠ ERROR_NS_URI := by rcases hu with rfl | rfl; exact s5; exact s7
  have e : (o.startUnit m false).namespaces = (o.openUnit.declareNamespaces.markPosition).namespaces := by
    unfold Out.startUnit Out.enter
    split <;> rfl
  rw [e]
  have h0 : TableOk o.openUnit.namespaces ∧ (usedIn o.openUnit.namespaces u ↔ usedIn o.namespaces u) := by
    refine ⟨markUsed_ok h .SRC, ?_⟩
    have := usedIn_markUsed h .SRC u
    rw [show o.openUnit.namespaces = markUsed o.namespaces .SRC from rfl, this]
    exact ⟨fun h => h.elim id (fun h => absurd h hus), Or.inl⟩
  have h1 : TableOk o.openUnit.declareNamespaces.namespaces ∧
      (usedIn o.openUnit.declareNamespaces.namespaces u ↔ usedIn o.namespaces u ∨
      (u = CPP_NS_URI ∧ isoption o.options OPTION_CPP_DECLARED = true ∧
        isoption o.options OPTION_NAMESPACE_DECL = true)) := by
    unfold Out.declareNamespaces
    rw [show o.openUnit.options = o.options from rfl]
    by_cases hd : isoption o.options OPTION_NAMESPACE_DECL = true
    · rw [if_pos hd]
      show TableOk (markByOptions o.openUnit.namespaces o.options) ∧
        (usedIn (markByOptions o.openUnit.namespaces o.options) u ↔ _)
      refine ⟨markByOptions_ok h0.1 _, ?_⟩
      have hin : u ∈ (markByOptions o.openUnit.namespaces o.options).map (·.uri) := by
        rw [markByOptions_uris]
        have : u ∈ standardUris := by rcases hu with rfl | rfl <;> simp [standardUris]
        rw [← h0.1.std] at this
        exact List.mem_of_mem_take this
      have hfind : ∃ n, findUri (markByOptions o.openUnit.namespaces o.options) u = some n := by
        cases hf : findUri (markByOptions o.openUnit.namespaces o.options) u with
        | none => exact absurd hin ((findUri_none _ _).mp hf)
        | some n => exact ⟨n, rfl⟩
      obtain ⟨n, hn⟩ := hfind
      obtain ⟨k, hk, _, hf⟩ := findUri_markByOptions _ _ _ n hn
      rw [← h0.2]
      unfold usedIn
      rw [hn, hk]
      simp only [Option.some.injEq, exists_eq_left', hf, hd, and_true, decide_eq_false hup, decide_eq_false hue,
        Bool.false_and, Bool.or_false, Bool.or_eq_true, Bool.and_eq_true, decide_eq_true_eq]
    · rw [if_neg hd]
      refine ⟨h0.1, ?_⟩
      rw [h0.2]
      simp [hd]
  unfold Out.markPosition
  split
  · refine ⟨markUsed_ok h1.1 .POS, ?_⟩
    show usedIn (markUsed _ .POS) u ↔ _
    rw [usedIn_markUsed h1.1, h1.2]
    exact ⟨fun h => h.elim id (fun h => absurd h hup), Or.inl⟩
  · exact h1

/-- C17: a unit that was parsed and then added to an archive declares on its own start tag exactly those of
the preprocessor and OpenMP namespaces that its elements use (or the option demands), and nothing that its
root declares. For archives on which no other prefix for these two was registered. -/
theorem C17_nested_partial (calls : List SetCall) (a : Archive) (h : runCalls srcml_archive_create calls = .val a)
    (hA : isoption a.options OPTION_ARCHIVE = true) (hD : isoption a.options OPTION_NAMESPACE_DECL = true)
    (hc : CPP_NS_URI ∉ registeredUris calls) (ho : OPENMP_NS_URI ∉ registeredUris calls)
    (hrev : a.revisionNumber = none)
    (m0 m : UnitMeta) (hm : CleanMeta m) (ts : List Tok) (u : UnitData)
    (hu : u.namespaces = some (((parseOut a).startUnit m0 false).consume ts).namespaces)
    (hp : CleanPrefixes (nestedOut a u).namespaces) :
    ∃ attrs, readXml ((nestedOut a u).unitDocument m []) =
        some [.op (nestedOut a u).unitName attrs, .cl (nestedOut a u).unitName] ∧
      (attrs.map (·.1)).Nodup ∧ (declaredUris attrs).Nodup ∧
      ∀ v, v ∈ declaredUris attrs ↔
        (v = CPP_NS_URI ∧ (isoption a.options OPTION_CPP_DECLARED = true ∨ ∃ t ∈ ts, usesNamespace .CPP t)) ∨
        (v = OPENMP_NS_URI ∧ ∃ t ∈ ts, usesNamespace .OMP t) := by
  have ht := created_table calls a h
  have hT0 : TableOk (parseOut a).namespaces := merge_ok default_tableOk (fun n hn => (ht n hn).1)
  obtain ⟨hT1, hC⟩ := startUnit_usedIn (parseOut a) m0 hT0 CPP_NS_URI (Or.inl rfl)
  obtain ⟨_, hO⟩ := startUnit_usedIn (parseOut a) m0 hT0 OPENMP_NS_URI (Or.inr rfl)
  obtain ⟨hT2, hU⟩ := consume_table ts _ hT1
  generalize (((parseOut a).startUnit m0 false).consume ts).namespaces = un at hu hT2 hU
  have hns : unitNamespaces a u = mergeNamespaces a.namespaces un := by simp [unitNamespaces, hu, hrev]
  have hsound : ∀ n ∈ unitNamespaces a u, FlagsSound n := by
    rw [hns]
    intro n hn
    exact merge_sound (fun n hn => (ht n hn).1) (fun n hn => (hT2.flags n hn).sound) n hn
  have hT3 : TableOk (nestedOut a u).namespaces := merge_ok default_tableOk hsound
  obtain ⟨attrs, r1, r2, r3, r4⟩ := C17_start_tag (nestedOut a u) m [] [] rfl hp hm ⟨Or.inl rfl, Or.inl rfl⟩
    (by simp) rfl hT3 hD
  refine ⟨attrs, r1, r2, r3, ?_⟩
  have hanone : ∀ v, v ∉ registeredUris calls → v ≠ SRC_NS_URI → findUri a.namespaces v = none := by
    intro v hv hv2
    rw [findUri_none, uris_history calls srcml_archive_create a [SRC_NS_URI] rfl h, mem_firstOccurrences]
    simp [hv, hv2]
  have hnodupA : (a.namespaces.map (·.uri)).Nodup := by
    rw [uris_history calls srcml_archive_create a [SRC_NS_URI] rfl h]
    exact firstOccurrences_nodup _
  have huse : ∀ v, v ∉ registeredUris calls → v ≠ SRC_NS_URI → v ∈ standardUris →
      (usedIn (nestedOut a u).namespaces v ↔ usedIn un v) := by
    intro v hv hv2 hstd
    have hvu : v ∈ un.map (·.uri) := by rw [← hT2.std] at hstd; exact List.mem_of_mem_take hstd
    obtain ⟨n, hn⟩ : ∃ n, findUri un v = some n := by
      cases hf : findUri un v with
      | none => exact absurd hvu ((findUri_none _ _).mp hf)
      | some n => exact ⟨n, rfl⟩
    have hnu := findUri_uri hn
    have e1 : findUri (mergeNamespaces a.namespaces un) v = some n := by
      rw [findUri_merge un v hT2.nodup n hn, ← hnu]
      exact mergeOne_flags_new (by rw [hnu]; exact hanone v hv hv2)
    have hnd : ((mergeNamespaces a.namespaces un).map (·.uri)).Nodup := merge_nodup hnodupA un
    obtain ⟨d, hd⟩ : ∃ d, findUri defaultNamespaces v = some d := by
      cases hf : findUri defaultNamespaces v with
      | none => exact absurd (by rw [default_uris]; exact hstd) ((findUri_none _ _).mp hf)
      | some n => exact ⟨n, rfl⟩
    have e2 : findUri (nestedOut a u).namespaces v = some { d with prefix_ := n.prefix_, flags := d.flags ||| n.flags } := by
      show findUri (mergeNamespaces defaultNamespaces (unitNamespaces a u)) v = _
      rw [hns, findUri_merge _ v hnd n e1, ← hnu]
      exact mergeOne_default (by rw [hnu]; exact hd)
    have hdf : hasFlag d.flags NS_USED = false := by
      have : ∀ n ∈ defaultNamespaces, hasFlag n.flags NS_USED = false := by decide +kernel
      exact this d (findUri_mem hd)
    unfold usedIn
    rw [e2, hn]
    simp [hasFlag_or, hdf]
  obtain ⟨s1, s2, s3, s4, s5, s6, s7, s8⟩ := src_not
  have hnot : ∀ v, ¬ usedIn (parseOut a).namespaces v := fun v =>
    not_used_merge (default_not_used v) (fun n hn _ => (ht n hn).2)
  have hco : CPP_NS_URI ≠ OPENMP_NS_URI := by decide +kernel
  have hoc : isoption (parseOut a).options OPTION_CPP_DECLARED = isoption a.options OPTION_CPP_DECLARED := by
    show isoption (a.options &&& ~~~OPTION_ARCHIVE) OPTION_CPP_DECLARED = _
    unfold isoption
    rw [BitVec.and_assoc, show (~~~OPTION_ARCHIVE &&& OPTION_CPP_DECLARED) = OPTION_CPP_DECLARED from by decide]
  have hu1 := huse CPP_NS_URI hc s1.symm (by simp [standardUris])
  have hu2 := huse OPENMP_NS_URI ho s4.symm (by simp [standardUris])
  have hU1 := hU .CPP
  have hU2 := hU .OMP
  simp only [Prefixes.uri] at hU1 hU2
  intro v
  rw [r4 v]
  have hdep : (nestedOut a u).depth = 1 := rfl
  have hopt : (nestedOut a u).options = a.options := rfl
  rw [hdep, hopt]
  simp only [hA, Nat.one_ne_zero, Bool.true_eq_false, or_false, false_and, true_and, false_or]
  constructor
  · rintro ⟨rfl | rfl, hi⟩
    · refine Or.inl ⟨rfl, ?_⟩
      rcases hi with hi | hi | hi | hi
      · rw [show (∃ n, _) = usedIn (nestedOut a u).namespaces CPP_NS_URI from rfl, hu1, hU1, hC] at hi
        rcases hi with (hi | hi) | hi
        · exact absurd hi (hnot _)
        · rw [hoc] at hi; exact Or.inl hi.2.1
        · exact Or.inr hi
      · exact Or.inl hi.2
      · exact absurd hi.1 s6
      · exact absurd hi.1 s5
    · refine Or.inr ⟨rfl, ?_⟩
      rcases hi with hi | hi | hi | hi
      · rw [show (∃ n, _) = usedIn (nestedOut a u).namespaces OPENMP_NS_URI from rfl, hu2, hU2, hO] at hi
        rcases hi with (hi | hi) | hi
        · exact absurd hi (hnot _)
        · exact absurd hi.1.symm hco
        · exact hi
      · exact absurd hi.1.symm hco
      · exact absurd hi.1 s8
      · exact absurd hi.1 s7
  · rintro (⟨rfl, hi | hi⟩ | ⟨rfl, hi⟩)
    · exact ⟨Or.inl rfl, Or.inr (Or.inl ⟨rfl, hi⟩)⟩
    · exact ⟨Or.inl rfl, Or.inl (hu1.mpr (hU1.mpr (Or.inr hi)))⟩
    · exact ⟨Or.inr rfl, Or.inl (hu2.mpr (hU2.mpr (Or.inr hi)))⟩

/-- A preprocessor element in the tokens makes the nested unit declare the preprocessor namespace. -/
example : usesNamespace .CPP { type := chars! "SCPP_INCLUDE", category := .start } ∧
    ¬ usesNamespace .CPP { type := chars! "SNAME", category := .start } := by
  constructor
  · exact ⟨by decide, (elementOf (chars! "SCPP_INCLUDE")).get (by decide +kernel), by decide +kernel, by decide +kernel⟩
  · rintro ⟨_, e, h1, h2⟩
    have : (elementOf (chars! "SNAME")).map (·.pre) = some .SRC := by decide +kernel
    simp only [] at h1
    rw [h1, Option.map_some, h2] at this
    cases this

/-- Documents of an archive with a prefix registered for a user namespace and the position option. -/
example : ∃ a, runCalls srcml_archive_create [.registerNamespace (some "my".toList) (some "http://my".toList),
      .enableOption OPTION_POSITION] = .val a ∧
    readXml ((archiveTranslator a {}).out.unitDocument {} []) =
      some [.op "unit".toList [("xmlns".toList, SRC_NS_URI), ("xmlns:pos".toList, POSITION_NS_URI),
        ("xmlns:my".toList, "http://my".toList), ("pos:tabs".toList, "8".toList)], .cl "unit".toList] := by
  refine ⟨_, rfl, ?_⟩
  decide +kernel

/-- C17 is false when one prefix is registered for two namespaces: it is declared twice on the root, and the
document cannot be read. -/
theorem C17_finding_prefix_twice :
    ∃ a, runCalls srcml_archive_create [.registerNamespace (some "p".toList) (some "http://a".toList),
        .registerNamespace (some "p".toList) (some "http://b".toList)] = .val a ∧
      readXml ((archiveTranslator a {}).out.unitDocument {} []) = none := by
  refine ⟨_, rfl, ?_⟩
  decide +kernel

/-- C17 is false when another prefix is registered for the OpenMP namespace: the use in a unit is lost when the
tables are merged, and neither the root nor the nested unit declares it, although the elements of the unit have
that prefix. -/
theorem C17_finding_openmp_prefix :
    ∃ a, runCalls srcml_archive_create [.registerNamespace (some "o".toList) (some OPENMP_NS_URI)] = .val a ∧
      (let ts : List Tok := [{ type := chars! "SOMP_DIRECTIVE", category := .start },
                             { type := chars! "SOMP_DIRECTIVE", category := .end_ }]
       let p := ((parseOut a).startUnit {} false).consume ts
       let u : UnitData := { namespaces := some p.namespaces }
       prefixOf (nestedOut a u).namespaces .OMP = "o".toList ∧
       (∃ as bs, readXml ((parseOut a).unitDocument {} ts) =
          some [.op "unit".toList as, .op "o:directive".toList [], .cl "o:directive".toList, .cl "unit".toList] ∧
         readXml ((archiveTranslator a {}).out.unitDocument {} []) = some [.op "unit".toList bs, .cl "unit".toList] ∧
         OPENMP_NS_URI ∉ declaredUris bs) ∧
       readXml ((nestedOut a u).unitDocument {} []) = some [.op "unit".toList [], .cl "unit".toList]) := by
  refine ⟨_, rfl, ?_, ⟨[("xmlns".toList, SRC_NS_URI)], [("xmlns".toList, SRC_NS_URI)], ?_, ?_, ?_⟩, ?_⟩ <;> decide +kernel

/-! ### C55 -/

/-- C55 is false: the settings of the first output of a thread decide for all later ones. With the position
option on, the elements have no positions if the thread wrote without it before, and positions without the
prefix registered now if it wrote with another prefix before. -/
theorem C55_finding_thread_settings :
    let ts : List Tok := [{ type := chars! "SNAME", category := .start, line := 1, column := 2, endline := 1, endcolumn := 3 },
                          { type := chars! "SNAME", category := .end_ }]
    let o : Out := { sampleOut with options := OPTION_DEFAULT_INTERNAL ||| OPTION_POSITION }
    let first := (sampleOut.startUnit {} false).consume ts
    (o.unitDocument {} ts ≠ { o with thread := first.thread }.unitDocument {} ts) ∧
    (∃ as, readXml (o.unitDocument {} ts) = some [.op "unit".toList as,
        .op "name".toList [("pos:start".toList, "1:2".toList), ("pos:end".toList, "1:3".toList)],
        .cl "name".toList, .cl "unit".toList]) ∧
    (∃ as, readXml ({ o with thread := first.thread }.unitDocument {} ts) = some [.op "unit".toList as,
        .op "name".toList [], .cl "name".toList, .cl "unit".toList]) := by
  refine ⟨?_, ⟨[("xmlns".toList, SRC_NS_URI), ("xmlns:pos".toList, POSITION_NS_URI), ("pos:tabs".toList, "8".toList)], ?_⟩,
    ⟨[("xmlns".toList, SRC_NS_URI), ("xmlns:pos".toList, POSITION_NS_URI), ("pos:tabs".toList, "8".toList)], ?_⟩⟩ <;> decide +kernel

theorem outputToken_thread (o : Out) (t : Tok) (h : o.ThreadAgrees) :
    (o.outputToken t).ThreadAgrees ∧ (o.outputToken t).options = o.options := by
  have hpos : ∀ (o : Out), o.ThreadAgrees → ∀ t, (o.addPosition t).ThreadAgrees ∧ (o.addPosition t).options = o.options := by
    intro o h t
    unfold Out.addPosition
    split
    · exact ⟨h, rfl⟩
    · refine ⟨⟨h.1, Or.inr ?_⟩, rfl⟩
      show some (o.thread.posAttrs.getD (posAttrOpenings o.namespaces)) = some (posAttrOpenings o.namespaces)
      rcases h.2 with e | e <;> rw [e] <;> rfl
  have hstart : ∀ (o : Out), o.ThreadAgrees → ∀ t b n p a1 v1 a2 v2,
      (o.startTag t b n p a1 v1 a2 v2).ThreadAgrees ∧ (o.startTag t b n p a1 v1 a2 v2).options = o.options := by
    intro o h t b n p a1 v1 a2 v2
    unfold Out.startTag
    simp only []
    split
    · refine hpos _ ?_ t
      exact ⟨h.1, h.2⟩
    · exact ⟨⟨h.1, h.2⟩, rfl⟩
  have hinit : ∀ (o : Out), o.ThreadAgrees → o.initThread.ThreadAgrees := by
    intro o h
    refine ⟨Or.inr ?_, h.2⟩
    show some (o.thread.isposition.getD _) = _
    rcases h.1 with e | e <;> rw [e] <;> rfl
  have hend : ∀ (o : Out), o.ThreadAgrees → o.endTag.ThreadAgrees ∧ o.endTag.options = o.options :=
    fun o h => ⟨⟨h.1, h.2⟩, rfl⟩
  have hproc : ∀ (o : Out), o.ThreadAgrees → ∀ t n p a1 v1 a2 v2,
      (o.processToken t n p a1 v1 a2 v2).ThreadAgrees ∧ (o.processToken t n p a1 v1 a2 v2).options = o.options := by
    intro o h t n p a1 v1 a2 v2
    unfold Out.processToken
    split
    · exact ⟨h, rfl⟩
    · simp only []
      have hi := hinit o h
      have hio : o.initThread.options = o.options := rfl
      have h1 : ∀ b, (if t.isStart || t.isEmpty then o.initThread.startTag t b n p a1 v1 a2 v2 else o.initThread).ThreadAgrees ∧
          (if t.isStart || t.isEmpty then o.initThread.startTag t b n p a1 v1 a2 v2 else o.initThread).options = o.options := by
        intro b
        split
        · obtain ⟨x, y⟩ := hstart _ hi t b n p a1 v1 a2 v2
          exact ⟨x, y.trans hio⟩
        · exact ⟨hi, hio⟩
      split
      · obtain ⟨x, y⟩ := hend _ (h1 o.threadPosition).1
        exact ⟨x, y.trans (h1 o.threadPosition).2⟩
      · exact h1 _
  unfold Out.outputToken
  split
  · exact ⟨h, rfl⟩
  · cases processFind t.type with
    | none => exact ⟨⟨h.1, h.2⟩, rfl⟩
    | some e =>
      simp only []
      obtain ⟨x, y⟩ := hproc { o with namespaces := markUsed o.namespaces e.pre } ⟨h.1, by
        have : posAttrOpenings (markUsed o.namespaces e.pre) = posAttrOpenings o.namespaces := by
          simp only [posAttrOpenings, prefixOf_markUsed]
        show o.thread.posAttrs = none ∨ o.thread.posAttrs = some (posAttrOpenings (markUsed o.namespaces e.pre))
        rw [this]; exact h.2⟩ t e.name (prefixOf o.namespaces e.pre) e.attrName
        (if e.attrName.isSome && e.attrValue.isSome then e.attrValue else some t.text) e.attr2Name e.attr2Value
      exact ⟨x, y⟩

theorem outputToken_prefix (o : Out) (t : Tok) (p : Prefixes) :
    prefixOf (o.outputToken t).namespaces p = prefixOf o.namespaces p := by
  rw [outputToken_namespaces]
  split
  · rfl
  · cases elementOf t.type with
    | none => rfl
    | some e => exact prefixOf_markUsed _ _ _

theorem consume_thread (ts : List Tok) : ∀ (o : Out), o.ThreadAgrees → (o.consume ts).ThreadAgrees ∧
    (o.consume ts).options = o.options ∧ ∀ p, prefixOf (o.consume ts).namespaces p = prefixOf o.namespaces p := by
  induction ts with
  | nil => intro o h; exact ⟨h, rfl, fun _ => rfl⟩
  | cons t ts ih =>
    intro o h
    obtain ⟨h1, h2⟩ := outputToken_thread o t h
    obtain ⟨h3, h4, h5⟩ := ih _ h1
    exact ⟨h3, h4.trans h2, fun p => (h5 p).trans (outputToken_prefix o t p)⟩

/-- C55, as far as it holds: a thread that wrote units before, all with the same position option and the same
prefix of the position namespace as now, writes what a new thread writes. -/
theorem C55_same_settings_partial (o1 o2 : Out) (m1 m2 : UnitMeta) (ts1 ts2 : List Tok) (evs : List Ev)
    (h1 : o1.ThreadAgrees)
    (hopt : isoption o1.options OPTION_POSITION = isoption o2.options OPTION_POSITION)
    (hpre : prefixOf o1.namespaces .POS = prefixOf o2.namespaces .POS)
    (hw : o2.w = {}) (hp : CleanPrefixes o2.namespaces) (hm : CleanMeta m2)
    (htext : ∀ t ∈ ts2, t.text.all xmlChar = true)
    (hev : tokenEvents o2.env [] ts2 = some (evs, [])) :
    readXml ({ o2 with thread := ((o1.startUnit m1 false).consume ts1).thread }.unitDocument m2 ts2) =
      readXml ({ o2 with thread := {} }.unitDocument m2 ts2) := by
  obtain ⟨f1, f2, f3, f4, f5, f6⟩ := startUnit_fields o1 m1 false
  have hs : (o1.startUnit m1 false).ThreadAgrees := by
    have : posAttrOpenings (o1.startUnit m1 false).namespaces = posAttrOpenings o1.namespaces := by
      simp only [posAttrOpenings, prefixOf_of_prefixes f3]
    unfold Out.ThreadAgrees
    rw [f1, f2, this]; exact h1
  obtain ⟨g1, g2, g3⟩ := consume_thread ts1 _ hs
  rw [C12_unit_document_partial { o2 with thread := ((o1.startUnit m1 false).consume ts1).thread } m2 ts2 evs hw hp hm ?_ htext hev,
    C12_unit_document_partial { o2 with thread := {} } m2 ts2 evs hw hp hm ⟨Or.inl rfl, Or.inl rfl⟩ htext hev]
  · rfl
  · refine ⟨?_, ?_⟩
    · have := g1.1
      rw [g2, f1, hopt] at this
      exact this
    · have := g1.2
      have e : posAttrOpenings ((o1.startUnit m1 false).consume ts1).namespaces = posAttrOpenings o2.namespaces := by
        simp only [posAttrOpenings, g3, prefixOf_of_prefixes f3, hpre]
      rw [e] at this
      exact this

end Srcml
