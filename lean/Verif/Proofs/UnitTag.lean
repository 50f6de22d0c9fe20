import Verif.Proofs.Namespaces
/-
The start tag of a unit.
-/
set_option linter.unusedSimpArgs false
namespace Srcml
open Spec

/-- The attributes that have a value. -/
def present (as : List (Str × Option Str)) : List (Str × Str) :=
  as.filterMap (fun a => a.2.map (fun v => (a.1, v)))

theorem present_append (a b : List (Str × Option Str)) : present (a ++ b) = present a ++ present b := by
  simp [present, List.filterMap_append]

theorem writeAttrs_ok {B : Base} {n : Str} {rest : List (Str × Bool)} {evs : List Ev}
    (as : List (Str × Option Str)) : ∀ (w : Writer) (old : List (Str × Str)),
    Sync B w (evs ++ [.op n old]) ((n, true) :: rest) →
    (∀ a ∈ present as, ValidName a.1 ∧ ValidValue a.2) →
    ((old ++ present as).map (·.1)).Nodup →
    Sync B (writeAttrs w as) (evs ++ [.op n (old ++ present as)]) ((n, true) :: rest) := by
  induction as with
  | nil => intro w old h _ _; simpa [writeAttrs, present] using h
  | cons a as ih =>
    intro w old h hv hn
    obtain ⟨an, ao⟩ := a
    cases ao with
    | none =>
      have e1 : present ((an, none) :: as) = present as := by simp [present]
      rw [e1] at hv hn ⊢
      exact ih w old h hv hn
    | some v =>
      have e1 : present ((an, some v) :: as) = (an, v) :: present as := by simp [present]
      rw [e1] at hv hn ⊢
      have hva := hv (an, v) (by simp)
      have hd : an ∉ old.map (·.1) := by
        intro hm
        rw [List.map_append, List.nodup_append] at hn
        exact hn.2.2 an hm an (by simp) rfl
      have h1 := (h.writeAttribute an v hva.1 hva.2 hd).1
      have h2 := ih _ (old ++ [(an, v)]) h1 (fun a ha => hv a (by simp [ha])) (by simpa using hn)
      simpa [writeAttrs] using h2

/-- A namespace declaration as an attribute. -/
def nsAttr (n : Namespace) : Str × Str := (xmlnsName (nullIfEmpty n.prefix_), n.uri)

theorem writeNamespaces_eq (ns : List Namespace) (w : Writer) :
    ns.foldl writeNamespace w = writeAttrs w (ns.map (fun n => ((nsAttr n).1, some (nsAttr n).2))) := by
  induction ns generalizing w with
  | nil => rfl
  | cons n ns ih => simp only [List.foldl_cons, ih, List.map_cons]; rfl

theorem present_ns (ns : List Namespace) :
    present (ns.map (fun n => ((nsAttr n).1, some (nsAttr n).2))) = ns.map nsAttr := by
  induction ns with
  | nil => rfl
  | cons n ns ih => simp only [present, List.map_cons, List.filterMap_cons, Option.map_some] at ih ⊢; rw [ih]

/-- The output object whose table has the src entry marked, as when the namespaces are written. -/
def Out.marked (o : Out) : Out := { o with namespaces := markUsed o.namespaces .SRC }

/-- The namespace declarations of the start tag. -/
def Out.tagNs (o : Out) : List (Str × Str) :=
  if isoption o.options OPTION_NAMESPACE_DECL then o.marked.declared.map nsAttr else []

/-- All attributes of the start tag. -/
def Out.tagAttrs (o : Out) (m : UnitMeta) : List (Str × Str) := o.tagNs ++ present (unitAttrs o m)

/-- Name of the unit element. -/
def Out.unitName (o : Out) : Str := qname (nullIfEmpty (prefixOf o.namespaces .SRC)) "unit".toList

theorem modifyUri_prefixes (ns : List Namespace) (u : Str) (f : Namespace → Namespace)
    (hf : ∀ n, (f n).prefix_ = n.prefix_) : (modifyUri ns u f).map (·.prefix_) = ns.map (·.prefix_) := by
  induction ns with
  | nil => rfl
  | cons n ns ih =>
    unfold modifyUri
    split
    · simp [hf]
    · simp [ih]

theorem markByOptions_prefixes (ns : List Namespace) (o : Opts) :
    (markByOptions ns o).map (·.prefix_) = ns.map (·.prefix_) := by
  have h : ∀ l u, (markUriUsed l u).map (·.prefix_) = l.map (·.prefix_) :=
    fun l u => modifyUri_prefixes l u _ (fun _ => rfl)
  unfold markByOptions
  simp only []
  split <;> split <;> split <;> simp only [h]

theorem prefixOf_of_prefixes {a b : List Namespace} (h : a.map (·.prefix_) = b.map (·.prefix_)) (p : Prefixes) :
    prefixOf a p = prefixOf b p := by
  unfold prefixOf
  have := congrArg (fun l => l[p.index]?) h
  simp only [List.getElem?_map] at this
  rw [this]

theorem markUsed_prefixes (ns : List Namespace) (p : Prefixes) :
    (markUsed ns p).map (·.prefix_) = ns.map (·.prefix_) := by
  unfold markUsed
  apply List.ext_getElem?
  intro i
  simp only [List.getElem?_map, List.getElem?_modify]
  split
  · cases ns[i]? <;> rfl
  · simp

/-- Fields of the result of `startUnit` other than the writer. -/
theorem startUnit_fields (o : Out) (m : UnitMeta) (b : Bool) :
    (o.startUnit m b).options = o.options ∧ (o.startUnit m b).thread = o.thread ∧
    (o.startUnit m b).namespaces.map (·.prefix_) = o.namespaces.map (·.prefix_) ∧
    (o.startUnit m b).namespaces.map (·.uri) = o.namespaces.map (·.uri) ∧
    (o.startUnit m b).depth = (if o.depth = 0 then 1 else o.depth) ∧
    (o.startUnit m b).didwrite = true := by
  have he : ∀ x : Out, x.enter.options = x.options ∧ x.enter.thread = x.thread ∧ x.enter.namespaces = x.namespaces ∧
      x.enter.depth = (if x.depth = 0 then 1 else x.depth) ∧ x.enter.didwrite = x.didwrite := by
    intro x; unfold Out.enter; split <;> simp_all
  have hl : ∀ x : Out, (x.writeMacroList b).options = x.options ∧ (x.writeMacroList b).thread = x.thread ∧
      (x.writeMacroList b).namespaces = x.namespaces ∧ (x.writeMacroList b).depth = x.depth ∧
      (x.writeMacroList b).didwrite = x.didwrite := by
    intro x; unfold Out.writeMacroList; split <;> simp
  have hp : ∀ x : Out, x.markPosition.options = x.options ∧ x.markPosition.thread = x.thread ∧
      x.markPosition.namespaces.map (·.prefix_) = x.namespaces.map (·.prefix_) ∧
      x.markPosition.namespaces.map (·.uri) = x.namespaces.map (·.uri) ∧ x.markPosition.depth = x.depth ∧
      x.markPosition.didwrite = x.didwrite := by
    intro x; unfold Out.markPosition; split <;> simp [markUsed_prefixes, markUsed_uris]
  have hd : ∀ x : Out, x.declareNamespaces.options = x.options ∧ x.declareNamespaces.thread = x.thread ∧
      x.declareNamespaces.namespaces.map (·.prefix_) = x.namespaces.map (·.prefix_) ∧
      x.declareNamespaces.namespaces.map (·.uri) = x.namespaces.map (·.uri) ∧ x.declareNamespaces.depth = x.depth ∧
      x.declareNamespaces.didwrite = x.didwrite := by
    intro x; unfold Out.declareNamespaces Out.outputNamespaces
    split <;> simp [markByOptions_prefixes, markByOptions_uris]
  unfold Out.startUnit
  simp [he, hl, Out.writeUnitAttrs, hp, hd]
  refine ⟨rfl, rfl, ?_, ?_, ?_, rfl⟩
  · simp [Out.openUnit, markUsed_prefixes]
  · simp [Out.openUnit, markUsed_uris]
  · rfl

theorem declareNamespaces_w (o : Out) (x : Out) (hx : x = o.openUnit) :
    x.declareNamespaces.w = writeAttrs x.w (o.tagNs.map (fun a => (a.1, some a.2))) ∧
    x.declareNamespaces.options = o.options ∧ x.declareNamespaces.depth = o.depth ∧
    x.declareNamespaces.tabsize = o.tabsize ∧
    x.declareNamespaces.namespaces.map (·.prefix_) = o.namespaces.map (·.prefix_) := by
  unfold Out.declareNamespaces Out.tagNs
  by_cases hd : isoption o.options OPTION_NAMESPACE_DECL = true
  · subst hx
    have : isoption o.openUnit.options OPTION_NAMESPACE_DECL = true := hd
    rw [if_pos this, if_pos hd]
    refine ⟨?_, rfl, rfl, rfl, ?_⟩
    · unfold Out.outputNamespaces
      simp only [writeNamespaces_eq, List.map_map, Function.comp_def]
      rfl
    · simp [Out.outputNamespaces, markByOptions_prefixes, Out.openUnit, markUsed_prefixes]
  · subst hx
    have : ¬ isoption o.openUnit.options OPTION_NAMESPACE_DECL = true := hd
    rw [if_neg this, if_neg hd]
    exact ⟨rfl, rfl, rfl, rfl, markUsed_prefixes _ _⟩

theorem startUnit_w (o : Out) (m : UnitMeta) :
    (o.startUnit m false).w = writeAttrs (writeAttrs o.openUnit.w
      (o.tagNs.map (fun a => (a.1, some a.2)))) (unitAttrs o m) := by
  obtain ⟨h1, h2, h3, h4, h5⟩ := declareNamespaces_w o o.openUnit rfl
  have he : ∀ x : Out, x.enter.w = x.w := by intro x; unfold Out.enter; split <;> rfl
  unfold Out.startUnit
  rw [he]
  simp only [Out.writeMacroList, Bool.false_eq_true, if_false, Out.writeUnitAttrs]
  have hm : o.openUnit.declareNamespaces.markPosition.w = o.openUnit.declareNamespaces.w ∧
      o.openUnit.declareNamespaces.markPosition.options = o.options ∧
      o.openUnit.declareNamespaces.markPosition.depth = o.depth ∧
      o.openUnit.declareNamespaces.markPosition.tabsize = o.tabsize ∧
      o.openUnit.declareNamespaces.markPosition.namespaces.map (·.prefix_) = o.namespaces.map (·.prefix_) := by
    unfold Out.markPosition
    split <;> simp [h2, h3, h4, h5, markUsed_prefixes]
  obtain ⟨m1, m2, m3, m4, m5⟩ := hm
  rw [m1, h1]
  congr 1
  unfold unitAttrs
  rw [m2, m3, m4, prefixOf_of_prefixes m5]

/-- The start tag of a unit, read back. -/
theorem startUnit_ok {B : Base} (hB : B.Ok) {o : Out} {evs : List Ev} {top : List (Str × Bool)}
    (h : Sync B o.w evs top) (m : UnitMeta)
    (hroot : o.w.stack ≠ [] ∨ (B.r0.evs = [] ∧ evs = []))
    (hname : ValidName o.unitName)
    (hv : ∀ a ∈ o.tagAttrs m, ValidName a.1 ∧ ValidValue a.2)
    (hn : ((o.tagAttrs m).map (·.1)).Nodup) :
    Sync B (o.startUnit m false).w (evs ++ [.op o.unitName (o.tagAttrs m)])
      ((o.unitName, true) :: closedTop top) := by
  have h1 := h.startElement hB (nullIfEmpty (prefixOf o.namespaces .SRC)) "unit".toList hname (by decide) hroot
  rw [startUnit_w o m]
  have hp : present (o.tagNs.map (fun a => (a.1, some a.2))) = o.tagNs := by
    generalize o.tagNs = l
    induction l with
    | nil => rfl
    | cons n ns ih => simp only [present, List.map_cons, List.filterMap_cons, Option.map_some] at ih ⊢; rw [ih]
  have h2 := writeAttrs_ok (o.tagNs.map (fun a => (a.1, some a.2))) _ [] h1
    (by rw [hp]; exact fun a ha => hv a (by simp [Out.tagAttrs, ha]))
    (by rw [hp, List.nil_append]
        unfold Out.tagAttrs at hn
        rw [List.map_append] at hn
        exact (List.nodup_append.mp hn).1)
  rw [hp, List.nil_append] at h2
  exact writeAttrs_ok (unitAttrs o m) _ _ h2 (fun a ha => hv a (by simp [Out.tagAttrs, ha])) hn

/-! ### Conditions on names and values -/

/-- Names of the attributes that a unit start tag may carry by itself, apart from the tab stop. -/
def fixedNames : List Str :=
  ["revision".toList, "language".toList, "url".toList, "filename".toList, "version".toList,
   "timestamp".toList, "hash".toList, "src-encoding".toList, "options".toList]

/-- Metadata that XML can carry: legal characters in the values, names of further attributes legal, each
once and different from those of the unit itself. -/
structure CleanMeta (m : UnitMeta) : Prop where
  values : ∀ v, some v ∈ [m.revision, m.language, m.url, m.filename, m.version, m.timestamp, m.hash, m.encoding] →
    ValidValue v
  userNames : ∀ a ∈ attrPairs m.attributes, ValidName a.1 ∧ a.1 ∉ fixedNames ∧ a.1.take 5 ≠ "xmlns".toList ∧
    a.1.drop (a.1.length - 4) ≠ "tabs".toList
  userNodup : ((attrPairs m.attributes).map (·.1)).Nodup
  userValues : ∀ a ∈ attrPairs m.attributes, ∀ v, a.2 = some v → ValidValue v

/-- A namespace table that XML can carry: legal prefixes, each used once, none of them `xmlns`. -/
structure CleanPrefixes (ns : List Namespace) : Prop where
  legal : ∀ n ∈ ns, n.prefix_.all nameChar = true
  ncname : ∀ n ∈ ns, ':' ∉ n.prefix_
  distinct : (ns.map (·.prefix_)).Nodup
  reserved : ∀ n ∈ ns, n.prefix_ ≠ "xmlns".toList
  uris : ∀ n ∈ ns, ValidValue n.uri

theorem CleanPrefixes.congr {a b : List Namespace} (h : CleanPrefixes a)
    (h1 : b.map (·.prefix_) = a.map (·.prefix_)) (h2 : b.map (·.uri) = a.map (·.uri)) : CleanPrefixes b := by
  have hp : ∀ n ∈ b, ∃ n' ∈ a, n'.prefix_ = n.prefix_ := by
    intro n hn
    have : n.prefix_ ∈ a.map (·.prefix_) := by rw [← h1]; exact List.mem_map_of_mem hn
    obtain ⟨n', h3, h4⟩ := List.mem_map.mp this
    exact ⟨n', h3, h4⟩
  have hu : ∀ n ∈ b, ∃ n' ∈ a, n'.uri = n.uri := by
    intro n hn
    have : n.uri ∈ a.map (·.uri) := by rw [← h2]; exact List.mem_map_of_mem hn
    obtain ⟨n', h3, h4⟩ := List.mem_map.mp this
    exact ⟨n', h3, h4⟩
  refine ⟨?_, ?_, by rw [h1]; exact h.distinct, ?_, ?_⟩
  · intro n hn; obtain ⟨n', h3, h4⟩ := hp n hn; rw [← h4]; exact h.legal n' h3
  · intro n hn; obtain ⟨n', h3, h4⟩ := hp n hn; rw [← h4]; exact h.ncname n' h3
  · intro n hn; obtain ⟨n', h3, h4⟩ := hp n hn; rw [← h4]; exact h.reserved n' h3
  · intro n hn; obtain ⟨n', h3, h4⟩ := hu n hn; rw [← h4]; exact h.uris n' h3

theorem CleanPrefixes.prefixOf {ns : List Namespace} (h : CleanPrefixes ns) (p : Prefixes) :
    (Srcml.prefixOf ns p).all nameChar = true := by
  unfold Srcml.prefixOf
  cases hg : ns[p.index]? with
  | none => rfl
  | some n => exact h.legal n (List.mem_of_getElem? hg)

theorem CleanPrefixes.prefixOf_ne {ns : List Namespace} (h : CleanPrefixes ns) (p : Prefixes) :
    Srcml.prefixOf ns p ≠ "xmlns".toList := by
  unfold Srcml.prefixOf
  cases hg : ns[p.index]? with
  | none => exact (by decide)
  | some n => exact h.reserved n (List.mem_of_getElem? hg)

theorem CleanPrefixes.prefixOf_colon {ns : List Namespace} (h : CleanPrefixes ns) (p : Prefixes) :
    ':' ∉ Srcml.prefixOf ns p := by
  unfold Srcml.prefixOf
  cases hg : ns[p.index]? with
  | none => exact (by decide)
  | some n => exact h.ncname n (List.mem_of_getElem? hg)

theorem xmlnsName_inj {p q : Str} (h : xmlnsName (nullIfEmpty p) = xmlnsName (nullIfEmpty q)) : p = q := by
  unfold nullIfEmpty at h
  by_cases hp : p = [] <;> by_cases hq : q = [] <;> simp [hp, hq, xmlnsName] at h ⊢
  exact h

theorem xmlnsName_take (p : Option Str) : (xmlnsName p).take 5 = "xmlns".toList := by
  cases p <;> simp [xmlnsName]

theorem xmlnsName_valid {p : Str} (h : p.all nameChar = true) : ValidName (xmlnsName (nullIfEmpty p)) := by
  unfold nullIfEmpty
  split
  · exact (by decide)
  · simp only [xmlnsName]
    refine ⟨by simp, ?_⟩
    rw [List.all_append, List.all_cons, h]; decide

theorem unitName_valid {o : Out} (h : CleanPrefixes o.namespaces) : ValidName o.unitName := by
  unfold Out.unitName qname nullIfEmpty
  split
  · rename_i hp; exact (by decide)
  · rename_i p hp
    split at hp
    · cases hp
    · simp only [Option.some.injEq] at hp
      subst hp
      refine ⟨by simp, ?_⟩
      rw [List.all_append, List.all_cons, h.prefixOf]; decide

theorem unitAttrs_names (o : Out) (m : UnitMeta) :
    (unitAttrs o m).map (·.1) = ["revision".toList, "language".toList, "url".toList, "filename".toList,
      "version".toList] ++ [tabsName (prefixOf o.namespaces .POS)] ++ ["timestamp".toList, "hash".toList,
      "src-encoding".toList, "options".toList] ++ (attrPairs m.attributes).map (·.1) := by
  simp [unitAttrs]

theorem tabsName_end (p : Str) : (tabsName p).drop ((tabsName p).length - 4) = "tabs".toList := by
  unfold tabsName
  split
  · rfl
  · have : p ++ ":tabs".toList = (p ++ [':']) ++ "tabs".toList := by simp
    rw [this, List.length_append, show "tabs".toList.length = 4 from rfl, Nat.add_sub_cancel]
    exact List.drop_left

theorem fixedNames_not_tabs : ∀ x ∈ fixedNames, x.drop (x.length - 4) ≠ "tabs".toList := by decide +kernel

theorem fixedNames_not_xmlns : ∀ x ∈ fixedNames, x.take 5 ≠ "xmlns".toList := by decide +kernel

theorem takeWhile_prefix {p r : Str} (h : ':' ∉ p) : (p ++ ':' :: r).takeWhile (· ≠ ':') = p := by
  induction p with
  | nil => simp
  | cons c cs ih =>
    simp only [List.mem_cons, not_or] at h
    simp only [List.cons_append, List.takeWhile_cons]
    rw [if_pos (by simpa using fun e => h.1 e.symm), ih h.2]

theorem tabsName_not_xmlns {p : Str} (h : p ≠ "xmlns".toList) (hc : ':' ∉ p) (q : Str) :
    xmlnsName (nullIfEmpty q) ≠ tabsName p := by
  intro e
  by_cases hp : p = []
  · subst hp
    have := congrArg (List.take 5) e
    rw [xmlnsName_take] at this
    exact absurd this (by decide)
  · unfold tabsName at e
    rw [if_neg hp] at e
    have e' := congrArg (List.takeWhile (· ≠ ':')) e
    have hr : (p ++ ":tabs".toList).takeWhile (· ≠ ':') = p := takeWhile_prefix hc
    rw [hr] at e'
    by_cases hq : q = []
    · subst hq
      exact h (e' ▸ by decide)
    · have : xmlnsName (nullIfEmpty q) = "xmlns".toList ++ ':' :: q := by simp [nullIfEmpty, hq, xmlnsName]
      rw [this, takeWhile_prefix (by decide)] at e'
      exact h e'.symm

theorem mem_present {as : List (Str × Option Str)} {x : Str × Str} :
    x ∈ present as ↔ (x.1, some x.2) ∈ as := by
  unfold present
  simp only [List.mem_filterMap, Option.map_eq_some_iff]
  constructor
  · rintro ⟨⟨a, b⟩, h1, v, h2, rfl⟩
    simp only at h2; subst h2; exact h1
  · intro h; exact ⟨_, h, x.2, rfl, rfl⟩

theorem present_sublist (as : List (Str × Option Str)) :
    ((present as).map (·.1)).Sublist (as.map (·.1)) := by
  induction as with
  | nil => exact List.Sublist.refl _
  | cons a as ih =>
    obtain ⟨n, v⟩ := a
    cases v with
    | none => simpa [present] using List.Sublist.cons n ih
    | some v => simpa [present] using List.Sublist.cons_cons n ih

theorem soptions_valid (o : Opts) : ValidValue (soptions o) := by
  unfold soptions
  rw [List.foldl_cons, List.foldl_cons, List.foldl_cons, List.foldl_nil]
  generalize isoption o OPTION_CPP_TEXT_ELSE = b1
  generalize isoption o OPTION_CPP_MARKUP_IF0 = b2
  generalize isoption o OPTION_LINE = b3
  revert b1 b2 b3
  decide

/-- Names and values of the start tag of a unit are legal. -/
theorem tagAttrs_valid {o : Out} {m : UnitMeta} (hp : CleanPrefixes o.namespaces) (hm : CleanMeta m) :
    ∀ a ∈ o.tagAttrs m, ValidName a.1 ∧ ValidValue a.2 := by
  intro a ha
  unfold Out.tagAttrs at ha
  rw [List.mem_append] at ha
  rcases ha with ha | ha
  · unfold Out.tagNs at ha
    split at ha
    · obtain ⟨n, hn, rfl⟩ := List.mem_map.mp ha
      have hc : CleanPrefixes (markByOptions o.marked.namespaces o.marked.options) :=
        hp.congr (by rw [markByOptions_prefixes]; exact markUsed_prefixes _ _)
          (by rw [markByOptions_uris]; exact markUsed_uris _ _)
      have hmem : n ∈ markByOptions o.marked.namespaces o.marked.options := (List.mem_filter.mp hn).1
      exact ⟨xmlnsName_valid (hc.legal n hmem), hc.uris n hmem⟩
    · simp at ha
  · rw [mem_present] at ha
    unfold unitAttrs at ha
    rw [List.mem_append] at ha
    rcases ha with ha | ha
    · simp only [List.mem_cons, List.not_mem_nil, or_false, Prod.mk.injEq] at ha
      have hv := hm.values
      rcases ha with ⟨e1, e2⟩ | ⟨e1, e2⟩ | ⟨e1, e2⟩ | ⟨e1, e2⟩ | ⟨e1, e2⟩ | ⟨e1, e2⟩ | ⟨e1, e2⟩ | ⟨e1, e2⟩ |
        ⟨e1, e2⟩ | ⟨e1, e2⟩ <;> rw [e1] <;> refine ⟨?_, ?_⟩
      all_goals first
        | exact (by decide)
        | (refine hv _ ?_; rw [e2]; simp; done)
        | skip
      · unfold tabsName
        split
        · exact (by decide)
        · refine ⟨by simp, ?_⟩
          rw [List.all_append, hp.prefixOf]; decide
      · split at e2
        · simp only [Option.some.injEq] at e2
          rw [e2, decDigits_eq]; exact digits_valid _
        · cases e2
      · split at e2
        · simp only [Option.some.injEq] at e2
          rw [e2]
          unfold defaultEncoding
          cases he : m.encoding with
          | none => exact (by decide)
          | some e =>
            cases e with
            | nil => exact (by decide)
            | cons c cs => exact hv _ (by simp [he])
        · cases e2
      · split at e2
        · simp only [Option.some.injEq] at e2
          rw [e2]; exact soptions_valid _
        · cases e2
    · exact ⟨(hm.userNames _ ha).1, hm.userValues _ ha _ rfl⟩

/-- The attributes of a unit start tag, without the namespaces, have different names. -/
theorem unitAttrs_nodup {o : Out} {m : UnitMeta} (hm : CleanMeta m) :
    ((unitAttrs o m).map (·.1)).Nodup := by
  rw [unitAttrs_names]
  have htab := tabsName_end (prefixOf o.namespaces .POS)
  generalize tabsName (prefixOf o.namespaces .POS) = tn at htab
  have htn : tn ∉ fixedNames := fun h => fixedNames_not_tabs tn h htab
  have hfix : ∀ x, x ∈ ["revision".toList, "language".toList, "url".toList, "filename".toList,
      "version".toList] ++ ["timestamp".toList, "hash".toList, "src-encoding".toList, "options".toList] ↔
      x ∈ fixedNames := by intro x; rfl
  rw [List.nodup_append]
  refine ⟨?_, hm.userNodup, ?_⟩
  · have h1 : (["revision".toList, "language".toList, "url".toList, "filename".toList,
      "version".toList] ++ ["timestamp".toList, "hash".toList, "src-encoding".toList, "options".toList]).Nodup := by
      decide +kernel
    have h2 : (tn :: (["revision".toList, "language".toList, "url".toList, "filename".toList,
      "version".toList] ++ ["timestamp".toList, "hash".toList, "src-encoding".toList, "options".toList])).Nodup :=
      List.nodup_cons.mpr ⟨by rw [hfix]; exact htn, h1⟩
    refine (List.Perm.nodup_iff ?_).mp h2
    rw [List.append_assoc]
    exact (List.perm_middle (a := tn) (l₁ := ["revision".toList, "language".toList, "url".toList, "filename".toList,
      "version".toList])).symm
  · intro x hx y hy
    rintro rfl
    obtain ⟨a, ha, rfl⟩ := List.mem_map.mp hy
    have hn := hm.userNames a ha
    have : a.1 ∈ fixedNames ∨ a.1 = tn := by
      rw [← hfix]
      simp only [List.mem_append, List.mem_singleton] at hx ⊢
      rcases hx with (hx | hx) | hx
      · exact Or.inl (Or.inl hx)
      · exact Or.inr hx
      · exact Or.inl (Or.inr hx)
    rcases this with h | h
    · exact hn.2.1 h
    · exact hn.2.2.2 (h ▸ htab)

/-- No attribute name appears twice on the start tag of a unit. -/
theorem tagAttrs_nodup {o : Out} {m : UnitMeta} (hp : CleanPrefixes o.namespaces) (hm : CleanMeta m) :
    ((o.tagAttrs m).map (·.1)).Nodup := by
  unfold Out.tagAttrs
  rw [List.map_append, List.nodup_append]
  have hc : CleanPrefixes (markByOptions o.marked.namespaces o.marked.options) :=
    hp.congr (by rw [markByOptions_prefixes]; exact markUsed_prefixes _ _)
      (by rw [markByOptions_uris]; exact markUsed_uris _ _)
  refine ⟨?_, (present_sublist _).nodup (unitAttrs_nodup hm), ?_⟩
  · unfold Out.tagNs
    split
    · have h1 : ((o.marked.declared).map (·.prefix_)).Nodup :=
        List.Sublist.nodup ((List.filter_sublist).map _) hc.distinct
      have : ((o.marked.declared.map nsAttr).map (·.1)) =
          (o.marked.declared.map (·.prefix_)).map (fun p => xmlnsName (nullIfEmpty p)) := by
        simp [List.map_map, nsAttr, Function.comp_def]
      rw [this]
      generalize o.marked.declared.map (·.prefix_) = l at h1
      induction l with
      | nil => simp
      | cons p ps ih =>
        rw [List.map_cons, List.nodup_cons] 
        rw [List.nodup_cons] at h1
        refine ⟨?_, ih h1.2⟩
        intro hmem
        obtain ⟨q, hq, e⟩ := List.mem_map.mp hmem
        exact h1.1 (xmlnsName_inj e ▸ hq)
    · simp
  · intro x hx y hy
    rintro rfl
    have hx' : ∃ p, x = xmlnsName (nullIfEmpty p) := by
      unfold Out.tagNs at hx
      split at hx
      · obtain ⟨a, ha, rfl⟩ := List.mem_map.mp hx
        obtain ⟨n, hn, rfl⟩ := List.mem_map.mp ha
        exact ⟨_, rfl⟩
      · simp at hx
    obtain ⟨p, rfl⟩ := hx'
    have hy' := (present_sublist _).mem hy
    rw [unitAttrs_names, List.mem_append] at hy'
    rcases hy' with hy' | hy'
    · have : xmlnsName (nullIfEmpty p) ∈ fixedNames ∨ xmlnsName (nullIfEmpty p) = tabsName (prefixOf o.namespaces .POS) := by
        simp only [List.mem_append, List.mem_singleton] at hy'
        rcases hy' with (h | h) | h
        · left; simp only [fixedNames, List.mem_cons] at h ⊢; 
          rcases h with h | h | h | h | h | h <;> simp_all
        · exact Or.inr h
        · left; simp only [fixedNames, List.mem_cons] at h ⊢
          rcases h with h | h | h | h | h <;> simp_all
      rcases this with h | h
      · exact fixedNames_not_xmlns _ h (xmlnsName_take _)
      · exact tabsName_not_xmlns (hp.prefixOf_ne .POS) (hp.prefixOf_colon .POS) p h
    · obtain ⟨a, ha, e⟩ := List.mem_map.mp hy'
      exact (hm.userNames a ha).2.2.1 (by rw [e]; exact xmlnsName_take _)

end Srcml
