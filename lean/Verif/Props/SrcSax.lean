import Verif.Proofs.SrcSaxArchive
import Verif.Props.ArchiveText
import Verif.Props.Reader
/-
C25: what is read from an archive that was written unit by unit.
-/
set_option linter.unusedSimpArgs false
namespace Srcml
open Spec

/-! ### The units in the log -/

/-- The units of an archive as they are handed to the upper level. -/
def handed (root : List (Str × Str)) : Bool → List Bool → List UnitText → List (List (Str × Str) × Option Collected)
  | _, _, [] => []
  | cpp, wants, u :: us =>
    let cpp := cpp || decide (CPP_NS_URI ∈ declaredUris u.attrs)
    (u.attrs, if wants.headD false then some (readUnit root u.attrs u.name u.content u.evs cpp) else none) :: handed root cpp wants.tail us

theorem unitsOf_unitCalls (root : List (Str × Str)) (us : List UnitText) : ∀ (cpp : Bool) (wants : List Bool) (rest : List Upper),
    unitsOf (unitCalls root cpp wants us ++ rest) = handed root cpp wants us ++ unitsOf rest := by
  induction us with
  | nil => intro _ _ _; rfl
  | cons u us ih =>
    intro cpp wants rest
    simp only [unitCalls, handed, List.cons_append, List.nil_append, unitsOf, ih]

theorem unitsOf_meta (l : List Str) (rest : List Upper) : unitsOf (metaCalls l ++ rest) = unitsOf rest := by
  match l with
  | [] => rfl
  | [_] => rfl
  | t :: ty :: r =>
    simp only [metaCalls, List.cons_append, unitsOf]
    exact unitsOf_meta r rest

theorem unitsOf_archive (root : List (Str × Str)) (l : List Str) (wants : List Bool) (us : List UnitText) :
    unitsOf (archiveCalls root l wants us) = handed root (decide (CPP_NS_URI ∈ declaredUris root)) wants us := by
  unfold archiveCalls
  rw [List.append_assoc, unitsOf_meta, List.cons_append, unitsOf, unitsOf_unitCalls]
  · simp [unitsOf]
  · intro _ _ _ h; cases h

theorem handed_length (root : List (Str × Str)) (us : List UnitText) : ∀ (cpp : Bool) (wants : List Bool),
    (handed root cpp wants us).length = us.length := by
  induction us with
  | nil => intro _ _; rfl
  | cons u us ih => intro cpp wants; simp [handed, ih]

theorem handed_get (root : List (Str × Str)) (us : List UnitText) : ∀ (cpp : Bool) (wants : List Bool) (i : Nat) (hi : i < us.length),
    ∃ c, (handed root cpp wants us)[i]? = some (us[i].attrs, if (wants[i]?).getD false then
      some (readUnit root us[i].attrs us[i].name us[i].content us[i].evs c) else none) := by
  induction us with
  | nil => intro _ _ i hi; exact absurd hi (by simp)
  | cons u us ih =>
    intro cpp wants i hi
    cases i with
    | zero =>
      refine ⟨cpp || decide (CPP_NS_URI ∈ declaredUris u.attrs), ?_⟩
      cases wants <;> rfl
    | succ i =>
      obtain ⟨c, h⟩ := ih (cpp || decide (CPP_NS_URI ∈ declaredUris u.attrs)) wants.tail i (by simpa using hi)
      refine ⟨c, ?_⟩
      simp only [handed, List.getElem?_cons_succ, List.getElem_cons_succ]
      rw [h]
      cases wants <;> rfl

theorem saxCalls_unitCalls (root : List (Str × Str)) (us : List UnitText) : ∀ (cpp : Bool) (wants : List Bool),
    (unitCalls root cpp wants us).filterMap saxCall = (List.replicate us.length [SaxCall.startUnit, .endUnit]).flatten := by
  induction us with
  | nil => intro _ _; rfl
  | cons u us ih =>
    intro cpp wants
    simp only [unitCalls, List.length_cons, List.replicate_succ, List.flatten_cons, List.filterMap_append, ih]
    rfl

theorem saxCalls_meta (l : List Str) : (metaCalls l).filterMap saxCall = [] := by
  match l with
  | [] => rfl
  | [_] => rfl
  | t :: ty :: r =>
    simp only [metaCalls, List.filterMap_cons, saxCall]
    exact saxCalls_meta r

theorem saxCalls_archive (root : List (Str × Str)) (l : List Str) (wants : List Bool) (us : List UnitText) :
    (archiveCalls root l wants us).filterMap saxCall = saxCalls false us.length false true := by
  unfold archiveCalls saxCalls
  simp only [List.filterMap_append, List.filterMap_cons, saxCalls_meta, saxCalls_unitCalls, saxCall, List.nil_append,
    List.filterMap_nil, if_true, Bool.false_eq_true, if_false]

/-! ### Units of an archive -/

/-- A unit as the text of an archive has it. -/
def ReadJob.unitText (a : Archive) (j : ReadJob) : UnitText where
  name := (jobOut a j.ua j.u 1).unitName
  attrs := (jobOut a j.ua j.u 1).tagAttrs (unitMetaOf a j.ua j.u)
  content := j.content
  evs := j.evs

theorem unitName_local {o : Out} (h : CleanPrefixes o.namespaces) : localName o.unitName = "unit".toList := by
  unfold Out.unitName
  cases hp : nullIfEmpty (prefixOf o.namespaces .SRC) with
  | none => exact (by decide : localName "unit".toList = "unit".toList)
  | some p =>
    have hpm : ':' ∉ p := by
      unfold nullIfEmpty at hp
      split at hp
      · cases hp
      · rename_i hne
        simp only [Option.some.injEq] at hp
        subst hp
        unfold prefixOf at hne ⊢
        cases hg : o.namespaces[Prefixes.SRC.index]? with
        | none => simp [hg]
        | some n => simpa [hg] using h.ncname n (List.mem_of_getElem? hg)
    unfold qname localName
    simp only
    rw [if_pos (by simp)]
    have : ∀ s : Str, ':' ∉ s → (s ++ ':' :: "unit".toList).dropWhile (· ≠ ':') = ':' :: "unit".toList := by
      intro s
      induction s with
      | nil => intro _; rfl
      | cons c cs ih =>
        intro hc
        simp only [List.mem_cons, not_or] at hc
        have : c ≠ ':' := fun e => hc.1 e.symm
        rw [List.cons_append, List.dropWhile_cons]
        simp only [this, ne_eq, not_false_eq_true, decide_true, if_true]
        exact ih hc.2
    rw [this p hpm]
    rfl

theorem tagAttrs_language {o : Out} {m : UnitMeta} {l : Str} (h : m.language = some l) : o.tagAttrs m ≠ [] := by
  intro e
  have : ("language".toList, l) ∈ o.tagAttrs m := by
    unfold Out.tagAttrs
    refine List.mem_append_right _ (List.mem_filterMap.mpr ⟨("language".toList, m.language), ?_, by rw [h]; rfl⟩)
    unfold unitAttrs
    simp
  rw [e] at this
  cases this

/-- The archive can be read back: XML can carry its settings, its prolog is told from the declaration, the URIs of the namespaces that its
root declares have no character that XML escapes, and the cpp namespace has a prefix. For the last two see `C25_finding_…`. -/
structure CarriedArchive (a : Archive) : Prop extends CleanArchive a where
  prolog' : PlainProlog (rootOut a)
  uris : PlainUris ((rootOut a).tagAttrs (rootMeta a))
  cpp : ("xmlns".toList, CPP_NS_URI) ∉ (rootOut a).tagAttrs (rootMeta a)

/-- The unit can be read back from the archive: XML can carry it, its contents are well-formed, each of its `escape` elements says which
character it stands for, and the cpp namespace has a prefix. -/
structure CarriedJob (a : Archive) (j : ReadJob) : Prop where
  fits : j.toJob.Fits a 1
  wellFormed : j.WellFormed
  escapes : EscapesOk j.evs
  cpp : ("xmlns".toList, CPP_NS_URI) ∉ (jobOut a j.ua j.u 1).tagAttrs (unitMetaOf a j.ua j.u)

theorem CarriedJob.good {a : Archive} {j : ReadJob} (h : CarriedJob a j) : (j.unitText a).Good where
  attrs := tagAttrs_language (l := j.u.language.getD (getLanguageString j.u.derivedLanguage)) rfl
  unit := unitName_local h.fits.prefixes
  cpp := h.cpp
  name := unitName_valid h.fits.prefixes
  values := tagAttrs_valid h.fits.prefixes h.fits.values
  nodup := tagAttrs_nodup h.fits.prefixes h.fits.values
  content := ⟨h.wellFormed, h.escapes⟩

theorem CarriedArchive.good {a : Archive} (h : CarriedArchive a) :
    GoodRoot (rootOut a).unitName ((rootOut a).tagAttrs (rootMeta a)) a.userMacroList where
  unit := unitName_local h.prefixes
  cpp := h.cpp
  name := unitName_valid h.prefixes
  values := tagAttrs_valid h.prefixes h.values
  nodup := tagAttrs_nodup h.prefixes h.values
  uris := h.uris
  macros := h.macros

theorem archiveText_body (a : Archive) (js : List ReadJob) : archiveText a (js.map (·.toJob)) = prologText (rootOut a) ++
    archiveBody (rootOut a).unitName ((rootOut a).tagAttrs (rootMeta a)) a.userMacroList (js.map (·.unitText a)) := by
  have h : (js.map (·.toJob)).flatMap (fun j => addedText a j.ua j.u j.content) =
      (js.map (·.unitText a)).flatMap (fun u => '\n' :: '\n' :: unitElement u.name u.attrs u.content) := by
    rw [List.flatMap_map, List.flatMap_map]
    rfl
  unfold archiveText headText archiveBody
  rw [h]
  generalize (js.map (·.unitText a)).flatMap (fun u => '\n' :: '\n' :: unitElement u.name u.attrs u.content) = U
  simp [tagText]

/-! ### What a read unit says -/

/-- The unit `v` that was read has the metadata with which `j` was written to `a`: a value that was not there is not there either, except
that a new unit has a revision. -/
structure Spec.SameMeta (a : Archive) (j : ReadJob) (v : UnitData) : Prop where
  language : v.language = (unitMetaOf a j.ua j.u).language
  revision : v.revision = some ((unitMetaOf a j.ua j.u).revision.getD "1.0.0".toList)
  url : v.url = (unitMetaOf a j.ua j.u).url
  filename : v.filename = (unitMetaOf a j.ua j.u).filename
  version : v.version = (unitMetaOf a j.ua j.u).version
  timestamp : v.timestamp = (unitMetaOf a j.ua j.u).timestamp
  hash : v.hash = (unitMetaOf a j.ua j.u).hash
  attributes : v.attributes = (if isoption (jobOut a j.ua j.u 1).options OPTION_STORE_ENCODING then
    ["src-encoding".toList, defaultEncoding (unitMetaOf a j.ua j.u).encoding] else []) ++ j.u.attributes

/-- The unit `v` that was read has the contents of `j`, of which `a` was written:
the inner text is the same, character by character; the source text is that of the contents, and its lines are counted;
the outer text is what was written for the unit; the whole text is an element with the contents of `j`. -/
structure Spec.SameContent (a : Archive) (j : ReadJob) (v : UnitData) : Prop where
  inner : (UnitObj.getInner { data := v }).1 = some (j.content.getD [])
  src : v.src = some (sourceOf j.evs)
  loc : (∀ name attrs, Ev.op name attrs ∈ j.evs → localName name ≠ "escape".toList) → v.loc = (textLines (evText j.evs)).length
  outer : (∀ p ∈ nsDecls ((rootOut a).tagAttrs (rootMeta a)) ++ (jobOut a j.ua j.u 1).tagAttrs (unitMetaOf a j.ua j.u),
      p.1 ≠ "url".toList ∧ NoUrl p.2) →
    ∃ u', (UnitObj.getOuter { data := v }) = .val (some (unitText (jobOut a j.ua j.u 1) (unitMetaOf a j.ua j.u) j.content), u')
  whole : ((nsDecls ((rootOut a).tagAttrs (rootMeta a)) ++ (jobOut a j.ua j.u 1).tagAttrs (unitMetaOf a j.ua j.u)).map (·.1)).Nodup →
    readXml v.srcml = some (.op (jobOut a j.ua j.u 1).unitName (nsDecls ((rootOut a).tagAttrs (rootMeta a)) ++
      (jobOut a j.ua j.u 1).tagAttrs (unitMetaOf a j.ua j.u)) :: j.evs ++ [.cl (jobOut a j.ua j.u 1).unitName])

theorem read_meta {a : Archive} {j : ReadJob} (h : CarriedJob a j) (hc : ∀ p ∈ attrPairs j.u.attributes, ':' ∉ p.1)
    (he : j.u.attributes.length % 2 = 0) (c : Collected) :
    SameMeta a j (readUnitData ((jobOut a j.ua j.u 1).tagAttrs (unitMetaOf a j.ua j.u)) c) := by
  have hu := update_unitAttrs (u := {}) (o := jobOut a j.ua j.u 1) h.fits.prefixes h.fits.values hc he rfl
  unfold readUnitData
  rw [hu]
  refine ⟨?_, ?_, ?_, ?_, ?_, ?_, ?_, rfl⟩ <;> simp only [Option.or_none]
  cases (unitMetaOf a j.ua j.u).revision <;> rfl

theorem source_plain {evs : List Ev} (h : ∀ name attrs, Ev.op name attrs ∈ evs → localName name ≠ "escape".toList) :
    sourceOf evs = evText evs := by
  induction evs with
  | nil => rfl
  | cons e es ih =>
    have ih := ih (fun n as hm => h n as (by simp [hm]))
    unfold sourceOf evText at *
    rw [List.flatMap_cons, ih, List.filterMap_cons]
    cases e with
    | ch c => rfl
    | cl n => rfl
    | op n as => simp only [evSource]; rw [if_neg (h n as (by simp))]; rfl

theorem readText_eq (root attrs : List (Str × Str)) (name : Str) (c : Option Str) :
    readText root attrs name c = '<' :: name ++ attrsText (nsDecls root ++ attrs) ++ tailOf name c := by
  unfold readText readTag tailOf
  cases c <;> simp

theorem read_inner (root attrs : List (Str × Str)) (name : Str) (c : Option Str) (evs : List Ev) (cpp : Bool) :
    (UnitObj.getInner { data := readUnitData attrs (readUnit root attrs name c evs cpp) }).1 = some (c.getD []) := by
  have hsz : ((readUnitData attrs (readUnit root attrs name c evs cpp)).contentEnd : Int) -
      ((readUnitData attrs (readUnit root attrs name c evs cpp)).contentBegin : Nat) - 1 = ((c.getD []).length : Nat) := by
    simp only [readUnitData, readUnit]
    omega
  unfold UnitObj.getInner
  rw [if_neg (by simp [readUnitData])]
  simp only [hsz]
  split
  · rename_i hz
    have : c.getD [] = [] := List.length_eq_zero_iff.mp (by omega)
    rw [this]
  · rename_i hz
    cases c with
    | none => simp at hz
    | some i =>
      simp only [Option.getD_some, Int.toNat_natCast]
      congr 1
      simp only [readUnitData, readUnit, readText]
      rw [show readTag root attrs name ++ ('>' :: i ++ '<' :: '/' :: name ++ ['>']) =
        (readTag root attrs name ++ ['>']) ++ (i ++ ('<' :: '/' :: name ++ ['>'])) by simp,
        show (readTag root attrs name).length + 1 = (readTag root attrs name ++ ['>']).length by simp, List.drop_left, List.take_left]

theorem read_loc (root attrs : List (Str × Str)) (name : Str) (c : Option Str) (evs : List Ev) (cpp : Bool)
    (hesc : ∀ name attrs, Ev.op name attrs ∈ evs → localName name ≠ "escape".toList) :
    (readUnitData attrs (readUnit root attrs name c evs cpp)).loc = (textLines (evText evs)).length := by
  rw [← unitLoc_lines]
  simp only [readUnitData, readUnit, source_plain hesc, unitLoc]
  generalize evText evs = s
  cases h : s.getLast? with
  | none =>
    have : s = [] := List.getLast?_eq_none_iff.mp h
    simp [this]
  | some x =>
    have : s ≠ [] := by rintro rfl; cases h
    by_cases hx : x = '\n' <;> simp [this, hx]

theorem read_outer {root attrs : List (Str × Str)} {name : Str} (c : Option Str) (evs : List Ev) (cpp : Bool) (hname : ValidName name)
    (hne : attrs ≠ []) (hall : ∀ p ∈ nsDecls root ++ attrs, ValidName p.1 ∧ p.1 ≠ "url".toList ∧ NoUrl p.2) :
    outerFragment (readUnitData attrs (readUnit root attrs name c evs cpp)) =
      some ('<' :: name ++ attrsText attrs ++ tailOf name c) := by
  have hcut := urlCut_none (name := name) (attrs := nsDecls root ++ attrs) c hname hall
  obtain ⟨x, xs, rfl⟩ : ∃ x xs, attrs = x :: xs := by
    cases attrs with
    | nil => exact absurd rfl hne
    | cons x xs => exact ⟨x, xs, rfl⟩
  obtain ⟨Y, hY⟩ : ∃ Y, attrText x.1 x.2 = ' ' :: Y := ⟨_, rfl⟩
  unfold outerFragment
  simp only [readUnitData, readUnit, readText_eq, hcut, if_true]
  have hshape : ∃ N, N.length = (attrsText (nsDecls root)).length ∧
      '<' :: name ++ attrsText (nsDecls root ++ x :: xs) ++ tailOf name c =
        ('<' :: name ++ [' ']) ++ (N ++ (Y ++ attrsText xs ++ tailOf name c)) := by
    cases hn : nsDecls root with
    | nil => exact ⟨[], by simp [attrsText], by simp [attrsText, hY]⟩
    | cons d ds =>
      obtain ⟨Z, hZ⟩ : ∃ Z, attrText d.1 d.2 = ' ' :: Z := ⟨_, rfl⟩
      refine ⟨Z ++ attrsText ds ++ [' '], by simp [attrsText, hZ]; omega, ?_⟩
      simp [attrsText, hY, hZ]
  obtain ⟨N, n2, n3⟩ := hshape
  rw [n3, ← n2]
  have hlen : ¬ (('<' :: name ++ [' ']) ++ (N ++ (Y ++ attrsText xs ++ tailOf name c))).length < name.length + 2 + N.length := by
    simp; omega
  rw [if_neg hlen]
  congr 1
  rw [show name.length + 2 = ('<' :: name ++ [' ']).length by simp, List.take_left]
  rw [show ('<' :: name ++ [' ']).length + N.length = (('<' :: name ++ [' ']) ++ N).length by simp; omega]
  rw [show ('<' :: name ++ [' ']) ++ (N ++ (Y ++ attrsText xs ++ tailOf name c)) =
    (('<' :: name ++ [' ']) ++ N) ++ (Y ++ attrsText xs ++ tailOf name c) by simp, List.drop_left]
  simp [attrsText, hY]

theorem getOuter_of {u : UnitData} {s : Str} (hb : u.readBody = true) (h : outerFragment u = some s) :
    ∃ u', UnitObj.getOuter { data := u } = .val (some s, u') := by
  unfold UnitObj.getOuter
  rw [if_neg (by simp [hb])]
  simp only [h]
  exact ⟨_, rfl⟩

theorem read_whole {root attrs : List (Str × Str)} {name : Str} {c : Option Str} {evs : List Ev} (hname : ValidName name)
    (hall : ∀ p ∈ nsDecls root ++ attrs, ValidName p.1 ∧ ValidValue p.2) (hnd : ((nsDecls root ++ attrs).map (·.1)).Nodup)
    (hw : (∀ s, c = some s → ReadsAs s evs) ∧ (c = none → evs = [])) :
    readXml (readText root attrs name c) = some (.op name (nsDecls root ++ attrs) :: evs ++ [.cl name]) := by
  rw [readText_eq]
  unfold readXml
  obtain ⟨p, e1, e2⟩ := run_startTag ({} : RState) name (nsDecls root ++ attrs) rfl hname hall
  rw [run_append_some e1]
  unfold tailOf
  cases c with
  | none =>
    simp only [run_emptyEnd ({ pos := p } : RState) name _ e2 hnd (fun _ => rfl), hw.2 rfl]
    simp
  | some i =>
    have hw := hw.1 i rfl
    have e3 := run_closeOpen ({ pos := p } : RState) name (nsDecls root ++ attrs) e2 hnd (fun _ => rfl)
    have e4 := hw ⟨.content, [name], true, [.op name (nsDecls root ++ attrs)]⟩ rfl (by simp) rfl
    have e5 := run_endTag ⟨.content, [name], true, [.op name (nsDecls root ++ attrs)] ++ evs⟩ name [] rfl hname rfl
    simp only [List.nil_append] at e3 e4 e5 ⊢
    rw [show '>' :: i ++ ('<' :: '/' :: name ++ ['>']) = ['>'] ++ (i ++ ('<' :: '/' :: name ++ ['>'])) by simp,
      run_append_some e3, run_append_some e4, e5]
    simp

theorem read_content {a : Archive} {j : ReadJob} (ha : CarriedArchive a) (h : CarriedJob a j) (cpp : Bool) :
    SameContent a j (readUnitData ((jobOut a j.ua j.u 1).tagAttrs (unitMetaOf a j.ua j.u))
      (readUnit ((rootOut a).tagAttrs (rootMeta a)) ((jobOut a j.ua j.u 1).tagAttrs (unitMetaOf a j.ua j.u))
        (jobOut a j.ua j.u 1).unitName j.content j.evs cpp)) := by
  have hut : unitText (jobOut a j.ua j.u 1) (unitMetaOf a j.ua j.u) j.content =
    '<' :: (jobOut a j.ua j.u 1).unitName ++ attrsText ((jobOut a j.ua j.u 1).tagAttrs (unitMetaOf a j.ua j.u)) ++
      tailOf (jobOut a j.ua j.u 1).unitName j.content := by
    unfold unitText tagText tailOf
    cases j.content <;> simp
  have hall : ∀ p ∈ nsDecls ((rootOut a).tagAttrs (rootMeta a)) ++ (jobOut a j.ua j.u 1).tagAttrs (unitMetaOf a j.ua j.u),
      ValidName p.1 ∧ ValidValue p.2 := by
    intro p hp
    rcases List.mem_append.mp hp with hp | hp
    · exact ha.good.values p (List.mem_filter.mp hp).1
    · exact h.good.values p hp
  refine ⟨read_inner _ _ _ _ _ _, rfl, read_loc _ _ _ _ _ _, ?_, ?_⟩
  · intro hurl
    have hout := read_outer (root := (rootOut a).tagAttrs (rootMeta a)) j.content j.evs cpp h.good.name h.good.attrs
      (fun p hp => ⟨(hall p hp).1, (hurl p hp).1, (hurl p hp).2⟩)
    rw [hut]
    exact getOuter_of rfl hout
  · intro hnd
    have hw := h.wellFormed
    unfold ReadJob.WellFormed at hw
    exact read_whole h.good.name hall hnd ⟨fun s hs => by rw [hs] at hw; exact hw, fun hs => by rw [hs] at hw; exact hw⟩

/-! ### C25 -/

/-- C25. Units are written one after the other to an archive in memory, which is closed; the text is then read. Whatever the pieces in
which libxml2 delivers the text, and whichever units the user reads and skips (`wants`), the reader does not fail, and the units that
it hands to the user are exactly those that were written, in the same order, with the same metadata, and those that are read have
the same contents. The calls are those of a document with that many units, so by C26 and C28 the reads of the user get
them in that order, and then the end: `C25_reads`. For every number of units and all contents. -/
theorem C25_round_trip_partial (a : Archive) (th : ThreadState) (js : List ReadJob) (hA : isoption a.options OPTION_ARCHIVE = true)
    (hne : js ≠ []) (ha : CarriedArchive a) (hj : ∀ j ∈ js, CarriedJob a j)
    (hm : ∀ j ∈ js, (∀ p ∈ attrPairs j.u.attributes, ':' ∉ p.1) ∧ j.u.attributes.length % 2 = 0) :
    ∃ s doc, (newIO a th).calls (.openWrite true .memory :: writeCalls (js.map (·.toJob)) ++ [.close]) = .val s ∧
      s.delivered = some doc ∧
      ∀ fs wants, Delivers doc fs → ∃ h : Sax2, ({ wants := wants } : Sax2).feeds fs = .val h ∧
        h.log.filterMap saxCall = saxCalls false js.length false true ∧ (unitsOf h.log).length = js.length ∧
        ∀ i (hi : i < js.length), ∃ attrs c, (unitsOf h.log)[i]? = some (attrs, c) ∧ c.isSome = (wants[i]?).getD false ∧
          SameMeta a js[i] (unit_update_attributes {} (plainAttrs attrs)) ∧
          ∀ c', c = some c' → SameMeta a js[i] (readUnitData attrs c') ∧ SameContent a js[i] (readUnitData attrs c') := by
  obtain ⟨s, h1, h2, _⟩ := archive_written (th := th) hA (js := js.map (·.toJob)) (by simpa using hne) ha.prefixes ha.values
    (by simpa using fun j hjm => (hj j hjm).fits)
  refine ⟨s, _, h1, h2, ?_⟩
  intro fs wants hd
  rw [archiveText_body] at hd
  obtain ⟨h', e1, e2, _⟩ := document_feeds (wants := wants) ha.prolog' ha.good (us := js.map (·.unitText a)) (by
    intro u hu
    obtain ⟨j, hjm, rfl⟩ := List.mem_map.mp hu
    exact (hj j hjm).good) (by simpa using hne) fs hd
  refine ⟨h', e1, ?_, ?_, ?_⟩
  · rw [e2, saxCalls_archive, List.length_map]
  · rw [e2, unitsOf_archive, handed_length, List.length_map]
  · intro i hi
    obtain ⟨c, hget⟩ := handed_get ((rootOut a).tagAttrs (rootMeta a)) (js.map (·.unitText a))
      (decide (CPP_NS_URI ∈ declaredUris ((rootOut a).tagAttrs (rootMeta a)))) wants i (by simpa using hi)
    rw [e2, unitsOf_archive, hget]
    have hji := hj js[i] (List.getElem_mem hi)
    have hmi := hm js[i] (List.getElem_mem hi)
    refine ⟨_, _, rfl, ?_, ?_, ?_⟩
    · cases (wants[i]?).getD false <;> rfl
    · have := read_meta hji hmi.1 hmi.2 ⟨[], [], 0, 0, 0, 0, 0, false⟩
      simp only [List.getElem_map]
      exact ⟨this.language, this.revision, this.url, this.filename, this.version, this.timestamp, this.hash, this.attributes⟩
    · intro c' hc'
      cases hw : (wants[i]?).getD false with
      | false => rw [hw] at hc'; cases hc'
      | true =>
        rw [hw] at hc'
        simp only [if_true, Option.some.injEq, List.getElem_map] at hc' ⊢
        subst hc'
        exact ⟨read_meta hji hmi.1 hmi.2 _, read_content ha hji c⟩

/-- On a whole document every sequence of calls can be made. -/
theorem anyCalls {log : List Upper} {textOnly : Bool} {n : Nat} (h : log.filterMap saxCall = saxCalls textOnly n false true) : AnyCalls log := by
  intro fin cs
  rw [h]
  exact C29_every_sequence { units := n } fin textOnly ⟨.inl rfl, .inl rfl⟩ cs

/-- C25 with C26 and C28: the calls of the user while the text is read in another thread. In every interleaving, the `i`-th call,
if it is a read, gives the `i`-th unit that was written, with the same metadata and the same contents; after the last unit every
call gives the end. -/
theorem C25_reads (a : Archive) (th : ThreadState) (js : List ReadJob) (hA : isoption a.options OPTION_ARCHIVE = true)
    (hne : js ≠ []) (ha : CarriedArchive a) (hj : ∀ j ∈ js, CarriedJob a j)
    (hm : ∀ j ∈ js, (∀ p ∈ attrPairs j.u.attributes, ':' ∉ p.1) ∧ j.u.attributes.length % 2 = 0) :
    ∃ s doc, (newIO a th).calls (.openWrite true .memory :: writeCalls (js.map (·.toJob)) ++ [.close]) = .val s ∧
      s.delivered = some doc ∧
      ∀ fs wants, Delivers doc fs → ∃ h : Sax2, ({ wants := wants } : Sax2).feeds fs = .val h ∧ AnyCalls h.log ∧
        ∀ (fin : Finish) (r : Reader), Reach { todo := h.log.filterMap saxCall, finish := fin } Reader.Step r →
          (∀ i (hi : i < r.log.length), (wants[i]?).getD false = decide ((r.log[i]).1 = .read)) →
          ∀ i (hi : i < r.log.length),
            (∀ hn : i < js.length, (r.log[i]).1 = .read → ∃ v, gets h.log (r.log[i]).2 = some v ∧
              SameMeta a js[i] v ∧ SameContent a js[i] v) ∧
            (js.length ≤ i → (r.log[i]).2 = none) := by
  obtain ⟨s, doc, h1, h2, h3⟩ := C25_round_trip_partial a th js hA hne ha hj hm
  refine ⟨s, doc, h1, h2, ?_⟩
  intro fs wants hd
  obtain ⟨h, e1, e2, e3, e4⟩ := h3 fs wants hd
  refine ⟨h, e1, anyCalls e2, ?_⟩
  intro fin r hr hw i hi
  rw [e2] at hr
  obtain ⟨k1, _, k3⟩ := C26_kth_call js.length fin false r hr i hi
  refine ⟨?_, k3⟩
  intro hn hread
  obtain ⟨attrs, c, g1, g2, _, g4⟩ := e4 i hn
  rw [hw i hi, hread] at g2
  cases c with
  | none => simp at g2
  | some c =>
    obtain ⟨m1, m2⟩ := g4 c rfl
    refine ⟨_, ?_, m1, m2⟩
    rw [k1 hn hread]
    simp only [gets, g1]

/-! ### Units that the library made itself -/

/-- A unit that was made with the library and can be read back from the archive. -/
structure MadeUnit.Carried (a : Archive) (m : MadeUnit) : Prop extends m.Fits a 1 where
  escapes : EscapesOk m.evs
  cpp : ("xmlns".toList, CPP_NS_URI) ∉ (jobOut a m.ua m.u 1).tagAttrs (unitMetaOf a m.ua m.u)
  names : ∀ p ∈ attrPairs m.u.attributes, ':' ∉ p.1
  pairs : m.u.attributes.length % 2 = 0

/-- The unit `v` that was read is the unit `m` that was written: the inner text is the same, the source text is that of the contents with
which it was made, and the metadata are the same, except that a unit in an archive has no url. -/
structure Spec.SameUnit (a : Archive) (m : MadeUnit) (v : UnitData) : Prop where
  inner : (UnitObj.getInner { data := v }).1 = (UnitObj.getInner { data := m.u }).1
  src : v.src = some (sourceOf m.evs)
  language : v.language = some (m.u.language.getD (getLanguageString m.u.derivedLanguage))
  revision : v.revision = some ((m.u.revision.or a.revision).getD "1.0.0".toList)
  url : v.url = none
  filename : v.filename = m.u.filename
  version : v.version = m.u.version
  timestamp : v.timestamp = m.u.timestamp
  hash : v.hash = m.u.hash
  attributes : isoption (jobOut a m.ua m.u 1).options OPTION_STORE_ENCODING = false → v.attributes = m.u.attributes

theorem made_carried {a : Archive} : ∀ ms : List MadeUnit, (∀ m ∈ ms, m.Carried a) → ∃ js : List ReadJob,
    writeCalls (js.map (·.toJob)) = ms.map (fun m => .writeUnit m.ua (some m.u) none) ∧ (∀ j ∈ js, CarriedJob a j) ∧
    (∀ j ∈ js, (∀ p ∈ attrPairs j.u.attributes, ':' ∉ p.1) ∧ j.u.attributes.length % 2 = 0) ∧ js.length = ms.length ∧
    ∀ i (hi : i < ms.length) (hi' : i < js.length), js[i].ua = ms[i].ua ∧ js[i].u = ms[i].u ∧ js[i].evs = ms[i].evs ∧
      (UnitObj.getInner { data := ms[i].u }).1 = some (js[i].content.getD [])
  | [], _ => ⟨[], rfl, by simp, by simp, rfl, by intro i hi; exact absurd hi (by simp)⟩
  | m :: ms, h => by
    have hm := h m (by simp)
    obtain ⟨name, attrs, inner, hp, hn, hv, hd, hr⟩ := made_finished hm.made
    obtain ⟨js, k1, k2, k3, k4, k5⟩ := made_carried ms (fun x hx => h x (by simp [hx]))
    have hcj : CarriedJob a (finishedJob m.ua m.u inner m.evs) :=
      ⟨⟨hp.body, content_of_parts hp hm.revision, hm.prefixes, hm.values⟩, finished_wellFormed hp hn hv hd hr, hm.escapes, hm.cpp⟩
    refine ⟨finishedJob m.ua m.u inner m.evs :: js, ?_, ?_, ?_, by simp [k4], ?_⟩
    · unfold writeCalls at k1 ⊢
      rw [List.map_cons, List.map_cons, List.map_cons, k1]
      rfl
    · intro j hj
      rcases List.mem_cons.mp hj with rfl | hj
      · exact hcj
      · exact k2 j hj
    · intro j hj
      rcases List.mem_cons.mp hj with rfl | hj
      · exact ⟨hm.names, hm.pairs⟩
      · exact k3 j hj
    · intro i hi hi'
      cases i with
      | zero =>
        refine ⟨rfl, rfl, rfl, ?_⟩
        show (UnitObj.getInner { data := m.u }).1 = some ((finishedJob m.ua m.u inner m.evs).content.getD [])
        rw [inner_text hp]
        unfold finishedJob
        simp only
        by_cases hz : inner.getD [] = []
        · rw [if_pos hz, hz]; rfl
        · rw [if_neg hz]; rfl
      | succ i => exact k5 i (by simpa using hi) (by simpa using hi')

/-- C25 for units that the library made: parsed from source text, or written element by element. They are written one after the other to
an archive in memory; from the text, in every interleaving of the two threads of the reader and whatever the pieces in which the
text is delivered, the user reads exactly those units, in that order, and then the end. -/
theorem C25_made_units (a : Archive) (th : ThreadState) (ms : List MadeUnit) (hA : isoption a.options OPTION_ARCHIVE = true)
    (hne : ms ≠ []) (ha : CarriedArchive a) (hm : ∀ m ∈ ms, m.Carried a) :
    ∃ s doc, (newIO a th).calls (.openWrite true .memory :: ms.map (fun m => .writeUnit m.ua (some m.u) none) ++ [.close]) = .val s ∧
      s.delivered = some doc ∧
      ∀ fs wants, Delivers doc fs → ∃ h : Sax2, ({ wants := wants } : Sax2).feeds fs = .val h ∧ AnyCalls h.log ∧
        ∀ (fin : Finish) (r : Reader), Reach { todo := h.log.filterMap saxCall, finish := fin } Reader.Step r →
          (∀ i (hi : i < r.log.length), (wants[i]?).getD false = decide ((r.log[i]).1 = .read)) →
          ∀ i (hi : i < r.log.length),
            (∀ hn : i < ms.length, (r.log[i]).1 = .read → ∃ v, gets h.log (r.log[i]).2 = some v ∧ SameUnit a ms[i] v) ∧
            (ms.length ≤ i → (r.log[i]).2 = none) := by
  obtain ⟨js, k1, k2, k3, k4, k5⟩ := made_carried ms hm
  obtain ⟨s, doc, h1, h2, h3⟩ := C25_reads a th js hA (by rintro rfl; exact hne (List.length_eq_zero_iff.mp (by simpa using k4.symm))) ha k2 k3
  rw [k1] at h1
  refine ⟨s, doc, h1, h2, ?_⟩
  intro fs wants hd
  obtain ⟨h, e1, e0, e2⟩ := h3 fs wants hd
  refine ⟨h, e1, e0, ?_⟩
  intro fin r hr hw i hi
  obtain ⟨g1, g2⟩ := e2 fin r hr hw i hi
  rw [k4] at g2
  refine ⟨?_, g2⟩
  intro hn hread
  obtain ⟨v, v1, v2, v3⟩ := g1 (by omega) hread
  obtain ⟨q1, q2, q3, q4⟩ := k5 i hn (by omega)
  refine ⟨v, v1, ?_⟩
  have hrev : (unitMetaOf a js[i].ua js[i].u).revision = (ms[i]).u.revision.or a.revision := by
    rw [q1, q2]
    show (if isoption a.options OPTION_ARCHIVE && (ms[i]).u.revision.isSome then (ms[i]).u.revision else a.revision) = _
    rw [hA]
    cases (ms[i]).u.revision <;> rfl
  have hof : ∀ x, revisionOf (ms[i]).ua x = x := by
    intro x
    unfold revisionOf
    simp only [(hm ms[i] (List.getElem_mem hn)).revision]
    cases x <;> rfl
  refine ⟨by rw [v3.inner, q4], by rw [v3.src, q3], ?_, by rw [v2.revision, hrev], ?_, ?_, ?_, ?_, ?_, ?_⟩
  · rw [v2.language, q1, q2]; rfl
  · rw [v2.url]
    show (if isoption a.options OPTION_ARCHIVE then none else _) = none
    rw [hA]; rfl
  · rw [v2.filename, q1, q2]; exact hof _
  · rw [v2.version, q1, q2]; exact hof _
  · rw [v2.timestamp, q1, q2]; exact hof _
  · rw [v2.hash, q1, q2]; exact hof _
  · intro ho
    rw [v2.attributes, q1, q2, ho]
    simp

/-! ### Instances -/

/-- The pieces of a document, character by character. -/
def Spec.pieces (doc : Str) : List Feed :=
  match ({} : Drive).run (afterDecl doc) with
  | some (_, fs) => fs
  | none => []

theorem run_single (s : Str) : ∀ {d d' : Drive} {fs : List Feed}, d.run s = some (d', fs) →
    splitText fs = fs ∧ ∀ t b, Feed.text t b ∈ fs → t ≠ [] ∧ b = true := by
  have hstep : ∀ {d d' : Drive} {c : Char} {fs : List Feed}, d.step c = some (d', fs) →
      splitText fs = fs ∧ ∀ t b, Feed.text t b ∈ fs → t ≠ [] ∧ b = true := by
    intro d d' c fs h
    unfold Drive.step at h
    cases hs : d.r.step c with
    | none => rw [hs] at h; cases h
    | some r' =>
      rw [hs] at h
      simp only at h
      split at h <;> (try split at h) <;> (try split at h) <;> cases h <;> simp [splitText]
  induction s with
  | nil => intro d d' fs h; cases h; exact ⟨rfl, by simp⟩
  | cons c cs ih =>
    intro d d' fs h
    rw [Drive.run] at h
    cases h1 : d.step c with
    | none => rw [h1] at h; cases h
    | some p =>
      obtain ⟨d1, f1⟩ := p
      rw [h1] at h
      simp only at h
      cases h2 : d1.run cs with
      | none => rw [h2] at h; cases h
      | some q =>
        obtain ⟨d2, f2⟩ := q
        rw [h2] at h
        simp only [Option.some.injEq, Prod.mk.injEq] at h
        obtain ⟨_, rfl⟩ := h
        obtain ⟨a1, a2⟩ := hstep h1
        obtain ⟨b1, b2⟩ := ih h2
        refine ⟨by rw [splitText_append, a1, b1], ?_⟩
        intro t b hm
        rcases List.mem_append.mp hm with hm | hm
        · exact a2 t b hm
        · exact b2 t b hm

/-- There is a way to deliver every document that can be read. -/
theorem delivers_pieces {doc : Str} {d : Drive} {fs : List Feed} (h : ({} : Drive).run (afterDecl doc) = some (d, fs))
    (h1 : d.r.pos = .content) (h2 : d.r.stack = []) : Delivers doc (pieces doc) := by
  have hp : pieces doc = fs := by unfold pieces; rw [h]
  obtain ⟨a1, a2⟩ := run_single _ h
  rw [hp]
  refine ⟨⟨d, by rw [a1]; exact h, h1, h2⟩, ?_, ?_⟩
  · intro b hb; exact (a2 _ _ hb).1 rfl
  · intro pre s b t suf hfs _ _
    exact (a2 s b (by rw [hfs]; simp)).2

theorem mode_carried : CarriedArchive (modeArchive true) where
  toCleanArchive := mode_clean
  prolog' := ⟨mode_prolog true, by decide +kernel, by intro t d h; cases h⟩
  uris := by
    have : (rootOut (modeArchive true)).tagAttrs (rootMeta (modeArchive true)) =
        [("xmlns".toList, SRC_NS_URI), ("revision".toList, "1.0.0".toList)] := by decide +kernel
    rw [this]
    unfold PlainUris
    decide +kernel
  cpp := by decide +kernel

theorem sample_carried : ∀ m ∈ sampleMade, m.Carried (modeArchive true) := by
  intro m hm
  have hf := sample_fits true 1 m hm
  simp only [sampleMade, List.mem_cons, List.not_mem_nil, or_false] at hm
  rcases hm with rfl | rfl
  · refine ⟨hf, ?_, by decide +kernel, by decide +kernel, by decide +kernel⟩
    intro name attrs h1 h2
    have he' : Ev.op name attrs ∈ [Ev.op "name".toList [("p:k".toList, "<".toList), ("xmlns:p".toList, "u".toList)],
        .op "x:op".toList [("xmlns:x".toList, "v".toList)], .ch 'a', .ch '"', .ch '<', .cl "x:op".toList, .cl "name".toList] := h1
    simp only [List.mem_cons, List.not_mem_nil, or_false, Ev.op.injEq, reduceCtorEq, false_or] at he'
    rcases he' with ⟨rfl, rfl⟩ | ⟨rfl, rfl⟩ <;> exact absurd h2 (by decide)
  · refine ⟨hf, ?_, by decide +kernel, by decide +kernel, by decide +kernel⟩
    intro name attrs h1 h2
    simp only [List.mem_cons, List.not_mem_nil, or_false, Ev.op.injEq, reduceCtorEq, false_or] at h1
    obtain ⟨rfl, rfl⟩ := h1
    exact absurd h2 (by decide)

/-- The text of the sample archive. -/
@[irreducible] def sampleDoc : Str :=
  match (newIO (modeArchive true) {}).calls (.openWrite true .memory :: sampleMade.map (fun m => .writeUnit m.ua (some m.u) none) ++ [.close]) with
  | .val s => s.delivered.getD []
  | .ub => []

/-- An instance of `C25_made_units`, and so of `C25_reads` and `C25_round_trip_partial`: two units, one written and one parsed; the text can be
delivered; the first unit is skipped and the second one read. -/
example : (∀ m ∈ sampleMade, m.Carried (modeArchive true)) ∧ CarriedArchive (modeArchive true) ∧ Delivers sampleDoc (pieces sampleDoc) ∧
    ∃ h : Sax2, ({ wants := [false, true] } : Sax2).feeds (pieces sampleDoc) = .val h ∧
      (unitsOf h.log).map (fun p => p.2.map (·.src)) = [none, some "#a".toList] := by
  refine ⟨sample_carried, mode_carried, ?_, ?_⟩
  · have h : ∃ d, ({} : Drive).run (afterDecl sampleDoc) = some d ∧ d.1.r.pos = .content ∧ d.1.r.stack = [] := by
      refine ⟨(({} : Drive).run (afterDecl sampleDoc)).get (by decide +kernel), by simp, ?_, ?_⟩ <;> decide +kernel
    obtain ⟨⟨d, fs⟩, h1, h2, h3⟩ := h
    exact delivers_pieces h1 h2 h3
  · cases he : ({ wants := [false, true] } : Sax2).feeds (pieces sampleDoc) with
    | ub => exact absurd he (by decide +kernel)
    | val h' =>
      refine ⟨h', rfl, ?_⟩
      have hk : (match ({ wants := [false, true] } : Sax2).feeds (pieces sampleDoc) with
        | .val h => (unitsOf h.log).map (fun p => p.2.map (·.src))
        | .ub => []) = [none, some "#a".toList] := by decide +kernel
      rw [he] at hk
      exact hk

/-! ### Findings -/

/-- Reading all units of a document: the texts that the units get, and their numbers of lines; `none` if the reader fails. -/
def readAll (n : Nat) (fs : List Feed) : Option (List (Option (Str × Str × Nat))) :=
  match ({ wants := List.replicate n true } : Sax2).feeds fs with
  | .val h => some ((unitsOf h.log).map (fun p => p.2.map (fun c => (c.srcml, c.src, c.loc))))
  | .ub => none

/-- Finding: the text of an archive without units is an empty element, and the reader takes it for a unit: C25 says that there is none. -/
theorem C25_finding_empty_archive : ∃ doc, (readsAfter (modeArchive true) [.openWrite true .memory, .close]).map (·.1) = some doc ∧
    readAll 1 (pieces doc) = some [some ("<unit xmlns=\"http://www.srcML.org/srcML/src\" revision=\"1.0.0\"/>".toList, [], 0)] := by
  refine ⟨"<?xml version=\"1.0\" encoding=\"UTF-8\" standalone=\"yes\"?>\n<unit xmlns=\"http://www.srcML.org/srcML/src\" revision=\"1.0.0\"/>\n".toList, ?_, ?_⟩ <;>
    decide +kernel

/-- Finding: a `>` at the start of a text, which XML allows and other tools write, makes the reader compute with a negative length. -/
theorem C25_finding_raw_gt : readAll 1 [.startTag "<unit".toList "unit".toList [], .startTag "<a".toList "a".toList [],
    .text ['b'] true, .text ['>'] true, .endTag "</a>".toList "a".toList, .endTag "</unit>".toList "unit".toList] = none := by
  decide +kernel

/-- Finding: the `>` of a start tag with a comment after it is lost. -/
theorem C25_finding_comment : readAll 1 [.startTag "<unit".toList "unit".toList [], .startTag "<a".toList "a".toList [],
      .comment "<!--c-->".toList "c".toList, .endTag "</a>".toList "a".toList, .endTag "</unit>".toList "unit".toList] =
    some [some ("<unit><a<!--c--></a></unit>".toList, [], 0)] := by
  decide +kernel

/-- Finding: a CDATA section of an element is part of both texts of the unit, but its lines are not counted: here there are three. -/
theorem C25_finding_cdata_lines : readAll 1 [.startTag "<unit".toList "unit".toList [], .startTag "<a".toList "a".toList [], .text ['b'] true,
      .cdata "<![CDATA[\n<\n]]>".toList "\n<\n".toList, .text ['c'] true, .endTag "</a>".toList "a".toList, .endTag "</unit>".toList "unit".toList] =
    some [some ("<unit><a>b<![CDATA[\n<\n]]>c</a></unit>".toList, "b\n<\nc".toList, 1)] := by
  decide +kernel

/-- Finding: a unit of an archive without attributes gets the namespaces of the root behind its start tag. -/
theorem C25_finding_no_attributes : readAll 1 [.startTag "<unit xmlns=\"u\"".toList "unit".toList [("xmlns".toList, "u".toList)],
      .startTag "<unit".toList "unit".toList [], .text ['b'] true, .endTag "</unit>".toList "unit".toList, .endTag "</unit>".toList "unit".toList] =
    some [some ("<unit>xmlns=\"u\" b</unit>".toList, "b".toList, 1)] := by
  decide +kernel

/-- Finding: text between the units of an archive, read before its callback, becomes part of the start tag of the next unit, in the middle of
which the namespaces of the root are put. -/
theorem C25_finding_text_between : readAll 2 [.startTag "<unit xmlns=\"u\"".toList "unit".toList [("xmlns".toList, "u".toList)],
      .emptyTag "<unit a=\"\"".toList "unit".toList [("a".toList, [])], .text "; ".toList false,
      .emptyTag "<unit a=\"\"".toList "unit".toList [("a".toList, [])], .endTag "</unit>".toList "unit".toList] =
    some [some ("<unit xmlns=\"u\" a=\"\"/>".toList, [], 0), some ("; <unixmlns=\"u\" t a=\"\"/>".toList, [], 0)] := by
  decide +kernel

/-- Finding: the reader copies the URIs of the namespaces of the root without escaping them: a read unit is then not well-formed. -/
theorem C25_finding_uri_not_escaped : ∃ t, readAll 1 (pieces "<unit xmlns=\"u\" xmlns:p=\"a&amp;b\"><unit k=\"\"/></unit>".toList) = some [some t] ∧
    t.1 = "<unit xmlns=\"u\" xmlns:p=\"a&b\" k=\"\"/>".toList ∧ readXml t.1 = none := by
  refine ⟨("<unit xmlns=\"u\" xmlns:p=\"a&b\" k=\"\"/>".toList, [], 0), ?_, rfl, ?_⟩ <;> decide +kernel

/-- Finding: a unit that declares a namespace that the root declares too gets the declaration twice. -/
theorem C25_finding_declared_twice : ∃ t, readAll 1 (pieces "<unit xmlns=\"u\"><unit xmlns=\"u\"/></unit>".toList) = some [some t] ∧
    t.1 = "<unit xmlns=\"u\" xmlns=\"u\"/>".toList ∧ readXml t.1 = none := by
  refine ⟨("<unit xmlns=\"u\" xmlns=\"u\"/>".toList, [], 0), ?_, rfl, ?_⟩ <;> decide +kernel

/-- Finding: a processing instruction before a solitary unit: the text of the unit starts with the line end after it. -/
theorem C25_finding_instruction : readAll 1 (pieces "<?a b?>\n<unit k=\"\"><a/></unit>".toList) =
    some [some ("\n<unit k=\"\"><a/></unit>".toList, [], 0)] := by
  decide +kernel

/-- Finding: the lines of a solitary unit before its first element are not counted: here there are three. -/
theorem C25_finding_solitary_loc : readAll 1 (pieces "<unit k=\"\">\n\n<a/>b</unit>".toList) =
    some [some ("<unit k=\"\">\n\n<a/>b</unit>".toList, "\n\nb".toList, 1)] := by
  decide +kernel

/-- Finding: a document whose default namespace is that of the preprocessor, and one with an `escape` element without an attribute, make the
reader use a null pointer and an element that is not there. -/
theorem C25_finding_null : readAll 1 (pieces ("<unit xmlns=\"".toList ++ CPP_NS_URI ++ "\"/>".toList)) = none ∧
    readAll 1 (pieces "<unit k=\"\"><escape/></unit>".toList) = none := by
  constructor <;> decide +kernel

/-- Finding: once a unit of an archive has declared the preprocessor namespace, all later units are marked as using it. -/
theorem C25_finding_cpp_stays : (match ({ wants := [true, true] } : Sax2).feeds (pieces ("<unit xmlns=\"u\"><unit xmlns:cpp=\"".toList ++ CPP_NS_URI ++
      "\"/><unit k=\"\"/></unit>".toList)) with
    | .val h => (unitsOf h.log).map (fun p => p.2.map (·.cpp))
    | .ub => []) = [some true, some true] := by
  decide +kernel

end Srcml
