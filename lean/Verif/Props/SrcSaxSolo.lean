import Verif.Proofs.SrcSaxSolo
import Verif.Props.SrcSax
/-
C25 for a document whose root is the unit: solitary mode.
-/
set_option linter.unusedSimpArgs false
namespace Srcml
open Spec

/-- The unit can be read back from a document of which it is the root: XML can carry it, its contents are well-formed, each of its `escape`
elements says which character it stands for, the cpp namespace has a prefix, and no element of the contents has the name of a unit or
of a macro list, with any prefix. The document has no processing instruction: see `C25_finding_instruction`. -/
structure CarriedSolo (a : Archive) (j : ReadJob) : Prop where
  prolog : PlainProlog (rootOut a)
  instruction : (rootOut a).processingInstruction = none
  fits : j.toJob.Fits a 0
  wellFormed : j.WellFormed
  escapes : EscapesOk j.evs
  cpp : ("xmlns".toList, CPP_NS_URI) ∉ (jobOut a j.ua j.u 0).tagAttrs (unitMetaOf a j.ua j.u)
  names : PlainNames j.evs

/-- What precedes the first element. -/
def Spec.beforeElement (evs : List Ev) : List Ev := evs.takeWhile (fun e => match e with | .op .. => false | _ => true)

/-- The unit `v` that was read has the contents of `j`, which was written as the root of a document:
the inner text is the same, character by character; the source text is that of the contents, and its lines are counted, but for those that
end before the first element; the whole text is the element that was written, and the outer text the same without the first declaration. -/
structure Spec.SoloContent (a : Archive) (j : ReadJob) (v : UnitData) : Prop where
  inner : (UnitObj.getInner { data := v }).1 = some (j.content.getD [])
  src : v.src = some (sourceOf j.evs)
  loc : (∀ name attrs, Ev.op name attrs ∈ j.evs → localName name ≠ "escape".toList) →
    v.loc + (evText (beforeElement j.evs)).count '\n' = (textLines (evText j.evs)).length
  text : v.srcml = unitText (jobOut a j.ua j.u 0) (unitMetaOf a j.ua j.u) j.content
  whole : readXml v.srcml = some (j.element a 0)
  outer : OuterOk (jobOut a j.ua j.u 0).unitName ((jobOut a j.ua j.u 0).tagAttrs (unitMetaOf a j.ua j.u)) →
    ∃ u', UnitObj.getOuter { data := v } = .val (some ('<' :: (jobOut a j.ua j.u 0).unitName ++
      attrsText (outerAttrs ((jobOut a j.ua j.u 0).tagAttrs (unitMetaOf a j.ua j.u))) ++ tailOf (jobOut a j.ua j.u 0).unitName j.content), u')

theorem solo_text (a : Archive) (j : ReadJob) : solitaryText a j.toJob = prologText (rootOut a) ++
    (unitElement (jobOut a j.ua j.u 0).unitName ((jobOut a j.ua j.u 0).tagAttrs (unitMetaOf a j.ua j.u)) j.content ++ ['\n']) := by
  unfold solitaryText
  rw [List.append_assoc]
  rfl

theorem unitElement_eq (name : Str) (attrs : List (Str × Str)) (c : Option Str) :
    unitElement name attrs c = '<' :: name ++ attrsText attrs ++ tailOf name c := by
  unfold unitElement tailOf
  cases c <;> simp

theorem inner_congr {u v : UnitData} (h1 : u.readBody = v.readBody) (h2 : u.readHeader = v.readHeader) (h3 : u.srcml = v.srcml)
    (h4 : u.contentBegin = v.contentBegin) (h5 : u.contentEnd = v.contentEnd) :
    (UnitObj.getInner { data := u }).1 = (UnitObj.getInner { data := v }).1 := by
  unfold UnitObj.getInner
  simp only [h1, h2, h3, h4, h5]
  split
  · rfl
  · split <;> rfl

theorem solo_inner (attrs : List (Str × Str)) (name : Str) (c : Option Str) (evs : List Ev) :
    (UnitObj.getInner { data := readUnitData attrs (soloUnit attrs name c evs) }).1 = some (c.getD []) := by
  rw [← read_inner [] attrs name c evs false]
  refine inner_congr rfl rfl ?_ rfl rfl
  show unitElement name attrs c = readText [] attrs name c
  rw [readText_eq, unitElement_eq]; rfl

theorem before_from (evs : List Ev) : beforeElement evs ++ fromElement evs = evs := by
  unfold beforeElement fromElement
  induction evs with
  | nil => rfl
  | cons e es ih =>
    rw [List.takeWhile_cons, List.dropWhile_cons]
    cases e with
    | op n as => rfl
    | ch c => exact congrArg (List.cons (Ev.ch c)) ih
    | cl n => exact congrArg (List.cons (Ev.cl n)) ih

theorem solo_loc (attrs : List (Str × Str)) (name : Str) (c : Option Str) (evs : List Ev)
    (hesc : ∀ name attrs, Ev.op name attrs ∈ evs → localName name ≠ "escape".toList) :
    (readUnitData attrs (soloUnit attrs name c evs)).loc + (evText (beforeElement evs)).count '\n' = (textLines (evText evs)).length := by
  have h := read_loc [] attrs name c evs false hesc
  rw [← h]
  have hs : evText evs = evText (beforeElement evs) ++ evText (fromElement evs) := by
    unfold evText
    rw [← List.filterMap_append]
    rw [before_from]
  simp only [readUnitData, soloUnit, readUnit]
  rw [hs, List.count_append]
  omega

theorem solo_outer {attrs : List (Str × Str)} {name : Str} (c : Option Str) (evs : List Ev) (ho : OuterOk name attrs) :
    outerFragment (readUnitData attrs (soloUnit attrs name c evs)) =
      some ('<' :: name ++ attrsText (outerAttrs attrs) ++ tailOf name c) := by
  obtain ⟨hvn, hx, hnames, hnd, n, v, r, rs, rfl, ⟨z, rfl⟩, hr⟩ := id ho
  have hv := (hnames ("xmlns".toList ++ z, v) (by simp)).1
  have hq : '"' ∉ z := by
    have := (name_not_eq hv.2).2.2.1
    simp only [List.mem_append, not_or] at this
    exact this.2
  have hmk := marks_of_tag (attrs := r :: rs) (v := v) hx ⟨z, rfl⟩ hv
  have hse := soloInsertEnd_first (v := v) (r :: rs) [if c = none then '/' else '>'] (first_xmlns hx) hq
  have hend : (soloUnit (("xmlns".toList ++ z, v) :: r :: rs) name c evs).insertEnd =
      name.length + 1 + (attrText ("xmlns".toList ++ z) v).length + 1 := by
    show soloInsertEnd _ = _
    rw [hse]
    simp; omega
  have hp : Parts { readUnitData (("xmlns".toList ++ z, v) :: r :: rs) (soloUnit (("xmlns".toList ++ z, v) :: r :: rs) name c evs) with
      contentEnd := (soloUnit (("xmlns".toList ++ z, v) :: r :: rs) name c evs).contentBegin + c.elim 0 (fun i => i.length + 1) }
      name (("xmlns".toList ++ z, v) :: r :: rs) c := by
    refine ⟨?_, rfl, by cases c <;> rfl, ?_, rfl⟩
    · exact unitElement_eq _ _ _
    · rw [hmk]
      simp only [readUnitData, hend]
      rfl
  have hot := outer_text hp ho
  exact hot

theorem solo_content {a : Archive} {j : ReadJob} (h : CarriedSolo a j) :
    SoloContent a j (readUnitData ((jobOut a j.ua j.u 0).tagAttrs (unitMetaOf a j.ua j.u))
      (soloUnit ((jobOut a j.ua j.u 0).tagAttrs (unitMetaOf a j.ua j.u)) (jobOut a j.ua j.u 0).unitName j.content j.evs)) := by
  refine ⟨solo_inner _ _ _ _, rfl, solo_loc _ _ _ _, rfl, ?_, fun ho => getOuter_of rfl (solo_outer _ _ ho)⟩
  have hw := h.wellFormed
  unfold ReadJob.WellFormed at hw
  have := read_whole (root := []) (c := j.content) (evs := j.evs) (unitName_valid h.fits.prefixes)
    (attrs := (jobOut a j.ua j.u 0).tagAttrs (unitMetaOf a j.ua j.u))
    (fun p hp => tagAttrs_valid h.fits.prefixes h.fits.values p hp) (tagAttrs_nodup h.fits.prefixes h.fits.values)
    ⟨fun s hs => by rw [hs] at hw; exact hw, fun hs => by rw [hs] at hw; exact hw⟩
  rw [readText_eq] at this
  show readXml (unitElement _ _ _) = _
  rw [unitElement_eq]
  exact this

theorem solo_meta {a : Archive} {j : ReadJob} (h : CarriedSolo a j) (hc : ∀ p ∈ attrPairs j.u.attributes, ':' ∉ p.1)
    (he : j.u.attributes.length % 2 = 0) (c : Collected) :
    SameMeta a j (readUnitData ((jobOut a j.ua j.u 0).tagAttrs (unitMetaOf a j.ua j.u)) c) := by
  have hu := update_unitAttrs (u := {}) (o := jobOut a j.ua j.u 0) h.fits.prefixes h.fits.values hc he rfl
  unfold readUnitData
  rw [hu]
  refine ⟨?_, ?_, ?_, ?_, ?_, ?_, ?_, rfl⟩ <;> simp only [Option.or_none]
  cases (unitMetaOf a j.ua j.u).revision <;> rfl

theorem solo_saxCalls (attrs : List (Str × Str)) (name : Str) (c : Option Str) (evs : List Ev) (w : Bool) :
    (soloCalls attrs name c evs w).filterMap saxCall = saxCalls (textOnly c evs) 1 false true := by
  unfold soloCalls saxCalls
  cases textOnly c evs <;> rfl

theorem solo_units (attrs : List (Str × Str)) (name : Str) (c : Option Str) (evs : List Ev) (w : Bool) :
    unitsOf (soloCalls attrs name c evs w) = [(attrs, if w then some (soloUnit attrs name c evs) else none)] := by
  unfold soloCalls
  cases textOnly c evs <;> rfl

/-- C25, solitary mode. A unit is written to an archive in memory that is not in archive mode, and so is the root of the document; the archive
is closed and the text is then read. Whatever the pieces in which libxml2 delivers the text, the reader does not fail, and hands to the user
exactly one unit, with the same metadata and, if it is read, the same contents. -/
theorem C25_solitary (a : Archive) (th : ThreadState) (j : ReadJob) (hA : isoption a.options OPTION_ARCHIVE = false) (hj : CarriedSolo a j)
    (hc : ∀ p ∈ attrPairs j.u.attributes, ':' ∉ p.1) (he : j.u.attributes.length % 2 = 0) :
    ∃ s doc, (newIO a th).calls (.openWrite true .memory :: writeCalls [j.toJob] ++ [.close]) = .val s ∧ s.delivered = some doc ∧
      ∀ fs wants, Delivers doc fs → ∃ h : Sax2, ({ wants := wants } : Sax2).feeds fs = .val h ∧
        h.log.filterMap saxCall = saxCalls (textOnly j.content j.evs) 1 false true ∧
        ∃ attrs c, unitsOf h.log = [(attrs, c)] ∧ c.isSome = wants.headD false ∧
          SameMeta a j (unit_update_attributes {} (plainAttrs attrs)) ∧
          ∀ c', c = some c' → SameMeta a j (readUnitData attrs c') ∧ SoloContent a j (readUnitData attrs c') := by
  obtain ⟨s, h1, h2, _⟩ := solitary_written (th := th) hA hj.fits
  refine ⟨s, _, h1, h2, ?_⟩
  intro fs wants hd
  rw [solo_text] at hd
  obtain ⟨h', e1, e2, _⟩ := solo_document (wants := wants) hj.prolog hj.instruction (unitName_local hj.fits.prefixes) hj.cpp
    (unitName_valid hj.fits.prefixes) (tagAttrs_valid hj.fits.prefixes hj.fits.values) (tagAttrs_nodup hj.fits.prefixes hj.fits.values)
    ⟨hj.wellFormed, hj.escapes⟩ hj.names fs hd
  refine ⟨h', e1, by rw [e2, solo_saxCalls], _, _, by rw [e2, solo_units], ?_, ?_, ?_⟩
  · cases wants.headD false <;> rfl
  · have := solo_meta hj hc he ⟨[], [], 0, 0, 0, 0, 0, false⟩
    exact ⟨this.language, this.revision, this.url, this.filename, this.version, this.timestamp, this.hash, this.attributes⟩
  · intro c' hc'
    cases hw : wants.headD false with
    | false => rw [hw] at hc'; cases hc'
    | true =>
      rw [hw] at hc'
      simp only [if_true, Option.some.injEq] at hc'
      subst hc'
      exact ⟨solo_meta hj hc he _, solo_content hj⟩

/-- C25 with C26 and C28, solitary mode: in every interleaving of the two threads of the reader the first call of the user, if it is a read,
gives the unit, and all further calls give the end. -/
theorem C25_solitary_reads (a : Archive) (th : ThreadState) (j : ReadJob) (hA : isoption a.options OPTION_ARCHIVE = false) (hj : CarriedSolo a j)
    (hc : ∀ p ∈ attrPairs j.u.attributes, ':' ∉ p.1) (he : j.u.attributes.length % 2 = 0) :
    ∃ s doc, (newIO a th).calls (.openWrite true .memory :: writeCalls [j.toJob] ++ [.close]) = .val s ∧ s.delivered = some doc ∧
      ∀ fs wants, Delivers doc fs → ∃ h : Sax2, ({ wants := wants } : Sax2).feeds fs = .val h ∧ AnyCalls h.log ∧
        ∀ (fin : Finish) (r : Reader), Reach { todo := h.log.filterMap saxCall, finish := fin } Reader.Step r →
          (∀ hi : 0 < r.log.length, wants.headD false = decide ((r.log[0]).1 = .read)) →
          ∀ i (hi : i < r.log.length),
            (i = 0 → (r.log[i]).1 = .read → ∃ v, gets h.log (r.log[i]).2 = some v ∧ SameMeta a j v ∧ SoloContent a j v) ∧
            (0 < i → (r.log[i]).2 = none) := by
  obtain ⟨s, doc, h1, h2, h3⟩ := C25_solitary a th j hA hj hc he
  refine ⟨s, doc, h1, h2, ?_⟩
  intro fs wants hd
  obtain ⟨h, e1, e2, attrs, c, e3, e4, _, e5⟩ := h3 fs wants hd
  refine ⟨h, e1, anyCalls e2, ?_⟩
  intro fin r hr hw i hi
  rw [e2] at hr
  obtain ⟨k1, _, k3⟩ := C26_kth_call 1 fin (textOnly j.content j.evs) r hr i hi
  refine ⟨?_, fun h0 => k3 (by omega)⟩
  rintro rfl hread
  rw [hw hi, hread] at e4
  cases c with
  | none => simp at e4
  | some c =>
    obtain ⟨m1, m2⟩ := e5 c rfl
    refine ⟨_, ?_, m1, m2⟩
    rw [k1 (by omega) hread]
    simp only [gets, e3]
    rfl

/-- A unit that was made with the library and can be read back from a document of which it is the root. -/
structure MadeUnit.CarriedSolo (a : Archive) (m : MadeUnit) : Prop extends m.Fits a 0 where
  prolog : PlainProlog (rootOut a)
  instruction : (rootOut a).processingInstruction = none
  escapes : EscapesOk m.evs
  cpp : ("xmlns".toList, CPP_NS_URI) ∉ (jobOut a m.ua m.u 0).tagAttrs (unitMetaOf a m.ua m.u)
  plain : PlainNames m.evs
  names : ∀ p ∈ attrPairs m.u.attributes, ':' ∉ p.1
  pairs : m.u.attributes.length % 2 = 0

/-- The unit `v` that was read is the unit `m` that was written as the root of a document: the inner text is the same, the source text is
that of the contents with which it was made, and the metadata are the same, except that the url and the revision are those of the archive. -/
structure Spec.SameSolo (a : Archive) (m : MadeUnit) (v : UnitData) : Prop where
  inner : (UnitObj.getInner { data := v }).1 = (UnitObj.getInner { data := m.u }).1
  src : v.src = some (sourceOf m.evs)
  text : readXml v.srcml = some (m.element a 0)
  language : v.language = some (m.u.language.getD (getLanguageString m.u.derivedLanguage))
  revision : v.revision = some (a.revision.getD "1.0.0".toList)
  filename : v.filename = m.u.filename
  version : v.version = m.u.version
  timestamp : v.timestamp = m.u.timestamp
  hash : v.hash = m.u.hash
  attributes : isoption (jobOut a m.ua m.u 1).options OPTION_STORE_ENCODING = false → v.attributes = m.u.attributes

/-- C25 for a unit that the library made, in solitary mode: parsed from source text, or written element by element. -/
theorem C25_solitary_made_unit (a : Archive) (th : ThreadState) (m : MadeUnit) (hA : isoption a.options OPTION_ARCHIVE = false)
    (hm : m.CarriedSolo a) :
    ∃ s doc, (newIO a th).calls [.openWrite true .memory, .writeUnit m.ua (some m.u) none, .close] = .val s ∧ s.delivered = some doc ∧
      ∀ fs wants, Delivers doc fs → ∃ h : Sax2, ({ wants := wants } : Sax2).feeds fs = .val h ∧ AnyCalls h.log ∧
        ∀ (fin : Finish) (r : Reader), Reach { todo := h.log.filterMap saxCall, finish := fin } Reader.Step r →
          (∀ hi : 0 < r.log.length, wants.headD false = decide ((r.log[0]).1 = .read)) →
          ∀ i (hi : i < r.log.length),
            (i = 0 → (r.log[i]).1 = .read → ∃ v, gets h.log (r.log[i]).2 = some v ∧ SameSolo a m v) ∧
            (0 < i → (r.log[i]).2 = none) := by
  obtain ⟨name, attrs, inner, hp, hn, hv, hd, hr⟩ := made_finished hm.made
  have hcj : Srcml.CarriedSolo a (finishedJob m.ua m.u inner m.evs) :=
    ⟨hm.prolog, hm.instruction, ⟨hp.body, content_of_parts hp hm.revision, hm.prefixes, hm.values⟩, finished_wellFormed hp hn hv hd hr,
      hm.escapes, hm.cpp, hm.plain⟩
  obtain ⟨s, doc, h1, h2, h3⟩ := C25_solitary_reads a th _ hA hcj hm.names hm.pairs
  refine ⟨s, doc, h1, h2, ?_⟩
  intro fs wants hdel
  obtain ⟨h, e1, e0, e2⟩ := h3 fs wants hdel
  refine ⟨h, e1, e0, ?_⟩
  intro fin r hreach hw i hi
  obtain ⟨g1, g2⟩ := e2 fin r hreach hw i hi
  refine ⟨?_, g2⟩
  intro h0 hread
  obtain ⟨v, v1, v2, v3⟩ := g1 h0 hread
  refine ⟨v, v1, ?_⟩
  have hof : ∀ x, revisionOf m.ua x = x := by
    intro x
    unfold revisionOf
    simp only [hm.revision]
    cases x <;> rfl
  refine ⟨?_, v3.src, v3.whole, v2.language, ?_, v2.filename.trans (hof _), v2.version.trans (hof _), v2.timestamp.trans (hof _),
    v2.hash.trans (hof _), ?_⟩
  · rw [v3.inner, inner_text hp]
    show some ((if inner.getD [] = [] then none else some (inner.getD [])).getD []) = _
    by_cases hz : inner.getD [] = []
    · rw [if_pos hz, hz]; rfl
    · rw [if_neg hz]; rfl
  · rw [v2.revision]
    show some ((if isoption a.options OPTION_ARCHIVE && m.u.revision.isSome then m.u.revision else a.revision).getD "1.0.0".toList) = _
    rw [hA]
    rfl
  · intro ho
    rw [v2.attributes]
    show (if isoption (jobOut a m.ua m.u 1).options OPTION_STORE_ENCODING = true then _ else []) ++ m.u.attributes = _
    rw [ho]
    simp

/-! ### Instances -/

theorem solo_names_sample : PlainNames sampleBuild.events := by
  have he : sampleBuild.events = [Ev.op "name".toList [("p:k".toList, "<".toList), ("xmlns:p".toList, "u".toList)],
      .op "x:op".toList [("xmlns:x".toList, "v".toList)], .ch 'a', .ch '"', .ch '<', .cl "x:op".toList, .cl "name".toList] := by decide +kernel
  rw [he]
  intro n hn
  simp only [List.mem_cons, List.not_mem_nil, or_false, Ev.op.injEq, Ev.cl.injEq, reduceCtorEq, false_or] at hn
  rcases hn with ⟨as, ⟨rfl, _⟩ | ⟨rfl, _⟩⟩ | rfl | rfl <;> decide +kernel

/-- The text of the sample unit, written as the root. -/
@[irreducible] def soloDoc : Str :=
  match (newIO (modeArchive false) {}).calls [.openWrite true .memory, .writeUnit sampleArchive (some writtenSample.data) none, .close] with
  | .val s => s.delivered.getD []
  | .ub => []

/-- An instance of `C25_solitary_made_unit`, and so of `C25_solitary_reads` and `C25_solitary`: a unit that was written element by element; the
text can be delivered, and the unit is read. -/
example : (∃ m ∈ sampleMade, m.u = writtenSample.data ∧ m.CarriedSolo (modeArchive false)) ∧ Delivers soloDoc (pieces soloDoc) ∧
    ∃ h : Sax2, ({ wants := [true] } : Sax2).feeds (pieces soloDoc) = .val h ∧
      (unitsOf h.log).map (fun p => p.2.map (·.src)) = [some "a\"<".toList] := by
  refine ⟨?_, ?_, ?_⟩
  · have hm : ∃ m, m ∈ sampleMade ∧ m.u = writtenSample.data ∧ m.evs = sampleBuild.events ∧ m.ua = sampleArchive :=
      ⟨_, List.mem_cons_self, rfl, rfl, rfl⟩
    obtain ⟨m, h1, h2, h3, h4⟩ := hm
    have hc := sample_carried m h1
    refine ⟨m, h1, h2, ⟨sample_fits false 0 m h1, ?_, rfl, hc.escapes, ?_, ?_, hc.names, hc.pairs⟩⟩
    · exact ⟨mode_prolog false, by decide +kernel, by intro t d h; cases h⟩
    · rw [h2, h4]; decide +kernel
    · rw [h3]; exact solo_names_sample
  · have h : ∃ d, ({} : Drive).run (afterDecl soloDoc) = some d ∧ d.1.r.pos = .content ∧ d.1.r.stack = [] := by
      refine ⟨(({} : Drive).run (afterDecl soloDoc)).get (by decide +kernel), by simp, ?_, ?_⟩ <;> decide +kernel
    obtain ⟨⟨d, fs⟩, h1, h2, h3⟩ := h
    exact delivers_pieces h1 h2 h3
  · cases he : ({ wants := [true] } : Sax2).feeds (pieces soloDoc) with
    | ub => exact absurd he (by decide +kernel)
    | val h' =>
      refine ⟨h', rfl, ?_⟩
      have hk : (match ({ wants := [true] } : Sax2).feeds (pieces soloDoc) with
        | .val h => (unitsOf h.log).map (fun p => p.2.map (·.src))
        | .ub => []) = [some "a\"<".toList] := by decide +kernel
      rw [he] at hk
      exact hk

/-- Finding: an element of the contents that is called `unit`, in a document that is one unit: its end is taken for the end of the unit, and
what follows is lost. -/
theorem C25_finding_unit_inside : readAll 1 (pieces "<unit k=\"\"><a/>b<unit/>c</unit>".toList) =
    some [some ("<unit k=\"\"><a/>b<unit/>".toList, "b".toList, 1)] := by
  decide +kernel

end Srcml
