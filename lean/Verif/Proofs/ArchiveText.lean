import Verif.Model.ArchiveIO
import Verif.Proofs.UnitStart
/-
The text that is written for an archive, unit by unit.
-/
set_option linter.unusedSimpArgs false
namespace Srcml
open Spec

/-- A writer that is about to write contents: what it has written, once an open start tag is completed, and the open
elements. -/
def Ready (w : Writer) (X : Str) (S : List (Str × Bool)) : Prop := w.closeTag = { out := X, stack := S, nsstack := [] }

/-- The writer has no start tag open. -/
def TagsClosed (S : List (Str × Bool)) : Prop := ∀ x ∈ S, x.2 = false

theorem closeTag_closed {X : Str} {S : List (Str × Bool)} {N : List (Str × Str)} (h : TagsClosed S) :
    ({ out := X, stack := S, nsstack := N } : Writer).closeTag = { out := X, stack := S, nsstack := N } := by
  cases S with
  | nil => rfl
  | cons x xs =>
    obtain ⟨n, b⟩ := x
    have : b = false := h (n, b) (by simp)
    subst this
    rfl

theorem ready_closed {X : Str} {S : List (Str × Bool)} (h : TagsClosed S) :
    Ready { out := X, stack := S, nsstack := [] } X S := closeTag_closed h

theorem ready_open (X n : Str) (S : List (Str × Bool)) :
    Ready { out := X, stack := (n, true) :: S, nsstack := [] } (X ++ ['>']) ((n, false) :: S) := by
  simp [Ready, Writer.closeTag, Writer.outputNs]

theorem Ready.writeRaw {w : Writer} {X : Str} {S : List (Str × Bool)} (h : Ready w X S) (s : Str) :
    w.writeRaw s = { out := X ++ s, stack := S, nsstack := [] } := by
  unfold Writer.writeRaw
  rw [h]

theorem endElement_empty (X n : Str) (S : List (Str × Bool)) :
    (({ out := X, stack := (n, true) :: S, nsstack := [] } : Writer).endElement).1 =
      { out := X ++ ['/', '>'], stack := S, nsstack := [] } := by
  simp [Writer.endElement, Writer.outputNs]

theorem endElement_end (X n : Str) (S : List (Str × Bool)) :
    (({ out := X, stack := (n, false) :: S, nsstack := [] } : Writer).endElement).1 =
      { out := X ++ '<' :: '/' :: n ++ ['>'], stack := S, nsstack := [] } := by
  simp [Writer.endElement]

theorem startElement_ready {w : Writer} {X : Str} {S : List (Str × Bool)} (h : Ready w X S) (pre : Option Str) (name : Str)
    (hn : name ≠ []) :
    (w.startElement pre name none).1 = { out := X ++ '<' :: qname pre name, stack := (qname pre name, true) :: S, nsstack := [] } := by
  unfold Writer.startElement
  rw [if_neg hn, h]
  rfl

/-- The start tag of a unit, whatever was written before. -/
theorem startUnit_ready {o : Out} {m : UnitMeta} {X : Str} {S : List (Str × Bool)} (h : Ready o.w X S)
    (hv : ∀ a ∈ o.tagAttrs m, ValidName a.1 ∧ ValidValue a.2) :
    (o.startUnit m false).w = { out := X ++ tagText o m, stack := (o.unitName, true) :: S, nsstack := [] } := by
  rw [startUnit_w]
  have h0 : o.openUnit.w = { out := X ++ '<' :: o.unitName, stack := (o.unitName, true) :: S, nsstack := [] } := by
    simp only [Out.openUnit, Out.unitName]
    exact startElement_ready h _ _ (by decide)
  rw [h0]
  rw [writeAttrs_open (o.tagNs.map _) _ o.unitName S rfl (by
    rw [present_some]; exact fun a ha => (hv a (by simp [Out.tagAttrs, ha])).1.1)]
  rw [writeAttrs_open (unitAttrs o m) _ o.unitName S rfl (fun a ha => (hv a (by simp [Out.tagAttrs, ha])).1.1)]
  rw [present_some]
  simp [tagText, Out.tagAttrs, attrsText_append]

/-! ### Macro list -/

/-- The text of one entry of the macro list. -/
def macroText (t ty : Str) : Str :=
  "<macro-list".toList ++ attrText "token".toList t ++ attrText "type".toList ty ++ "/>".toList

/-- The text of the macro list. -/
def macrosText : List Str → Str
  | t :: ty :: rest => macroText t ty ++ macrosText rest
  | _ => []

theorem element_written {w : Writer} {X : Str} {S : List (Str × Bool)} (h : Ready w X S) (nm a b t ty : Str)
    (hn : nm ≠ []) (ha : a ≠ []) (hb : b ≠ []) :
    ((((w.startElement none nm none).1.writeAttribute a t).1).writeAttribute b ty).1.endElement.1 =
      { out := X ++ ('<' :: nm ++ attrText a t ++ attrText b ty ++ ['/', '>']), stack := S, nsstack := [] } := by
  rw [startElement_ready h none nm hn]
  have h1 : ∀ (Y n a v : Str), a ≠ [] →
      (({ out := Y, stack := (n, true) :: S, nsstack := [] } : Writer).writeAttribute a v).1 =
      { out := Y ++ attrText a v, stack := (n, true) :: S, nsstack := [] } := by
    intro Y n a v ha
    simp [Writer.writeAttribute, ha]
  rw [h1 _ _ _ _ ha, h1 _ _ _ _ hb, endElement_empty]
  simp [qname]

theorem macroListOut_one {w : Writer} {X : Str} {S : List (Str × Bool)} (h : Ready w X S) (t ty : Str) (rest : List Str) :
    macroListOut w (t :: ty :: rest) = macroListOut { out := X ++ macroText t ty, stack := S, nsstack := [] } rest := by
  have e : macroListOut w (t :: ty :: rest) =
      macroListOut ((((w.startElement none "macro-list".toList none).1.writeAttribute "token".toList t).1).writeAttribute
        "type".toList ty).1.endElement.1 rest := rfl
  rw [e, element_written h _ _ _ _ _ (by decide) (by decide) (by decide)]
  rfl

theorem macroListOut_closed (l : List Str) : ∀ (X : Str) (S : List (Str × Bool)), TagsClosed S →
    macroListOut { out := X, stack := S, nsstack := [] } l = { out := X ++ macrosText l, stack := S, nsstack := [] } := by
  match l with
  | [] => intro X S _; simp [macroListOut, macrosText]
  | [_] => intro X S _; simp [macroListOut, macrosText]
  | t :: ty :: rest =>
    intro X S hS
    rw [macroListOut_one (ready_closed hS), macroListOut_closed rest _ S hS]
    simp [macrosText]

theorem macroListOut_ready {w : Writer} {X : Str} {S : List (Str × Bool)} (h : Ready w X S) (hS : TagsClosed S) (l : List Str) :
    Ready (macroListOut w l) (X ++ macrosText l) S := by
  match l with
  | [] => simpa [macroListOut, macrosText] using h
  | [_] => simpa [macroListOut, macrosText] using h
  | t :: ty :: rest =>
    rw [macroListOut_one h, macroListOut_closed rest _ S hS]
    have : X ++ macroText t ty ++ macrosText rest = X ++ macrosText (t :: ty :: rest) := by simp [macrosText]
    rw [this]
    exact ready_closed hS

/-- The writer after the start tag of the archive, with its macro list. -/
theorem startUnit_macros_w (o : Out) (m : UnitMeta) :
    (o.startUnit m true).w = macroListOut (o.startUnit m false).w o.userMacroList := by
  have he : ∀ x : Out, x.enter.w = x.w := by intro x; unfold Out.enter; split <;> rfl
  have hu : (o.openUnit.declareNamespaces.markPosition.writeUnitAttrs m).userMacroList = o.userMacroList := by
    unfold Out.writeUnitAttrs Out.markPosition Out.declareNamespaces Out.outputNamespaces
    split <;> split <;> rfl
  unfold Out.startUnit
  rw [he, he]
  simp only [Out.writeMacroList, Bool.false_eq_true, if_false, if_true, hu]

/-! ### Units -/

/-- The text of a unit: start tag, contents, end tag. -/
def unitText (o : Out) (m : UnitMeta) (c : Option Str) : Str :=
  tagText o m ++ (match c with
    | some s => '>' :: s ++ '<' :: '/' :: o.unitName ++ ['>']
    | none => ['/', '>'])

/-- A unit is written: start tag, contents, end. -/
theorem unit_written {o : Out} {m : UnitMeta} {X : Str} {S : List (Str × Bool)} (h : Ready o.w X S)
    (hv : ∀ a ∈ o.tagAttrs m, ValidName a.1 ∧ ValidValue a.2) (c : Option Str) :
    (match c with
      | some s => (o.startUnit m false).w.writeRaw s
      | none => (o.startUnit m false).w).endElement.1 = { out := X ++ unitText o m c, stack := S, nsstack := [] } := by
  rw [startUnit_ready h hv]
  cases c with
  | none => simp only [endElement_empty, unitText]; simp
  | some s =>
    simp only [(ready_open _ _ _).writeRaw, endElement_end, unitText]
    simp

/-- What the start tag of a unit depends on. -/
theorem tagText_congr {o o' : Out} (h1 : o'.options = o.options) (h2 : o'.depth = o.depth) (h3 : o'.tabsize = o.tabsize)
    (h4 : o'.namespaces = o.namespaces) (m : UnitMeta) :
    o'.unitName = o.unitName ∧ o'.tagAttrs m = o.tagAttrs m ∧ tagText o' m = tagText o m := by
  have a : o'.unitName = o.unitName := by unfold Out.unitName; rw [h4]
  have b : o'.tagAttrs m = o.tagAttrs m := by
    unfold Out.tagAttrs Out.tagNs unitAttrs Out.declared Out.marked
    simp only [h1, h2, h3, h4]
  exact ⟨a, b, by unfold tagText; rw [a, b]⟩

/-! ### The translator of an archive -/

/-- The XML declaration and the processing instruction. -/
def prologText (o : Out) : Str :=
  (if isoption o.options OPTION_NO_XML_DECL then [] else
    "<?xml version=\"1.0\" encoding=\"".toList ++ o.xmlEncoding ++ "\" standalone=\"yes\"?>\n".toList) ++
  (match o.processingInstruction with
    | some (target, data) => "<?".toList ++ target ++ ' ' :: data ++ "?>\n".toList
    | none => [])

/-- The prolog is written. -/
def Out.prolog (o : Out) : Out :=
  (if isoption o.options OPTION_NO_XML_DECL then o else o.outputXMLDecl).outputProcessingInstruction

theorem prolog_written {o : Out} (hd : o.depth = 0) :
    o.prolog.w = { o.w with out := o.w.out ++ prologText o } ∧ o.prolog.options = o.options ∧ o.prolog.depth = 0 ∧
    o.prolog.tabsize = o.tabsize ∧ o.prolog.namespaces = o.namespaces ∧ o.prolog.userMacroList = o.userMacroList := by
  unfold Out.prolog prologText Out.outputXMLDecl Out.outputProcessingInstruction
  by_cases hx : isoption o.options OPTION_NO_XML_DECL = true
  · rw [if_pos hx, if_pos hx]
    cases hp : o.processingInstruction with
    | none => simp [hd]
    | some p => simp [hd]
  · rw [if_neg hx, if_neg hx]
    have hx' : isoption o.options OPTION_NO_XML_DECL = false := by simpa using hx
    cases hp : o.processingInstruction with
    | none => simp [hd, hx', hp]
    | some p => simp [hd, hx', hp]

/-- The metadata of the archive element. -/
def rootMeta (a : Archive) : UnitMeta :=
  { revision := a.revision, url := a.url, version := a.version, attributes := a.attributes }

/-- The settings with which the archive element is written. -/
def rootOut (a : Archive) : Out := (archiveTranslator a {}).out

/-- The settings with which a unit is written; `depth` is 1 inside an archive element. -/
def jobOut (a ua : Archive) (u : UnitData) (depth : Nat) : Out :=
  { (rootOut a).initNamespaces (unitNamespaces ua u) with depth := depth }

/-- The metadata of a unit. -/
def unitMetaOf (a ua : Archive) (u : UnitData) : UnitMeta := unitMeta (archiveTranslator a {}) ua u

/-- The translator of the archive between two units. -/
structure Between (a : Archive) (t : Translator) (X : Str) (S : List (Str × Bool)) : Prop where
  notFirst : t.first = false
  idle : t.outputting = false
  ready : Ready t.out.w X S
  closed : TagsClosed S
  options : t.out.options = a.options
  depth : t.out.depth = 1
  tabsize : t.out.tabsize = a.tabstop
  revision : t.revision = a.revision
  wrote : t.out.didwrite = true

theorem startUnit_tabsize (o : Out) (m : UnitMeta) (b : Bool) : (o.startUnit m b).tabsize = o.tabsize := by
  have he : ∀ x : Out, x.enter.tabsize = x.tabsize := by intro x; unfold Out.enter; split <;> rfl
  unfold Out.startUnit
  rw [he]
  unfold Out.writeMacroList Out.writeUnitAttrs Out.markPosition Out.declareNamespaces Out.outputNamespaces
  split <;> split <;> split <;> rfl

theorem prepareOutput_first (t : Translator) (h : t.first = true) :
    t.prepareOutput = { t with
      first := false
      out := if isoption t.out.options OPTION_ARCHIVE then
          t.out.prolog.startUnit (UnitMeta.mk none t.revision t.url t.filename t.version none none none t.attributes) true
        else t.out.prolog } := by
  unfold Translator.prepareOutput Out.prolog
  rw [if_neg (by simp [h])]

/-- The text up to the contents of the archive element. -/
def headText (a : Archive) : Str :=
  prologText (rootOut a) ++ tagText (rootOut a) (rootMeta a) ++ '>' :: macrosText a.userMacroList

theorem rootOut_tag (a : Archive) (th : ThreadState) :
    (archiveTranslator a th).out.prolog.tagAttrs (rootMeta a) = (rootOut a).tagAttrs (rootMeta a) ∧
    (archiveTranslator a th).out.prolog.unitName = (rootOut a).unitName ∧
    tagText (archiveTranslator a th).out.prolog (rootMeta a) = tagText (rootOut a) (rootMeta a) := by
  obtain ⟨_, h1, h2, h3, h4, _⟩ := prolog_written (o := (archiveTranslator a th).out) rfl
  obtain ⟨e1, e2, e3⟩ := tagText_congr (o := rootOut a) (o' := (archiveTranslator a th).out.prolog) h1 h2 h3 h4 (rootMeta a)
  exact ⟨e2, e1, e3⟩

/-- The archive element is started. -/
theorem prepare_archive {a : Archive} {th : ThreadState} (hA : isoption a.options OPTION_ARCHIVE = true)
    (hv : ∀ x ∈ (rootOut a).tagAttrs (rootMeta a), ValidName x.1 ∧ ValidValue x.2) :
    Between a (archiveTranslator a th).prepareOutput (headText a) [((rootOut a).unitName, false)] ∧
    (archiveTranslator a th).prepareOutput.out.w = macroListOut
      { out := prologText (rootOut a) ++ tagText (rootOut a) (rootMeta a), stack := [((rootOut a).unitName, true)], nsstack := [] }
      a.userMacroList := by
  obtain ⟨e1, e2, e3⟩ := rootOut_tag a th
  obtain ⟨p1, p2, p3, p4, p5, p6⟩ := prolog_written (o := (archiveTranslator a th).out) rfl
  have hpre : (archiveTranslator a th).prepareOutput = { (archiveTranslator a th) with
      first := false
      out := (archiveTranslator a th).out.prolog.startUnit (rootMeta a) true } := by
    rw [prepareOutput_first _ rfl, if_pos (show isoption (archiveTranslator a th).out.options OPTION_ARCHIVE = true from hA)]
    rfl
  have hr : Ready (archiveTranslator a th).out.prolog.w (prologText (rootOut a)) [] := by
    rw [p1]
    exact ready_closed (X := [] ++ prologText (archiveTranslator a th).out) (S := []) (by simp [TagsClosed])
  have hw := startUnit_ready (m := rootMeta a) hr (by rw [e1]; exact hv)
  rw [e2, e3] at hw
  have hw2 : ((archiveTranslator a th).out.prolog.startUnit (rootMeta a) true).w = macroListOut
      { out := prologText (rootOut a) ++ tagText (rootOut a) (rootMeta a), stack := [((rootOut a).unitName, true)], nsstack := [] }
      a.userMacroList := by
    rw [startUnit_macros_w, hw, p6]
    rfl
  obtain ⟨f1, f2, f3, f4, f5, f6⟩ := startUnit_fields (archiveTranslator a th).out.prolog (rootMeta a) true
  have hcl : TagsClosed [((rootOut a).unitName, false)] := by simp [TagsClosed]
  have hrd := macroListOut_ready (ready_open (prologText (rootOut a) ++ tagText (rootOut a) (rootMeta a)) (rootOut a).unitName [])
    hcl a.userMacroList
  rw [hpre]
  refine ⟨⟨rfl, rfl, ?_, hcl, ?_, ?_, ?_, rfl, f6⟩, hw2⟩
  · rw [hw2]
    unfold headText
    have : prologText (rootOut a) ++ tagText (rootOut a) (rootMeta a) ++ '>' :: macrosText a.userMacroList =
      prologText (rootOut a) ++ tagText (rootOut a) (rootMeta a) ++ ['>'] ++ macrosText a.userMacroList := by simp
    rw [this]
    exact hrd
  · exact f1.trans p2
  · rw [f5, if_pos p3]
  · rw [startUnit_tabsize]; exact p4

/-- The text that a unit adds to the archive. -/
def addedText (a ua : Archive) (u : UnitData) (c : Option Str) : Str :=
  '\n' :: '\n' :: unitText (jobOut a ua u 1) (unitMetaOf a ua u) c

/-- The metadata depend only on the settings of the archive. -/
theorem unitMeta_eq {a ua : Archive} {t : Translator} (h1 : t.out.options = a.options) (h2 : t.revision = a.revision)
    (u : UnitData) : unitMeta t ua u = unitMetaOf a ua u := by
  unfold unitMetaOf unitMeta
  rw [h1, h2]
  rfl

/-- One more unit in the archive element. -/
theorem addUnit_archive {a ua : Archive} {t : Translator} {X : Str} {S : List (Str × Bool)} {u : UnitData} {c : Option Str}
    (h : Between a t X S) (hA : isoption a.options OPTION_ARCHIVE = true) (hc : unitContent ua u = .val c)
    (hv : ∀ x ∈ (jobOut a ua u 1).tagAttrs (unitMetaOf a ua u), ValidName x.1 ∧ ValidValue x.2) :
    ∃ t', t.addUnit ua u = .val (t', true) ∧ Between a t' (X ++ addedText a ua u c) S ∧
      t'.out.w = { out := X ++ addedText a ua u c, stack := S, nsstack := [] } := by
  have hp : t.prepareOutput = t := by unfold Translator.prepareOutput; rw [if_pos h.notFirst]
  generalize ho : (t.out.outputUnitSeparator.initNamespaces (unitNamespaces ua u)) = o
  have ho1 : o.options = a.options := by rw [← ho]; exact h.options
  have ho2 : o.depth = 1 := by rw [← ho]; exact h.depth
  have ho3 : o.tabsize = a.tabstop := by rw [← ho]; exact h.tabsize
  have ho4 : o.namespaces = (jobOut a ua u 1).namespaces := by rw [← ho]; rfl
  have how : Ready o.w (X ++ ['\n', '\n']) S := by
    rw [← ho]
    show Ready (t.out.w.writeRaw ['\n', '\n']) _ _
    rw [h.ready.writeRaw]
    exact ready_closed h.closed
  obtain ⟨g1, g2, g3⟩ := tagText_congr (o := jobOut a ua u 1) (o' := o) ho1 ho2 ho3 ho4 (unitMetaOf a ua u)
  have hw := unit_written (m := unitMetaOf a ua u) how (by rw [g2]; exact hv) c
  have hut : unitText o (unitMetaOf a ua u) c = unitText (jobOut a ua u 1) (unitMetaOf a ua u) c := by
    unfold unitText; rw [g1, g3]
  rw [hut] at hw
  have htx : X ++ ['\n', '\n'] ++ unitText (jobOut a ua u 1) (unitMetaOf a ua u) c = X ++ addedText a ua u c := by
    simp [addedText]
  rw [htx] at hw
  obtain ⟨f1, f2, f3, f4, f5, f6⟩ := startUnit_fields o (unitMetaOf a ua u) false
  refine ⟨{ t with out := { o.startUnit (unitMetaOf a ua u) false with w := (match c with
      | some s => (o.startUnit (unitMetaOf a ua u) false).w.writeRaw s
      | none => (o.startUnit (unitMetaOf a ua u) false).w).endElement.1 } }, ?_, ?_, hw⟩
  · unfold Translator.addUnit
    rw [if_neg (by simp [h.idle])]
    simp only [hp, hc, unitMeta_eq h.options h.revision]
    rw [if_pos (by rw [h.options]; exact hA), ho]
    cases c <;> rfl
  · refine ⟨h.notFirst, h.idle, ?_, h.closed, f1.trans ho1, ?_, ?_, h.revision, f6⟩
    · rw [hw]; exact ready_closed h.closed
    · show (o.startUnit (unitMetaOf a ua u) false).depth = 1
      rw [f5, ho2]; rfl
    · show (o.startUnit (unitMetaOf a ua u) false).tabsize = a.tabstop
      rw [startUnit_tabsize]; exact ho3

/-! ### The whole archive -/

/-- A unit to be written: the archive it belongs to, the unit, and its contents. -/
structure Job where
  ua : Archive
  u : UnitData
  content : Option Str

/-- The unit can be written to an archive with the settings `a`: it has its contents, names and values are legal in XML. -/
structure Job.Fits (a : Archive) (depth : Nat) (j : Job) : Prop where
  body : j.u.readBody = true
  content : unitContent j.ua j.u = .val j.content
  prefixes : CleanPrefixes (jobOut a j.ua j.u depth).namespaces
  values : CleanMeta (unitMetaOf a j.ua j.u)

theorem Job.Fits.tag {a : Archive} {d : Nat} {j : Job} (h : j.Fits a d) :
    ∀ x ∈ (jobOut a j.ua j.u d).tagAttrs (unitMetaOf a j.ua j.u), ValidName x.1 ∧ ValidValue x.2 :=
  tagAttrs_valid h.prefixes h.values

/-- The calls that write the units. -/
def writeCalls (js : List Job) : List IoCall := js.map (fun j => .writeUnit j.ua (some j.u) none)

/-- An archive that is open for writing to memory, between two units. -/
structure Writing (a : Archive) (s : ArchiveIO) (t : Translator) : Prop where
  mode : s.mode = .write
  settings : s.settings = a
  translator : s.translator = some t
  attached : s.attached = true
  buffer : s.buffer = .valid
  raw : s.rawwrites = false
  memory : s.memory = true
  detached : s.detached = false

theorem writeUnit_writing {a : Archive} {s : ArchiveIO} {t t' : Translator} {j : Job} (h : Writing a s t)
    (hb : j.u.readBody = true) (ht : t.addUnit j.ua j.u = .val (t', true)) :
    ∃ s', s.call (.writeUnit j.ua (some j.u) none) = .val (.status .ok, s') ∧ Writing a s' t' := by
  refine ⟨{ s with translator := some t' }, ?_, ⟨h.mode, h.settings, rfl, h.attached, h.buffer, h.raw, h.memory, h.detached⟩⟩
  simp [ArchiveIO.call, ArchiveIO.writeUnit, hb, h.mode, h.translator, ArchiveIO.addUnit, ht]

theorem calls_append {s s' : ArchiveIO} {cs : List IoCall} (h : s.calls cs = .val s') (ds : List IoCall) :
    s.calls (cs ++ ds) = s'.calls ds := by
  induction cs generalizing s with
  | nil => cases h; rfl
  | cons c cs ih =>
    rw [ArchiveIO.calls] at h
    rw [List.cons_append, ArchiveIO.calls]
    split at h
    · cases h
    · rename_i heq
      exact ih h

theorem calls_archive {a : Archive} {S : List (Str × Bool)} (hA : isoption a.options OPTION_ARCHIVE = true) (js : List Job) :
    ∀ {s : ArchiveIO} {t : Translator} {X : Str}, Writing a s t → Between a t X S → (∀ j ∈ js, j.Fits a 1) →
    ∃ s' t', s.calls (writeCalls js) = .val s' ∧ Writing a s' t' ∧
      Between a t' (X ++ js.flatMap (fun j => addedText a j.ua j.u j.content)) S := by
  induction js with
  | nil => intro s t X h1 h2 _; exact ⟨s, t, rfl, h1, by simpa using h2⟩
  | cons j js ih =>
    intro s t X h1 h2 hf
    have hj := hf j (by simp)
    obtain ⟨t1, ht1, hb1, _⟩ := addUnit_archive h2 hA hj.content hj.tag
    obtain ⟨s1, hs1, hw1⟩ := writeUnit_writing h1 hj.body ht1
    obtain ⟨s', t', h3, h4, h5⟩ := ih hw1 hb1 (fun x hx => hf x (by simp [hx]))
    refine ⟨s', t', ?_, h4, by simpa using h5⟩
    show s.calls (_ :: writeCalls js) = _
    rw [ArchiveIO.calls, hs1]
    exact h3

theorem close_writing {a : Archive} {s : ArchiveIO} {t : Translator} (h : Writing a s t) :
    ∃ s', s.call .close = .val (.nothing, s') ∧ s'.delivered = some t.close.out.w.out ∧ s'.mode = .invalid := by
  refine ⟨{ s with mode := .invalid, translator := some t.close, attached := false, buffer := .freed, kept := t.close.out.w.out,
                   delivered := some t.close.out.w.out, detached := true }, ?_, rfl, rfl⟩
  simp [ArchiveIO.call, ArchiveIO.close, ArchiveIO.closeTranslator, h.raw, h.translator, h.attached, h.memory, h.detached,
    h.mode]

/-- The end of an archive that has units. -/
theorem close_between {a : Archive} {t : Translator} {X n : Str} (h : Between a t X [(n, false)])
    (hA : isoption a.options OPTION_ARCHIVE = true) :
    t.close.out.w.out = X ++ "\n\n</".toList ++ n ++ ">\n".toList := by
  have hp : ∀ t : Translator, t.first = false → t.prepareOutput = t := by
    intro t h; unfold Translator.prepareOutput; rw [if_pos h]
  unfold Translator.close
  rw [if_pos ⟨h.notFirst, by rw [h.options]; exact hA⟩]
  simp only []
  rw [hp _ (by exact h.notFirst), if_neg (by simp [h.idle])]
  unfold Out.close
  rw [if_pos (by exact h.wrote)]
  show (t.out.w.writeRaw ['\n', '\n']).endDocument.out = _
  rw [h.ready.writeRaw]
  simp [Writer.endDocument, Writer.endAll, Writer.endElement]

/-- Opened to memory. -/
def openedIO (a : Archive) (th : ThreadState) : ArchiveIO :=
  { settings := a, thread := th, mode := .write, memory := true, buffer := .valid }

theorem archiveTranslator_w (a : Archive) (th : ThreadState) : (archiveTranslator a th).out.w = {} := rfl

theorem createTranslator_opened (a : Archive) (th : ThreadState) :
    (openedIO a th).createTranslator = { openedIO a th with translator := some (archiveTranslator a th), attached := true } := rfl

/-- The first unit starts the translator. -/
theorem calls_first (a : Archive) (th : ThreadState) (j : Job) (js : List Job) (hb : j.u.readBody = true) :
    (openedIO a th).calls (writeCalls (j :: js)) =
      ({ openedIO a th with translator := some (archiveTranslator a th), attached := true } : ArchiveIO).calls (writeCalls (j :: js)) := by
  show ArchiveIO.calls _ (_ :: writeCalls js) = ArchiveIO.calls _ (_ :: writeCalls js)
  rw [ArchiveIO.calls, ArchiveIO.calls]
  have : (openedIO a th).call (.writeUnit j.ua (some j.u) none) =
      ({ openedIO a th with translator := some (archiveTranslator a th), attached := true } : ArchiveIO).call
        (.writeUnit j.ua (some j.u) none) := by
    have h0 : ∀ s : ArchiveIO, s.mode = .write → s.writeUnit j.ua (some j.u) none =
        match (if s.translator = none then s.createTranslator else s).addUnit j.ua j.u with
        | .ub => .ub
        | .val s => .val (.ok, s) := by
      intro s hm
      simp [ArchiveIO.writeUnit, hb, hm]
      rfl
    simp only [ArchiveIO.call]
    rw [h0 _ rfl, h0 _ rfl, if_pos (show (openedIO a th).translator = none from rfl), if_neg (by simp), createTranslator_opened]
  rw [this]

theorem writing_first (a : Archive) (th : ThreadState) :
    Writing a { openedIO a th with translator := some (archiveTranslator a th), attached := true } (archiveTranslator a th) :=
  ⟨rfl, rfl, rfl, rfl, rfl, rfl, rfl, rfl⟩

/-- The translator starts the archive element with its first unit. -/
theorem addUnit_prepare (t : Translator) (ho : t.outputting = false) (ua : Archive) (u : UnitData) :
    t.addUnit ua u = t.prepareOutput.addUnit ua u := by
  have h1 : t.prepareOutput.outputting = false := by
    unfold Translator.prepareOutput; split <;> exact ho
  have h2 : t.prepareOutput.prepareOutput = t.prepareOutput := by
    have : t.prepareOutput.first = false := by unfold Translator.prepareOutput; split <;> simp_all
    rw [show t.prepareOutput.prepareOutput = if t.prepareOutput.first = false then t.prepareOutput else _ from rfl, if_pos this]
  unfold Translator.addUnit
  rw [if_neg (by simp [ho]), if_neg (by simp [h1])]
  simp only [h2]

/-- The text of an archive with units. -/
def archiveText (a : Archive) (js : List Job) : Str :=
  headText a ++ js.flatMap (fun j => addedText a j.ua j.u j.content) ++ "\n\n</".toList ++ (rootOut a).unitName ++ ">\n".toList

/-- Writing units to an archive in memory, then closing it: the text that the user gets. -/
theorem archive_written {a : Archive} {th : ThreadState} {js : List Job} (hA : isoption a.options OPTION_ARCHIVE = true)
    (hne : js ≠ []) (hp : CleanPrefixes (rootOut a).namespaces) (hm : CleanMeta (rootMeta a)) (hf : ∀ j ∈ js, j.Fits a 1) :
    ∃ s, ({ settings := a, thread := th } : ArchiveIO).calls (.openWrite true .memory :: writeCalls js ++ [.close]) = .val s ∧
      s.delivered = some (archiveText a js) ∧ s.mode = .invalid := by
  obtain ⟨j, js', rfl⟩ : ∃ j js', js = j :: js' := by
    cases js with
    | nil => exact absurd rfl hne
    | cons j js' => exact ⟨j, js', rfl⟩
  have hj := hf j (by simp)
  obtain ⟨hb, _⟩ := prepare_archive (th := th) hA (tagAttrs_valid hp hm)
  obtain ⟨t1, ht1, hb1, _⟩ := addUnit_archive hb hA hj.content hj.tag
  rw [← addUnit_prepare _ rfl] at ht1
  obtain ⟨s1, hs1, hw1⟩ := writeUnit_writing (writing_first a th) hj.body ht1
  obtain ⟨s', t', h3, h4, h5⟩ := calls_archive hA js' hw1 hb1 (fun x hx => hf x (by simp [hx]))
  obtain ⟨s'', hc, hd, hmode⟩ := close_writing h4
  have hopen : ({ settings := a, thread := th } : ArchiveIO).calls (.openWrite true .memory :: writeCalls (j :: js') ++ [.close]) =
      (openedIO a th).calls (writeCalls (j :: js') ++ [.close]) := rfl
  have hall : (openedIO a th).calls (writeCalls (j :: js')) = .val s' := by
    rw [calls_first a th j js' hj.body]
    show ArchiveIO.calls _ (_ :: writeCalls js') = _
    rw [ArchiveIO.calls, hs1]
    exact h3
  refine ⟨s'', ?_, ?_, hmode⟩
  · rw [hopen, calls_append hall, ArchiveIO.calls, hc]
    rfl
  · rw [hd, close_between h5 hA]
    simp [archiveText]

/-! ### Without units -/

/-- Closing an archive that was opened to memory and not written to. -/
theorem close_unused (a : Archive) (th : ThreadState) :
    ∃ s, ({ settings := a, thread := th } : ArchiveIO).calls [.openWrite true .memory, .close] = .val s ∧
      s.delivered = some (archiveTranslator a th).close.out.w.out ∧ s.mode = .invalid := by
  refine ⟨{ openedIO a th with
              mode := .invalid
              translator := some (archiveTranslator a th).close
              attached := false
              buffer := .freed
              kept := (archiveTranslator a th).close.out.w.out
              delivered := some (archiveTranslator a th).close.out.w.out
              detached := true }, ?_, rfl, rfl⟩
  rfl

theorem macroText_ne (t ty : Str) : macroText t ty ≠ [] := by
  intro h
  have h2 : (macroText t ty).head? = some '<' := rfl
  rw [h] at h2
  cases h2

theorem macrosText_ne (t ty : Str) (rest : List Str) : macrosText (t :: ty :: rest) ≠ [] := by
  rw [macrosText]
  intro h
  exact macroText_ne t ty (List.append_eq_nil_iff.mp h).1

theorem macroListOut_open (l : List Str) (X n : Str) :
    (macrosText l = [] → macroListOut { out := X, stack := [(n, true)], nsstack := [] } l =
      { out := X, stack := [(n, true)], nsstack := [] }) ∧
    (macrosText l ≠ [] → macroListOut { out := X, stack := [(n, true)], nsstack := [] } l =
      { out := X ++ '>' :: macrosText l, stack := [(n, false)], nsstack := [] }) := by
  match l with
  | [] => exact ⟨fun _ => rfl, fun h => absurd rfl h⟩
  | [_] => exact ⟨fun _ => rfl, fun h => absurd rfl h⟩
  | t :: ty :: rest =>
    refine ⟨fun h => absurd h (macrosText_ne t ty rest), fun _ => ?_⟩
    rw [macroListOut_one (ready_open X n []), macroListOut_closed rest _ _ (by simp [TagsClosed])]
    simp [macrosText]

/-- The text of an archive without units. -/
def emptyText (a : Archive) : Str :=
  prologText (rootOut a) ++ tagText (rootOut a) (rootMeta a) ++
    (if macrosText a.userMacroList = [] then "/>\n".toList
     else '>' :: macrosText a.userMacroList ++ '<' :: '/' :: (rootOut a).unitName ++ ">\n".toList)

theorem close_empty {a : Archive} {th : ThreadState} (hA : isoption a.options OPTION_ARCHIVE = true)
    (hp : CleanPrefixes (rootOut a).namespaces) (hm : CleanMeta (rootMeta a)) :
    (archiveTranslator a th).close.out.w.out = emptyText a := by
  obtain ⟨hb, hw⟩ := prepare_archive (th := th) hA (tagAttrs_valid hp hm)
  unfold Translator.close
  rw [if_neg (by simp [archiveTranslator])]
  simp only []
  rw [if_neg (by simp [hb.idle])]
  unfold Out.close
  rw [if_pos hb.wrote]
  show (archiveTranslator a th).prepareOutput.out.w.endDocument.out = _
  rw [hw]
  obtain ⟨m1, m2⟩ := macroListOut_open a.userMacroList (prologText (rootOut a) ++ tagText (rootOut a) (rootMeta a)) (rootOut a).unitName
  unfold emptyText
  by_cases hz : macrosText a.userMacroList = []
  · rw [m1 hz, if_pos hz]
    simp [Writer.endDocument, Writer.endAll, Writer.endElement, Writer.outputNs]
  · rw [m2 hz, if_neg hz]
    simp [Writer.endDocument, Writer.endAll, Writer.endElement]

/-! ### Solitary mode -/

/-- One unit in solitary mode. -/
theorem addUnit_solitary {a : Archive} {th : ThreadState} {j : Job} (hA : isoption a.options OPTION_ARCHIVE = false)
    (hf : j.Fits a 0) :
    ∃ t', (archiveTranslator a th).addUnit j.ua j.u = .val (t', true) ∧ t'.first = false ∧ t'.outputting = false ∧
      t'.out.options = a.options ∧ t'.out.didwrite = true ∧
      t'.out.w = { out := prologText (rootOut a) ++ unitText (jobOut a j.ua j.u 0) (unitMetaOf a j.ua j.u) j.content,
                   stack := [], nsstack := [] } := by
  obtain ⟨p1, p2, p3, p4, p5, p6⟩ := prolog_written (o := (archiveTranslator a th).out) rfl
  have hpre : (archiveTranslator a th).prepareOutput = { (archiveTranslator a th) with
      first := false
      out := (archiveTranslator a th).out.prolog } := by
    rw [prepareOutput_first _ rfl, if_neg (show ¬ isoption (archiveTranslator a th).out.options OPTION_ARCHIVE = true by
      show ¬ isoption a.options OPTION_ARCHIVE = true
      simp [hA])]
  generalize ho : ((archiveTranslator a th).out.prolog.initNamespaces (unitNamespaces j.ua j.u)) = o
  have ho1 : o.options = a.options := by rw [← ho]; exact p2
  have ho2 : o.depth = 0 := by rw [← ho]; exact p3
  have ho3 : o.tabsize = a.tabstop := by rw [← ho]; exact p4
  have ho4 : o.namespaces = (jobOut a j.ua j.u 0).namespaces := by rw [← ho]; rfl
  have how : Ready o.w (prologText (rootOut a)) [] := by
    rw [← ho]
    show Ready (archiveTranslator a th).out.prolog.w _ _
    rw [p1]
    exact ready_closed (X := [] ++ prologText (archiveTranslator a th).out) (S := []) (by simp [TagsClosed])
  obtain ⟨g1, g2, g3⟩ := tagText_congr (o := jobOut a j.ua j.u 0) (o' := o) ho1 ho2 ho3 ho4 (unitMetaOf a j.ua j.u)
  have hw := unit_written (m := unitMetaOf a j.ua j.u) how (by rw [g2]; exact hf.tag) j.content
  have hut : unitText o (unitMetaOf a j.ua j.u) j.content = unitText (jobOut a j.ua j.u 0) (unitMetaOf a j.ua j.u) j.content := by
    unfold unitText; rw [g1, g3]
  rw [hut] at hw
  obtain ⟨f1, f2, f3, f4, f5, f6⟩ := startUnit_fields o (unitMetaOf a j.ua j.u) false
  refine ⟨{ (archiveTranslator a th) with first := false, out := { o.startUnit (unitMetaOf a j.ua j.u) false with w := (match j.content with
      | some s => (o.startUnit (unitMetaOf a j.ua j.u) false).w.writeRaw s
      | none => (o.startUnit (unitMetaOf a j.ua j.u) false).w).endElement.1 } }, ?_, rfl, rfl, f1.trans ho1, f6, hw⟩
  rw [addUnit_prepare _ rfl, hpre]
  unfold Translator.addUnit
  rw [if_neg (by simp [archiveTranslator])]
  have hq : ∀ t : Translator, t.first = false → t.prepareOutput = t := by
    intro t h; unfold Translator.prepareOutput; rw [if_pos h]
  rw [hq _ rfl]
  have hmeta : unitMeta { archiveTranslator a th with first := false, out := (archiveTranslator a th).out.prolog } j.ua j.u =
      unitMetaOf a j.ua j.u := unitMeta_eq (a := a) p2 rfl j.u
  simp only [hf.content, hmeta]
  rw [if_neg (by rw [p2]; show ¬ isoption a.options OPTION_ARCHIVE = true; simp [hA]), ho]
  cases j.content <;> rfl

/-- The text of a single unit. -/
def solitaryText (a : Archive) (j : Job) : Str :=
  prologText (rootOut a) ++ unitText (jobOut a j.ua j.u 0) (unitMetaOf a j.ua j.u) j.content ++ ['\n']

theorem solitary_written {a : Archive} {th : ThreadState} {j : Job} (hA : isoption a.options OPTION_ARCHIVE = false)
    (hf : j.Fits a 0) :
    ∃ s, ({ settings := a, thread := th } : ArchiveIO).calls (.openWrite true .memory :: writeCalls [j] ++ [.close]) = .val s ∧
      s.delivered = some (solitaryText a j) ∧ s.mode = .invalid := by
  obtain ⟨t1, h1, h2, h3, h4, h5, h6⟩ := addUnit_solitary (th := th) hA hf
  obtain ⟨s1, hs1, hw1⟩ := writeUnit_writing (writing_first a th) hf.body h1
  obtain ⟨s2, hc, hd, hm⟩ := close_writing hw1
  have hall : (openedIO a th).calls (writeCalls [j]) = .val s1 := by
    rw [calls_first a th j [] hf.body]
    show ArchiveIO.calls _ (_ :: []) = _
    rw [ArchiveIO.calls, hs1]
    rfl
  refine ⟨s2, ?_, ?_, hm⟩
  · show (openedIO a th).calls (writeCalls [j] ++ [.close]) = _
    rw [calls_append hall, ArchiveIO.calls, hc]
    rfl
  · rw [hd]
    unfold Translator.close
    rw [if_neg (by rw [h4]; simp [hA])]
    have hq : t1.prepareOutput = t1 := by unfold Translator.prepareOutput; rw [if_pos h2]
    simp only [hq]
    rw [if_neg (by simp [h3])]
    unfold Out.close
    rw [if_pos h5]
    simp [h6, Writer.endDocument, Writer.endAll, solitaryText]

end Srcml
