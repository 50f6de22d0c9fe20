import Verif.Proofs.UnitCalls
/-
C32: writing a unit element by element.

The calls and what they do are in Model/UnitWriter.lean; which events a sequence of calls stands for is in
Spec/UnitWriter.lean (`Build`). `readXml` (Spec/Xml.lean) is the independent reader.
-/
set_option linter.unusedSimpArgs false
namespace Srcml
open Spec

/-- The metadata on the start tag of a unit. -/
def startMeta (a : Archive) (u : UnitData) : UnitMeta :=
  { language := u.language.or a.language, revision := u.revision, url := u.url, filename := u.filename,
    version := u.version, timestamp := u.timestamp, hash := u.hash, encoding := u.encoding, attributes := u.attributes }

/-- The namespaces of a unit: its own, or those of the archive. -/
def namespacesOf (a : Archive) (u : UnitData) : List Namespace := u.namespaces.getD a.namespaces

/-- The output object of a unit before its start tag. -/
def unitOut (a : Archive) (u : UnitData) (thread : ThreadState) : Out := (unitTranslator a u thread).out

/-- Settings with which a unit can be written: namespaces are declared, prefixes and metadata are such that XML can
carry them, and the flags of the namespaces are as the library sets them. -/
structure WriteOk (a : Archive) (u : UnitData) : Prop where
  decl : isoption a.options OPTION_NAMESPACE_DECL = true
  clean : CleanPrefixes (mergeNamespaces defaultNamespaces (namespacesOf a u))
  flags : ∀ n ∈ namespacesOf a u, FlagsSound n
  metadata : CleanMeta (startMeta a u)

/-- The XML library reads a well-formed document as the reader of the specification does. -/
def Reads (sax : Sax) : Prop := ∀ s evs, readXml s = some evs → sax s = evs

theorem unitOptions_decl (a : Archive) : isoption (unitOptions a) OPTION_NAMESPACE_DECL = isoption a.options OPTION_NAMESPACE_DECL := by
  have : unitOptions a &&& OPTION_NAMESPACE_DECL = a.options &&& OPTION_NAMESPACE_DECL := by
    unfold unitOptions
    rw [BitVec.and_assoc]
    congr 1
  unfold isoption
  rw [this]

/-- Everything about the start tag. -/
theorem start_facts {a : Archive} {u : UnitData} (h : WriteOk a u) (thread : ThreadState) :
    let o := unitOut a u thread
    let m := startMeta a u
    (o.startUnit m false).w = { out := tagText o m, stack := [(o.unitName, true)], nsstack := [] } ∧
    Sync {} (o.startUnit m false).w [.op o.unitName (o.tagAttrs m)] [(o.unitName, true)] ∧
    TableOk o.namespaces ∧ tagMarks (tagText o m) ≠ none ∧ o.tagAttrs m ≠ [] := by
  intro o m
  have hp : CleanPrefixes o.namespaces := h.clean
  have hT : TableOk o.namespaces := merge_ok default_tableOk h.flags
  have hv := tagAttrs_valid (o := o) (m := m) hp h.metadata
  have hd : isoption o.options OPTION_NAMESPACE_DECL = true := (unitOptions_decl a).trans h.decl
  obtain ⟨rest, hr⟩ := tagNs_head hT hd rfl
  have h1 := startUnit_text (o := o) (m := m) rfl hv
  refine ⟨h1, ?_, hT, ?_, ?_⟩
  · have := startUnit_ok (B := {}) Base.ok_init (o := o) (evs := []) (top := [])
      (Sync.init {} Base.ok_init _ rfl rfl rfl) m (Or.inr ⟨rfl, rfl⟩) (unitName_valid hp) hv (tagAttrs_nodup hp h.metadata)
    simpa [closedTop] using this
  · have hx : ∃ z, xmlnsName (nullIfEmpty (prefixOf o.namespaces .SRC)) = "xmlns".toList ++ z := by
      unfold nullIfEmpty
      split
      · exact ⟨[], by simp [xmlnsName]⟩
      · exact ⟨':' :: prefixOf o.namespaces .SRC, rfl⟩
    obtain ⟨z, hz⟩ := hx
    have : tagText o m = ('<' :: o.unitName ++ [' ']) ++ "xmlns".toList ++ (z ++ ['=']) ++
        '"' :: (SRC_NS_URI.flatMap attrEscapeChar) ++ '"' :: attrsText (rest ++ present (unitAttrs o m)) := by
      unfold tagText Out.tagAttrs
      rw [hr, List.cons_append]
      simp only [attrsText, List.flatMap_cons, attrText, hz]
      simp
    rw [this]
    exact tagMarks_some _ _ _ _
  · unfold Out.tagAttrs; rw [hr]; simp

/-- The call that starts a unit. -/
theorem writeStartUnit_ok {a : Archive} {u : UnitObj} (h : WriteOk a u.data) (thread : ThreadState) :
    ∃ b e t, u.writeStartUnit a thread = .val (.ok, { u with
        data := { u.data with
          namespaces := some (namespacesOf a u.data)
          contentBegin := (tagText (unitOut a u.data thread) (startMeta a u.data)).length + 1
          insertBegin := b, insertEnd := e }
        translator := some t }) ∧
      TRel (tagText (unitOut a u.data thread) (startMeta a u.data)) (unitOut a u.data thread).unitName
        [.op (unitOut a u.data thread).unitName ((unitOut a u.data thread).tagAttrs (startMeta a u.data))] {} t ∧
      t.out = (unitOut a u.data thread).startUnit (startMeta a u.data) false ∧
      tagMarks (tagText (unitOut a u.data thread) (startMeta a u.data)) = some (b, e) := by
  obtain ⟨f1, f2, f3, f4, f5⟩ := start_facts h thread
  generalize hS : tagText (unitOut a u.data thread) (startMeta a u.data) = S at *
  cases hm : tagMarks S with
  | none => exact absurd hm f4
  | some be =>
    obtain ⟨b, e⟩ := be
    refine ⟨b, e, { (unitTranslator a u.data thread) with
      outputting := true, first := false,
      out := (unitOut a u.data thread).startUnit (startMeta a u.data) false }, ?_, ?_, rfl, rfl⟩
    · have hout : ∀ x : Translator, x = ((unitTranslator a { u.data with namespaces := some (u.data.namespaces.getD a.namespaces) } thread).addStartUnit a
          { u.data with namespaces := some (u.data.namespaces.getD a.namespaces) }).1 →
          x = { (unitTranslator a u.data thread) with
            outputting := true, first := false,
            out := (unitOut a u.data thread).startUnit (startMeta a u.data) false } := by
        rintro x rfl; rfl
      unfold UnitObj.writeStartUnit
      simp only []
      rw [hout _ rfl]
      simp only [f1, hm]
      rfl
    · refine ⟨?_, ?_, rfl, rfl⟩
      · unfold Rel
        simp only []
        exact ⟨true, by simpa using f2, by simp⟩
      · left
        rw [f1]
        exact ⟨rfl, rfl, rfl⟩

/-! ### The specification of a call -/

/-- What a call in the middle of a unit answers, and what is built then; `none`: nothing is specified.
Missing arguments are INVALID_ARGUMENT, a nested `unit` and an attribute where no start tag is open are INVALID_INPUT,
and all of these change nothing. -/
def Spec.Build.call (b : Build) : WriteCall → Option (Status × Build)
  | .startElement _ none _ => some (.invalidArgument, b)
  | .namespace _ none => some (.invalidArgument, b)
  | .attribute _ none _ _ => some (.invalidArgument, b)
  | .string none => some (.invalidArgument, b)
  | .startElement pre (some name) uri =>
    if name = "unit".toList then some (.invalidInput, b) else (b.step (.start pre name uri)).map (fun b => (.ok, b))
  | .endElement => (b.step .fin).map (fun b => (.ok, b))
  | .namespace pre (some uri) =>
    if b.cur = none ∧ (b.stack ≠ [] ∨ b.evs ≠ []) then some (.invalidInput, b)
    else (b.step (.ns pre uri)).map (fun b => (.ok, b))
  | .attribute pre (some name) uri (some v) =>
    if b.cur = none ∧ (b.stack ≠ [] ∨ b.evs ≠ []) ∧ uri = none then some (.invalidInput, b)
    else (b.step (.attr pre name uri v)).map (fun b => (.ok, b))
  | .string (some s) => (b.step (.text s)).map (fun b => (.ok, b))
  | _ => none

/-- A sequence of calls: their answers, and what is built. -/
def Spec.Build.calls (b : Build) : List WriteCall → Option (List Status × Build)
  | [] => some ([], b)
  | c :: cs =>
    match b.call c with
    | none => none
    | some (st, b') => (b'.calls cs).map (fun r => (st :: r.1, r.2))

/-- The events of the body: what is still open is closed, innermost first. -/
def Spec.Build.events (b : Build) : List Ev := b.flush ++ b.stack.map .cl

theorem writeAttribute_closed {w : Writer} (h : ∀ n rest, w.stack ≠ (n, true) :: rest) (n v : Str) :
    w.writeAttribute n v = (w, false) := by
  unfold Writer.writeAttribute
  split
  · rename_i x y hx; exact absurd hx (h _ _)
  · rfl

theorem Rel.closed {name : Str} {pre0 : List Ev} {b : Build} {w : Writer} (h : Rel name pre0 b w) (hc : b.cur = none)
    (hb : b.stack ≠ [] ∨ b.evs ≠ []) : ∀ n rest, w.stack ≠ (n, true) :: rest := by
  intro n rest e
  unfold Rel at h
  rw [hc] at h
  obtain ⟨flag, h1, h2⟩ := h
  have hs := h1.stack
  rw [e] at hs
  cases hst : b.stack with
  | nil =>
    rw [hst] at hs
    simp at hs
    obtain ⟨⟨_, hs⟩, _⟩ := hs
    have h3 := h2 hs
    rcases hb with hb | hb
    · exact hb h3.1
    · exact hb h3.2
  | cons x xs =>
    rw [hst] at hs
    simp at hs

theorem call_ok (sax : Sax) (a : Archive) (thread : ThreadState) {S name : Str} {pre0 : List Ev} {b b' : Build}
    {t : Translator} {st : Status} (h : TRel S name pre0 b t) (u : UnitObj) (hu : u.translator = some t) (c : WriteCall)
    (hs : b.call c = some (st, b')) :
    ∃ t', c.run sax a thread u = .val (st, { u with translator := some t' }) ∧ TRel S name pre0 b' t' := by
  have hsame : { u with translator := some t } = u := by rw [← hu]
  have keep : ∀ {st'}, c.run sax a thread u = .val (st', u) → some (st', b) = some (st, b') →
      ∃ t', c.run sax a thread u = .val (st, { u with translator := some t' }) ∧ TRel S name pre0 b' t' := by
    intro st' h1 h2
    simp only [Option.some.injEq, Prod.mk.injEq] at h2
    obtain ⟨h2, h3⟩ := h2
    subst h2; subst h3
    exact ⟨t, by rw [hsame]; exact h1, h⟩
  have go : ∀ {p}, c.piece = some p → (b.step p).map (fun b => (Status.ok, b)) = some (st, b') →
      ∃ t', c.run sax a thread u = .val (st, { u with translator := some t' }) ∧ TRel S name pre0 b' t' := by
    intro p hp hm
    rw [Option.map_eq_some_iff] at hm
    obtain ⟨x, hx, e⟩ := hm
    cases e
    exact step_ok sax a thread h u hu c p hp hx
  cases c with
  | startUnit => cases hs
  | endUnit => cases hs
  | startElement pre n uri =>
    cases n with
    | none => exact keep rfl hs
    | some n =>
      simp only [Build.call] at hs
      split at hs
      · rename_i hn
        refine keep ?_ hs
        simp only [WriteCall.run, UnitObj.viaTranslator, hu, Translator.addStartElement, h.outputting, hn]
        simp [hsame]
      · exact go rfl hs
  | endElement => exact go rfl hs
  | «namespace» pre uri =>
    cases uri with
    | none => exact keep rfl hs
    | some uri =>
      simp only [Build.call] at hs
      split at hs
      · rename_i hn
        refine keep ?_ hs
        simp only [WriteCall.run, UnitObj.viaTranslator, hu, Translator.addNamespace, h.outputting,
          writeAttribute_closed (h.rel.closed hn.1 hn.2)]
        simp [hsame, ← h.outputting]
      · exact go rfl hs
  | «attribute» pre n uri v =>
    cases n with
    | none => exact keep rfl hs
    | some n =>
      cases v with
      | none => cases hs
      | some v =>
        simp only [Build.call] at hs
        split at hs
        · rename_i hn
          refine keep ?_ hs
          obtain ⟨n1, n2, n3⟩ := hn
          subst n3
          have : t.out.w.writeAttributeNS pre n none v = (t.out.w, false) := by
            unfold Writer.writeAttributeNS
            split
            · rfl
            · exact writeAttribute_closed (h.rel.closed n1 n2) _ _
          simp only [WriteCall.run, UnitObj.viaTranslator, hu, Translator.addAttribute, h.outputting, this]
          simp [hsame, ← h.outputting]
        · exact go rfl hs
  | string s =>
    cases s with
    | none => exact keep rfl hs
    | some s => exact go rfl hs

theorem calls_ok (sax : Sax) (a : Archive) (thread : ThreadState) {S name : Str} {pre0 : List Ev} (cs : List WriteCall) :
    ∀ {b b' : Build} {t : Translator} {sts : List Status} (_ : TRel S name pre0 b t) (u : UnitObj)
      (_ : u.translator = some t) (_ : b.calls cs = some (sts, b')) (rest : List WriteCall),
    ∃ t', TRel S name pre0 b' t' ∧
      runWrites sax a thread u (cs ++ rest) = match runWrites sax a thread { u with translator := some t' } rest with
        | .ub => .ub
        | .val (sts', u') => .val (sts ++ sts', u') := by
  induction cs with
  | nil =>
    intro b b' t sts h u hu hs rest
    simp only [Build.calls, Option.some.injEq, Prod.mk.injEq] at hs
    obtain ⟨rfl, rfl⟩ := hs
    have hsame : { u with translator := some t } = u := by rw [← hu]
    refine ⟨t, h, ?_⟩
    rw [hsame]
    simp only [List.nil_append]
    cases runWrites sax a thread u rest with
    | ub => rfl
    | val r => rfl
  | cons c cs ih =>
    intro b b' t sts h u hu hs rest
    simp only [Build.calls] at hs
    cases hc : b.call c with
    | none => rw [hc] at hs; cases hs
    | some r =>
      obtain ⟨st, b1⟩ := r
      rw [hc] at hs
      simp only [Option.map_eq_some_iff, Prod.mk.injEq] at hs
      obtain ⟨⟨sts1, b2⟩, hs1, hs2, hs3⟩ := hs
      simp only [] at hs2 hs3
      subst hs3; subst hs2
      obtain ⟨t1, r1, r2⟩ := call_ok sax a thread h u hu c hc
      obtain ⟨t2, q1, q2⟩ := ih r2 { u with translator := some t1 } rfl hs1 rest
      refine ⟨t2, q1, ?_⟩
      rw [List.cons_append, runWrites, r1]
      simp only []
      rw [q2]
      cases runWrites sax a thread { u with translator := some t2 } rest with
      | ub => rfl
      | val r => rfl

theorem extractEvents_val (en : Str) (evs : List Ev) (h : ∀ attrs, Ev.op en attrs ∈ evs → attrs ≠ []) :
    ∃ s, extractEvents en evs = .val s := by
  induction evs with
  | nil => exact ⟨[], rfl⟩
  | cons e es ih =>
    obtain ⟨s, hs⟩ := ih (fun attrs ha => h attrs (by simp [ha]))
    cases e with
    | ch c => exact ⟨c :: s, by simp [extractEvents, hs]⟩
    | cl n => exact ⟨s, by simp [extractEvents, hs]⟩
    | op n attrs =>
      by_cases hn : n = en
      · subst hn
        cases attrs with
        | nil => exact absurd rfl (h [] (by simp))
        | cons a as => exact ⟨_, by simp [extractEvents, hs]; rfl⟩
      · exact ⟨s, by simp [extractEvents, hn, hs]⟩

/-- C32: a unit written element by element. For every sequence of calls to which the specification gives a meaning, the
calls are answered as specified, ending the unit succeeds, and the srcML of the unit is a well-formed document: the unit
element with its metadata, and in it exactly the elements, attributes, declarations and text of the accepted calls; what
was left open is closed. The same srcML is the output for a unit that was used before, in any state. -/
theorem C32_unit_partial (sax : Sax) (a : Archive) (thread : ThreadState) (u : UnitObj) (cs : List WriteCall)
    (sts : List Status) (b : Build) (hok : WriteOk a u.data) (hcs : ({} : Build).calls cs = some (sts, b))
    (hsrc : u.data.src = none → Reads sax ∧
      ∀ attrs, Ev.op (escapeNameOf (namespacesOf a u.data)) attrs ∈ b.events → attrs ≠ []) :
    ∃ u', runWrites sax a thread u (.startUnit :: cs ++ [.endUnit]) = .val (.ok :: sts ++ [.ok], u') ∧
      readXml u'.data.srcml = some (.op (unitOut a u.data thread).unitName
          ((unitOut a u.data thread).tagAttrs (startMeta a u.data)) :: b.events ++
        [.cl (unitOut a u.data thread).unitName]) ∧
      u'.translator = none ∧ u'.data.readBody = true := by
  obtain ⟨bb, ee, t0, s1, s2, s3, s4⟩ := writeStartUnit_ok hok thread
  obtain ⟨_, _, _, _, hne⟩ := start_facts hok thread
  generalize hS : tagText (unitOut a u.data thread) (startMeta a u.data) = S at *
  generalize hN : (unitOut a u.data thread).unitName = name at *
  generalize hA : (unitOut a u.data thread).tagAttrs (startMeta a u.data) = attrs at *
  obtain ⟨t1, q1, q2⟩ := calls_ok sax a thread cs s2 { u with
        data := { u.data with
          namespaces := some (namespacesOf a u.data)
          contentBegin := S.length + 1
          insertBegin := bb, insertEnd := ee }
        translator := some t0 } rfl hcs [.endUnit]
  -- the end of the unit
  have hdep : ¬ (t1.depth < 0 ∨ (t1.outputting = false ∧ t1.depth ≠ 0)) := by
    rw [q1.depth, q1.outputting]; simp
  obtain ⟨b', e1, e2, e3, e4⟩ := endElements_ok t1.depth.toNat q1 (by rw [q1.depth]; simp)
  obtain ⟨x1, x2, x3⟩ := addEndUnit_ok e1 e2 e3 (by simp)
  rw [e4] at x2
  generalize hT1 : t1.endElements t1.depth.toNat = tt at *
  generalize hT2 : tt.addEndUnit = te at *
  obtain ⟨t2, okk⟩ := te
  simp only at x1 x2 x3
  subst x1
  have hsm := assembled_same x3
  -- the second start tag
  have second : ∀ (v : UnitObj), v.data = { u.data with
        namespaces := some (namespacesOf a u.data), contentBegin := S.length + 1, insertBegin := bb, insertEnd := ee,
        contentEnd := tt.out.w.out.length + 1 } →
      ∃ t3, v.writeStartUnit a thread = .val (.ok, { v with translator := some t3 }) ∧ t3.out.w.out = S := by
    intro v hv
    have hok' : WriteOk a v.data := by
      rw [hv]
      exact ⟨hok.decl, hok.clean, hok.flags, hok.metadata⟩
    obtain ⟨b3, e3, t3, z1, z2, z3, z4⟩ := writeStartUnit_ok hok' thread
    have hSS : tagText (unitOut a v.data thread) (startMeta a v.data) = S := by rw [hv, ← hS]; rfl
    rw [hSS] at z1 z4
    rw [s4] at z4
    cases z4
    refine ⟨t3, ?_, ?_⟩
    · rw [z1]
      congr 3
      rw [hv]
      rfl
    · rw [z3, (start_facts hok' thread).1, hSS]
  have hread : ∃ src, textOf sax (namespacesOf a u.data) u.data.src t2.out.w.out = .val src := by
    unfold textOf
    cases hsr : u.data.src with
    | some s => exact ⟨s, rfl⟩
    | none =>
      obtain ⟨r1, r2⟩ := hsrc hsr
      simp only []
      rw [r1 _ _ x2]
      apply extractEvents_val
      intro as ha
      simp only [List.cons_append, List.nil_append, List.mem_append, List.mem_cons, Ev.op.injEq, List.not_mem_nil, or_false,
        reduceCtorEq] at ha
      rcases ha with ⟨_, ha⟩ | ha
      · rw [ha]; exact hne
      · exact r2 as (by simpa [Build.events] using ha)
  obtain ⟨src, hread⟩ := hread
  have hend : ∀ (v : UnitObj), v.translator = some t1 → v.data = { u.data with
        namespaces := some (namespacesOf a u.data), contentBegin := S.length + 1, insertBegin := bb, insertEnd := ee } →
      ∃ u', v.writeEndUnit sax a thread = .val (.ok, u') ∧ u'.data.srcml = t2.out.w.out ∧ u'.translator = none ∧
        u'.data.readBody = true := by
    intro v hv1 hv2
    obtain ⟨t3, w1, w2⟩ := second { v with data := { v.data with contentEnd := tt.out.w.out.length + 1 }, translator := some t2 }
      (by rw [hv2])
    unfold UnitObj.writeEndUnit
    rw [hv1]
    simp only []
    rw [if_neg hdep, hT1, hT2]
    simp only [Bool.true_eq_false, if_false]
    rw [w1]
    simp only [w2]
    have hcb : v.data.contentBegin = S.length + 1 := by rw [hv2]
    have hnn : v.data.namespaces = some (namespacesOf a u.data) := by rw [hv2]
    have hss : v.data.src = u.data.src := by rw [hv2]
    rw [hcb, hsm, hnn, hss]
    simp only [Option.getD_some, hread]
    exact ⟨_, rfl, rfl, rfl, rfl⟩
  obtain ⟨u', f1, f2, f3, f4⟩ := hend { u with
        data := { u.data with
          namespaces := some (namespacesOf a u.data)
          contentBegin := S.length + 1
          insertBegin := bb, insertEnd := ee }
        translator := some t1 } rfl rfl
  refine ⟨u', ?_, ?_, f3, f4⟩
  · rw [List.cons_append, runWrites]
    simp only [WriteCall.run, s1]
    rw [q2]
    simp only [runWrites, WriteCall.run, f1]
    simp
  · rw [f2, x2]
    simp [Build.events]

/-- C32: outside of a unit every call but the one that starts a unit is refused, and changes nothing: INVALID_ARGUMENT if an
argument is missing, INVALID_INPUT otherwise. -/
theorem C32_outside (sax : Sax) (a : Archive) (thread : ThreadState) (u : UnitObj) (c : WriteCall)
    (hu : u.translator = none) (hc : c ≠ .startUnit) :
    c.run sax a thread u = .val (match c with
      | .startElement _ none _ => .invalidArgument
      | .namespace _ none => .invalidArgument
      | .attribute _ none _ _ => .invalidArgument
      | .string none => .invalidArgument
      | _ => .invalidInput, u) := by
  cases c with
  | startUnit => exact absurd rfl hc
  | endUnit => simp [WriteCall.run, UnitObj.writeEndUnit, hu]
  | startElement pre n uri => cases n <;> simp [WriteCall.run, UnitObj.viaTranslator, hu]
  | endElement => simp [WriteCall.run, UnitObj.viaTranslator, hu]
  | «namespace» pre uri => cases uri <;> simp [WriteCall.run, UnitObj.viaTranslator, hu]
  | «attribute» pre n uri v => cases n <;> simp [WriteCall.run, UnitObj.viaTranslator, hu]
  | string t => cases t <;> simp [WriteCall.run, UnitObj.viaTranslator, hu]

/-- C33: without a unit every call is refused with INVALID_ARGUMENT. -/
theorem C33_write_without_unit (sax : Sax) (a : Archive) (thread : ThreadState) (c : WriteCall) :
    c.runPtr sax a thread none = .val (.invalidArgument, none) := rfl

/-! ### Examples and findings -/

/-- An archive as created, with the language of its units. -/
def sampleArchive : Archive := { srcml_archive_create with language := some "C++".toList }

/-- A unit as created. -/
def sampleUnit : UnitObj := { data := { filename := some "a&b.cpp".toList } }

theorem sample_writeOk : WriteOk sampleArchive sampleUnit.data := by
  have hns : namespacesOf sampleArchive sampleUnit.data = startingNamespaces := by decide +kernel
  refine ⟨by decide +kernel, ?_, by rw [hns]; exact starting_sound, ?_⟩
  · have : mergeNamespaces defaultNamespaces (namespacesOf sampleArchive sampleUnit.data) = defaultNamespaces := by
      decide +kernel
    rw [this]
    constructor <;> decide +kernel
  · have hm : startMeta sampleArchive sampleUnit.data =
        { language := some "C++".toList, revision := some "1.0.0".toList, filename := some "a&b.cpp".toList } := by
      decide +kernel
    rw [hm]
    refine ⟨?_, by simp [attrPairs], by simp [attrPairs], by simp [attrPairs]⟩
    intro v hv
    simp only [List.mem_cons, List.not_mem_nil, or_false, Option.some.injEq, reduceCtorEq, false_or] at hv
    rcases hv with rfl | rfl | rfl <;> decide

/-- A reader. -/
def sampleSax : Sax := fun s => (readXml s).getD []

theorem sampleSax_reads : Reads sampleSax := by
  intro s evs h; unfold sampleSax; rw [h]; rfl

/-- Calls that write `<name p:k="&lt;"><x:op>a"&lt;</x:op></name>`, with two refused calls between them and the outer
element left open. -/
def sampleCalls : List WriteCall :=
  [.startElement none (some "name".toList) none, .attribute (some "p".toList) (some "k".toList) (some "u".toList) (some "<".toList),
   .startElement none none none, .startElement (some "x".toList) (some "op".toList) (some "v".toList),
   .string (some "a\"<".toList), .attribute none (some "k".toList) none (some "1".toList), .endElement]

/-- What they build. -/
def sampleBuild : Build :=
  { evs := [.op "name".toList [("p:k".toList, "<".toList), ("xmlns:p".toList, "u".toList)],
            .op "x:op".toList [("xmlns:x".toList, "v".toList)], .ch 'a', .ch '"', .ch '<', .cl "x:op".toList]
    cur := none
    stack := ["name".toList] }

example : ({} : Build).calls sampleCalls =
    some ([.ok, .ok, .invalidArgument, .ok, .ok, .invalidInput, .ok], sampleBuild) := by decide +kernel

example : ∃ u', runWrites sampleSax sampleArchive {} sampleUnit (.startUnit :: sampleCalls ++ [.endUnit]) =
      .val ([.ok, .ok, .ok, .invalidArgument, .ok, .ok, .invalidInput, .ok, .ok], u') ∧
    readXml u'.data.srcml = some ([.op "unit".toList [("xmlns".toList, SRC_NS_URI), ("revision".toList, "1.0.0".toList),
        ("language".toList, "C++".toList), ("filename".toList, "a&b.cpp".toList)]] ++
      sampleBuild.evs ++ [.cl "name".toList, .cl "unit".toList]) := by
  obtain ⟨u', h1, h2, _⟩ := C32_unit_partial sampleSax sampleArchive {} sampleUnit sampleCalls
    [.ok, .ok, .invalidArgument, .ok, .ok, .invalidInput, .ok] sampleBuild sample_writeOk
    (by decide +kernel) (fun _ => ⟨sampleSax_reads, by
      intro attrs h
      have : ∀ e ∈ sampleBuild.events, ∀ as, e = Ev.op (escapeNameOf (namespacesOf sampleArchive sampleUnit.data)) as → as ≠ [] := by
        intro e he as heq
        have he' : e ∈ [Ev.op "name".toList [("p:k".toList, "<".toList), ("xmlns:p".toList, "u".toList)],
            .op "x:op".toList [("xmlns:x".toList, "v".toList)], .ch 'a', .ch '"', .ch '<', .cl "x:op".toList, .cl "name".toList] := he
        simp only [List.mem_cons, List.not_mem_nil, or_false] at he'
        rcases he' with rfl | rfl | rfl | rfl | rfl | rfl | rfl <;> cases heq <;> simp
      exact this _ h attrs rfl⟩)
  refine ⟨u', h1, ?_⟩
  rw [h2]
  decide +kernel

/-- The srcML of a unit after a sequence of calls, if they all end. -/
def srcmlAfter (cs : List WriteCall) : Run (List Status × Str) :=
  match runWrites sampleSax sampleArchive {} sampleUnit cs with
  | .val (sts, u) => .val (sts, u.data.srcml)
  | .ub => .ub

/-- The start tag of the sample unit. -/
def sampleTag : Str :=
  "<unit xmlns=\"http://www.srcML.org/srcML/src\" revision=\"1.0.0\" language=\"C++\" filename=\"a&amp;b.cpp\"".toList

/-- C32 is false for one end of an element too many: it ends the unit, and ending the unit afterwards never returns. -/
theorem C32_finding_extra_end : srcmlAfter [.startUnit, .endElement, .endUnit] = .ub ∧
    srcmlAfter [.startUnit, .endElement] = .val ([.ok, .ok], []) := by decide +kernel

/-- C32 is false for an attribute that is written right after the start of the unit: it is accepted, but the place where
the contents begin was taken before it, and the attribute ends up in the text. -/
theorem C32_finding_unit_attribute :
    srcmlAfter [.startUnit, .attribute none (some "k".toList) none (some "v".toList), .string (some "a".toList), .endUnit] =
      .val ([.ok, .ok, .ok, .ok], sampleTag ++ ">k=\"v\">a</unit>".toList) := by
  decide +kernel

/-- C32 is false after a start of an element with an empty name: the call is refused, but it is counted, and ending the
unit then ends one element too many. -/
theorem C32_finding_empty_name :
    srcmlAfter [.startUnit, .startElement none (some []) none, .endUnit] = .val ([.ok, .invalidInput, .invalidInput], []) := by
  decide +kernel

/-- An `escape` element without attribute cannot be ended: the code of its character is read through a null pointer. -/
theorem C32_finding_escape : srcmlAfter [.startUnit, .startElement none (some "escape".toList) none, .endUnit] = .ub := by
  decide +kernel

/-- A refused attribute with a uri leaves its declaration behind: it appears on the next element. -/
theorem C32_finding_refused_declaration :
    srcmlAfter [.startUnit, .string (some "a".toList), .attribute (some "p".toList) (some "k".toList) (some "u".toList) (some "v".toList),
        .startElement none (some "name".toList) none, .endUnit] =
      .val ([.ok, .ok, .invalidInput, .ok, .ok], sampleTag ++ ">a<name xmlns:p=\"u\"/></unit>".toList) := by
  decide +kernel

/-- The text, the number of lines and the srcML of a unit after a sequence of calls. -/
def textAfter (cs : List WriteCall) : Run (Option Str × Int × Str) :=
  match runWrites sampleSax sampleArchive {} sampleUnit cs with
  | .val (_, u) => .val (u.data.src, u.data.loc, u.data.srcml)
  | .ub => .ub

/-- A unit that is written a second time keeps the text and the number of lines of the first time. -/
theorem C32_finding_stale_text :
    textAfter [.startUnit, .string (some "a\nb\n".toList), .endUnit, .startUnit, .string (some "c".toList), .endUnit] =
      .val (some "a\nb\n".toList, 2, sampleTag ++ ">c</unit>".toList) := by
  decide +kernel

end Srcml
