import Verif.Proofs.SrcSaxContent
/-
A unit of an archive, through the SAX layer.
-/
set_option linter.unusedSimpArgs false
namespace Srcml
open Spec

/-- The namespace declarations among attributes. -/
def nsDecls (as : List (Str × Str)) : List (Str × Str) := as.filter (fun a => isNsDecl a.1)

/-- The URIs of the declared namespaces have no character that is escaped. -/
def PlainUris (as : List (Str × Str)) : Prop := ∀ a ∈ nsDecls as, a.2.flatMap attrEscapeChar = a.2

/-- The start tag of a unit as it is read from an archive: with the namespaces of the root. -/
def readTag (root attrs : List (Str × Str)) (name : Str) : Str := '<' :: name ++ attrsText (nsDecls root ++ attrs)

/-- The text of a unit as it is read from an archive. -/
def readText (root attrs : List (Str × Str)) (name : Str) (c : Option Str) : Str :=
  readTag root attrs name ++ (match c with
    | some s => '>' :: s ++ '<' :: '/' :: name ++ ['>']
    | none => ['/', '>'])

theorem rootNsText_eq {root : List (Str × Str)} (h : PlainUris root) : ' ' :: rootNsText root = attrsText (nsDecls root) ++ [' '] := by
  unfold rootNsText attrsText
  unfold PlainUris at h
  unfold nsDecls at *
  generalize root.filter (fun a => isNsDecl a.1) = l at *
  induction l with
  | nil => rfl
  | cons a as ih =>
    have ih := ih (fun x hx => h x (by simp [hx]))
    have ha := h a (by simp)
    simp only [List.flatMap_cons]
    rw [show ∀ (x y : Str), ' ' :: (x ++ ['"', ' '] ++ y) = ' ' :: x ++ '"' :: (' ' :: y) from fun x y => by simp,
      ih, attrText, ha]
    simp

theorem attrsText_head {as : List (Str × Str)} (h : as ≠ []) : ∃ t, attrsText as = ' ' :: t := by
  cases as with
  | nil => exact absurd rfl h
  | cons a as => exact ⟨_, rfl⟩

/-- The user starts to read or to skip the unit. -/
def openedUnit (s : Sax2) (root attrs : List (Str × Str)) (name : Str) (next : Char) (w : Bool) : Sax2 :=
  { s with
    cpp := s.cpp || decide (CPP_NS_URI ∈ declaredUris attrs)
    srcml := readTag root attrs name ++ [next]
    insertBegin := name.length + 2
    insertEnd := name.length + 2 + (attrsText (nsDecls root)).length
    contentBegin := (readTag root attrs name).length + 1
    pend := []
    want := w
    collect := w
    wants := s.wants.tail
    loc := 0
    log := s.log ++ [.startUnit attrs]
    start := if w then .element else .none
    chars := if w then .unit else .none
    others := w
    src := if w then [] else s.src }

theorem startUnit_archive {s : Sax2} {root attrs : List (Str × Str)} {name : Str} (next : Char) (hA : s.isArchive = true)
    (hp : s.pend = '<' :: name ++ attrsText attrs) (hne : attrs ≠ []) (hr : s.rootNs = rootNsText root) (hu : PlainUris root)
    (hc : ("xmlns".toList, CPP_NS_URI) ∉ attrs) :
    s.startUnit name attrs next true = .val (openedUnit s root attrs name next (s.wants.headD false)) := by
  obtain ⟨t, ht⟩ := attrsText_head hne
  have e1 : (s.pend ++ [next]).take (1 + name.length + 1) = '<' :: name ++ [' '] := by
    rw [hp, ht, show '<' :: name ++ ' ' :: t ++ [next] = ('<' :: name ++ [' ']) ++ (t ++ [next]) by simp,
      show 1 + name.length + 1 = ('<' :: name ++ [' ']).length by simp; omega, List.take_left]
  have e2 : (s.pend ++ [next]).drop (1 + name.length + 1) = t ++ [next] := by
    rw [hp, ht, show '<' :: name ++ ' ' :: t ++ [next] = ('<' :: name ++ [' ']) ++ (t ++ [next]) by simp,
      show 1 + name.length + 1 = ('<' :: name ++ [' ']).length by simp; omega, List.drop_left]
  have hR := rootNsText_eq hu
  have e3 : '<' :: name ++ [' '] ++ rootNsText root ++ (t ++ [next]) = readTag root attrs name ++ [next] := by
    rw [show '<' :: name ++ [' '] ++ rootNsText root ++ (t ++ [next]) = '<' :: name ++ (' ' :: rootNsText root) ++ (t ++ [next]) by simp,
      hR, readTag, attrsText_append, ht]
    simp
  have e4 : ('<' :: name ++ [' '] ++ rootNsText root).length = name.length + 2 + (attrsText (nsDecls root)).length := by
    have := congrArg List.length hR
    simp at this
    simp [this]; omega
  have e5 : ('<' :: name ++ [' ']).length = name.length + 2 := by simp
  have e6 : (readTag root attrs name ++ [next]).length = (readTag root attrs name).length + 1 := by simp
  unfold Sax2.startUnit openedUnit
  rw [if_neg hc]
  simp only [hA, if_true, e1, e2, hr, e3, e4, e5, e6, Sax2.upperStartUnit]
  cases s.wants.headD false <;> simp

/-- The unit that is read. -/
def readUnit (root attrs : List (Str × Str)) (name : Str) (c : Option Str) (evs : List Ev) (cpp : Bool) : Collected where
  srcml := readText root attrs name c
  src := sourceOf evs
  contentBegin := (readTag root attrs name).length + 1
  contentEnd := (readTag root attrs name).length + 1 + (c.getD []).length + 1
  insertBegin := name.length + 2
  insertEnd := name.length + 2 + (attrsText (nsDecls root)).length
  loc := (evText evs).count '\n' + (if sourceOf evs ≠ [] ∧ (sourceOf evs).getLast? ≠ some '\n' then 1 else 0)
  cpp := cpp

/-- Between the units of an archive. -/
structure Idle (root : List (Str × Str)) (cpp : Bool) (wants : List Bool) (log : List Upper) (h : Sax2) : Prop where
  start : h.start = .unit
  chars : h.chars = .root
  depth : h.depth = 1
  archive : h.isArchive = true
  called : h.rootCalled = true
  rootNs : h.rootNs = rootNsText root
  cpp : h.cpp = cpp
  wants : h.wants = wants
  log : h.log = log

theorem splitText_nil {fs : List Feed} (h : splitText fs = []) (hp : Pieces fs) : fs = [] := by
  cases fs with
  | nil => rfl
  | cons f fs =>
    exfalso
    by_cases hf : notText f = true
    · rw [splitText_other hf] at h; cases h
    · cases f with
      | text s b =>
        rw [splitText_text] at h
        have : s = [] := by
          cases s with
          | nil => rfl
          | cons c cs => cases h
        subst this
        exact hp.nonempty b (by simp)
      | _ => exact absurd rfl hf

/-- The contents of a unit that is read. -/
theorem content_read {h0 : Sax2} {B : List Str} {E evs : List Ev} {s : Str} {d : Drive} {fs ds : List Feed} (hi : Inside h0)
    (hpend : h0.pend = []) (hdep : h0.depth = B.length) (hB : B ≠ []) (hw : ReadsAs s evs) (he : EscapesOk evs)
    (hq : Quiet h0 B.length evs) (hr : (⟨⟨.content, B, true, E⟩, []⟩ : Drive).run s = some (d, fs)) (hs : splitText ds = fs)
    (hp : Pieces ds) :
    d = ⟨⟨.content, B, true, E ++ evs⟩, []⟩ ∧ ∃ ce, h0.feeds ds = .val { h0 with
      srcml := h0.srcml ++ s
      src := h0.src ++ sourceOf evs
      loc := h0.loc + (evText evs).count '\n'
      contentEnd := ce } := by
  have h1 := hw ⟨.content, [] ++ [['x']], true, []⟩ rfl (by simp) rfl
  simp only [List.nil_append] at h1
  have hm : MidC h0 B.length .content [] [] [] [] h0 := by
    refine ⟨h0.srcml, h0.pend, h0.contentEnd, ?_, by simp [hpend], Or.inl hpend, fun _ => rfl, by simp⟩
    simp [sourceOf, evText, ← hdep]
  have key := runC (n := ['x']) (E := E) hi hB s hm h1 (by simp) he hq
  obtain ⟨pos, st, ev, acc, gs, h', f1, f2, f3, f4, f5, f6⟩ := key
  simp only [List.append_nil, List.nil_append] at f2
  rw [hr] at f2
  cases f2
  simp only [RState.mk.injEq] at f1
  obtain ⟨rfl, g2, _, rfl⟩ := f1
  have hst : st = [] := by
    have := congrArg List.length g2
    simp at this
    exact this
  subst hst
  obtain ⟨X, p, ce, k1, k2, k3, k4, _⟩ := f4
  have ka := k4 rfl
  subst ka
  have kp : p = [] := by
    rcases k3 with k3 | ⟨_, k3⟩
    · exact k3
    · exact absurd rfl k3
  subst kp
  refine ⟨by simp, ce, ?_⟩
  rw [feeds_split ds (by rw [hs]; exact f5) hp.nonempty (by rw [hs]; exact f6), hs, f3, k1]
  simp only [List.append_nil, List.nil_append] at k2
  rw [k2, ← hdep]
  simp [hpend]

/-- The contents of a unit that is skipped. -/
theorem content_skip {h0 : Sax2} {B : List Str} {E evs : List Ev} {s : Str} {d : Drive} {fs ds : List Feed} (hi : Skipping h0)
    (hdep : h0.depth = B.length) (hB : B ≠ []) (hw : ReadsAs s evs)
    (hq : Quiet h0 B.length evs) (hr : (⟨⟨.content, B, true, E⟩, []⟩ : Drive).run s = some (d, fs)) (hs : splitText ds = fs)
    (hp : Pieces ds) : d.r = ⟨.content, B, true, E ++ evs⟩ ∧ ∃ p, h0.feeds ds = .val { h0 with pend := p } := by
  have h1 := hw ⟨.content, [] ++ [['x']], true, []⟩ rfl (by simp) rfl
  simp only [List.nil_append] at h1
  have hm : MidS h0 B.length [] h0 := ⟨h0.pend, by simp [← hdep]⟩
  have key := runS (n := ['x']) (E := E) (acc := []) hi hB s hm h1 (by simp) hq
  obtain ⟨pos, st, ev, acc, gs, h', f1, f2, f3, f4, f5, f6⟩ := key
  simp only [List.append_nil, List.nil_append] at f2
  rw [hr] at f2
  cases f2
  simp only [RState.mk.injEq] at f1
  obtain ⟨rfl, g2, _, rfl⟩ := f1
  have hst : st = [] := by
    have := congrArg List.length g2
    simp at this
    exact this
  subst hst
  obtain ⟨p, k1⟩ := f4
  refine ⟨by simp, p, ?_⟩
  rw [feeds_split ds (by rw [hs]; exact f5) hp.nonempty (by rw [hs]; exact f6), hs, f3, k1]
  simp [← hdep]

/-- The contents of a unit, as a driver reads them. -/
theorem drive_content {B : List Str} {E evs : List Ev} {s : Str} (hB : B ≠ []) (hw : ReadsAs s evs) :
    ∃ fs, (⟨⟨.content, B, true, E⟩, []⟩ : Drive).run s = some (⟨⟨.content, B, true, E ++ evs⟩, []⟩, fs) := by
  have h1 := hw ⟨.content, B, true, E⟩ rfl hB rfl
  obtain ⟨acc, fs, h2⟩ := drive_run s (d := ⟨⟨.content, B, true, E⟩, []⟩) h1
  -- at the end of the contents no token is open
  have h3 : ∀ (s : Str) {d d' : Drive} {fs : List Feed}, d.run s = some (d', fs) → (d.r.pos = .content → d.acc = []) →
      (d'.r.pos = .content → d'.acc = []) := by
    intro s
    induction s with
    | nil => intro d d' fs h hd; cases h; exact hd
    | cons c cs ih =>
      intro d d' fs h hd
      rw [Drive.run] at h
      cases hs : d.step c with
      | none => rw [hs] at h; cases h
      | some x =>
        obtain ⟨d1, f1⟩ := x
        rw [hs] at h
        simp only at h
        cases hr : d1.run cs with
        | none => rw [hr] at h; cases h
        | some y =>
          obtain ⟨d2, f2⟩ := y
          rw [hr] at h
          simp only [Option.some.injEq, Prod.mk.injEq] at h
          obtain ⟨rfl, rfl⟩ := h
          refine ih hr ?_
          intro hp
          obtain ⟨⟨pos, st, ro, evs⟩, acc⟩ := d
          unfold Drive.step at hs
          cases hst : (⟨pos, st, ro, evs⟩ : RState).step c with
          | none => simp only [hst] at hs; cases hs
          | some r' =>
            simp only [hst] at hs
            have key : d1.r = r' := by
              repeat' split at hs
              all_goals (cases hs; rfl)
            rw [key] at hp
            cases pos <;> simp only [RState.step] at hst <;> (repeat' split at hst) <;> (repeat' split at hs) <;>
              first
              | (cases hs; rfl)
              | (cases hst; cases hp)
              | cases hst
              | skip
            all_goals simp_all
  have := h3 s h2 (fun _ => rfl) rfl
  simp only at this
  subst this
  exact ⟨fs, h2⟩

/-- The end of a unit in an archive, when it is read. -/
theorem endElement_unit {h : Sax2} {name : Str} (hn : localName name = "unit".toList) (hd : h.depth = 2) :
    h.endElement name =
      (let s := if h.collect then { h with contentEnd := h.srcml.length + 1, srcml := h.srcml ++ h.pend } else h
       { ({ s with pend := [] }).upperEndUnit with start := .unit, chars := .root, depth := 1 }) := by
  unfold Sax2.endElement
  have hu : ∀ s : Sax2, s.upperEndUnit.depth = s.depth := by
    intro s; unfold Sax2.upperEndUnit; split <;> rfl
  cases hc : h.collect <;> simp [hn, hd, Sax2.endUnit, hu]

/-- The unit is opened in an archive, whether it is the first or not. -/
structure OpensUnit (root : List (Str × Str)) (cpp : Bool) (wants : List Bool) (log : List Upper) (h : Sax2) : Prop where
  opens : ∀ text name attrs next, text = '<' :: name ++ attrsText attrs → attrs ≠ [] → localName name = "unit".toList →
    ("xmlns".toList, CPP_NS_URI) ∉ attrs →
    ∃ s : Sax2, s.isArchive = true ∧ s.depth = 1 ∧ s.rootCalled = true ∧ s.rootNs = rootNsText root ∧ s.cpp = cpp ∧ s.wants = wants ∧
      s.log = log ∧ ({ h with pend := h.pend ++ text }).startTag name attrs next =
        .val { openedUnit s root attrs name next (wants.headD false) with depth := 2 }

theorem Idle.opensUnit {root : List (Str × Str)} {cpp : Bool} {wants : List Bool} {log : List Upper} {h : Sax2}
    (hi : Idle root cpp wants log h) (hp : h.pend = []) (hu : PlainUris root) : OpensUnit root cpp wants log h where
  opens := by
    intro text name attrs next ht hne hn hc
    subst ht
    refine ⟨{ h with pend := h.pend ++ ('<' :: name ++ attrsText attrs) }, hi.archive, hi.depth, hi.called, hi.rootNs, hi.cpp, hi.wants,
      hi.log, ?_⟩
    unfold Sax2.startTag
    simp only [hi.start]
    rw [startUnit_archive (root := root) next (by exact hi.archive) (by simp [hp]) hne (by exact hi.rootNs) hu hc]
    simp [openedUnit, hi.depth, hi.wants]

/-- The text of a unit, as the driver reads it. -/
def unitElement (name : Str) (attrs : List (Str × Str)) (c : Option Str) : Str :=
  '<' :: name ++ attrsText attrs ++ (match c with
    | some s => '>' :: s ++ '<' :: '/' :: name ++ ['>']
    | none => ['/', '>'])

/-- Contents that are well-formed and that the reader can carry. -/
def GoodContent (c : Option Str) (evs : List Ev) : Prop :=
  (match c with
    | some s => ReadsAs s evs
    | none => evs = []) ∧ EscapesOk evs

/-- A unit of an archive, delivered in any way: it is read or skipped, and the handler is ready for the next. -/
theorem unit_feeds {root attrs : List (Str × Str)} {cpp : Bool} {wants : List Bool} {log : List Upper} {h : Sax2} {name : Str}
    {c : Option Str} {evs E : List Ev} {rootName : Str} (ho : OpensUnit root cpp wants log h) (hne : attrs ≠ [])
    (hn : localName name = "unit".toList) (hc : ("xmlns".toList, CPP_NS_URI) ∉ attrs) (hname : ValidName name)
    (hv : ∀ a ∈ attrs, ValidName a.1 ∧ ValidValue a.2) (hd : (attrs.map (·.1)).Nodup) (hg : GoodContent c evs) :
    ∃ fs, (⟨⟨.content, [rootName], true, E⟩, []⟩ : Drive).run (unitElement name attrs c) =
        some (⟨⟨.content, [rootName], true, E ++ (.op name attrs :: evs ++ [.cl name])⟩, []⟩, fs) ∧
      (∃ f gs, fs = f :: gs ∧ notText f = true ∧ isTag f = true) ∧
      (∃ f gs, fs = gs ++ [f] ∧ notText f = true) ∧
      ∀ ds, splitText ds = fs → Pieces ds → ∃ h', h.feeds ds = .val h' ∧
        Idle root (cpp || decide (CPP_NS_URI ∈ declaredUris attrs)) wants.tail (log ++ [.startUnit attrs,
          .endUnit (if wants.headD false then some (readUnit root attrs name c evs (cpp || decide (CPP_NS_URI ∈ declaredUris attrs)))
            else none)]) h' ∧ h'.pend = [] := by
  obtain ⟨hcont, hesc⟩ := hg
  have ho := ho.opens
  revert ho
  generalize wants.headD false = w
  intro ho
  cases c with
  | none =>
    simp only at hcont
    subst hcont
    have hdr := drive_empty ⟨.content, [rootName], true, E⟩ name attrs rfl hname hv hd (by simp)
    refine ⟨_, by unfold unitElement; simpa using hdr, ⟨_, _, rfl, rfl, rfl⟩, ⟨_, [], rfl, rfl⟩, ?_⟩
    intro ds hs hp
    obtain ⟨fa, fb, rfl, e1, e2⟩ := splitText_cut (x := .emptyTag ('<' :: name ++ attrsText attrs) name attrs) rfl ds (a := []) hs
    have ha := splitText_nil e1 hp.left
    have hb := splitText_nil e2 (show Pieces fb from (Pieces.right (a := fa ++ [_]) (by simpa using hp)))
    subst ha; subst hb
    obtain ⟨s, s1, s2, s3, s4, s5, s6, s7, s8⟩ := ho _ name attrs '/' rfl hne hn hc
    simp only [List.nil_append, Sax2.feeds, Sax2.feed, s8]
    refine ⟨_, rfl, ?_, ?_⟩
    · rw [endElement_unit hn (by rfl)]
      subst s5; subst s6; subst s7
      cases w with
      | false =>
        constructor <;> simp [openedUnit, Sax2.upperEndUnit, s1, s3, s4]
      | true =>
        constructor <;> simp [openedUnit, Sax2.upperEndUnit, s1, s3, s4, Sax2.collected, readUnit, readText, sourceOf, evText]
    · rw [endElement_unit hn (by rfl)]
      cases w <;> simp [openedUnit, Sax2.upperEndUnit]
  | some t =>
    simp only at hcont
    have hdr := drive_open ⟨.content, [rootName], true, E⟩ name attrs rfl hname hv hd (by simp)
    obtain ⟨fs, hdc⟩ := drive_content (B := [name, rootName]) (E := E ++ [.op name attrs]) (by simp) hcont
    have hde := drive_close ⟨.content, [name, rootName], true, E ++ [.op name attrs] ++ evs⟩ name [rootName] rfl hname rfl
    have hall := drive_then hdr (drive_then hdc hde)
    refine ⟨.startTag ('<' :: name ++ attrsText attrs) name attrs :: (fs ++ [.endTag ('<' :: '/' :: name ++ ['>']) name]), ?_,
      ⟨_, _, rfl, rfl, rfl⟩, ⟨.endTag ('<' :: '/' :: name ++ ['>']) name,
      .startTag ('<' :: name ++ attrsText attrs) name attrs :: fs, by simp, rfl⟩, ?_⟩
    · unfold unitElement
      simpa using hall
    intro ds hs hp
    obtain ⟨fa, fb, rfl, e1, e2⟩ := splitText_cut (x := .startTag ('<' :: name ++ attrsText attrs) name attrs) rfl ds (a := [])
      (b := fs ++ [.endTag ('<' :: '/' :: name ++ ['>']) name]) (by simpa using hs)
    have ha := splitText_nil e1 hp.left
    subst ha
    have hpb : Pieces fb := (Pieces.right (a := [_]) (by simpa using hp))
    obtain ⟨fc, fd, rfl, e3, e4⟩ := splitText_cut (x := .endTag ('<' :: '/' :: name ++ ['>']) name) rfl fb (a := fs) (b := []) e2
    have hd2 := splitText_nil e4 (show Pieces fd from (Pieces.right (a := fc ++ [_]) (by simpa using hpb)))
    subst hd2
    obtain ⟨s, s1, s2, s3, s4, s5, s6, s7, s8⟩ := ho _ name attrs '>' rfl hne hn hc
    rw [List.nil_append, Sax2.feeds, Sax2.feed, s8]
    simp only
    subst s5; subst s6; subst s7
    cases w with
    | false =>
      obtain ⟨_, p, hk⟩ := content_skip (h0 := { openedUnit s root attrs name '>' false with depth := 2 }) (B := [name, rootName])
        ⟨Or.inl (by simp [openedUnit]), by simp [openedUnit]⟩ rfl (by simp) hcont (Or.inl ⟨s1, by simp⟩) hdc e3 hpb.left
      refine ⟨_, by rw [feeds_append _ _ hk]; rfl, ?_, ?_⟩
      · rw [endElement_unit hn (by rfl)]
        constructor <;> simp [openedUnit, Sax2.upperEndUnit, s1, s3, s4]
      · rw [endElement_unit hn (by rfl)]
        simp [openedUnit, Sax2.upperEndUnit]
    | true =>
      obtain ⟨_, ce, hk⟩ := content_read (h0 := { openedUnit s root attrs name '>' true with depth := 2 }) (B := [name, rootName])
        ⟨by simp [openedUnit], by simp [openedUnit], by simp [openedUnit], by simp [openedUnit], Or.inl rfl⟩
        rfl rfl (by simp) hcont hesc (Or.inl ⟨s1, by simp⟩) hdc e3 hpb.left
      refine ⟨_, by rw [feeds_append _ _ hk]; rfl, ?_, ?_⟩
      · rw [endElement_unit hn (by rfl)]
        constructor <;>
          simp [openedUnit, Sax2.upperEndUnit, s1, s3, s4, Sax2.collected, readUnit, readText] <;> omega
      · rw [endElement_unit hn (by rfl)]
        simp [openedUnit, Sax2.upperEndUnit]

end Srcml
