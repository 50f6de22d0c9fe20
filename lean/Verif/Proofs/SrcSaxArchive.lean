import Verif.Proofs.SrcSaxUnit
/-
A whole archive, through the SAX layer.
-/
set_option linter.unusedSimpArgs false
namespace Srcml
open Spec

/-- After the start tag of the root, before the first unit; the macro list was read. -/
structure First (root : List (Str × Str)) (cpp : Bool) (wants : List Bool) (log : List Upper) (h : Sax2) : Prop where
  start : h.start = .first
  chars : h.chars = .unit
  collect : h.collect = true
  depth : h.depth = 1
  archive : h.isArchive = false
  called : h.rootCalled = false
  rootAttrs : h.rootAttrs = root
  rootNs : h.rootNs = rootNsText root
  cpp : h.cpp = cpp
  wants : h.wants = wants
  log : h.log = log

theorem First.opensUnit {root : List (Str × Str)} {cpp : Bool} {wants : List Bool} {log : List Upper} {h : Sax2}
    (hi : First root cpp wants log h) (hp : h.pend = []) (hu : PlainUris root) :
    OpensUnit root cpp wants (log ++ [.startRoot root]) h where
  opens := by
    intro text name attrs next ht hne hn hc
    subst ht
    have hm : localName name ≠ "macro-list".toList := by rw [hn]; decide
    refine ⟨{ h with
      pend := h.pend ++ ('<' :: name ++ attrsText attrs)
      isArchive := true
      start := .element
      rootCalled := true
      log := h.log ++ [.startRoot h.rootAttrs]
      loc := 0 }, rfl, hi.depth, rfl, hi.rootNs, hi.cpp, hi.wants, by rw [← hi.log, ← hi.rootAttrs], ?_⟩
    unfold Sax2.startTag
    simp only [hi.start]
    unfold Sax2.firstStartElement
    rw [if_neg hm]
    simp only [hn, decide_true, Sax2.reparseRoot, if_true]
    rw [startUnit_archive (root := root) next (by rfl) (by simp [hp]) hne (by exact hi.rootNs) hu hc]
    simp [openedUnit, hi.depth, hi.wants]

/-- The handler is ready for a unit of an archive. -/
def Waiting (root : List (Str × Str)) (cpp : Bool) (wants : List Bool) (log : List Upper) (h : Sax2) : Prop :=
  (Idle root cpp wants log h ∨ ∃ l, log = l ++ [.startRoot root] ∧ First root cpp wants l h) ∧ h.pend = []

theorem Waiting.opensUnit {root : List (Str × Str)} {cpp : Bool} {wants : List Bool} {log : List Upper} {h : Sax2}
    (hi : Waiting root cpp wants log h) (hu : PlainUris root) : OpensUnit root cpp wants log h := by
  obtain ⟨hi | ⟨l, rfl, hi⟩, hp⟩ := hi
  · exact hi.opensUnit hp hu
  · exact hi.opensUnit hp hu

/-- White space between units. -/
theorem idle_text {root : List (Str × Str)} {cpp : Bool} {wants : List Bool} {log : List Upper} {h : Sax2}
    (hi : Idle root cpp wants log h) (t : Str) (b : Bool) :
    ∃ h', h.feed (.text t b) = .val h' ∧ Idle root cpp wants log h' ∧ (b = true → h'.pend = []) := by
  cases b with
  | true =>
    refine ⟨{ h with pend := [] }, by simp [Sax2.feed, Sax2.characters, hi.chars], ?_, fun _ => rfl⟩
    exact ⟨hi.start, hi.chars, hi.depth, hi.archive, hi.called, hi.rootNs, hi.cpp, hi.wants, hi.log⟩
  | false =>
    refine ⟨{ h with pend := t }, by simp [Sax2.feed, Sax2.characters, hi.chars], ?_, by simp⟩
    exact ⟨hi.start, hi.chars, hi.depth, hi.archive, hi.called, hi.rootNs, hi.cpp, hi.wants, hi.log⟩

theorem first_text {root : List (Str × Str)} {cpp : Bool} {wants : List Bool} {log : List Upper} {h : Sax2}
    (hi : First root cpp wants log h) (hp : h.pend = []) (t : Str) (b : Bool) (ht : t ≠ []) (hg : t.head? ≠ some '>') :
    ∃ h', h.feed (.text t b) = .val h' ∧ First root cpp wants log h' ∧ h'.pend = [] := by
  obtain ⟨c, cs, rfl⟩ : ∃ c cs, t = c :: cs := by cases t with
    | nil => exact absurd rfl ht
    | cons c cs => exact ⟨c, cs, rfl⟩
  have hc : c ≠ '>' := by simpa using hg
  refine ⟨{ h with
      srcml := h.srcml ++ c :: cs
      pend := []
      src := h.src ++ c :: cs
      loc := h.loc + (c :: cs).count '\n' }, ?_, ?_, rfl⟩
  · cases b <;> simp [Sax2.feed, Sax2.characters, Sax2.charactersUnit, hi.chars, hi.collect, hp, hc]
  · exact ⟨hi.start, hi.chars, hi.collect, hi.depth, hi.archive, hi.called, hi.rootAttrs, hi.rootNs, hi.cpp, hi.wants, hi.log⟩

/-- Text that is white, in front of a tag. -/
theorem waiting_white {root : List (Str × Str)} {cpp : Bool} {wants : List Bool} {log : List Upper} (x : Feed) (hx : isTag x = true)
    (ds : List Feed) : ∀ {h : Sax2} {rest : List Feed}, Waiting root cpp wants log h → Pieces (ds ++ x :: rest) →
    (∀ f ∈ ds, ∃ t b, f = .text t b ∧ ∀ c ∈ t, c = '\n') → ∃ h', h.feeds ds = .val h' ∧ Waiting root cpp wants log h' := by
  -- the pending text matters only at the end
  have idle : ∀ ds : List Feed, ∀ {h : Sax2} {rest : List Feed}, Idle root cpp wants log h → (ds = [] → h.pend = []) →
      Pieces (ds ++ x :: rest) → (∀ f ∈ ds, ∃ t b, f = .text t b ∧ ∀ c ∈ t, c = '\n') →
      ∃ h', h.feeds ds = .val h' ∧ Waiting root cpp wants log h' := by
    intro ds
    induction ds with
    | nil => intro h rest hi hp _ _; exact ⟨h, rfl, Or.inl hi, hp rfl⟩
    | cons f fs ih =>
      intro h rest hi _ hP hf
      obtain ⟨t, b, rfl, ht⟩ := hf f (by simp)
      obtain ⟨h1, e1, e2, e3⟩ := idle_text hi t b
      obtain ⟨h2, e4, e5⟩ := ih (h := h1) (rest := rest) e2 (by
        intro hnil
        subst hnil
        exact e3 (hP.white [] t b x rest rfl hx (fun c hc => Or.inr (ht c hc)))) (Pieces.right (a := [_]) hP)
        (fun g hg => hf g (by simp [hg]))
      exact ⟨h2, by rw [Sax2.feeds, e1]; exact e4, e5⟩
  have first : ∀ ds : List Feed, ∀ {h : Sax2} {l : List Upper} {rest : List Feed}, First root cpp wants l h → h.pend = [] →
      Pieces (ds ++ x :: rest) → (∀ f ∈ ds, ∃ t b, f = .text t b ∧ ∀ c ∈ t, c = '\n') →
      ∃ h', h.feeds ds = .val h' ∧ First root cpp wants l h' ∧ h'.pend = [] := by
    intro ds
    induction ds with
    | nil => intro h l rest hi hp _ _; exact ⟨h, rfl, hi, hp⟩
    | cons f fs ih =>
      intro h l rest hi hp hP hf
      obtain ⟨t, b, rfl, ht⟩ := hf f (by simp)
      have htne : t ≠ [] := by rintro rfl; exact hP.nonempty b (by simp)
      obtain ⟨h1, e1, e2, e3⟩ := first_text hi hp t b htne (by
        cases t with
        | nil => simp
        | cons c cs => rw [ht c (by simp)]; simp)
      obtain ⟨h2, e4, e5⟩ := ih (h := h1) (rest := rest) e2 e3 (Pieces.right (a := [_]) hP) (fun g hg => hf g (by simp [hg]))
      exact ⟨h2, by rw [Sax2.feeds, e1]; exact e4, e5⟩
  intro h rest hw hP hf
  obtain ⟨hi | ⟨l, rfl, hi⟩, hp⟩ := hw
  · exact idle ds hi (fun _ => hp) hP hf
  · obtain ⟨h', e1, e2, e3⟩ := first ds hi hp hP hf
    exact ⟨h', e1, Or.inr ⟨l, rfl, e2⟩, e3⟩

/-- A unit, as it stands in the archive. -/
structure UnitText where
  name : Str
  attrs : List (Str × Str)
  content : Option Str
  evs : List Ev

/-- The unit can be read from an archive. -/
structure UnitText.Good (u : UnitText) : Prop where
  attrs : u.attrs ≠ []
  unit : localName u.name = "unit".toList
  cpp : ("xmlns".toList, CPP_NS_URI) ∉ u.attrs
  name : ValidName u.name
  values : ∀ a ∈ u.attrs, ValidName a.1 ∧ ValidValue a.2
  nodup : (u.attrs.map (·.1)).Nodup
  content : GoodContent u.content u.evs

/-- The events of a unit. -/
def UnitText.events (u : UnitText) : List Ev := .op u.name u.attrs :: u.evs ++ [.cl u.name]

/-- The calls for a list of units: `cpp`: one of the tags up to here declares the cpp namespace. -/
def unitCalls (root : List (Str × Str)) : Bool → List Bool → List UnitText → List Upper
  | _, _, [] => []
  | cpp, wants, u :: us =>
    let cpp := cpp || decide (CPP_NS_URI ∈ declaredUris u.attrs)
    [.startUnit u.attrs, .endUnit (if wants.headD false then some (readUnit root u.attrs u.name u.content u.evs cpp) else none)] ++
      unitCalls root cpp wants.tail us

theorem white_then {r : RState} {s : Str} {d' : Drive} {fs : List Feed} (hp : r.pos = .content) (hs : r.stack ≠ [])
    (h : (⟨{ r with evs := r.evs ++ [.ch '\n', .ch '\n'] }, []⟩ : Drive).run s = some (d', fs)) :
    (⟨r, []⟩ : Drive).run ('\n' :: '\n' :: s) = some (d', [.text ['\n'] true, .text ['\n'] true] ++ fs) := by
  have h1 := drive_newline r hp hs
  have h2 := drive_newline { r with evs := r.evs ++ [.ch '\n'] } hp hs
  have := drive_then h1 (drive_then h2 (by simpa using h))
  simpa using this

/-- One unit, after an empty line. -/
theorem chunk_feeds {root : List (Str × Str)} {cpp : Bool} {wants : List Bool} {log : List Upper} {u : UnitText}
    {E : List Ev} {rootName : Str} (hu : PlainUris root) (hg : u.Good) :
    ∃ fs, (⟨⟨.content, [rootName], true, E⟩, []⟩ : Drive).run ('\n' :: '\n' :: unitElement u.name u.attrs u.content) =
        some (⟨⟨.content, [rootName], true, E ++ [.ch '\n', .ch '\n'] ++ u.events⟩, []⟩, fs) ∧
      (∃ f gs, fs = gs ++ [f] ∧ notText f = true) ∧
      ∀ h ds, Waiting root cpp wants log h → splitText ds = fs → Pieces ds → ∃ h', h.feeds ds = .val h' ∧
        Waiting root (cpp || decide (CPP_NS_URI ∈ declaredUris u.attrs)) wants.tail (log ++ unitCalls root cpp wants [u]) h' ∧
        Idle root (cpp || decide (CPP_NS_URI ∈ declaredUris u.attrs)) wants.tail (log ++ unitCalls root cpp wants [u]) h' := by
  -- the driver does not depend on the handler
  obtain ⟨fs0, k1, _⟩ := unit_feeds (root := root) (cpp := cpp) (wants := wants) (log := log) (h := { start := .unit, isArchive := true, depth := 1, rootCalled := true, rootNs := rootNsText root, cpp := cpp, wants := wants, log := log, chars := .root }) (E := E ++ [.ch '\n', .ch '\n']) (rootName := rootName)
    (Idle.opensUnit ⟨rfl, rfl, rfl, rfl, rfl, rfl, rfl, rfl, rfl⟩ rfl hu) hg.attrs hg.unit hg.cpp hg.name hg.values hg.nodup hg.content
  have hdr := white_then (r := ⟨.content, [rootName], true, E⟩) rfl (by simp) k1
  have hlast : ∃ f gs, [Feed.text ['\n'] true, .text ['\n'] true] ++ fs0 = gs ++ [f] ∧ notText f = true := by
    obtain ⟨fs1, m1, _, ⟨f, gs, m3, m4⟩, _⟩ := unit_feeds (root := root) (cpp := cpp) (wants := wants) (log := log) (h := { start := .unit, isArchive := true, depth := 1, rootCalled := true, rootNs := rootNsText root, cpp := cpp, wants := wants, log := log, chars := .root }) (E := E ++ [.ch '\n', .ch '\n']) (rootName := rootName)
      (Idle.opensUnit ⟨rfl, rfl, rfl, rfl, rfl, rfl, rfl, rfl, rfl⟩ rfl hu) hg.attrs hg.unit hg.cpp hg.name hg.values hg.nodup hg.content
    rw [k1] at m1
    cases m1
    exact ⟨f, [.text ['\n'] true, .text ['\n'] true] ++ gs, by rw [m3]; simp, m4⟩
  refine ⟨_, hdr, hlast, ?_⟩
  intro h ds hw hs hp
  obtain ⟨fs1, m1, ⟨f, gs, m2, m3, m4⟩, _⟩ := unit_feeds (E := E ++ [.ch '\n', .ch '\n']) (rootName := rootName) (hw.opensUnit hu)
    hg.attrs hg.unit hg.cpp hg.name hg.values hg.nodup hg.content
  rw [k1] at m1
  cases m1
  obtain ⟨da, db, rfl, e1, e2⟩ := splitText_cut m3 ds (a := [.text ['\n'] true, .text ['\n'] true]) (b := gs) (by rw [hs, m2])
  have htx := splitText_chars (s := ['\n', '\n']) da e1
  obtain ⟨h1, e3, e4⟩ := waiting_white f m4 da (rest := db) hw hp (by
    intro g hg
    obtain ⟨t, b, q1, q2⟩ := htx g hg
    exact ⟨t, b, q1, fun c hc => by simpa using q2 c hc⟩)
  obtain ⟨fs2, m5, _, _, m6⟩ := unit_feeds (E := E ++ [.ch '\n', .ch '\n']) (rootName := rootName) (e4.opensUnit hu)
    hg.attrs hg.unit hg.cpp hg.name hg.values hg.nodup hg.content
  rw [k1] at m5
  cases m5
  obtain ⟨h2, e5, e6, e7⟩ := m6 (f :: db) (by rw [splitText_other m3, e2, m2]) hp.right
  refine ⟨h2, by rw [feeds_append _ _ e3]; exact e5, ⟨Or.inl ?_, e7⟩, ?_⟩ <;> simpa [unitCalls] using e6

/-- The flag after a list of units. -/
def cppAfter (cpp : Bool) (us : List UnitText) : Bool := us.foldl (fun b u => b || decide (CPP_NS_URI ∈ declaredUris u.attrs)) cpp

/-- All units. -/
theorem chunks_feeds {root : List (Str × Str)} {rootName : Str} (hu : PlainUris root) (us : List UnitText) :
    ∀ {cpp : Bool} {wants : List Bool} {log : List Upper} {E : List Ev}, (∀ u ∈ us, u.Good) →
    ∃ fs, (⟨⟨.content, [rootName], true, E⟩, []⟩ : Drive).run
          (us.flatMap (fun u => '\n' :: '\n' :: unitElement u.name u.attrs u.content)) =
        some (⟨⟨.content, [rootName], true, E ++ us.flatMap (fun u => [.ch '\n', .ch '\n'] ++ u.events)⟩, []⟩, fs) ∧
      ∀ h ds rest, Waiting root cpp wants log h → splitText ds = fs ++ rest → Pieces ds → ∃ h' da db, ds = da ++ db ∧
        splitText db = rest ∧ h.feeds da = .val h' ∧
        Waiting root (cppAfter cpp us) (wants.drop us.length) (log ++ unitCalls root cpp wants us) h' ∧
        (us ≠ [] → Idle root (cppAfter cpp us) (wants.drop us.length) (log ++ unitCalls root cpp wants us) h') := by
  induction us with
  | nil =>
    intro cpp wants log E _
    refine ⟨[], by simp [Drive.run], ?_⟩
    intro h ds rest hw hs hp
    exact ⟨h, [], ds, rfl, by simpa using hs, rfl, by simpa [unitCalls, cppAfter] using hw, fun h => absurd rfl h⟩
  | cons u us ih =>
    intro cpp wants log E hg
    obtain ⟨f1, k1, ⟨x, gs, k2, k3⟩, k4⟩ := chunk_feeds (cpp := cpp) (wants := wants) (log := log) (E := E) (rootName := rootName) hu
      (hg u (by simp))
    obtain ⟨f2, m1, m2⟩ := ih (cpp := cpp || decide (CPP_NS_URI ∈ declaredUris u.attrs)) (wants := wants.tail)
      (log := log ++ unitCalls root cpp wants [u]) (E := E ++ [.ch '\n', .ch '\n'] ++ u.events) (fun x hx => hg x (by simp [hx]))
    refine ⟨f1 ++ f2, ?_, ?_⟩
    · have := drive_then k1 m1
      simpa using this
    intro h ds rest hw hs hp
    obtain ⟨da, db, rfl, e1, e2⟩ := splitText_cut k3 ds (a := gs) (b := f2 ++ rest) (by rw [hs, k2]; simp)
    have hpa : Pieces (da ++ [x]) := Pieces.left (b := db) (by simpa using hp)
    obtain ⟨h1, e3, e4, e5⟩ := k4 h (da ++ [x]) hw (by rw [splitText_append, e1, splitText_other k3, k2]; rfl) hpa
    obtain ⟨h2, dc, dd, q1, q2, q3, q4, q5⟩ := m2 h1 db rest e4 e2 (Pieces.right (a := da ++ [x]) (by simpa using hp))
    subst q1
    have hdrop : wants.drop (u :: us).length = wants.tail.drop us.length := by cases wants <;> simp
    have hlog : log ++ unitCalls root cpp wants (u :: us) = log ++ unitCalls root cpp wants [u] ++
        unitCalls root (cpp || decide (CPP_NS_URI ∈ declaredUris u.attrs)) wants.tail us := by simp [unitCalls]
    rw [hdrop, hlog]
    have hw2 : Waiting root (cppAfter cpp (u :: us)) (wants.tail.drop us.length) (log ++ unitCalls root cpp wants [u] ++
        unitCalls root (cpp || decide (CPP_NS_URI ∈ declaredUris u.attrs)) wants.tail us) h2 := q4
    refine ⟨h2, da ++ x :: dc, dd, by simp, q2, ?_, hw2, ?_⟩
    · rw [show da ++ x :: dc = (da ++ [x]) ++ dc by simp, feeds_append _ _ e3]
      exact q3
    · intro _
      by_cases hus : us = []
      · subst hus
        simp only [List.flatMap_nil, Drive.run, Option.some.injEq, Prod.mk.injEq] at m1
        cases dc with
        | nil =>
          cases q3
          simpa [unitCalls, cppAfter] using e5
        | cons y ys =>
          rcases hw2.1 with hi | ⟨l, q6, q7⟩
          · exact hi
          · exfalso
            have hsp : splitText (y :: ys) = [] := by
              have : splitText (y :: ys ++ dd) = f2 ++ rest := e2
              rw [splitText_append, q2, ← m1.2] at this
              exact List.append_cancel_right this
            have hpp : Pieces (y :: ys) := Pieces.left (b := dd) (Pieces.right (a := da ++ [x]) (by simpa using hp))
            have := splitText_nil hsp hpp
            cases this
      · exact q5 hus

/-! ### Macro list -/

/-- The calls for the macro list. -/
def metaCalls : List Str → List Upper
  | t :: ty :: rest => .metaTag [("token".toList, t), ("type".toList, ty)] :: metaCalls rest
  | _ => []

theorem first_macro {root : List (Str × Str)} {cpp : Bool} {wants : List Bool} {log : List Upper} {h : Sax2}
    (hi : First root cpp wants log h) (text : Str) (attrs : List (Str × Str)) :
    ∃ h', h.feed (.emptyTag text "macro-list".toList attrs) = .val h' ∧ First root cpp wants (log ++ [.metaTag attrs]) h' ∧
      h'.pend = [] := by
  have hm : localName "macro-list".toList = "macro-list".toList := by decide
  have hx : ¬ localName "macro-list".toList = "unit".toList := by decide
  have e : h.feed (.emptyTag text "macro-list".toList attrs) = .val (({ h with
      log := h.log ++ [.metaTag attrs]
      pend := h.pend ++ text ++ ['/'] ++ ['>']
      depth := h.depth + 1 } : Sax2).endElement "macro-list".toList) := by
    unfold Sax2.feed Sax2.startTag
    simp only [hi.start]
    unfold Sax2.firstStartElement
    rw [if_pos hm]
  rw [endElement_inner (Or.inr hx)] at e
  refine ⟨_, e, ?_, rfl⟩
  exact ⟨hi.start, hi.chars, hi.collect, by simp [hi.depth], hi.archive, hi.called, hi.rootAttrs, hi.rootNs, hi.cpp, hi.wants,
    by simp [hi.log]⟩

theorem macroText_eq (t ty : Str) : macroText t ty =
    '<' :: "macro-list".toList ++ attrsText [("token".toList, t), ("type".toList, ty)] ++ ['/', '>'] := by
  have e1 : "<macro-list".toList = '<' :: "macro-list".toList := rfl
  have e2 : "/>".toList = ['/', '>'] := rfl
  have e3 : attrsText [("token".toList, t), ("type".toList, ty)] = attrText "token".toList t ++ attrText "type".toList ty := by
    unfold attrsText
    rw [List.flatMap_cons, List.flatMap_cons, List.flatMap_nil, List.append_nil]
  unfold macroText
  rw [e1, e2, e3, ← List.append_assoc]

theorem macros_feeds {root : List (Str × Str)} {rootName : Str} (l : List Str) (hv : ∀ x ∈ l, ValidValue x) (cpp : Bool)
    (wants : List Bool) (log : List Upper) (E : List Ev) :
    ∃ fs, (⟨⟨.content, [rootName], true, E⟩, []⟩ : Drive).run (macrosText l) =
        some (⟨⟨.content, [rootName], true, E ++ macroEvents l⟩, []⟩, fs) ∧
      ∀ h ds rest, First root cpp wants log h → h.pend = [] → splitText ds = fs ++ rest → Pieces ds → ∃ h' da db, ds = da ++ db ∧
        splitText db = rest ∧ h.feeds da = .val h' ∧ First root cpp wants (log ++ metaCalls l) h' ∧ h'.pend = [] := by
  match l with
  | [] =>
    refine ⟨[], by simp [macrosText, Drive.run, macroEvents], ?_⟩
    intro h ds rest hi hp hs _
    exact ⟨h, [], ds, rfl, by simpa using hs, rfl, by simpa [metaCalls] using hi, hp⟩
  | [_] =>
    refine ⟨[], by simp [macrosText, Drive.run, macroEvents], ?_⟩
    intro h ds rest hi hp hs _
    exact ⟨h, [], ds, rfl, by simpa using hs, rfl, by simpa [metaCalls] using hi, hp⟩
  | t :: ty :: r =>
    have hvn : ∀ a ∈ [("token".toList, t), ("type".toList, ty)], ValidName a.1 ∧ ValidValue a.2 := by
      intro a ha
      simp only [List.mem_cons, List.not_mem_nil, or_false] at ha
      rcases ha with rfl | rfl
      · exact ⟨show ValidName "token".toList by decide, hv _ (by simp)⟩
      · exact ⟨show ValidName "type".toList by decide, hv _ (by simp)⟩
    have k1 := drive_empty ⟨.content, [rootName], true, E⟩ "macro-list".toList [("token".toList, t), ("type".toList, ty)] rfl
      (by decide) hvn (show ["token".toList, "type".toList].Nodup by decide) (by simp)
    obtain ⟨fs, k2, k3⟩ := macros_feeds (root := root) (rootName := rootName) r (fun x hx => hv x (by simp [hx])) cpp wants
      (log ++ [.metaTag [("token".toList, t), ("type".toList, ty)]])
      (E ++ [.op "macro-list".toList [("token".toList, t), ("type".toList, ty)], .cl "macro-list".toList])
    refine ⟨.emptyTag ('<' :: "macro-list".toList ++ attrsText [("token".toList, t), ("type".toList, ty)]) "macro-list".toList
      [("token".toList, t), ("type".toList, ty)] :: fs, ?_, ?_⟩
    · rw [macrosText, macroText_eq, drive_then k1 k2, macroEvents]
      simp only [List.append_assoc, List.cons_append, List.nil_append]
    intro h ds rest hi hp hs hP
    obtain ⟨da, db, rfl, e1, e2⟩ := splitText_cut (x := .emptyTag ('<' :: "macro-list".toList ++
      attrsText [("token".toList, t), ("type".toList, ty)]) "macro-list".toList [("token".toList, t), ("type".toList, ty)])
      (by rfl) ds (a := []) (b := fs ++ rest) hs
    have ha := splitText_nil e1 hP.left
    subst ha
    obtain ⟨h1, m1, m2, m3⟩ := first_macro hi ('<' :: "macro-list".toList ++ attrsText [("token".toList, t), ("type".toList, ty)])
      [("token".toList, t), ("type".toList, ty)]
    obtain ⟨h2, dc, dd, rfl, m4, m5, m6, m7⟩ := k3 h1 db rest m2 m3 e2 (Pieces.right (a := [_]) (by simpa using hP))
    refine ⟨h2, _ :: dc, dd, rfl, m4, ?_, ?_, m7⟩
    · rw [Sax2.feeds, m1]; exact m5
    · simpa [metaCalls] using m6

/-! ### The root -/

/-- Before the root. -/
structure Before (wants : List Bool) (h : Sax2) : Prop where
  start : h.start = .root
  chars : h.chars = .unit
  collect : h.collect = true
  others : h.others = true
  depth : h.depth = 0
  archive : h.isArchive = false
  called : h.rootCalled = false
  rootNs : h.rootNs = []
  cpp : h.cpp = false
  wants : h.wants = wants
  log : h.log = []

theorem before_root {wants : List Bool} {h : Sax2} (hi : Before wants h) (text name : Str) (root : List (Str × Str))
    (hc : ("xmlns".toList, CPP_NS_URI) ∉ root) :
    ∃ h', h.feed (.startTag text name root) = .val h' ∧ First root (decide (CPP_NS_URI ∈ declaredUris root)) wants [] h' ∧ h'.pend = [] := by
  have hne : ¬ ('>' : Char) = '/' := by decide
  unfold Sax2.feed Sax2.startTag
  simp only [hi.start]
  unfold Sax2.startRoot Sax2.startUnit
  simp only [hne, hi.collect, hi.archive, if_true, if_false, Bool.false_eq_true, false_and]
  rw [if_neg hc]
  refine ⟨_, rfl, ⟨rfl, rfl, rfl, by simp [hi.depth], rfl, hi.called, rfl, by simp [hi.rootNs], by simp [hi.cpp], hi.wants, hi.log⟩, rfl⟩

/-- The end of the root. -/
theorem idle_end {root : List (Str × Str)} {cpp : Bool} {wants : List Bool} {log : List Upper} {h : Sax2}
    (hi : Idle root cpp wants log h) (text name : Str) (hn : localName name = "unit".toList) :
    ∃ h', h.feed (.endTag text name) = .val h' ∧ h'.log = log ++ [.endRoot] ∧ h'.depth = 0 ∧ h'.isArchive = true := by
  refine ⟨_, rfl, ?_⟩
  unfold Sax2.endElement
  cases hc : h.collect <;> simp [hn, hi.depth, hi.archive, Sax2.endRoot, hi.called, hi.log]

/-- The text of an archive after its prolog. -/
def archiveBody (rootName : Str) (root : List (Str × Str)) (l : List Str) (us : List UnitText) : Str :=
  '<' :: rootName ++ attrsText root ++ ['>'] ++ (macrosText l ++
    (us.flatMap (fun u => '\n' :: '\n' :: unitElement u.name u.attrs u.content) ++
      ('\n' :: '\n' :: ('<' :: '/' :: rootName ++ ['>']) ++ ['\n'])))

/-- Settings of the root that can be read back. -/
structure GoodRoot (rootName : Str) (root : List (Str × Str)) (l : List Str) : Prop where
  unit : localName rootName = "unit".toList
  cpp : ("xmlns".toList, CPP_NS_URI) ∉ root
  name : ValidName rootName
  values : ∀ a ∈ root, ValidName a.1 ∧ ValidValue a.2
  nodup : (root.map (·.1)).Nodup
  uris : PlainUris root
  macros : ∀ x ∈ l, ValidValue x

/-- All calls for an archive. -/
def archiveCalls (root : List (Str × Str)) (l : List Str) (wants : List Bool) (us : List UnitText) : List Upper :=
  metaCalls l ++ .startRoot root :: unitCalls root (decide (CPP_NS_URI ∈ declaredUris root)) wants us ++ [.endRoot]

/-- An archive with units. -/
theorem archive_feeds {rootName : Str} {root : List (Str × Str)} {l : List Str} {us : List UnitText} {wants : List Bool}
    (hr : GoodRoot rootName root l) (hg : ∀ u ∈ us, u.Good) (hne : us ≠ []) :
    ∃ fs r, (⟨{}, []⟩ : Drive).run (archiveBody rootName root l us) = some (⟨r, []⟩, fs) ∧ r.pos = .content ∧ r.stack = [] ∧
      (∃ f gs, fs = f :: gs ∧ notText f = true) ∧
      ∀ h ds, Before wants h → splitText ds = fs → Pieces ds → ∃ h', h.feeds ds = .val h' ∧
        h'.log = archiveCalls root l wants us ∧ h'.isArchive = true := by
  have d1 := drive_open {} rootName root rfl hr.name hr.values hr.nodup (fun _ => rfl)
  obtain ⟨f2, d2, k2⟩ := macros_feeds (root := root) (rootName := rootName) l hr.macros (decide (CPP_NS_URI ∈ declaredUris root)) wants []
    [.op rootName root]
  obtain ⟨f3, d3, k3⟩ := chunks_feeds (rootName := rootName) hr.uris us (cpp := decide (CPP_NS_URI ∈ declaredUris root))
    (wants := wants) (log := metaCalls l ++ [.startRoot root]) (E := [.op rootName root] ++ macroEvents l) hg
  have d4 := white_then (r := ⟨.content, [rootName], true, [.op rootName root] ++ macroEvents l ++
      us.flatMap (fun u => [.ch '\n', .ch '\n'] ++ u.events)⟩) rfl (by simp) (drive_close _ rootName [] rfl hr.name rfl)
  have d5 := drive_outside ⟨.content, [], true, [.op rootName root] ++ macroEvents l ++
      us.flatMap (fun u => [.ch '\n', .ch '\n'] ++ u.events) ++ [.ch '\n', .ch '\n'] ++ [.cl rootName]⟩ rfl rfl
  have hall := drive_then d1 (drive_then d2 (drive_then d3 (drive_then d4 d5)))
  refine ⟨_, _, hall, rfl, rfl, ⟨_, _, rfl, rfl⟩, ?_⟩
  intro h ds hb hs hp
  obtain ⟨da, db, rfl, e1, e2⟩ := splitText_cut (x := .startTag ('<' :: rootName ++ attrsText root) rootName root) (by rfl) ds (a := []) hs
  have ha := splitText_nil e1 hp.left
  subst ha
  obtain ⟨h1, m1, m2, m3⟩ := before_root hb ('<' :: rootName ++ attrsText root) rootName root hr.cpp
  have hpb : Pieces db := Pieces.right (a := [_]) (by simpa using hp)
  obtain ⟨h2, dc, dd, rfl, n1, n2, n3, n4⟩ := k2 h1 db _ m2 m3 e2 hpb
  simp only [List.nil_append] at n3
  obtain ⟨h3, de, df, rfl, n5, n6, n7, n8⟩ := k3 h2 dd _ ⟨Or.inr ⟨_, rfl, n3⟩, n4⟩ n1 hpb.right
  have hidle := n8 hne
  have hpf : Pieces df := hpb.right.right
  obtain ⟨dg, dh, rfl, e3, e4⟩ := splitText_cut (x := .endTag ('<' :: '/' :: rootName ++ ['>']) rootName) (by rfl) df
    (a := [.text ['\n'] true, .text ['\n'] true]) (b := [.blank ['\n']]) (by rw [n5]; simp)
  obtain ⟨h4, m4, m5, m6⟩ := waiting_white (.endTag ('<' :: '/' :: rootName ++ ['>']) rootName) rfl dg (rest := dh) n7 hpf (by
    intro g hg
    obtain ⟨t, b, q1, q2⟩ := splitText_chars (s := ['\n', '\n']) dg e3 g hg
    exact ⟨t, b, q1, fun c hc => by simpa using q2 c hc⟩)
  -- the handler is still between units
  have hidle4 : Idle root (cppAfter (decide (CPP_NS_URI ∈ declaredUris root)) us) (wants.drop us.length)
      (metaCalls l ++ [.startRoot root] ++ unitCalls root (decide (CPP_NS_URI ∈ declaredUris root)) wants us) h4 := by
    have hidl : ∀ (dg : List Feed) {x y : Sax2} {c : Bool} {w : List Bool} {lg : List Upper}, Idle root c w lg x →
        (∀ f ∈ dg, ∃ t b, f = .text t b) → x.feeds dg = .val y → Idle root c w lg y := by
      intro dg
      induction dg with
      | nil => intro x y c w lg hx _ h; cases h; exact hx
      | cons f fs ih =>
        intro x y c w lg hx hf h
        obtain ⟨t, b, rfl⟩ := hf f (by simp)
        obtain ⟨z, z1, z2, _⟩ := idle_text hx t b
        rw [Sax2.feeds, z1] at h
        exact ih z2 (fun g hg => hf g (by simp [hg])) h
    refine hidl dg hidle ?_ m4
    intro f hf
    obtain ⟨t, b, q1, _⟩ := splitText_chars (s := ['\n', '\n']) dg e3 f hf
    exact ⟨t, b, q1⟩
  obtain ⟨h5, m7, m8, _, m9⟩ := idle_end hidle4 ('<' :: '/' :: rootName ++ ['>']) rootName hr.unit
  -- and the rest is white space
  obtain ⟨di, dj, rfl, e5, e6⟩ := splitText_cut (x := .blank ['\n']) (by rfl) dh (a := []) (b := []) e4
  have hpd : Pieces (di ++ .blank ['\n'] :: dj) := Pieces.right (a := dg ++ [_]) (by simpa using hpf)
  have hi2 := splitText_nil e5 hpd.left
  have hj2 := splitText_nil e6 (Pieces.right (a := di ++ [_]) (by simpa using hpd))
  subst hi2; subst hj2
  refine ⟨{ h5 with pend := h5.pend ++ ['\n'] }, ?_, ?_⟩
  · rw [List.nil_append, Sax2.feeds, m1]
    simp only
    rw [feeds_append _ _ n2, feeds_append _ _ n6, feeds_append _ _ m4, Sax2.feeds, m7]
    rfl
  · refine ⟨?_, m9⟩
    show h5.log = _
    rw [m8, archiveCalls]
    simp

/-! ### Prolog -/

theorem drive_pi (s : Str) (h : '?' ∉ s) : (⟨{}, []⟩ : Drive).run ("<?".toList ++ s ++ "?>\n".toList) =
    some (⟨{}, []⟩, [.pi ("<?".toList ++ s ++ "?>".toList), .blank ['\n']]) := by
  have inner : ∀ (t : Str) (acc : Str), '?' ∉ t → (⟨{ pos := .pi }, acc⟩ : Drive).run t = some (⟨{ pos := .pi }, acc ++ t⟩, []) := by
    intro t
    induction t with
    | nil => intro acc _; simp [Drive.run]
    | cons c cs ih =>
      intro acc hc
      simp only [List.mem_cons, not_or] at hc
      have d : (⟨{ pos := .pi }, acc⟩ : Drive).step c = some (⟨{ pos := .pi }, acc ++ [c]⟩, []) := by
        have : ¬ c = '?' := fun e => hc.1 e.symm
        simp [Drive.step, RState.step, this]
      have := drive_cons d (ih (acc ++ [c]) hc.2)
      simpa using this
  have d1 : (⟨{}, []⟩ : Drive).run "<?".toList = some (⟨{ pos := .pi }, "<?".toList⟩, []) := rfl
  have d3 : ∀ acc, (⟨{ pos := .pi }, acc⟩ : Drive).run "?>\n".toList = some (⟨{}, []⟩, [.pi (acc ++ "?>".toList), .blank ['\n']]) := by
    intro acc
    simp [Drive.run, Drive.step, RState.step, RState.char, xmlChar]
  rw [List.append_assoc, drive_then d1 (drive_then (inner s _ h) (d3 _))]
  simp

theorem before_pi {wants : List Bool} {h : Sax2} (hi : Before wants h) (text : Str) :
    ∃ h', h.feed (.pi text) = .val h' ∧ Before wants h' := by
  refine ⟨{ h with srcml := h.srcml ++ (h.pend ++ text), pend := [] }, ?_, ?_⟩
  · simp [Sax2.feed, hi.others, hi.collect]
  · exact ⟨hi.start, hi.chars, hi.collect, hi.others, hi.depth, hi.archive, hi.called, hi.rootNs, hi.cpp, hi.wants, hi.log⟩

theorem before_blank {wants : List Bool} {h : Sax2} (hi : Before wants h) (text : Str) :
    ∃ h', h.feed (.blank text) = .val h' ∧ Before wants h' := by
  refine ⟨{ h with pend := h.pend ++ text }, rfl, ?_⟩
  exact ⟨hi.start, hi.chars, hi.collect, hi.others, hi.depth, hi.archive, hi.called, hi.rootNs, hi.cpp, hi.wants, hi.log⟩

/-- The prolog can be told from the XML declaration: no `>` in the encoding, and the processing instruction is not called `xml`. -/
structure PlainProlog (o : Out) : Prop extends CleanProlog o where
  declaration : '>' ∉ o.xmlEncoding
  target : ∀ t d, o.processingInstruction = some (t, d) → "xml ".toList.isPrefixOf (t ++ [' ']) = false

/-- The prolog after the declaration. -/
def piText (o : Out) : Str :=
  match o.processingInstruction with
  | some (target, data) => "<?".toList ++ (target ++ ' ' :: data) ++ "?>\n".toList
  | none => []

theorem pi_target {t : Str} (h : "xml ".toList.isPrefixOf (t ++ [' ']) = false) (d : Str) :
    "xml ".toList.isPrefixOf (t ++ ' ' :: d) = false := by
  rw [show "xml ".toList = ['x', 'm', 'l', ' '] from rfl] at *
  match t with
  | [] => simp [List.isPrefixOf_cons_cons]
  | [a] => simp [List.isPrefixOf_cons_cons]
  | [a, b] => simp [List.isPrefixOf_cons_cons]
  | [a, b, c] => simpa [List.isPrefixOf_cons_cons] using h
  | a :: b :: c :: e :: r => simpa [List.isPrefixOf_cons_cons] using h

theorem drop_to_gt (s t : Str) (h : '>' ∉ s) : (s ++ '>' :: t).dropWhile (· ≠ '>') = '>' :: t := by
  induction s with
  | nil => simp
  | cons c cs ih =>
    simp only [List.mem_cons, not_or] at h
    have : c ≠ '>' := fun e => h.1 e.symm
    rw [List.cons_append, List.dropWhile_cons]
    simp only [this, decide_true, ne_eq, not_false_eq_true, if_true]
    exact ih h.2

/-- The document after the declaration. -/
theorem afterDecl_prolog {o : Out} (hp : PlainProlog o) (c : Char) (rest : Str) (hc : c ≠ '?') :
    afterDecl (prologText o ++ '<' :: c :: rest) = piText o ++ '<' :: c :: rest := by
  have hpi : ∃ r, piText o ++ '<' :: c :: rest = '<' :: r ∧ "<?xml ".toList.isPrefixOf (piText o ++ '<' :: c :: rest) = false := by
    unfold piText
    cases he : o.processingInstruction with
    | none =>
      refine ⟨_, rfl, ?_⟩
      have : ¬ '?' = c := fun e => hc e.symm
      rw [show "<?xml ".toList = ['<', '?', 'x', 'm', 'l', ' '] from rfl]
      simp [this, List.isPrefixOf_cons_cons]
    | some td =>
      obtain ⟨t, d⟩ := td
      refine ⟨'?' :: ((t ++ ' ' :: d) ++ "?>\n".toList ++ '<' :: c :: rest), rfl, ?_⟩
      have h1 := pi_target (hp.target t d he) (d ++ "?>\n".toList ++ '<' :: c :: rest)
      show "<?xml ".toList.isPrefixOf ('<' :: '?' :: ((t ++ ' ' :: d) ++ "?>\n".toList ++ '<' :: c :: rest)) = false
      rw [show "<?xml ".toList = '<' :: '?' :: "xml ".toList from rfl, List.isPrefixOf_cons_cons, List.isPrefixOf_cons_cons]
      rw [show (t ++ ' ' :: d) ++ "?>\n".toList ++ '<' :: c :: rest = t ++ ' ' :: (d ++ "?>\n".toList ++ '<' :: c :: rest) by simp, h1]
      rfl
  obtain ⟨r, h1, h2⟩ := hpi
  have hsplit : prologText o = (if isoption o.options OPTION_NO_XML_DECL then [] else
      "<?xml version=\"1.0\" encoding=\"".toList ++ o.xmlEncoding ++ "\" standalone=\"yes\"?>\n".toList) ++ piText o := by
    unfold prologText piText
    cases o.processingInstruction with
    | none => rfl
    | some td =>
      obtain ⟨t, d⟩ := td
      simp only
      rw [← List.append_assoc "<?".toList]
  rw [hsplit, List.append_assoc]
  generalize piText o ++ '<' :: c :: rest = body at *
  subst h1
  by_cases hx : isoption o.options OPTION_NO_XML_DECL = true
  · rw [if_pos hx, List.nil_append]
    unfold afterDecl
    rw [if_neg (by rw [h2]; simp)]
  · rw [if_neg hx]
    have e : "<?xml version=\"1.0\" encoding=\"".toList ++ o.xmlEncoding ++ "\" standalone=\"yes\"?>\n".toList ++ '<' :: r =
        ("<?xml version=\"1.0\" encoding=\"".toList ++ o.xmlEncoding ++ "\" standalone=\"yes\"?".toList) ++ '>' :: '\n' :: '<' :: r := by
      rw [show "\" standalone=\"yes\"?>\n".toList = "\" standalone=\"yes\"?".toList ++ ['>', '\n'] from rfl]
      generalize "<?xml version=\"1.0\" encoding=\"".toList = A
      generalize "\" standalone=\"yes\"?".toList = B
      simp
    unfold afterDecl
    rw [if_pos (by
      have h6 : "<?xml ".toList <+: "<?xml version=\"1.0\" encoding=\"".toList := by decide
      rw [List.isPrefixOf_iff_prefix, List.append_assoc, List.append_assoc]
      exact h6.trans (List.prefix_append _ _))]
    rw [e, drop_to_gt _ _ (by
      have g1 : '>' ∉ "<?xml version=\"1.0\" encoding=\"".toList := by decide
      have g2 : '>' ∉ "\" standalone=\"yes\"?".toList := by decide
      intro hm
      rcases List.mem_append.mp hm with hm | hm
      · rcases List.mem_append.mp hm with hm | hm
        · exact g1 hm
        · exact hp.declaration hm
      · exact g2 hm)]
    simp

/-- An archive with units and its prolog, delivered in any way. -/
theorem document_feeds {o : Out} (hp : PlainProlog o) {rootName : Str} {root : List (Str × Str)} {l : List Str} {us : List UnitText}
    {wants : List Bool} (hr : GoodRoot rootName root l) (hg : ∀ u ∈ us, u.Good) (hne : us ≠ []) (ds : List Feed)
    (hd : Delivers (prologText o ++ archiveBody rootName root l us) ds) :
    ∃ h', ({ wants := wants } : Sax2).feeds ds = .val h' ∧ h'.log = archiveCalls root l wants us ∧ h'.isArchive = true := by
  obtain ⟨fs, r, d1, _, _, ⟨f, gs, rfl, hf⟩, k⟩ := archive_feeds (wants := wants) hr hg hne
  have hP : Pieces ds := ⟨hd.nonempty, hd.white⟩
  obtain ⟨d, t1, _, _⟩ := hd.tokens
  obtain ⟨c, n, hn⟩ : ∃ c n, rootName = c :: n := by
    cases hq : rootName with
    | nil => exact absurd hq hr.name.1
    | cons c n => exact ⟨c, n, rfl⟩
  have hc : c ≠ '?' := by
    have := hr.name.2
    rw [hn] at this
    simp only [List.all_cons, Bool.and_eq_true] at this
    rintro rfl
    exact absurd this.1 (by decide)
  have hbody : ∃ rest, archiveBody rootName root l us = '<' :: c :: rest := by
    unfold archiveBody
    rw [hn]
    exact ⟨_, rfl⟩
  obtain ⟨rest, hbody⟩ := hbody
  rw [hbody, afterDecl_prolog hp c rest hc, ← hbody] at t1
  have hb0 : Before wants { wants := wants } := ⟨rfl, rfl, rfl, rfl, rfl, rfl, rfl, rfl, rfl, rfl, rfl⟩
  cases he : o.processingInstruction with
  | none =>
    rw [piText, he] at t1
    simp only [List.nil_append] at t1
    rw [show (({} : Drive)) = ⟨{}, []⟩ from rfl, d1] at t1
    simp only [Option.some.injEq, Prod.mk.injEq] at t1
    exact k _ ds hb0 t1.2.symm hP
  | some td =>
    obtain ⟨t, dt⟩ := td
    rw [piText, he] at t1
    simp only at t1
    have hq := hp.pi t dt he
    have hx := drive_then (drive_pi (t ++ ' ' :: dt) (by simp [hq.1, hq.2])) d1
    rw [show (({} : Drive)) = ⟨{}, []⟩ from rfl, hx] at t1
    simp only [Option.some.injEq, Prod.mk.injEq] at t1
    have hs := t1.2.symm
    obtain ⟨da, db, rfl, e1, e2⟩ := splitText_cut (x := .pi ("<?".toList ++ (t ++ ' ' :: dt) ++ "?>".toList)) (by rfl) ds (a := []) hs
    have ha := splitText_nil e1 hP.left
    subst ha
    have hPb : Pieces db := Pieces.right (a := [_]) (by simpa using hP)
    obtain ⟨dc, dd, rfl, e3, e4⟩ := splitText_cut (x := .blank ['\n']) (by rfl) db (a := []) (by simpa using e2)
    have hcn := splitText_nil e3 hPb.left
    subst hcn
    have hPd : Pieces dd := Pieces.right (a := [_]) (by simpa using hPb)
    obtain ⟨h1, m1, m2⟩ := before_pi hb0 ("<?".toList ++ (t ++ ' ' :: dt) ++ "?>".toList)
    obtain ⟨h2, m3, m4⟩ := before_blank m2 ['\n']
    obtain ⟨h', m5, m6⟩ := k h2 dd m4 e4 hPd
    refine ⟨h', ?_, m6⟩
    rw [List.nil_append, List.nil_append, Sax2.feeds, m1]
    simp only
    rw [Sax2.feeds, m3]
    exact m5

end Srcml
