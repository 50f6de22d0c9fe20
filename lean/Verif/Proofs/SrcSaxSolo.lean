import Verif.Proofs.SrcSaxArchive
import Verif.Proofs.UnitParts
/-
A document whose root is a unit, through the SAX layer.
-/
set_option linter.unusedSimpArgs false
namespace Srcml
open Spec

/-! ### The events of the pieces -/

/-- The events that a piece stands for. -/
def feedEvents : Feed → List Ev
  | .startTag _ n as => [.op n as]
  | .emptyTag _ n as => [.op n as, .cl n]
  | .endTag _ n => [.cl n]
  | .text s _ => s.map Ev.ch
  | .ref _ c => [.ch c]
  | _ => []

theorem step_events {d d' : Drive} {c : Char} {fs : List Feed} (h : d.step c = some (d', fs)) (hs : d.r.stack ≠ []) :
    d'.r.evs = d.r.evs ++ fs.flatMap feedEvents := by
  obtain ⟨⟨pos, st, ro, evs⟩, acc⟩ := d
  simp only at hs
  unfold Drive.step at h
  cases hst : (⟨pos, st, ro, evs⟩ : RState).step c with
  | none => simp only [hst] at h; cases h
  | some r' =>
    simp only [hst] at h
    cases pos <;> simp only [RState.step, RState.char, RState.openTag, RState.closeTag, hs, if_false, false_and] at hst <;>
      simp only at h <;> (repeat' split at hst) <;> (repeat' split at h) <;>
      first
      | (cases hst; done)
      | (cases hst; cases h; simp_all [feedEvents]; done)
      | skip
    rename_i heq _ _ _ _ _
    split at heq
    · simp only [Option.some.injEq] at heq hst
      subst heq
      obtain ⟨rfl, rfl⟩ := h
      simp_all [feedEvents]
      rw [← hst]
    · cases heq

theorem drive_step_r {d d' : Drive} {c : Char} {fs : List Feed} (h : d.step c = some (d', fs)) : d.r.step c = some d'.r := by
  unfold Drive.step at h
  cases hst : d.r.step c with
  | none => rw [hst] at h; cases h
  | some r' =>
    rw [hst] at h
    simp only at h
    repeat' split at h
    all_goals (cases h; rfl)

theorem drive_run_r (s : Str) : ∀ {d d' : Drive} {fs : List Feed}, d.run s = some (d', fs) → d.r.run s = some d'.r := by
  induction s with
  | nil => intro d d' fs h; cases h; rfl
  | cons c cs ih =>
    intro d d' fs h
    rw [Drive.run] at h
    cases h1 : d.step c with
    | none => rw [h1] at h; cases h
    | some x =>
      obtain ⟨d1, f1⟩ := x
      rw [h1] at h
      simp only at h
      cases h2 : d1.run cs with
      | none => rw [h2] at h; cases h
      | some y =>
        obtain ⟨d2, f2⟩ := y
        rw [h2] at h
        simp only [Option.some.injEq, Prod.mk.injEq] at h
        obtain ⟨rfl, rfl⟩ := h
        rw [RState.run, drive_step_r h1]
        exact ih h2

/-- The events of the pieces that are delivered. -/
theorem run_events (s : Str) : ∀ {d d' : Drive} {fs : List Feed}, d.run s = some (d', fs) → d.r.rooted = true → d.r.stack ≠ [] →
    d'.r.stack ≠ [] → d'.r.evs = d.r.evs ++ fs.flatMap feedEvents := by
  induction s with
  | nil => intro d d' fs h _ _ _; cases h; simp
  | cons c cs ih =>
    intro d d' fs h hr hs hs'
    rw [Drive.run] at h
    cases h1 : d.step c with
    | none => rw [h1] at h; cases h
    | some x =>
      obtain ⟨d1, f1⟩ := x
      rw [h1] at h
      simp only at h
      cases h2 : d1.run cs with
      | none => rw [h2] at h; cases h
      | some y =>
        obtain ⟨d2, f2⟩ := y
        rw [h2] at h
        simp only [Option.some.injEq, Prod.mk.injEq] at h
        obtain ⟨rfl, rfl⟩ := h
        have e1 := step_events h1 hs
        have hstep : d.r.step c = some d1.r := drive_step_r h1
        have hrun : d1.r.run cs = some d2.r := drive_run_r cs h2
        have ha := step_alive hstep hr hrun hs'
        have hro := step_rooted hstep hr
        rw [ih h2 hro ha hs', e1]
        simp

/-! ### The first element of the contents -/

/-- No piece is an element that the handler takes for a unit or for the macro list. -/
def PlainFeed (f : Feed) : Prop :=
  ∀ n, (∃ as, Ev.op n as ∈ feedEvents f) ∨ Ev.cl n ∈ feedEvents f → localName n ≠ "unit".toList ∧ localName n ≠ "macro-list".toList

/-- In the contents of a unit that is the root. -/
structure SoloIn (h : Sax2) : Prop where
  start : h.start = .element
  chars : h.chars = .unit
  others : h.others = true
  archive : h.isArchive = false

/-- What the upper level has does not matter for the contents. -/
def relabel (r : Bool) (l : List Upper) (w : Bool) (ws : List Bool) (m : Nat) (h : Sax2) : Sax2 :=
  { h with rootCalled := r, log := l, want := w, wants := ws, loc := h.loc + m }

theorem endElement_plain {h : Sax2} {name : Str} (hn : localName name ≠ "unit".toList) : h.endElement name = { h with
    contentEnd := if h.collect then h.srcml.length + 1 else h.contentEnd
    srcml := if h.collect then h.srcml ++ h.pend else h.srcml
    pend := []
    depth := h.depth - 1 } := endElement_inner (Or.inr hn)

/-- A function on the result of a step. -/
def onVal (g : Sax2 → Sax2) : Run Sax2 → Run Sax2
  | .ub => .ub
  | .val h => .val (g h)

theorem startTag_relabel (r : Bool) (l : List Upper) (w : Bool) (ws : List Bool) (m : Nat) {x : Sax2} (hx : SoloIn x) (n : Str)
    (as : List (Str × Str)) (nx : Char) : (relabel r l w ws m x).startTag n as nx = onVal (relabel r l w ws m) (x.startTag n as nx) := by
  obtain ⟨p, st, chs, ot, co, de, ia, rc, ra, rn, sm, sr, cb, ce, ib, ie, lo, cp, wa, was, lg⟩ := x
  obtain ⟨h1, h2, h3, h4⟩ := hx
  simp only at h1 h2 h3 h4
  subst h1; subst h2; subst h3; subst h4
  simp only [Sax2.startTag, Sax2.startElement, relabel]
  cases co <;> simp only [if_true, if_false, Bool.false_eq_true]
  · rfl
  · by_cases hesc : localName n = "escape".toList
    · simp only [hesc, if_true]
      cases as.filter (fun a => !isNsDecl a.1) <;> rfl
    · simp only [hesc, if_false]
      rfl

theorem characters_relabel (r : Bool) (l : List Upper) (w : Bool) (ws : List Bool) (m : Nat) {x : Sax2} (hx : SoloIn x) (ch ah : Str) :
    (relabel r l w ws m x).characters ch ah = onVal (relabel r l w ws m) (x.characters ch ah) := by
  obtain ⟨p, st, chs, ot, co, de, ia, rc, ra, rn, sm, sr, cb, ce, ib, ie, lo, cp, wa, was, lg⟩ := x
  obtain ⟨h1, h2, h3, h4⟩ := hx
  simp only at h1 h2 h3 h4
  subst h1; subst h2; subst h3; subst h4
  simp only [Sax2.characters, Sax2.charactersUnit, relabel]
  cases co <;> simp only [if_true, if_false, Bool.false_eq_true, Bool.true_eq_false]
  · rfl
  · have e : lo + m + ch.count '\n' = lo + ch.count '\n' + m := by omega
    rw [e]
    repeat' split
    all_goals first | rfl | (simp_all; done) | (simp_all; rfl)

theorem SoloIn.pend {h : Sax2} (hi : SoloIn h) (p : Str) : SoloIn { h with pend := p } := ⟨hi.start, hi.chars, hi.others, hi.archive⟩

theorem feed_relabel (r : Bool) (l : List Upper) (w : Bool) (ws : List Bool) (m : Nat) {h : Sax2} {f : Feed} (hi : SoloIn h)
    (hf : PlainFeed f) : (relabel r l w ws m h).feed f = onVal (relabel r l w ws m) (h.feed f) := by
  have hn : ∀ n, Ev.cl n ∈ feedEvents f → localName n ≠ "unit".toList := fun n hn => (hf n (Or.inr hn)).1
  cases f with
  | startTag text n as => exact startTag_relabel r l w ws m (hi.pend (h.pend ++ text)) n as '>'
  | emptyTag text n as =>
    have hq := hn n (by simp [feedEvents])
    have k := startTag_relabel r l w ws m (hi.pend (h.pend ++ text)) n as '/'
    have k : ({ relabel r l w ws m h with pend := (relabel r l w ws m h).pend ++ text } : Sax2).startTag n as '/' = _ := k
    rw [Sax2.feed, Sax2.feed, k]
    cases ({ h with pend := h.pend ++ text } : Sax2).startTag n as '/' with
    | ub => rfl
    | val x =>
      simp only [onVal]
      rw [endElement_plain hq, endElement_plain hq]
      rfl
  | endTag text n =>
    have hq := hn n (by simp [feedEvents])
    rw [Sax2.feed, Sax2.feed, endElement_plain hq, endElement_plain hq]
    rfl
  | text s b =>
    rw [Sax2.feed, Sax2.feed]
    cases b
    · exact characters_relabel r l w ws m hi s s
    · exact characters_relabel r l w ws m (hi.pend (h.pend ++ s)) s []
  | ref text c => exact characters_relabel r l w ws m (hi.pend (h.pend ++ text)) [c] []
  | blank s => rfl
  | _ =>
    obtain ⟨p, st, chs, ot, co, de, ia, rc, ra, rn, sm, sr, cb, ce, ib, ie, lo, cp, wa, was, lg⟩ := h
    obtain ⟨h1, h2, h3, h4⟩ := hi
    simp only at h1 h2 h3 h4
    subst h1; subst h2; subst h3; subst h4
    cases co <;> simp only [Sax2.feed, relabel, true_and, if_true, if_false, Bool.false_eq_true, and_false] <;> rfl

/-- What a piece leaves as it is. -/
structure Kept (h h' : Sax2) : Prop where
  solo : SoloIn h'
  called : h'.rootCalled = h.rootCalled
  log : h'.log = h.log
  want : h'.want = h.want
  wants : h'.wants = h.wants
  collect : h'.collect = h.collect
  cpp : h'.cpp = h.cpp
  attrs : h'.rootAttrs = h.rootAttrs

theorem startTag_kept {x y : Sax2} (hx : SoloIn x) (n : Str) (as : List (Str × Str)) (nx : Char) (h : x.startTag n as nx = .val y) :
    Kept x y := by
  obtain ⟨p, st, chs, ot, co, de, ia, rc, ra, rn, sm, sr, cb, ce, ib, ie, lo, cp, wa, was, lg⟩ := x
  obtain ⟨h1, h2, h3, h4⟩ := hx
  simp only at h1 h2 h3 h4
  subst h1; subst h2; subst h3; subst h4
  simp only [Sax2.startTag, Sax2.startElement] at h
  cases co <;> simp only [if_true, if_false, Bool.false_eq_true] at h
  · cases h; exact ⟨⟨rfl, rfl, rfl, rfl⟩, rfl, rfl, rfl, rfl, rfl, rfl, rfl⟩
  · by_cases hesc : localName n = "escape".toList
    · simp only [hesc, if_true] at h
      cases hq : as.filter (fun a => !isNsDecl a.1) <;> simp only [hq] at h <;> cases h
      exact ⟨⟨rfl, rfl, rfl, rfl⟩, rfl, rfl, rfl, rfl, rfl, rfl, rfl⟩
    · simp only [hesc, if_false] at h
      cases h
      exact ⟨⟨rfl, rfl, rfl, rfl⟩, rfl, rfl, rfl, rfl, rfl, rfl, rfl⟩

theorem characters_kept {x y : Sax2} (hx : SoloIn x) (ch ah : Str) (h : x.characters ch ah = .val y) : Kept x y := by
  obtain ⟨p, st, chs, ot, co, de, ia, rc, ra, rn, sm, sr, cb, ce, ib, ie, lo, cp, wa, was, lg⟩ := x
  obtain ⟨h1, h2, h3, h4⟩ := hx
  simp only at h1 h2 h3 h4
  subst h1; subst h2; subst h3; subst h4
  simp only [Sax2.characters, Sax2.charactersUnit] at h
  cases co <;> simp only [if_true, if_false, Bool.false_eq_true, Bool.true_eq_false] at h
  · cases h; exact ⟨⟨rfl, rfl, rfl, rfl⟩, rfl, rfl, rfl, rfl, rfl, rfl, rfl⟩
  · repeat' split at h
    all_goals first | (cases h; done) | (cases h; exact ⟨⟨rfl, rfl, rfl, rfl⟩, rfl, rfl, rfl, rfl, rfl, rfl, rfl⟩)

theorem feed_kept {h h' : Sax2} {f : Feed} (hi : SoloIn h) (hf : PlainFeed f) (he : h.feed f = .val h') : Kept h h' := by
  have hn : ∀ n, Ev.cl n ∈ feedEvents f → localName n ≠ "unit".toList := fun n hn => (hf n (Or.inr hn)).1
  have hp : ∀ {p : Str} {y : Sax2}, Kept { h with pend := p } y → Kept h y := fun k => ⟨k.solo, k.called, k.log, k.want, k.wants, k.collect, k.cpp, k.attrs⟩
  cases f with
  | startTag text n as => exact hp (startTag_kept (hi.pend (h.pend ++ text)) n as '>' he)
  | emptyTag text n as =>
    have hq := hn n (by simp [feedEvents])
    rw [Sax2.feed] at he
    cases hx : ({ h with pend := h.pend ++ text } : Sax2).startTag n as '/' with
    | ub => rw [hx] at he; cases he
    | val x =>
      rw [hx] at he
      simp only at he
      have k := hp (startTag_kept (hi.pend (h.pend ++ text)) n as '/' hx)
      rw [endElement_plain hq] at he
      cases he
      exact ⟨⟨k.solo.start, k.solo.chars, k.solo.others, k.solo.archive⟩, k.called, k.log, k.want, k.wants, k.collect, k.cpp, k.attrs⟩
  | endTag text n =>
    have hq := hn n (by simp [feedEvents])
    rw [Sax2.feed, endElement_plain hq] at he
    cases he
    exact ⟨⟨hi.start, hi.chars, hi.others, hi.archive⟩, rfl, rfl, rfl, rfl, rfl, rfl, rfl⟩
  | text s b =>
    rw [Sax2.feed] at he
    cases b
    · exact characters_kept hi s s he
    · exact hp (characters_kept (hi.pend (h.pend ++ s)) s [] he)
  | ref text c => exact hp (characters_kept (hi.pend (h.pend ++ text)) [c] [] he)
  | blank s => cases he; exact ⟨⟨hi.start, hi.chars, hi.others, hi.archive⟩, rfl, rfl, rfl, rfl, rfl, rfl, rfl⟩
  | _ =>
    obtain ⟨p, st, chs, ot, co, de, ia, rc, ra, rn, sm, sr, cb, ce, ib, ie, lo, cp, wa, was, lg⟩ := h
    obtain ⟨h1, h2, h3, h4⟩ := hi
    simp only at h1 h2 h3 h4
    subst h1; subst h2; subst h3; subst h4
    cases co <;> simp only [Sax2.feed, true_and, if_true, if_false, Bool.false_eq_true, and_false] at he <;> cases he <;>
      exact ⟨⟨rfl, rfl, rfl, rfl⟩, rfl, rfl, rfl, rfl, rfl, rfl, rfl⟩

/-- Before the first element. -/
def unstarted (h : Sax2) : Sax2 := { h with start := .first }

/-- A piece that starts an element. -/
def opensTag : Feed → Bool
  | .startTag .. | .emptyTag .. => true
  | _ => false

theorem characters_unstarted {x : Sax2} (hx : SoloIn x) (ch ah : Str) :
    (unstarted x).characters ch ah = onVal unstarted (x.characters ch ah) := by
  obtain ⟨p, st, chs, ot, co, de, ia, rc, ra, rn, sm, sr, cb, ce, ib, ie, lo, cp, wa, was, lg⟩ := x
  obtain ⟨h1, h2, h3, h4⟩ := hx
  simp only at h1 h2 h3 h4
  subst h1; subst h2; subst h3; subst h4
  simp only [Sax2.characters, Sax2.charactersUnit, unstarted]
  cases co <;> simp only [if_true, if_false, Bool.false_eq_true, Bool.true_eq_false]
  · rfl
  · repeat' split
    all_goals first | rfl | (simp_all; done) | (simp_all; rfl)

theorem feed_unstarted {h : Sax2} {f : Feed} (hi : SoloIn h) (hf : PlainFeed f) (ht : opensTag f = false) :
    (unstarted h).feed f = onVal unstarted (h.feed f) := by
  have hn : ∀ n, Ev.cl n ∈ feedEvents f → localName n ≠ "unit".toList := fun n hn => (hf n (Or.inr hn)).1
  cases f with
  | startTag text n as => cases ht
  | emptyTag text n as => cases ht
  | endTag text n =>
    have hq := hn n (by simp [feedEvents])
    rw [Sax2.feed, Sax2.feed, endElement_plain hq, endElement_plain hq]
    rfl
  | text s b =>
    rw [Sax2.feed, Sax2.feed]
    cases b
    · exact characters_unstarted hi s s
    · exact characters_unstarted (hi.pend (h.pend ++ s)) s []
  | ref text c => exact characters_unstarted (hi.pend (h.pend ++ text)) [c] []
  | blank s => rfl
  | _ =>
    obtain ⟨p, st, chs, ot, co, de, ia, rc, ra, rn, sm, sr, cb, ce, ib, ie, lo, cp, wa, was, lg⟩ := h
    obtain ⟨h1, h2, h3, h4⟩ := hi
    simp only at h1 h2 h3 h4
    subst h1; subst h2; subst h3; subst h4
    cases co <;> simp only [Sax2.feed, unstarted, true_and, if_true, if_false, Bool.false_eq_true, and_false] <;> rfl

/-- The first element: the root is started now. -/
def started (h : Sax2) : Sax2 := { h with
  rootCalled := true
  log := h.log ++ [.startRoot h.rootAttrs, .startUnit h.rootAttrs]
  want := h.wants.headD false
  collect := h.wants.headD false
  wants := h.wants.tail
  loc := 0 }

theorem feed_starts {h : Sax2} {f : Feed} (hi : SoloIn h) (hf : PlainFeed f) (ht : opensTag f = true) :
    (unstarted h).feed f = (started h).feed f := by
  have hn : ∀ n as, Ev.op n as ∈ feedEvents f → localName n ≠ "unit".toList ∧ localName n ≠ "macro-list".toList := fun n as hn => hf n (Or.inl ⟨as, hn⟩)
  have key : ∀ text n as nx, localName n ≠ "unit".toList ∧ localName n ≠ "macro-list".toList →
      ({ unstarted h with pend := (unstarted h).pend ++ text } : Sax2).startTag n as nx = ({ started h with pend := (started h).pend ++ text } : Sax2).startTag n as nx := by
    intro text n as nx hq
    obtain ⟨p, st, chs, ot, co, de, ia, rc, ra, rn, sm, sr, cb, ce, ib, ie, lo, cp, wa, was, lg⟩ := h
    obtain ⟨h1, h2, h3, h4⟩ := hi
    simp only at h1 h2 h3 h4
    subst h1; subst h2; subst h3; subst h4
    simp only [Sax2.startTag, Sax2.firstStartElement, unstarted, started, hq.1, hq.2, if_false, decide_false, Sax2.reparseRoot, Bool.false_eq_true,
      Sax2.upperStartUnit, List.append_assoc, List.cons_append, List.nil_append]
  cases f with
  | startTag text n as => exact key text n as '>' (hn n as (by simp [feedEvents]))
  | emptyTag text n as =>
    rw [Sax2.feed, Sax2.feed, key text n as '/' (hn n as (by simp [feedEvents]))]
  | _ => cases ht

/-- How deep a piece leads. -/
def depthAfter : Feed → Nat → Nat
  | .startTag .., d => d + 1
  | .endTag .., d => d - 1
  | _, d => d

theorem feed_depth {h h' : Sax2} {f : Feed} (hi : SoloIn h) (hf : PlainFeed f) (he : h.feed f = .val h') :
    h'.depth = depthAfter f h.depth ∧ (h.collect = true → h'.loc = h.loc + (evText (feedEvents f)).count '\n') := by
  have hn : ∀ n, Ev.cl n ∈ feedEvents f → localName n ≠ "unit".toList := fun n hn => (hf n (Or.inr hn)).1
  have hs : ∀ p n as nx y, ({ h with pend := p } : Sax2).startTag n as nx = .val y → y.depth = h.depth + 1 ∧ y.loc = h.loc := by
    intro p' n as nx y hy
    obtain ⟨p, st, chs, ot, co, de, ia, rc, ra, rn, sm, sr, cb, ce, ib, ie, lo, cp, wa, was, lg⟩ := h
    obtain ⟨h1, h2, h3, h4⟩ := hi
    simp only at h1 h2 h3 h4
    subst h1; subst h2; subst h3; subst h4
    simp only [Sax2.startTag, Sax2.startElement] at hy
    repeat' split at hy
    all_goals first | (cases hy; done) | (cases hy; exact ⟨rfl, rfl⟩) | skip
    all_goals
      rename_i heq
      repeat' split at heq
      all_goals first | (cases heq; done) | (cases heq; cases hy; exact ⟨rfl, rfl⟩)
  have hc : ∀ p ch ah y, ({ h with pend := p } : Sax2).characters ch ah = .val y → y.depth = h.depth ∧
      (h.collect = true → y.loc = h.loc + ch.count '\n') := by
    intro p' ch ah y hy
    obtain ⟨p, st, chs, ot, co, de, ia, rc, ra, rn, sm, sr, cb, ce, ib, ie, lo, cp, wa, was, lg⟩ := h
    obtain ⟨h1, h2, h3, h4⟩ := hi
    simp only at h1 h2 h3 h4
    subst h1; subst h2; subst h3; subst h4
    simp only [Sax2.characters, Sax2.charactersUnit] at hy
    cases co <;> simp only [if_true, if_false, Bool.false_eq_true, Bool.true_eq_false] at hy
    · cases hy; exact ⟨rfl, fun h => by cases h⟩
    · repeat' split at hy
      all_goals first | (cases hy; done) | (cases hy; exact ⟨rfl, fun _ => rfl⟩)
  have ht : ∀ s : Str, evText (s.map Ev.ch) = s := by
    intro s; induction s with
    | nil => rfl
    | cons c cs ih => simp only [evText] at ih; simp [evText, ih]
  cases f with
  | startTag text n as =>
    have k := hs _ n as '>' h' he
    exact ⟨k.1, fun _ => by rw [k.2]; simp [feedEvents, evText]⟩
  | emptyTag text n as =>
    have hq := hn n (by simp [feedEvents])
    rw [Sax2.feed] at he
    cases hx : ({ h with pend := h.pend ++ text } : Sax2).startTag n as '/' with
    | ub => rw [hx] at he; cases he
    | val x =>
      rw [hx] at he
      simp only at he
      have k := hs _ n as '/' x hx
      rw [endElement_plain hq] at he
      cases he
      exact ⟨by simp [k.1, depthAfter], fun _ => by simp [feedEvents, evText, k.2]⟩
  | endTag text n =>
    have hq := hn n (by simp [feedEvents])
    rw [Sax2.feed, endElement_plain hq] at he
    cases he
    exact ⟨rfl, fun _ => by simp [feedEvents, evText]⟩
  | text s b =>
    rw [Sax2.feed] at he
    simp only [feedEvents, ht]
    cases b
    · exact hc h.pend s s h' he
    · exact hc _ s [] h' he
  | ref text c =>
    have k := hc _ [c] [] h' he
    exact ⟨k.1, fun hh => by rw [k.2 hh]; simp [feedEvents, evText]⟩
  | blank s => cases he; exact ⟨rfl, fun _ => by simp [feedEvents, evText]⟩
  | _ =>
    obtain ⟨p, st, chs, ot, co, de, ia, rc, ra, rn, sm, sr, cb, ce, ib, ie, lo, cp, wa, was, lg⟩ := h
    obtain ⟨h1, h2, h3, h4⟩ := hi
    simp only at h1 h2 h3 h4
    subst h1; subst h2; subst h3; subst h4
    cases co <;> simp only [Sax2.feed, true_and, if_true, if_false, Bool.false_eq_true, and_false] at he <;> cases he <;>
      exact ⟨rfl, fun _ => by simp [feedEvents, evText]⟩

theorem feed_skip {h : Sax2} {f : Feed} (hi : SoloIn h) (hf : PlainFeed f) (hc : h.collect = false) :
    ∃ p, h.feed f = .val { h with pend := p, depth := depthAfter f h.depth } := by
  have hn : ∀ n, Ev.cl n ∈ feedEvents f → localName n ≠ "unit".toList := fun n hn => (hf n (Or.inr hn)).1
  obtain ⟨p, st, chs, ot, co, de, ia, rc, ra, rn, sm, sr, cb, ce, ib, ie, lo, cp, wa, was, lg⟩ := h
  obtain ⟨h1, h2, h3, h4⟩ := hi
  simp only at h1 h2 h3 h4 hc
  subst h1; subst h2; subst h3; subst h4; subst hc
  cases f with
  | startTag text n as => exact ⟨_, rfl⟩
  | emptyTag text n as =>
    have hq := hn n (by simp [feedEvents])
    refine ⟨[], ?_⟩
    rw [Sax2.feed]
    simp only [Sax2.startTag, Sax2.startElement, Bool.false_eq_true, if_false]
    rw [endElement_plain hq]
    simp [depthAfter]
  | endTag text n =>
    have hq := hn n (by simp [feedEvents])
    refine ⟨[], ?_⟩
    rw [Sax2.feed, endElement_plain hq]
    simp [depthAfter]
  | text s b => cases b <;> exact ⟨_, rfl⟩
  | ref text c => exact ⟨_, rfl⟩
  | blank s => exact ⟨_, rfl⟩
  | pi text => exact ⟨_, rfl⟩
  | cdata text v => exact ⟨_, rfl⟩
  | comment text v => exact ⟨_, rfl⟩

theorem feeds_skip (fs : List Feed) : ∀ {h k k' : Sax2}, SoloIn h → SoloIn k → h.collect = false → h.depth = k.depth →
    (∀ f ∈ fs, PlainFeed f) → k.feeds fs = .val k' → ∃ p, h.feeds fs = .val { h with pend := p, depth := k'.depth } := by
  induction fs with
  | nil => intro h k k' _ _ _ hd _ he; cases he; exact ⟨h.pend, by rw [← hd]; rfl⟩
  | cons f fs ih =>
    intro h k k' hi hk hc hd hf he
    rw [Sax2.feeds] at he ⊢
    cases hx : k.feed f with
    | ub => rw [hx] at he; cases he
    | val x =>
      rw [hx] at he
      simp only at he
      obtain ⟨p, hp⟩ := feed_skip hi (hf f (by simp)) hc
      rw [hp]
      have hkx := feed_kept hk (hf f (by simp)) hx
      have hdx := (feed_depth hk (hf f (by simp)) hx).1
      obtain ⟨q, hq⟩ := ih (h := { h with pend := p, depth := depthAfter f h.depth }) (k := x) (k' := k')
        ⟨hi.start, hi.chars, hi.others, hi.archive⟩ hkx.solo hc (by rw [hdx, hd]) (fun g hg => hf g (by simp [hg])) he
      exact ⟨q, hq⟩

theorem feeds_relabel (r : Bool) (l : List Upper) (w : Bool) (ws : List Bool) (m : Nat) (fs : List Feed) : ∀ {h k' : Sax2}, SoloIn h →
    (∀ f ∈ fs, PlainFeed f) → (relabel r l w ws m h).feeds fs = .val k' → ∃ h', h.feeds fs = .val h' ∧ k' = relabel r l w ws m h' ∧ Kept h h' := by
  induction fs with
  | nil =>
    intro h k' hi _ he
    cases he
    exact ⟨h, rfl, rfl, hi, rfl, rfl, rfl, rfl, rfl, rfl, rfl⟩
  | cons f fs ih =>
    intro h k' hi hf he
    rw [Sax2.feeds] at he ⊢
    rw [feed_relabel r l w ws m hi (hf f (by simp))] at he
    cases hx : h.feed f with
    | ub => rw [hx] at he; cases he
    | val x =>
      rw [hx] at he
      simp only [onVal] at he
      have k := feed_kept hi (hf f (by simp)) hx
      obtain ⟨h', e1, e2, e3⟩ := ih k.solo (fun g hg => hf g (by simp [hg])) he
      exact ⟨h', e1, e2, e3.solo, by rw [e3.called, k.called], by rw [e3.log, k.log], by rw [e3.want, k.want], by rw [e3.wants, k.wants],
        by rw [e3.collect, k.collect], by rw [e3.cpp, k.cpp], by rw [e3.attrs, k.attrs]⟩

theorem feeds_kept (fs : List Feed) : ∀ {h h' : Sax2}, SoloIn h → (∀ f ∈ fs, PlainFeed f) → h.feeds fs = .val h' → Kept h h' ∧
    (h.collect = true → h'.loc = h.loc + (evText (fs.flatMap feedEvents)).count '\n') := by
  induction fs with
  | nil =>
    intro h h' hi _ he
    cases he
    exact ⟨⟨hi, rfl, rfl, rfl, rfl, rfl, rfl, rfl⟩, fun _ => by simp [evText]⟩
  | cons f fs ih =>
    intro h h' hi hf he
    rw [Sax2.feeds] at he
    cases hx : h.feed f with
    | ub => rw [hx] at he; cases he
    | val x =>
      rw [hx] at he
      simp only at he
      have k := feed_kept hi (hf f (by simp)) hx
      have kd := (feed_depth hi (hf f (by simp)) hx).2
      obtain ⟨e3, e4⟩ := ih k.solo (fun g hg => hf g (by simp [hg])) he
      refine ⟨⟨e3.solo, by rw [e3.called, k.called], by rw [e3.log, k.log], by rw [e3.want, k.want], by rw [e3.wants, k.wants],
        by rw [e3.collect, k.collect], by rw [e3.cpp, k.cpp], by rw [e3.attrs, k.attrs]⟩, ?_⟩
      intro hc
      rw [e4 (by rw [k.collect, hc]), kd hc]
      simp [evText, List.filterMap_append]
      omega

/-- Text before the first element. -/
theorem feeds_unstarted (fs : List Feed) : ∀ {h h' : Sax2}, SoloIn h → (∀ f ∈ fs, PlainFeed f) → (∀ f ∈ fs, opensTag f = false) →
    h.feeds fs = .val h' → (unstarted h).feeds fs = .val (unstarted h') := by
  induction fs with
  | nil => intro h h' _ _ _ he; cases he; rfl
  | cons f fs ih =>
    intro h h' hi hf ht he
    rw [Sax2.feeds] at he ⊢
    rw [feed_unstarted hi (hf f (by simp)) (ht f (by simp))]
    cases hx : h.feed f with
    | ub => rw [hx] at he; cases he
    | val x =>
      rw [hx] at he
      simp only [onVal] at he ⊢
      exact ih (feed_kept hi (hf f (by simp)) hx).solo (fun g hg => hf g (by simp [hg])) (fun g hg => ht g (by simp [hg])) he

/-- The contents from the first element on. -/
def fromElement (evs : List Ev) : List Ev := evs.dropWhile (fun e => match e with | .op .. => false | _ => true)

theorem fromElement_split (pre : List Feed) (f : Feed) (post : List Feed) (hp : ∀ g ∈ pre, opensTag g = false) (hf : opensTag f = true) :
    fromElement ((pre ++ f :: post).flatMap feedEvents) = (f :: post).flatMap feedEvents := by
  induction pre with
  | nil =>
    cases f with
    | startTag => rfl
    | emptyTag => rfl
    | _ => cases hf
  | cons g pre ih =>
    have ih := ih (fun x hx => hp x (by simp [hx]))
    have hg := hp g (by simp)
    have key : ∀ a b : List Ev, (∀ n as, Ev.op n as ∉ a) → fromElement (a ++ b) = fromElement b := by
      intro a b h
      induction a with
      | nil => rfl
      | cons e es ihe =>
        unfold fromElement at *
        rw [List.cons_append, List.dropWhile_cons]
        cases e with
        | op n as => exact absurd (by simp) (h n as)
        | ch c => simp only [if_true]; exact ihe (fun n as hm => h n as (by simp [hm]))
        | cl n => simp only [if_true]; exact ihe (fun n as hm => h n as (by simp [hm]))
    rw [List.cons_append, List.flatMap_cons, key _ _ (by
      intro n as hm
      cases g <;> simp_all [feedEvents, opensTag]), ih]

/-- The contents of a root that is a unit, from its start tag on. `h0` is the handler if the unit had been started with the root. -/
theorem solo_contents {h0 k' : Sax2} {ds : List Feed} (hi : SoloIn h0) (hc : h0.collect = true) 
    (hf : ∀ f ∈ ds, PlainFeed f) (he : h0.feeds ds = .val k') :
    if (ds.flatMap feedEvents).any (fun e => match e with | .op .. => true | _ => false) then
      ∃ h', (unstarted h0).feeds ds = .val h' ∧ SoloIn h' ∧ h'.rootCalled = true ∧
        h'.log = h0.log ++ [.startRoot h0.rootAttrs, .startUnit h0.rootAttrs] ∧ h'.want = h0.wants.headD false ∧
        h'.collect = h0.wants.headD false ∧ h'.wants = h0.wants.tail ∧ h'.cpp = h0.cpp ∧ h'.depth = k'.depth ∧
        (h0.wants.headD false = true → h'.srcml = k'.srcml ∧ h'.pend = k'.pend ∧ h'.src = k'.src ∧ h'.contentBegin = k'.contentBegin ∧
          h'.insertBegin = k'.insertBegin ∧ h'.insertEnd = k'.insertEnd ∧
          h'.loc = (evText (fromElement (ds.flatMap feedEvents))).count '\n')
    else (unstarted h0).feeds ds = .val (unstarted k') := by
  by_cases hall : ∀ f ∈ ds, opensTag f = false
  · rw [if_neg]
    · exact feeds_unstarted ds hi hf hall he
    · simp only [List.any_eq_true, not_exists, not_and, List.mem_flatMap]
      rintro e ⟨f, hfm, hem⟩
      have := hall f hfm
      cases f <;> simp_all [feedEvents, opensTag] <;> (first | (obtain ⟨_, _, rfl⟩ := hem; rfl) | (subst hem; simp))
  · have hex : ∃ pre f post, ds = pre ++ f :: post ∧ (∀ g ∈ pre, opensTag g = false) ∧ opensTag f = true := by
      clear he hf
      induction ds with
      | nil => exact absurd (by simp) hall
      | cons d ds ih =>
        cases hd : opensTag d with
        | true => exact ⟨[], d, ds, rfl, by simp, hd⟩
        | false =>
          obtain ⟨pre, f, post, rfl, h1, h2⟩ := ih (fun h => hall (by
            intro f hfm
            rcases List.mem_cons.mp hfm with rfl | hfm
            · exact hd
            · exact h f hfm))
          refine ⟨d :: pre, f, post, rfl, ?_, h2⟩
          intro g hg
          rcases List.mem_cons.mp hg with rfl | hg
          · exact hd
          · exact h1 g hg
    obtain ⟨pre, f, post, rfl, hpre, hft⟩ := hex
    have hfp : ∀ g ∈ pre, PlainFeed g := fun g hg => hf g (by simp [hg])
    have hfq : ∀ g ∈ f :: post, PlainFeed g := fun g hg => hf g (by
      rcases List.mem_cons.mp hg with rfl | hg <;> simp [*])
    obtain ⟨k1, hk1⟩ : ∃ k1, h0.feeds pre = .val k1 := by
      have : ∀ (pre : List Feed) (h k' : Sax2) (post : List Feed), h.feeds (pre ++ post) = .val k' → ∃ k1, h.feeds pre = .val k1 := by
        intro pre
        induction pre with
        | nil => intro h k' post _; exact ⟨h, rfl⟩
        | cons g gs ih =>
          intro h k' post he
          rw [List.cons_append, Sax2.feeds] at he
          rw [Sax2.feeds]
          cases hx : h.feed g with
          | ub => rw [hx] at he; cases he
          | val x => rw [hx] at he; exact ih x k' post he
      exact this pre h0 k' _ he
    rw [feeds_append _ _ hk1] at he
    obtain ⟨kk, kl⟩ := feeds_kept pre hi hfp hk1
    have hul := feeds_unstarted pre hi hfp hpre hk1
    rw [if_pos (by
      simp only [List.any_eq_true, List.mem_flatMap]
      cases f with
      | startTag t n as => exact ⟨.op n as, ⟨.startTag t n as, by simp, by simp [feedEvents]⟩, rfl⟩
      | emptyTag t n as => exact ⟨.op n as, ⟨.emptyTag t n as, by simp, by simp [feedEvents]⟩, rfl⟩
      | _ => cases hft)]
    have hgo : (unstarted h0).feeds (pre ++ f :: post) = (started k1).feeds (f :: post) := by
      rw [feeds_append _ _ hul, Sax2.feeds, Sax2.feeds, feed_starts kk.solo (hfq f (by simp)) hft]
    have hsi : SoloIn (started k1) := ⟨kk.solo.start, kk.solo.chars, kk.solo.others, kk.solo.archive⟩
    rw [hgo, fromElement_split pre f post hpre hft]
    cases hw : h0.wants.headD false with
    | false =>
      obtain ⟨p, hp⟩ := feeds_skip (f :: post) (h := started k1) (k := k1) hsi kk.solo (by simp only [started, kk.wants, hw]) rfl hfq he
      refine ⟨_, hp, ⟨hsi.start, hsi.chars, hsi.others, hsi.archive⟩, rfl, ?_, ?_, ?_, ?_, ?_, rfl, fun h => by cases h⟩
      · simp only [started, kk.log, kk.attrs]
      · simp only [started, kk.wants, hw]
      · simp only [started, kk.wants, hw]
      · simp only [started, kk.wants]
      · simp only [started, kk.cpp]
    | true =>
      have hrel : relabel k1.rootCalled k1.log k1.want k1.wants k1.loc (started k1) = k1 := by
        have : k1.collect = true := by rw [kk.collect, hc]
        obtain ⟨p, st, chs, ot, co, de, ia, rc, ra, rn, sm, sr, cb, ce, ib, ie, lo, cp, wa, was, lg⟩ := k1
        have hww := kk.wants
        simp only at this hww
        subst this; subst hww
        simp only [relabel, started, hw, Nat.zero_add]
      rw [← hrel] at he
      obtain ⟨h', e1, e2, e3⟩ := feeds_relabel _ _ _ _ _ (f :: post) hsi hfq he
      have hloc := (feeds_kept (f :: post) hsi hfq e1).2 (by simp only [started, kk.wants, hw])
      subst e2
      refine ⟨h', e1, e3.solo, e3.called, ?_, ?_, ?_, ?_, ?_, rfl, fun _ => ⟨rfl, rfl, rfl, rfl, rfl, rfl, ?_⟩⟩
      · rw [e3.log]; simp only [started, kk.log, kk.attrs]
      · rw [e3.want]; simp only [started, kk.wants, hw]
      · rw [e3.collect]; simp only [started, kk.wants, hw]
      · rw [e3.wants]; simp only [started, kk.wants]
      · rw [e3.cpp]; simp only [started, kk.cpp]
      · rw [hloc]; simp [started]

/-! ### The document -/

/-- The unit that is read from a document of which it is the root. Lines before the first element are not counted. -/
def soloUnit (attrs : List (Str × Str)) (name : Str) (c : Option Str) (evs : List Ev) : Collected where
  srcml := unitElement name attrs c
  src := sourceOf evs
  contentBegin := ('<' :: name ++ attrsText attrs).length + 1
  contentEnd := ('<' :: name ++ attrsText attrs).length + 1 + (c.getD []).length + 1
  insertBegin := name.length + 2
  insertEnd := soloInsertEnd ('<' :: name ++ attrsText attrs ++ [if c = none then '/' else '>'])
  loc := (evText (fromElement evs)).count '\n' + (if sourceOf evs ≠ [] ∧ (sourceOf evs).getLast? ≠ some '\n' then 1 else 0)
  cpp := decide (CPP_NS_URI ∈ declaredUris attrs)

/-- Has the unit contents without elements? -/
def textOnly (c : Option Str) (evs : List Ev) : Bool :=
  c.isSome && !(evs.any (fun e => match e with | .op .. => true | _ => false))

/-- All calls for a document whose root is a unit; `w`: it is read. -/
def soloCalls (attrs : List (Str × Str)) (name : Str) (c : Option Str) (evs : List Ev) (w : Bool) : List Upper :=
  (if textOnly c evs then [.endUnit none] else []) ++ [.startRoot attrs, .startUnit attrs,
    .endUnit (if w then some (soloUnit attrs name c evs) else none), .endRoot]

/-- The contents have no element that the handler takes for a unit or for the macro list. -/
def PlainNames (evs : List Ev) : Prop :=
  ∀ n, (∃ as, Ev.op n as ∈ evs) ∨ Ev.cl n ∈ evs → localName n ≠ "unit".toList ∧ localName n ≠ "macro-list".toList

theorem splitText_events (ds : List Feed) : (splitText ds).flatMap feedEvents = ds.flatMap feedEvents := by
  induction ds with
  | nil => rfl
  | cons f fs ih =>
    by_cases hf : notText f = true
    · rw [splitText_other hf, List.flatMap_cons, List.flatMap_cons, ih]
    · cases f with
      | text s b =>
        rw [splitText_text, List.flatMap_append, ih, List.flatMap_cons]
        congr 1
        simp only [feedEvents]
        clear hf
        induction s with
        | nil => rfl
        | cons c cs ihc => simp [feedEvents] at ihc ⊢; exact ihc
      | _ => exact absurd rfl hf

/-- The root, when it is a unit: what the handler has if the unit were started with it. -/
theorem before_solo {wants : List Bool} {h : Sax2} (hi : Before wants h) (hp : h.pend = []) (name : Str) (attrs : List (Str × Str))
    (hc : ("xmlns".toList, CPP_NS_URI) ∉ attrs) :
    ∃ h0, h.feed (.startTag ('<' :: name ++ attrsText attrs) name attrs) = .val (unstarted h0) ∧ SoloIn h0 ∧ Inside h0 ∧ h0.pend = [] ∧ h0.depth = 1 ∧
      h0.rootCalled = false ∧ h0.rootAttrs = attrs ∧ h0.wants = wants ∧ h0.log = [] ∧ h0.cpp = decide (CPP_NS_URI ∈ declaredUris attrs) ∧
      h0.srcml = '<' :: name ++ attrsText attrs ++ ['>'] ∧ h0.src = [] ∧ h0.loc = h.loc ∧ h0.want = h.want ∧
      h0.contentBegin = ('<' :: name ++ attrsText attrs).length + 1 ∧ h0.insertBegin = name.length + 2 ∧
      h0.insertEnd = soloInsertEnd ('<' :: name ++ attrsText attrs ++ ['>']) := by
  have hne : ¬ ('>' : Char) = '/' := by decide
  have e1 : ((h.pend ++ ('<' :: name ++ attrsText attrs) ++ ['>']).take (1 + name.length + 1)).length = name.length + 2 := by
    rw [hp]; simp; omega
  unfold Sax2.feed Sax2.startTag
  simp only [hi.start]
  unfold Sax2.startRoot Sax2.startUnit
  simp only [hne, hi.collect, hi.archive, if_true, if_false, Bool.false_eq_true, false_and]
  rw [if_neg hc]
  refine ⟨{ h with
    pend := []
    start := .element
    chars := .unit
    others := true
    collect := true
    depth := 1
    isArchive := false
    rootAttrs := attrs
    rootNs := h.rootNs ++ rootNsText attrs
    cpp := h.cpp || decide (CPP_NS_URI ∈ declaredUris attrs)
    srcml := '<' :: name ++ attrsText attrs ++ ['>']
    src := []
    contentBegin := ('<' :: name ++ attrsText attrs).length + 1
    insertBegin := name.length + 2
    insertEnd := soloInsertEnd ('<' :: name ++ attrsText attrs ++ ['>']) }, ?_, ⟨rfl, rfl, rfl, rfl⟩, ⟨rfl, rfl, rfl, rfl, Or.inl rfl⟩, rfl, rfl, hi.called, rfl, hi.wants, hi.log,
    by simp [hi.cpp], rfl, rfl, rfl, rfl, rfl, rfl, rfl⟩
  simp only [List.append_nil, List.take_append_drop, e1]
  simp [unstarted, hp, hi.depth, hi.archive]
  omega

theorem upperEndUnit_isArchive (h : Sax2) : h.upperEndUnit.isArchive = h.isArchive := by
  unfold Sax2.upperEndUnit; split <;> rfl

theorem upperStartUnit_isArchive (h : Sax2) (as : List (Str × Str)) : (h.upperStartUnit as).isArchive = h.isArchive := rfl

theorem reparseRoot_isArchive (h : Sax2) : h.reparseRoot.isArchive = h.isArchive := by
  unfold Sax2.reparseRoot
  dsimp only
  by_cases ha : h.isArchive = true
  · rw [if_pos ha]
  · rw [if_neg ha, upperStartUnit_isArchive]

theorem endRoot_isArchive (h : Sax2) : h.endRoot.isArchive = h.isArchive := by
  unfold Sax2.endRoot
  dsimp only
  by_cases ha : h.rootCalled = true
  · rw [if_pos ha]
  · rw [if_neg ha, upperEndUnit_isArchive, reparseRoot_isArchive]

theorem endElement_isArchive (h : Sax2) (name : Str) : (h.endElement name).isArchive = h.isArchive := by
  have he : ∀ x : Sax2, x.endUnit.isArchive = x.isArchive := fun x => upperEndUnit_isArchive x
  have key : ∀ x : Sax2, x.isArchive = h.isArchive → (if Spec.localName name = "unit".toList then
      let s := if x.depth = 2 ∨ x.isArchive = false then x.endUnit else x
      if s.depth = 1 then s.endRoot else s else x).isArchive = h.isArchive := by
    intro x hx
    by_cases hl : Spec.localName name = "unit".toList
    · rw [if_pos hl]
      dsimp only
      have hy : (if x.depth = 2 ∨ x.isArchive = false then x.endUnit else x).isArchive = h.isArchive := by
        by_cases hd : x.depth = 2 ∨ x.isArchive = false
        · rw [if_pos hd, he, hx]
        · rw [if_neg hd, hx]
      generalize (if x.depth = 2 ∨ x.isArchive = false then x.endUnit else x) = y at hy
      by_cases hd : y.depth = 1
      · rw [if_pos hd, endRoot_isArchive, hy]
      · rw [if_neg hd, hy]
    · rw [if_neg hl, hx]
  refine key { (if h.collect then { h with contentEnd := h.srcml.length + 1, srcml := h.srcml ++ h.pend } else h) with pend := [] } ?_
  by_cases hc : h.collect = true
  · rw [if_pos hc]
  · rw [if_neg hc]

theorem solo_end {h : Sax2} {name : Str} (hn : localName name = "unit".toList) (ha : h.isArchive = false) (hd : h.depth = 1)
    (hr : h.rootCalled = true) :
    ∃ h', h.endElement name = h' ∧ h'.log = h.log ++ [.endUnit (if h.want then some ({ (if h.collect then { h with contentEnd := h.srcml.length + 1, srcml := h.srcml ++ h.pend } else h) with pend := [] } : Sax2).collected else none), .endRoot] := by
  refine ⟨_, rfl, ?_⟩
  unfold Sax2.endElement
  cases hc : h.collect <;> cases hw : h.want <;>
    simp [hn, hd, ha, Sax2.endUnit, Sax2.upperEndUnit, Sax2.endRoot, hr, hw, Sax2.collected]

/-- The end of a unit that is the root and has no elements. -/
theorem solo_end_text {h : Sax2} {name : Str} (hn : localName name = "unit".toList) (ha : h.isArchive = false) (hd : h.depth = 1)
    (hr : h.rootCalled = false) (hc : h.collect = true) (hw : h.want = false) :
    (h.endElement name).log = h.log ++ [.endUnit none, .startRoot h.rootAttrs, .startUnit h.rootAttrs,
      .endUnit (if h.wants.headD false then some ({ h with contentEnd := h.srcml.length + 1, srcml := h.srcml ++ h.pend, loc := 0 } : Sax2).collected else none), .endRoot] := by
  obtain ⟨p, st, chs, ot, co, de, ia, rc, ra, rn, sm, sr, cb, ce, ib, ie, lo, cp, wa, was, lg⟩ := h
  simp only at hd ha hr hc hw
  subst hd; subst ha; subst hr; subst hc; subst hw
  unfold Sax2.endElement
  cases was with
  | nil => simp [hn, Sax2.endUnit, Sax2.upperEndUnit, Sax2.endRoot, Sax2.collected, Sax2.reparseRoot, Sax2.upperStartUnit]
  | cons b bs => cases b <;> simp [hn, Sax2.endUnit, Sax2.upperEndUnit, Sax2.endRoot, Sax2.collected, Sax2.reparseRoot, Sax2.upperStartUnit]

theorem fromElement_nil (evs : List Ev) (hany : evs.any (fun e => match e with | .op .. => true | _ => false) = false) :
    fromElement evs = [] := by
  unfold fromElement
  induction evs with
  | nil => rfl
  | cons e es ih =>
    simp only [List.any_cons, Bool.or_eq_false_iff] at hany
    rw [List.dropWhile_cons]
    cases e with
    | op n as => exact absurd hany.1 (by simp)
    | ch c => simp only [if_true]; exact ih hany.2
    | cl n => simp only [if_true]; exact ih hany.2

/-- A document whose root is a unit, without what precedes it. -/
theorem solo_feeds {name : Str} {attrs : List (Str × Str)} {c : Option Str} {evs : List Ev} {wants : List Bool}
    (hn : localName name = "unit".toList) (hc : ("xmlns".toList, CPP_NS_URI) ∉ attrs) (hname : ValidName name)
    (hv : ∀ a ∈ attrs, ValidName a.1 ∧ ValidValue a.2) (hd : (attrs.map (·.1)).Nodup) (hg : GoodContent c evs) (hpn : PlainNames evs) :
    ∃ fs r, (⟨{}, []⟩ : Drive).run (unitElement name attrs c ++ ['\n']) = some (⟨r, []⟩, fs) ∧ r.pos = .content ∧ r.stack = [] ∧
      (∃ f gs, fs = f :: gs ∧ notText f = true) ∧
      ∀ h ds, Before wants h → h.pend = [] → h.loc = 0 → h.want = false → splitText ds = fs → Pieces ds → ∃ h', h.feeds ds = .val h' ∧
        h'.log = soloCalls attrs name c evs (wants.headD false) ∧ h'.isArchive = false := by
  obtain ⟨hcont, hesc⟩ := hg
  cases c with
  | none =>
    simp only at hcont
    subst hcont
    have hdr := drive_empty {} name attrs rfl hname hv hd (fun _ => rfl)
    have d5 := drive_outside ⟨.content, [], true, [] ++ [.op name attrs, .cl name]⟩ rfl rfl
    have hall := drive_then hdr d5
    refine ⟨_, _, by unfold unitElement; simpa using hall, rfl, rfl, ⟨_, _, rfl, rfl⟩, ?_⟩
    intro h ds hb hp0 hl0 hw0 hs hp
    obtain ⟨fa, fb, rfl, e1, e2⟩ := splitText_cut (x := .emptyTag ('<' :: name ++ attrsText attrs) name attrs) rfl ds (a := []) hs
    have ha := splitText_nil e1 hp.left
    subst ha
    have hpb : Pieces fb := (Pieces.right (a := [_]) (by simpa using hp))
    obtain ⟨fc, fd, rfl, e3, e4⟩ := splitText_cut (x := .blank ['\n']) rfl fb (a := []) (b := []) e2
    have hc2 := splitText_nil e3 hpb.left
    have hd2 := splitText_nil e4 (show Pieces fd from (Pieces.right (a := fc ++ [_]) (by simpa using hpb)))
    subst hc2; subst hd2
    rw [List.nil_append, List.nil_append, Sax2.feeds]
    have hroot : ∃ h1, ({ h with pend := h.pend ++ ('<' :: name ++ attrsText attrs) } : Sax2).startTag name attrs '/' = .val h1 ∧ h1.isArchive = false ∧
        h1.depth = 1 ∧ h1.rootCalled = true ∧ h1.log = [.startRoot attrs, .startUnit attrs] ∧ h1.want = wants.headD false ∧
        h1.collect = wants.headD false ∧ h1.pend = [] ∧ h1.src = [] ∧ h1.loc = 0 ∧ h1.cpp = decide (CPP_NS_URI ∈ declaredUris attrs) ∧
        h1.srcml = '<' :: name ++ attrsText attrs ++ ['/'] ∧ h1.contentBegin = ('<' :: name ++ attrsText attrs).length + 1 ∧
        h1.insertBegin = name.length + 2 ∧ h1.insertEnd = soloInsertEnd ('<' :: name ++ attrsText attrs ++ ['/']) := by
      have e1 : ((h.pend ++ ('<' :: name ++ attrsText attrs) ++ ['/']).take (1 + name.length + 1)).length = name.length + 2 := by
        rw [hp0]; simp; omega
      unfold Sax2.startTag
      simp only [hb.start]
      unfold Sax2.startRoot Sax2.startUnit
      simp only [hb.collect, hb.archive, if_true, if_false, Bool.false_eq_true, true_and, Sax2.upperStartUnit]
      rw [if_neg hc]
      refine ⟨_, rfl, rfl, by simp [hb.depth], rfl, by simp [hb.log], by simp [hb.wants], by simp [hb.wants], rfl, rfl, rfl, by simp [hb.cpp], ?_, ?_, ?_, ?_⟩
      · simp [hp0]
      · simp [hp0]; omega
      · simp only [if_true, e1]
      · simp [hp0]
    obtain ⟨h1, b1, b2, b3, b4, b5, b6, b7, b8, b9, b10, b11, b12, b13, b14, b15⟩ := hroot
    have hend := solo_end (h := { h1 with pend := h1.pend ++ ['>'] }) hn b2 b3 b4
    obtain ⟨h'', c1, c2⟩ := hend
    refine ⟨{ h'' with pend := h''.pend ++ ['\n'] }, ?_, ?_⟩
    · rw [Sax2.feed, b1]
      simp only
      rw [c1]
      rfl
    · refine ⟨?_, by show h''.isArchive = false; rw [← c1, endElement_isArchive]; exact b2⟩
      show h''.log = _
      rw [c2]
      simp only [soloCalls, textOnly, b5, b6, b7]
      cases hw : wants.headD false with
      | false => simp
      | true =>
        simp [Sax2.collected, soloUnit, unitElement, b8, b9, b10, b11, b12, b13, b14, b15, sourceOf, fromElement, evText]
        try omega
  | some t =>
    simp only at hcont
    have hdr := drive_open {} name attrs rfl hname hv hd (fun _ => rfl)
    obtain ⟨fs, hdc⟩ := drive_content (B := [name]) (E := [.op name attrs]) (by simp) hcont
    have hde := drive_close ⟨.content, [name], true, [.op name attrs] ++ evs⟩ name [] rfl hname rfl
    have d5 := drive_outside ⟨.content, [], true, [.op name attrs] ++ evs ++ [.cl name]⟩ rfl rfl
    have hall := drive_then hdr (drive_then hdc (drive_then hde d5))
    have hevs : evs = fs.flatMap feedEvents := by
      have := run_events t hdc rfl (by simp) (by simp)
      simpa using this
    refine ⟨_, _, by unfold unitElement; simpa using hall, rfl, rfl, ⟨_, _, rfl, rfl⟩, ?_⟩
    intro h ds hb hp0 hl0 hw0 hs hp
    obtain ⟨fa, fb, rfl, e1, e2⟩ := splitText_cut (x := .startTag ('<' :: name ++ attrsText attrs) name attrs) rfl ds (a := [])
      (b := fs ++ [.endTag ('<' :: '/' :: name ++ ['>']) name, .blank ['\n']]) (by simpa using hs)
    have ha := splitText_nil e1 hp.left
    subst ha
    have hpb : Pieces fb := (Pieces.right (a := [_]) (by simpa using hp))
    obtain ⟨fc, fd, rfl, e3, e4⟩ := splitText_cut (x := .endTag ('<' :: '/' :: name ++ ['>']) name) rfl fb (a := fs) (b := [.blank ['\n']]) e2
    have hpd : Pieces fd := Pieces.right (a := fc ++ [_]) (by simpa using hpb)
    obtain ⟨fe, ff, rfl, e5, e6⟩ := splitText_cut (x := .blank ['\n']) rfl fd (a := []) (b := []) e4
    have hc2 := splitText_nil e5 hpd.left
    have hd2 := splitText_nil e6 (show Pieces ff from (Pieces.right (a := fe ++ [_]) (by simpa using hpd)))
    subst hc2; subst hd2
    have hevd : evs = fc.flatMap feedEvents := by rw [hevs, ← e3, splitText_events]
    have hplain : ∀ f ∈ fc, PlainFeed f := by
      intro f hf n hnn
      refine hpn n ?_
      rw [hevd]
      rcases hnn with ⟨as, hm⟩ | hm
      · exact Or.inl ⟨as, List.mem_flatMap.mpr ⟨f, hf, hm⟩⟩
      · exact Or.inr (List.mem_flatMap.mpr ⟨f, hf, hm⟩)
    obtain ⟨h0, a1, a2, a3, a4, a5, a6, a7, a8, a9, a10, a11, a12, a13, a14, a15, a16, a17⟩ := before_solo hb hp0 name attrs hc
    obtain ⟨_, ce, hk⟩ := content_read (h0 := h0) (B := [name]) a3 a4 a5 (by simp) hcont hesc (Or.inr (fun n hm => (hpn n (Or.inr hm)).1)) hdc e3 hpb.left
    have hsc := solo_contents a2 a3.collect hplain hk
    rw [← hevd] at hsc
    rw [List.nil_append, Sax2.feeds, a1]
    simp only
    cases hany : evs.any (fun e => match e with | .op .. => true | _ => false) with
    | true =>
      rw [hany, if_pos rfl] at hsc
      obtain ⟨h', b1, b2, b3, b4, b5, b6, b7, b8, b9, b10⟩ := hsc
      rw [feeds_append _ _ b1]
      have hend := solo_end (h := { h' with pend := h'.pend ++ ('<' :: '/' :: name ++ ['>']) }) hn b2.archive (by rw [b9]; exact a5) b3
      obtain ⟨h'', c1, c2⟩ := hend
      refine ⟨_, rfl, ?_, (endElement_isArchive { h' with pend := h'.pend ++ ('<' :: '/' :: name ++ ['>']) } name).trans b2.archive⟩
      show (({ h' with pend := h'.pend ++ ('<' :: '/' :: name ++ ['>']) } : Sax2).endElement name).log = _
      rw [c1, c2]
      simp only [soloCalls, textOnly, hany, b4, a9, a7, b5, a8, b6]
      cases hw : wants.headD false with
      | false => simp
      | true =>
        obtain ⟨g1, g2, g3, g4, g5, g6, g7⟩ := b10 (by rw [a8, hw])
        simp [Sax2.collected, soloUnit, unitElement, g1, g2, g3, g4, g5, g6, g7, b8, a4, a10, a11, a12, a15, a16, a17]
        omega
    | false =>
      rw [hany, if_neg (by simp)] at hsc
      rw [feeds_append _ _ hsc]
      have hfe : fromElement evs = [] := fromElement_nil evs hany
      have := solo_end_text (h := { unstarted { h0 with
        srcml := h0.srcml ++ t
        src := h0.src ++ sourceOf evs
        loc := h0.loc + (evText evs).count '\n'
        contentEnd := ce } with pend := h0.pend ++ ('<' :: '/' :: name ++ ['>']) }) hn a2.archive a5 a6 a3.collect (by rw [← hw0, ← a14]; rfl)
      refine ⟨_, rfl, ?_, (endElement_isArchive { unstarted { h0 with
        srcml := h0.srcml ++ t
        src := h0.src ++ sourceOf evs
        loc := h0.loc + (evText evs).count '\n'
        contentEnd := ce } with pend := h0.pend ++ ('<' :: '/' :: name ++ ['>']) } name).trans a2.archive⟩
      refine Eq.trans this ?_
      simp only [soloCalls, textOnly, hany, unstarted, a9, a7, a8]
      cases hw : wants.headD false with
      | false => simp
      | true =>
        simp [Sax2.collected, soloUnit, unitElement, hfe, a4, a10, a11, a12, a15, a16, a17, evText]
        omega

/-- A document whose root is a unit and its prolog, delivered in any way. -/
theorem solo_document {o : Out} (hp : PlainProlog o) (hpi : o.processingInstruction = none) {name : Str} {attrs : List (Str × Str)} {c : Option Str}
    {evs : List Ev} {wants : List Bool} (hn : localName name = "unit".toList) (hc : ("xmlns".toList, CPP_NS_URI) ∉ attrs) (hname : ValidName name)
    (hv : ∀ a ∈ attrs, ValidName a.1 ∧ ValidValue a.2) (hd : (attrs.map (·.1)).Nodup) (hg : GoodContent c evs) (hpn : PlainNames evs)
    (ds : List Feed) (hdel : Delivers (prologText o ++ (unitElement name attrs c ++ ['\n'])) ds) :
    ∃ h', ({ wants := wants } : Sax2).feeds ds = .val h' ∧ h'.log = soloCalls attrs name c evs (wants.headD false) ∧ h'.isArchive = false := by
  obtain ⟨fs, r, d1, _, _, _, k⟩ := solo_feeds (wants := wants) hn hc hname hv hd hg hpn
  have hP : Pieces ds := ⟨hdel.nonempty, hdel.white⟩
  obtain ⟨d, t1, _, _⟩ := hdel.tokens
  obtain ⟨x, n, hxn⟩ : ∃ x n, name = x :: n := by
    cases hq : name with
    | nil => exact absurd hq hname.1
    | cons x n => exact ⟨x, n, rfl⟩
  have hx : x ≠ '?' := by
    have := hname.2
    rw [hxn] at this
    simp only [List.all_cons, Bool.and_eq_true] at this
    rintro rfl
    exact absurd this.1 (by decide)
  obtain ⟨rest, hbody⟩ : ∃ rest, unitElement name attrs c ++ ['\n'] = '<' :: x :: rest := by
    unfold unitElement
    rw [hxn]
    cases c <;> exact ⟨_, rfl⟩
  rw [hbody, afterDecl_prolog hp x rest hx, ← hbody, piText, hpi] at t1
  simp only [List.nil_append] at t1
  rw [show (({} : Drive)) = ⟨{}, []⟩ from rfl, d1] at t1
  simp only [Option.some.injEq, Prod.mk.injEq] at t1
  exact k _ ds ⟨rfl, rfl, rfl, rfl, rfl, rfl, rfl, rfl, rfl, rfl, rfl⟩ rfl rfl rfl t1.2.symm hP

theorem solo_marks {s : Str} {b e : Nat} (h : tagMarks s = some (b, e)) : soloInsertEnd s = e := by
  unfold tagMarks at h
  unfold soloInsertEnd findFrom
  cases h1 : findSub "xmlns".toList s with
  | none => rw [h1] at h; cases h
  | some p =>
    rw [h1] at h
    simp only [Option.elim] at h ⊢
    cases h2 : findFirst '"' (s.drop (p + 1)) with
    | none => rw [h2] at h; cases h
    | some q =>
      rw [h2] at h
      simp only [Option.map_some] at h ⊢
      rw [show q + (p + 1) + 1 = p + 1 + q + 1 by omega]
      cases h3 : findFirst '"' (s.drop (p + 1 + q + 1)) with
      | none => rw [h3] at h; cases h
      | some r =>
        rw [h3] at h
        simp only [Option.some.injEq, Prod.mk.injEq, Option.map_some] at h ⊢
        omega

/-- The end of the namespace that the start tag of a solitary unit begins with. -/
theorem soloInsertEnd_first {name k v : Str} (attrs : List (Str × Str)) (tail : Str)
    (hf : findSub "xmlns".toList (('<' :: name ++ [' ']) ++ "xmlns".toList) = some ('<' :: name ++ [' ']).length) (hk : '"' ∉ k) :
    soloInsertEnd ('<' :: name ++ attrsText (("xmlns".toList ++ k, v) :: attrs) ++ tail) =
      ('<' :: name ++ attrText ("xmlns".toList ++ k) v).length + 1 := by
  have h := tagMarks_exact ('<' :: name ++ [' ']) (k ++ ['=']) (v.flatMap attrEscapeChar) (attrsText attrs ++ tail) hf (by simp [hk]) (escaped_clean v).1
  have e : ('<' :: name ++ [' ']) ++ "xmlns".toList ++ (k ++ ['=']) ++ '"' :: v.flatMap attrEscapeChar ++ '"' :: (attrsText attrs ++ tail) =
      '<' :: name ++ attrsText (("xmlns".toList ++ k, v) :: attrs) ++ tail := by
    simp [attrsText, attrText]
  rw [← e, solo_marks h]
  simp [attrText]
  omega

end Srcml
