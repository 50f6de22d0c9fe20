import Verif.Spec.SrcSax
import Verif.Proofs.ReadInside
/-
The SAX layer over the contents of a unit.
-/
set_option linter.unusedSimpArgs false
namespace Srcml
open Spec

/-- Inside a unit whose contents are collected. -/
structure Inside (h : Sax2) : Prop where
  start : h.start = .element
  chars : h.chars = .unit
  collect : h.collect = true
  others : h.others = true
  pend : h.pend = [] ∨ h.pend = ['>']

/-- A property of all states on the way. -/
def Along (P : Sax2 → Prop) (h : Sax2) : List Feed → Prop
  | [] => P h
  | f :: fs => P h ∧ ∀ h1, h.feed f = .val h1 → Along P h1 fs

theorem Along.head {P : Sax2 → Prop} {h : Sax2} {fs : List Feed} (a : Along P h fs) : P h := by
  cases fs with
  | nil => exact a
  | cons f fs => exact a.1

theorem Along.append {P : Sax2 → Prop} (fs : List Feed) : ∀ {h h1 : Sax2} {gs : List Feed}, Along P h fs → h.feeds fs = .val h1 →
    Along P h1 gs → Along P h (fs ++ gs) := by
  induction fs with
  | nil => intro h h1 gs _ h2 h3; cases h2; exact h3
  | cons f fs ih =>
    intro h h1 gs a h2 h3
    refine ⟨a.1, ?_⟩
    intro x hx
    rw [Sax2.feeds, hx] at h2
    exact ih (a.2 x hx) h2 h3

theorem Along.tail {P : Sax2 → Prop} (fs : List Feed) : ∀ {h h1 : Sax2} {gs : List Feed}, Along P h (fs ++ gs) → h.feeds fs = .val h1 →
    Along P h1 gs := by
  induction fs with
  | nil => intro h h1 gs a h2; cases h2; exact a
  | cons f fs ih =>
    intro h h1 gs a h2
    rw [Sax2.feeds] at h2
    cases hx : h.feed f with
    | ub => rw [hx] at h2; cases h2
    | val x => rw [hx] at h2; exact ih (a.2 x hx) h2

theorem feeds_append (fs : List Feed) : ∀ {h h1 : Sax2} (gs : List Feed), h.feeds fs = .val h1 → h.feeds (fs ++ gs) = h1.feeds gs := by
  induction fs with
  | nil => intro h h1 gs h2; cases h2; rfl
  | cons f fs ih =>
    intro h h1 gs h2
    rw [Sax2.feeds] at h2
    rw [List.cons_append, Sax2.feeds]
    cases hx : h.feed f with
    | ub => rw [hx] at h2; cases h2
    | val x => rw [hx] at h2; exact ih gs h2

theorem drive_append (s : Str) : ∀ {d d1 : Drive} {fs : List Feed} (t : Str), d.run s = some (d1, fs) →
    d.run (s ++ t) = (d1.run t).map (fun x => (x.1, fs ++ x.2)) := by
  induction s with
  | nil => intro d d1 fs t h; cases h; cases h2 : d.run t <;> simp [h2]
  | cons c cs ih =>
    intro d d1 fs t h
    rw [Drive.run] at h
    rw [List.cons_append, Drive.run]
    cases hs : d.step c with
    | none => rw [hs] at h; cases h
    | some x =>
      obtain ⟨d2, f2⟩ := x
      rw [hs] at h
      simp only at h ⊢
      cases hr : d2.run cs with
      | none => rw [hr] at h; cases h
      | some y =>
        obtain ⟨d3, f3⟩ := y
        rw [hr] at h
        simp only [Option.some.injEq, Prod.mk.injEq] at h
        obtain ⟨rfl, rfl⟩ := h
        rw [ih t hr]
        cases h4 : d3.run t <;> simp [h4]

theorem drive_run (s : Str) : ∀ {d : Drive} {r' : RState}, d.r.run s = some r' → ∃ acc fs, d.run s = some (⟨r', acc⟩, fs) := by
  induction s with
  | nil => intro d r' h; cases h; exact ⟨d.acc, [], rfl⟩
  | cons c cs ih =>
    intro d r' h
    rw [RState.run] at h
    cases hs : d.r.step c with
    | none => rw [hs] at h; cases h
    | some r1 =>
      rw [hs] at h
      have : ∃ acc fs, d.step c = some (⟨r1, acc⟩, fs) := by
        unfold Drive.step
        rw [hs]
        simp only
        split <;> (try split) <;> (try split) <;> exact ⟨_, _, rfl⟩
      obtain ⟨acc, fs, hd⟩ := this
      obtain ⟨acc2, fs2, h2⟩ := ih (d := ⟨r1, acc⟩) h
      exact ⟨acc2, fs ++ fs2, by rw [Drive.run, hd]; simp only [h2]⟩

/-- One piece of text, however it is delivered. -/
theorem feed_text {h : Sax2} (hi : Inside h) {s : Str} {b : Bool} (hs : s ≠ []) (hg : s.head? ≠ some '>') :
    h.feed (.text s b) = .val { h with
      srcml := h.srcml ++ h.pend ++ s
      pend := []
      src := h.src ++ s
      loc := h.loc + s.count '\n' } := by
  obtain ⟨c, cs, rfl⟩ : ∃ c cs, s = c :: cs := by cases s with
    | nil => exact absurd rfl hs
    | cons c cs => exact ⟨c, cs, rfl⟩
  have hc : c ≠ '>' := by simpa using hg
  have h1 := hi.chars
  have h2 := hi.collect
  cases b <;> rcases hi.pend with h3 | h3 <;>
    simp [Sax2.feed, Sax2.characters, Sax2.charactersUnit, h1, h2, h3, hc]

theorem feeds_chars (s : Str) : ∀ {h : Sax2}, Inside h → '>' ∉ s →
    h.feeds (s.map (fun c => .text [c] true)) = .val (if s = [] then h else { h with
      srcml := h.srcml ++ h.pend ++ s
      pend := []
      src := h.src ++ s
      loc := h.loc + s.count '\n' }) := by
  induction s with
  | nil => intro h _ _; rfl
  | cons c cs ih =>
    intro h hi hg
    simp only [List.mem_cons, not_or] at hg
    rw [List.map_cons, Sax2.feeds, feed_text hi (by simp) (by simpa using fun e => hg.1 e.symm)]
    simp only
    have key := ih (h := { h with
      srcml := h.srcml ++ h.pend ++ [c]
      pend := []
      src := h.src ++ [c]
      loc := h.loc + [c].count '\n' }) ⟨hi.start, hi.chars, hi.collect, hi.others, Or.inl rfl⟩ hg.2
    rw [key]
    by_cases h0 : cs = []
    · subst h0; simp
    · simp only [h0, if_false, List.cons_ne_nil, if_true]
      simp only [List.count_cons, List.count_nil, List.append_assoc, List.cons_append, List.nil_append, List.append_nil,
        Run.val.injEq, Sax2.mk.injEq, and_true, true_and]
      omega

/-- Inside a unit whose contents are not collected. -/
structure Skipping (h : Sax2) : Prop where
  start : (h.start = .none ∧ h.chars = .none ∧ h.others = false) ∨ (h.start = .element ∧ h.chars = .unit)
  collect : h.collect = false

theorem feed_text_skip {h : Sax2} (hi : Skipping h) (s : Str) (b : Bool) :
    h.feed (.text s b) = .val { h with pend := h.pend ++ s } := by
  have h2 := hi.collect
  rcases hi.start with ⟨_, h1, _⟩ | ⟨_, h1⟩ <;> cases b <;> simp [Sax2.feed, Sax2.characters, Sax2.charactersUnit, h1, h2]

theorem feeds_chars_skip (s : Str) : ∀ {h : Sax2}, Skipping h →
    h.feeds (s.map (fun c => .text [c] true)) = .val { h with pend := h.pend ++ s } := by
  induction s with
  | nil => intro h _; simp [Sax2.feeds]
  | cons c cs ih =>
    intro h hi
    rw [List.map_cons, Sax2.feeds, feed_text_skip hi]
    simp only
    have key := ih (h := { h with pend := h.pend ++ [c] }) ⟨hi.start, hi.collect⟩
    rw [key]
    simp

/-- In the contents of a unit. -/
def InUnit (h : Sax2) : Prop := Inside h ∨ Skipping h

theorem feed_text_split {h : Sax2} (hi : InUnit h) {s : Str} (b : Bool) (hs : s ≠ []) (hg : '>' ∉ s) :
    ∃ h1, h.feed (.text s b) = .val h1 ∧ h.feeds (s.map (fun c => .text [c] true)) = .val h1 := by
  rcases hi with hi | hi
  · have hc := feeds_chars s hi hg
    rw [if_neg hs] at hc
    refine ⟨_, feed_text hi hs ?_, hc⟩
    cases s with
    | nil => simp
    | cons c cs => simp only [List.head?_cons, ne_eq, Option.some.injEq]; rintro rfl; exact hg (by simp)
  · exact ⟨_, feed_text_skip hi s b, feeds_chars_skip s hi⟩

theorem splitText_append (a b : List Feed) : splitText (a ++ b) = splitText a ++ splitText b := by
  simp [splitText]

theorem splitText_text (s : Str) (b : Bool) (fs : List Feed) :
    splitText (.text s b :: fs) = s.map (fun c => .text [c] true) ++ splitText fs := by
  simp [splitText]

/-- A piece that is not text. -/
def notText : Feed → Bool
  | .text .. => false
  | _ => true

theorem splitText_other {f : Feed} (hf : notText f = true) (fs : List Feed) : splitText (f :: fs) = f :: splitText fs := by
  unfold splitText
  rw [List.flatMap_cons]
  cases f with
  | text s b => cases hf
  | _ => rfl

/-- Inside a unit it does not matter how libxml2 cuts the text into pieces, and when it reads them. -/
theorem feeds_split (fs : List Feed) : ∀ {h : Sax2}, Along InUnit h (splitText fs) → (∀ b, Feed.text [] b ∉ fs) →
    (∀ b, Feed.text ['>'] b ∉ splitText fs) → h.feeds fs = h.feeds (splitText fs) := by
  induction fs with
  | nil => intro h _ _ _; rfl
  | cons f fs ih =>
    intro h ha he hg
    have he2 : ∀ b, Feed.text [] b ∉ fs := fun b hb => he b (by simp [hb])
    have hg2 : ∀ b, Feed.text ['>'] b ∉ splitText fs := by
      intro b hb
      exact hg b (by unfold splitText at hb ⊢; rw [List.flatMap_cons]; exact List.mem_append_right _ hb)
    by_cases ht : ∃ s b, f = .text s b
    · obtain ⟨s, b, rfl⟩ := ht
      rw [splitText_text] at ha hg ⊢
      have hne : s ≠ [] := by rintro rfl; exact he b (by simp)
      have hgt : '>' ∉ s := by
        intro hm
        exact hg true (List.mem_append_left _ (List.mem_map.mpr ⟨'>', hm, rfl⟩))
      obtain ⟨h1, k1, k2⟩ := feed_text_split ha.head b hne hgt
      rw [feeds_append _ _ k2, Sax2.feeds, k1]
      exact ih (Along.tail _ ha k2) he2 hg2
    · have hf : notText f = true := by
        cases f with
        | text s b => exact absurd ⟨s, b, rfl⟩ ht
        | _ => rfl
      rw [splitText_other hf] at ha ⊢
      rw [Sax2.feeds, Sax2.feeds]
      cases hx : h.feed f with
      | ub => rfl
      | val x => exact ih (ha.2 x hx) he2 hg2

/-- The pieces can be taken apart at a piece that is not text. -/
theorem splitText_cut {x : Feed} (hx : notText x = true) {b : List Feed} (fs : List Feed) : ∀ {a : List Feed},
    splitText fs = a ++ x :: b →
    ∃ fa fb, fs = fa ++ x :: fb ∧ splitText fa = a ∧ splitText fb = b := by
  induction fs with
  | nil => intro a h; cases a <;> cases h
  | cons f fs ih =>
    intro a h
    by_cases hf : notText f = true
    · rw [splitText_other hf] at h
      cases a with
      | nil =>
        simp only [List.nil_append, List.cons.injEq] at h
        obtain ⟨rfl, rfl⟩ := h
        exact ⟨[], fs, rfl, rfl, rfl⟩
      | cons y ys =>
        simp only [List.cons_append, List.cons.injEq] at h
        obtain ⟨rfl, h2⟩ := h
        obtain ⟨fa, fb, rfl, e2, e3⟩ := ih h2
        exact ⟨f :: fa, fb, rfl, by rw [splitText_other hf, e2], e3⟩
    · obtain ⟨s, bb, rfl⟩ : ∃ s bb, f = .text s bb := by
        cases f with
        | text s bb => exact ⟨s, bb, rfl⟩
        | _ => exact absurd rfl hf
      rw [splitText_text] at h
      -- the text is in front of the piece
      have : ∃ a', a = s.map (fun c => .text [c] true) ++ a' ∧ splitText fs = a' ++ x :: b := by
        clear ih
        revert a
        generalize splitText fs = t
        induction s with
        | nil => intro a h; exact ⟨a, by simp, by simpa using h⟩
        | cons c cs ih2 =>
          intro a h
          cases a with
          | nil =>
            simp only [List.map_cons, List.cons_append, List.nil_append, List.cons.injEq] at h
            rw [← h.1] at hx
            cases hx
          | cons y ys =>
            simp only [List.map_cons, List.cons_append, List.cons.injEq] at h
            obtain ⟨rfl, h2⟩ := h
            obtain ⟨a', rfl, e⟩ := ih2 (by simp [notText]) h2
            exact ⟨a', by simp, e⟩
      obtain ⟨a', rfl, e⟩ := this
      obtain ⟨fa, fb, rfl, e2, e3⟩ := ih e
      exact ⟨.text s bb :: fa, fb, rfl, by rw [splitText_text, e2], e3⟩

/-- How libxml2 cuts text. -/
structure Pieces (fs : List Feed) : Prop where
  nonempty : ∀ b, .text [] b ∉ fs
  white : ∀ pre s b t suf, fs = pre ++ .text s b :: t :: suf → isTag t = true → (∀ c ∈ s, c = ' ' ∨ c = '\n') → b = true

theorem Pieces.right {a b : List Feed} (h : Pieces (a ++ b)) : Pieces b where
  nonempty := fun x hx => h.nonempty x (by simp [hx])
  white := fun pre s x t suf e => h.white (a ++ pre) s x t suf (by rw [e]; simp)

theorem Pieces.left {a b : List Feed} (h : Pieces (a ++ b)) : Pieces a where
  nonempty := fun x hx => h.nonempty x (by simp [hx])
  white := fun pre s x t suf e => h.white pre s x t (suf ++ b) (by rw [e]; simp)

/-- Pieces of text. -/
theorem splitText_chars {s : Str} (fs : List Feed) : splitText fs = s.map (fun c => .text [c] true) →
    ∀ f ∈ fs, ∃ t b, f = .text t b ∧ ∀ c ∈ t, c ∈ s := by
  revert s
  induction fs with
  | nil => intro s _ f hf; cases hf
  | cons g gs ih =>
    intro s h f hf
    by_cases hg : notText g = true
    · rw [splitText_other hg] at h
      cases s with
      | nil => cases h
      | cons c cs =>
        simp only [List.map_cons, List.cons.injEq] at h
        rw [h.1] at hg
        cases hg
    · obtain ⟨t, b, rfl⟩ : ∃ s bb, g = .text s bb := by
        cases g with
        | text s bb => exact ⟨s, bb, rfl⟩
        | _ => exact absurd rfl hg
      rw [splitText_text] at h
      have hs : ∃ s', s = t ++ s' ∧ splitText gs = s'.map (fun c => .text [c] true) := by
        revert h
        generalize splitText gs = u
        clear ih hf hg
        revert s
        induction t with
        | nil => intro s h; exact ⟨s, rfl, by simpa using h⟩
        | cons c cs ih2 =>
          intro s h
          cases s with
          | nil => cases h
          | cons d ds =>
            simp only [List.map_cons, List.cons_append, List.cons.injEq, Feed.text.injEq, and_true] at h
            obtain ⟨rfl, h2⟩ := h
            obtain ⟨s', rfl, e⟩ := ih2 h2
            exact ⟨s', rfl, e⟩
      obtain ⟨s', rfl, e⟩ := hs
      rcases List.mem_cons.mp hf with rfl | hf
      · exact ⟨t, b, rfl, by intro c hc; simp [hc]⟩
      · obtain ⟨t2, b2, e2, e3⟩ := ih e f hf
        exact ⟨t2, b2, e2, by intro c hc; simp [e3 c hc]⟩

end Srcml
