import Verif.Proofs.SrcSaxDrive
/-
The contents of a unit, through the SAX layer.
-/
set_option linter.unusedSimpArgs false
namespace Srcml
open Spec

/-- Elements named `unit` inside the contents do not matter: the document is an archive, or there are none. -/
def Quiet (h0 : Sax2) (b : Nat) (ev : List Ev) : Prop :=
  (h0.isArchive = true ∧ 2 ≤ b) ∨ ∀ n, Ev.cl n ∈ ev → localName n ≠ "unit".toList

/-- In the contents of a unit, collected: what the handler has, after the events `ev` and the text `done`. -/
def MidC (h0 : Sax2) (b : Nat) (pos : Pos) (st : List Str) (ev : List Ev) (acc done : Str) (h : Sax2) : Prop :=
  ∃ X p ce, h = { h0 with
      srcml := X
      pend := p
      src := h0.src ++ sourceOf ev
      loc := h0.loc + (evText ev).count '\n'
      contentEnd := ce
      depth := b + st.length } ∧
    X ++ p ++ acc = h0.srcml ++ done ∧ (p = [] ∨ (p = ['>'] ∧ st ≠ [])) ∧ (pos = .content → acc = []) ∧
    (∀ m as, pos = .slash m as → ∃ a, acc = a ++ ['/'])

/-- In the contents of a unit, skipped. -/
def MidS (h0 : Sax2) (b : Nat) (st : List Str) (h : Sax2) : Prop :=
  ∃ p, h = { h0 with pend := p, depth := b + st.length }

theorem MidC.inside {h0 h : Sax2} {b : Nat} {pos : Pos} {st : List Str} {ev : List Ev} {acc done : Str} (hi : Inside h0)
    (hm : MidC h0 b pos st ev acc done h) : Inside h := by
  obtain ⟨X, p, ce, rfl, _, hp, _⟩ := hm
  exact ⟨hi.start, hi.chars, hi.collect, hi.others, hp.imp id And.left⟩

theorem MidS.skipping {h0 h : Sax2} {b : Nat} {st : List Str} (hi : Skipping h0) (hm : MidS h0 b st h) : Skipping h := by
  obtain ⟨p, rfl⟩ := hm
  exact ⟨hi.start, hi.collect⟩

theorem sourceOf_append (a b : List Ev) : sourceOf (a ++ b) = sourceOf a ++ sourceOf b := by simp [sourceOf]

/-- The end of an element inside the contents. -/
theorem endElement_inner {h : Sax2} {name : Str} (hq : (h.isArchive = true ∧ 3 ≤ h.depth) ∨ localName name ≠ "unit".toList) :
    h.endElement name = { h with
      contentEnd := if h.collect then h.srcml.length + 1 else h.contentEnd
      srcml := if h.collect then h.srcml ++ h.pend else h.srcml
      pend := []
      depth := h.depth - 1 } := by
  rcases hq with ⟨h1, h2⟩ | h1
  · have a : ¬ h.depth = 2 := by omega
    have b : ¬ h.depth = 1 := by omega
    cases hc : h.collect <;> by_cases hn : localName name = "unit".toList <;> simp [Sax2.endElement, hc, h1, hn, a, b]
  · cases hc : h.collect <;> simp only [Sax2.endElement, hc, h1, if_true, if_false, Bool.false_eq_true, ite_self]

/-- A reference is text. -/
theorem charactersUnit_after {h : Sax2} (hc : h.collect = true) (ch : Str) (h1 : h.pend ≠ []) (h2 : h.pend ≠ ['>']) :
    h.charactersUnit ch [] = .val { h with
      srcml := h.srcml ++ h.pend
      src := h.src ++ ch
      loc := h.loc + ch.count '\n'
      pend := [] } := by
  unfold Sax2.charactersUnit
  rw [if_neg (by simp [hc])]
  simp only [List.append_nil]
  cases hp : h.pend with
  | nil => exact absurd hp h1
  | cons x xs =>
    by_cases hx : x = '>'
    · subst hx
      cases xs with
      | nil => exact absurd hp h2
      | cons y ys => simp
    · split
      · rename_i heq; simp only [List.cons.injEq] at heq; exact absurd heq.1 hx
      · simp

theorem startElement_inner {h : Sax2} {name : Str} {attrs : List (Str × Str)} {next : Char} (hc : h.collect = true)
    (he : localName name = "escape".toList → attrs.filter (fun a => !isNsDecl a.1) ≠ []) :
    h.startElement name attrs next = .val { h with
      srcml := h.srcml ++ h.pend
      pend := [next]
      src := h.src ++ evSource (.op name attrs) } := by
  unfold Sax2.startElement
  rw [if_pos hc]
  simp only [evSource]
  by_cases hn : localName name = "escape".toList
  · rw [if_pos hn, if_pos hn]
    cases hf : attrs.filter (fun a => !isNsDecl a.1) with
    | nil => exact absurd hf (he hn)
    | cons a as => rfl
  · rw [if_neg hn, if_neg hn]
    simp

section
variable {n : Str} {B : List Str} {E : List Ev} {h0 : Sax2}

/-- What a step in the contents gives. -/
def StepOk (M : Pos → List Str → List Ev → Str → Sax2 → Prop) (P : Sax2 → Prop) (n : Str) (B : List Str) (E : List Ev)
    (d : Drive) (h : Sax2) (c : Char) (r1 : RState) : Prop :=
  ∃ pos' st' ev' acc' fs h', r1 = ⟨pos', st' ++ [n], true, ev'⟩ ∧
    d.step c = some (⟨⟨pos', st' ++ B, true, E ++ ev'⟩, acc'⟩, fs) ∧ h.feeds fs = .val h' ∧
    M pos' st' ev' acc' h' ∧ Along P h fs ∧ ∀ b, Feed.text ['>'] b ∉ fs

theorem along_one {P : Sax2 → Prop} {h h' : Sax2} {f : Feed} (h1 : P h) (hf : h.feed f = .val h') (h2 : P h') : Along P h [f] := by
  refine ⟨h1, ?_⟩
  intro x hx
  rw [hf] at hx
  cases hx
  exact h2

theorem feeds_one {h h' : Sax2} {f : Feed} (hf : h.feed f = .val h') : h.feeds [f] = .val h' := by
  rw [Sax2.feeds, hf]; rfl

/-- Ways in which the contents go on: generic over what is known of the handler. -/
theorem content_step (M : Pos → List Str → List Ev → Str → Sax2 → Prop) (P : Sax2 → Prop) (hB : B ≠ [])
    {pos : Pos} {st : List Str} {ev : List Ev} {acc : Str} {h : Sax2} {c : Char} {r1 : RState}
    (hP : ∀ {pos st ev acc h}, M pos st ev acc h → P h)
    (mMove : ∀ q, q ≠ .content → (∀ m as, q = .slash m as → c = '/') → M q st ev (acc ++ [c]) h)
    (mText : pos = .content → c ≠ '>' → ∃ h', h.feed (.text [c] true) = .val h' ∧ M .content st (ev ++ [.ch c]) [] h')
    (mRef : ∀ d, c = ';' → ∃ h', h.feed (.ref (acc ++ [c]) d) = .val h' ∧ M .content st (ev ++ [.ch d]) [] h')
    (mOpen : ∀ m as, c = '>' → Ev.op m as ∈ r1.evs →
      ∃ h', h.feed (.startTag acc m as) = .val h' ∧ M .content (m :: st) (ev ++ [.op m as]) [] h')
    (mEmpty : ∀ m as, c = '>' → pos = .slash m as → Ev.op m as ∈ r1.evs → Ev.cl m ∈ r1.evs →
      ∃ h', h.feed (.emptyTag acc.dropLast m as) = .val h' ∧ M .content st (ev ++ [.op m as, .cl m]) [] h')
    (mClose : ∀ m st', st = m :: st' → c = '>' → Ev.cl m ∈ r1.evs →
      ∃ h', h.feed (.endTag (acc ++ [c]) m) = .val h' ∧ M .content st' (ev ++ [.cl m]) [] h')
    (mPi : c = '>' → ∃ h', h.feed (.pi (acc ++ [c])) = .val h' ∧ M .content st ev [] h')
    (hPh : P h)
    (h1 : (⟨pos, st ++ [n], true, ev⟩ : RState).step c = some r1) (hne : r1.stack ≠ []) :
    StepOk M P n B E ⟨⟨pos, st ++ B, true, E ++ ev⟩, acc⟩ h c r1 := by
  have hBst : st ++ B ≠ [] := by simp [hB]
  have move : ∀ q, q ≠ .content → (∀ m as, q = .slash m as → c = '/') →
      some (⟨q, st ++ [n], true, ev⟩ : RState) = some r1 →
      (⟨⟨pos, st ++ B, true, E ++ ev⟩, acc⟩ : Drive).step c = some (⟨⟨q, st ++ B, true, E ++ ev⟩, acc ++ [c]⟩, []) →
      StepOk M P n B E ⟨⟨pos, st ++ B, true, E ++ ev⟩, acc⟩ h c r1 := by
    intro q h2 h3 h4 h5
    cases h4
    exact ⟨q, st, ev, acc ++ [c], [], h, rfl, h5, rfl, mMove q h2 h3, hPh, by simp⟩
  have one : ∀ f st' ev', some (⟨.content, st' ++ [n], true, ev'⟩ : RState) = some r1 →
      (⟨⟨pos, st ++ B, true, E ++ ev⟩, acc⟩ : Drive).step c = some (⟨⟨.content, st' ++ B, true, E ++ ev'⟩, []⟩, [f]) →
      (∃ h', h.feed f = .val h' ∧ M .content st' ev' [] h') → (∀ b, Feed.text ['>'] b ≠ f) →
      StepOk M P n B E ⟨⟨pos, st ++ B, true, E ++ ev⟩, acc⟩ h c r1 := by
    intro f st' ev' h4 h5 h6 h7
    cases h4
    obtain ⟨h', h8, h9⟩ := h6
    exact ⟨.content, st', ev', [], [f], h', rfl, h5, feeds_one h8, h9, along_one hPh h8 (hP h9), by simpa using h7⟩
  have hchar : ∀ q d, (⟨q, st ++ [n], true, ev⟩ : RState).char d = some ⟨.content, st ++ [n], true, ev ++ [.ch d]⟩ := by
    intro q d; simp [RState.char]
  have hcharB : ∀ q d, (⟨q, st ++ B, true, E ++ ev⟩ : RState).char d = some ⟨.content, st ++ B, true, E ++ (ev ++ [.ch d])⟩ := by
    intro q d; simp [RState.char, hB]
  have hopen : ∀ q m as x, (⟨q, st ++ [n], true, ev⟩ : RState).openTag m as = some x →
      x = ⟨.content, (m :: st) ++ [n], true, ev ++ [.op m as]⟩ ∧
      (⟨q, st ++ B, true, E ++ ev⟩ : RState).openTag m as = some ⟨.content, (m :: st) ++ B, true, E ++ (ev ++ [.op m as])⟩ := by
    intro q m as x hx
    exact same_open (E1 := []) (E2 := E) hB m as x hx
  have hclose : ∀ q m, (⟨q, st ++ [n], true, ev⟩ : RState).closeTag m = some r1 → ∃ st', st = m :: st' ∧
      r1 = ⟨.content, st' ++ [n], true, ev ++ [.cl m]⟩ := by
    intro q m hx
    unfold RState.closeTag at hx
    cases st with
    | nil =>
      simp only [List.nil_append] at hx
      split at hx
      · cases hx; exact absurd rfl hne
      · cases hx
    | cons x xs =>
      simp only [List.cons_append] at hx
      by_cases hxm : x = m
      · rw [if_pos hxm] at hx; cases hx; exact ⟨xs, by rw [hxm], rfl⟩
      · rw [if_neg hxm] at hx; cases hx
  cases pos with
  | content =>
    simp only [RState.step] at h1
    split at h1
    · rename_i k1
      exact move _ (by simp) (by simp) h1 (by simp [Drive.step, RState.step, k1])
    rename_i k1
    split at h1
    · rename_i k2
      exact move _ (by simp) (by simp) h1 (by simp [Drive.step, RState.step, k2])
    rename_i k2
    split at h1
    · cases h1
    rename_i k3
    rw [hchar] at h1
    have k4 : ¬ c = '>' := fun e => k3 (Or.inl e)
    refine one _ st (ev ++ [.ch c]) h1 ?_ (mText rfl k4) (by
      intro b e
      simp only [Feed.text.injEq, List.cons.injEq] at e
      exact k4 e.1.1.symm)
    have : (⟨.content, st ++ B, true, E ++ ev⟩ : RState).step c = some ⟨.content, st ++ B, true, E ++ (ev ++ [.ch c])⟩ := by
      rw [← hcharB .content c]
      simp only [RState.step]
      rw [if_neg k1, if_neg k2, if_neg k3]
    unfold Drive.step
    rw [this]
    simp only
    rw [if_neg (by simp [k1, k2]), if_neg hBst]
  | contentRef name =>
    simp only [RState.step] at h1
    by_cases k1 : c = ';'
    · rw [if_pos k1] at h1
      cases he : entity name with
      | none => rw [he] at h1; cases h1
      | some d =>
        rw [he] at h1
        simp only [hchar] at h1
        refine one (.ref (acc ++ [c]) d) st (ev ++ [.ch d]) h1 ?_ (mRef d k1) (by simp)
        have : (⟨.contentRef name, st ++ B, true, E ++ ev⟩ : RState).step c =
            some ⟨.content, st ++ B, true, E ++ (ev ++ [.ch d])⟩ := by
          simp only [RState.step]
          rw [if_pos k1, he]
          exact hcharB _ d
        unfold Drive.step
        rw [this]
        simp only
        rw [if_pos k1, he]
        rfl
    · rw [if_neg k1] at h1
      exact move _ (by simp) (by simp) h1 (by simp [Drive.step, RState.step, k1])
  | lt =>
    simp only [RState.step] at h1
    split at h1
    · rename_i k1
      exact move _ (by simp) (by simp) h1 (by simp [Drive.step, RState.step, k1])
    rename_i k1
    split at h1
    · rename_i k2
      exact move _ (by simp) (by simp) h1 (by simp [Drive.step, RState.step, k2])
    rename_i k2
    split at h1
    · rename_i k3
      exact move _ (by simp) (by simp) h1 (by simp [Drive.step, RState.step, k1, k2, k3])
    · cases h1
  | openName m =>
    simp only [RState.step] at h1
    split at h1
    · rename_i k1
      exact move _ (by simp) (by simp) h1 (by simp [Drive.step, RState.step, k1])
    rename_i k1
    split at h1
    · rename_i k2
      obtain ⟨e1, e2⟩ := hopen _ _ _ _ h1
      refine one (.startTag acc m []) (m :: st) (ev ++ [.op m []]) (by rw [e1]) ?_ (mOpen m [] k2 (by rw [e1]; simp)) (by simp)
      unfold Drive.step
      simp only [RState.step]
      rw [if_neg k1, if_pos k2, e2]
      simp only
      rw [if_pos k2]
    rename_i k2
    split at h1
    · rename_i k3
      exact move _ (by simp) (by simp [k3]) h1 (by simp [Drive.step, RState.step, k3])
    rename_i k3
    split at h1
    · rename_i k4
      exact move _ (by simp) (by simp) h1 (by simp [Drive.step, RState.step, k1, k2, k3, k4])
    · cases h1
  | closeName m =>
    simp only [RState.step] at h1
    split at h1
    · rename_i k1
      obtain ⟨st', e1, e2⟩ := hclose _ _ h1
      refine one (.endTag (acc ++ [c]) m) st' (ev ++ [.cl m]) (by rw [e2]) ?_ (mClose m st' e1 k1 (by rw [e2]; simp)) (by simp)
      subst e1
      simp [Drive.step, RState.step, RState.closeTag, k1]
    rename_i k1
    split at h1
    · rename_i k2
      exact move _ (by simp) (by simp) h1 (by simp [Drive.step, RState.step, k1, k2])
    · cases h1
  | afterTag m as =>
    simp only [RState.step] at h1
    split at h1
    · rename_i k1
      exact move _ (by simp) (by simp) h1 (by simp [Drive.step, RState.step, k1])
    rename_i k1
    split at h1
    · rename_i k2
      obtain ⟨e1, e2⟩ := hopen _ _ _ _ h1
      refine one (.startTag acc m as) (m :: st) (ev ++ [.op m as]) (by rw [e1]) ?_ (mOpen m as k2 (by rw [e1]; simp)) (by simp)
      unfold Drive.step
      simp only [RState.step]
      rw [if_neg k1, if_pos k2, e2]
      simp only
      rw [if_pos k2]
    rename_i k2
    split at h1
    · rename_i k3
      exact move _ (by simp) (by simp [k3]) h1 (by simp [Drive.step, RState.step, k3])
    · cases h1
  | inTag m as =>
    simp only [RState.step] at h1
    split at h1
    · rename_i k1
      exact move _ (by simp) (by simp) h1 (by simp [Drive.step, RState.step, k1])
    · cases h1
  | attrName m as an =>
    simp only [RState.step] at h1
    split at h1
    · rename_i k1
      exact move _ (by simp) (by simp) h1 (by simp [Drive.step, RState.step, k1])
    rename_i k1
    split at h1
    · rename_i k2
      exact move _ (by simp) (by simp) h1 (by simp [Drive.step, RState.step, k1, k2])
    · cases h1
  | attrEq m as an =>
    simp only [RState.step] at h1
    split at h1
    · rename_i k1
      exact move _ (by simp) (by simp) h1 (by simp [Drive.step, RState.step, k1])
    · cases h1
  | attrVal m as an v =>
    simp only [RState.step] at h1
    split at h1
    · rename_i k1
      exact move _ (by simp) (by simp) h1 (by simp [Drive.step, RState.step, k1])
    rename_i k1
    split at h1
    · rename_i k2
      exact move _ (by simp) (by simp) h1 (by simp [Drive.step, RState.step, k2])
    rename_i k2
    split at h1
    · cases h1
    rename_i k3
    split at h1
    · rename_i k4
      exact move _ (by simp) (by simp) h1 (by unfold Drive.step; simp only [RState.step]; rw [if_neg k1, if_neg k2, if_neg k3, if_pos k4])
    · rename_i k4
      exact move _ (by simp) (by simp) h1 (by unfold Drive.step; simp only [RState.step]; rw [if_neg k1, if_neg k2, if_neg k3, if_neg k4])
  | attrRef m as an v ref =>
    simp only [RState.step] at h1
    split at h1
    · rename_i k1
      cases he : entity ref with
      | none => rw [he] at h1; cases h1
      | some d =>
        rw [he] at h1
        exact move _ (by simp) (by simp) h1 (by simp [Drive.step, RState.step, k1, he])
    · rename_i k1
      exact move _ (by simp) (by simp) h1 (by simp [Drive.step, RState.step, k1])
  | slash m as =>
    simp only [RState.step] at h1
    split at h1
    · rename_i k1
      cases ho : (⟨.slash m as, st ++ [n], true, ev⟩ : RState).openTag m as with
      | none => rw [ho] at h1; cases h1
      | some x =>
        rw [ho] at h1
        obtain ⟨e1, e2⟩ := hopen _ _ _ _ ho
        subst e1
        simp [RState.closeTag] at h1
        refine one (.emptyTag acc.dropLast m as) st (ev ++ [.op m as, .cl m]) (by rw [← h1]) ?_
          (mEmpty m as k1 rfl (by rw [← h1]; simp) (by rw [← h1]; simp)) (by simp)
        unfold Drive.step
        simp only [RState.step]
        rw [if_pos k1, e2]
        simp [RState.closeTag]
    · cases h1
  | pi =>
    simp only [RState.step] at h1
    split at h1
    · rename_i k1
      exact move _ (by simp) (by simp) h1 (by simp [Drive.step, RState.step, k1])
    · rename_i k1
      exact move _ (by simp) (by simp) h1 (by simp [Drive.step, RState.step, k1])
  | piEnd =>
    simp only [RState.step] at h1
    split at h1
    · rename_i k1
      refine one (.pi (acc ++ [c])) st ev h1 ?_ (mPi k1) (by simp)
      simp [Drive.step, RState.step, k1]
    rename_i k1
    split at h1
    · rename_i k2
      exact move _ (by simp) (by simp) h1 (by simp [Drive.step, RState.step, k1, k2])
    · rename_i k2
      exact move _ (by simp) (by simp) h1 (by simp [Drive.step, RState.step, k1, k2])

end


/-- What a run over contents gives. -/
def RunOk (M : Pos → List Str → List Ev → Str → Sax2 → Prop) (P : Sax2 → Prop) (n : Str) (B : List Str) (E : List Ev)
    (d : Drive) (h : Sax2) (s : Str) (r1 : RState) : Prop :=
  ∃ pos' st' ev' acc' fs h', r1 = ⟨pos', st' ++ [n], true, ev'⟩ ∧
    d.run s = some (⟨⟨pos', st' ++ B, true, E ++ ev'⟩, acc'⟩, fs) ∧ h.feeds fs = .val h' ∧
    M pos' st' ev' acc' h' ∧ Along P h fs ∧ ∀ b, Feed.text ['>'] b ∉ fs

theorem RunOk.cons {M M' : Pos → List Str → List Ev → Str → Sax2 → Prop} {P : Sax2 → Prop} {n : Str} {B : List Str} {E : List Ev}
    {d : Drive} {h : Sax2} {c : Char} {cs : Str} {r1 r2 : RState} (h1 : StepOk M P n B E d h c r1)
    (h2 : ∀ pos st ev acc h', r1 = ⟨pos, st ++ [n], true, ev⟩ → M pos st ev acc h' →
      RunOk M' P n B E ⟨⟨pos, st ++ B, true, E ++ ev⟩, acc⟩ h' cs r2) : RunOk M' P n B E d h (c :: cs) r2 := by
  obtain ⟨pos, st, ev, acc, fs, h', e1, e2, e3, e4, e5, e6⟩ := h1
  obtain ⟨pos2, st2, ev2, acc2, fs2, h2', f1, f2, f3, f4, f5, f6⟩ := h2 pos st ev acc h' e1 e4
  refine ⟨pos2, st2, ev2, acc2, fs ++ fs2, h2', f1, drive_cons e2 f2, ?_, f4, Along.append _ e5 e3 f5, ?_⟩
  · rw [feeds_append _ _ e3]; exact f3
  · intro b hb
    rcases List.mem_append.mp hb with hb | hb
    · exact e6 b hb
    · exact f6 b hb

/-- The stack of the reader after the root was closed stays empty. -/
theorem step_alive {r r1 r' : RState} {c : Char} {s : Str} (h : r.step c = some r1) (hr : r.rooted = true) (h1 : r1.run s = some r')
    (hne : r'.stack ≠ []) : r1.stack ≠ [] := by
  intro hs
  have hro : r1.rooted = true := by
    have hch : ∀ (x y : RState) d, x.char d = some y → x.rooted = true → y.rooted = true := by
      intro x y d hh hx
      unfold RState.char at hh
      repeat' split at hh
      all_goals first | (cases hh; exact hx) | cases hh
    have hop : ∀ (x y : RState) m as, x.openTag m as = some y → y.rooted = true := by
      intro x y m as hh
      unfold RState.openTag at hh
      repeat' split at hh
      all_goals first | (cases hh; rfl) | cases hh
    have hcl : ∀ (x y : RState) m, x.closeTag m = some y → x.rooted = true → y.rooted = true := by
      intro x y m hh hx
      unfold RState.closeTag at hh
      repeat' split at hh
      all_goals first | (cases hh; exact hx) | cases hh
    unfold RState.step at h
    repeat' split at h
    all_goals
      first
      | (cases h; exact hr)
      | exact hch _ _ _ h hr
      | exact hop _ _ _ _ h
      | exact hcl _ _ _ h hr
      | (rename_i heq; exact hcl _ _ _ h (hop _ _ _ _ heq))
      | cases h
  exact hne (run_dead s h1 hs hro).1

section
variable {n : Str} {B : List Str} {E : List Ev} {h0 : Sax2}

theorem quiet_of {b : Nat} {ev m : List Ev} (h : Quiet h0 b (ev ++ m)) : Quiet h0 b ev :=
  h.imp id (fun k x hx => k x (by simp [hx]))

theorem escapes_of {ev m : List Ev} (h : EscapesOk (ev ++ m)) : EscapesOk ev :=
  fun a b hx hn => h a b (by simp [hx]) hn

theorem Quiet.inner {b : Nat} {ev : List Ev} {m : Str} (h : Quiet h0 b ev) (hm : Ev.cl m ∈ ev) (k : Nat) :
    (h0.isArchive = true ∧ 3 ≤ b + (k + 1)) ∨ localName m ≠ "unit".toList := by
  rcases h with ⟨h1, h2⟩ | h1
  · exact Or.inl ⟨h1, by omega⟩
  · exact Or.inr (h1 m hm)

/-- The state in the contents. -/
def midC (h0 : Sax2) (b : Nat) (st : List Str) (ev : List Ev) (X p : Str) (ce : Nat) : Sax2 :=
  { h0 with
    srcml := X
    pend := p
    src := h0.src ++ sourceOf ev
    loc := h0.loc + (evText ev).count '\n'
    contentEnd := ce
    depth := b + st.length }

theorem stepC {b : Nat} (hi : Inside h0) (hB : B ≠ [])
    {pos : Pos} {st : List Str} {ev : List Ev} {acc done : Str} {h : Sax2} {c : Char} {r1 : RState}
    (hm : MidC h0 b pos st ev acc done h)
    (h1 : (⟨pos, st ++ [n], true, ev⟩ : RState).step c = some r1) (hne : r1.stack ≠ []) (he : EscapesOk r1.evs)
    (hq : Quiet h0 b r1.evs) :
    StepOk (fun pos' st' ev' acc' h' => MidC h0 b pos' st' ev' acc' (done ++ [c]) h') InUnit n B E
      ⟨⟨pos, st ++ B, true, E ++ ev⟩, acc⟩ h c r1 := by
  have hin : Inside h := hm.inside hi
  obtain ⟨X, p, ce, heq, htext, hp, hac, hsl⟩ := hm
  have heq : h = midC h0 b st ev X p ce := heq
  subst heq
  have hst : h0.start = .element := hi.start
  have hchs : h0.chars = .unit := hi.chars
  have hcol : h0.collect = true := hi.collect
  have hoth : h0.others = true := hi.others
  have mk : ∀ {st' : List Str} {ev' : List Ev} {X' p' : Str} {ce' : Nat}, X' ++ p' = h0.srcml ++ (done ++ [c]) →
      (p' = [] ∨ (p' = ['>'] ∧ st' ≠ [])) → MidC h0 b .content st' ev' [] (done ++ [c]) (midC h0 b st' ev' X' p' ce') := by
    intro st' ev' X' p' ce' e1 e2
    exact ⟨X', p', ce', rfl, by simpa using e1, e2, fun _ => rfl, by simp⟩
  refine content_step _ InUnit hB ?_ ?_ ?_ ?_ ?_ ?_ ?_ ?_ (Or.inl hin) h1 hne
  · intro pos st ev acc x hx
    exact Or.inl (hx.inside hi)
  · intro q hq1 hq2
    refine ⟨X, p, ce, rfl, ?_, hp, fun e => absurd e hq1, ?_⟩
    · rw [← List.append_assoc, htext]; simp
    · intro m as e; exact ⟨acc, by rw [hq2 m as e]⟩
  · intro e1 e2
    have ha : acc = [] := hac e1
    refine ⟨midC h0 b st (ev ++ [.ch c]) (X ++ p ++ [c]) [] ce, ?_, mk ?_ (Or.inl rfl)⟩
    · rw [feed_text hin (by simp) (by simpa using fun e => e2 e)]
      simp [midC, sourceOf_append, evText_append, sourceOf, evSource, evText, List.count_append, Nat.add_assoc]
    · rw [ha] at htext
      simp only [List.append_nil] at htext
      rw [htext]; simp
  · intro d e1
    refine ⟨midC h0 b st (ev ++ [.ch d]) (X ++ (p ++ (acc ++ [c]))) [] ce, ?_, mk (by rw [← List.append_assoc h0.srcml, ← htext]; simp) (Or.inl rfl)⟩
    simp only [Sax2.feed, Sax2.characters, midC, hchs]
    rw [charactersUnit_after (by exact hcol) [d] (by simp) (by
          subst e1
          intro e
          have := congrArg List.getLast? e
          simp only [← List.append_assoc, List.getLast?_concat] at this
          revert this; decide)]
    simp [sourceOf_append, evText_append, sourceOf, evSource, evText, List.count_append, Nat.add_assoc, hchs]
  · intro m as e1 e2
    refine ⟨midC h0 b (m :: st) (ev ++ [.op m as]) (X ++ (p ++ acc)) ['>'] ce, ?_, mk (by rw [← List.append_assoc h0.srcml, ← htext, e1]; simp) (Or.inr ⟨rfl, by simp⟩)⟩
    simp only [Sax2.feed, Sax2.startTag, midC, hst]
    rw [startElement_inner (by exact hcol) (he m as e2)]
    simp [sourceOf_append, evText_append, sourceOf, evText, Nat.add_assoc, hst]
  · intro m as e1 e2 e3 e4
    obtain ⟨a, ha⟩ := hsl m as e2
    refine ⟨midC h0 b st (ev ++ [.op m as, .cl m]) (X ++ (p ++ acc.dropLast) ++ ['/', '>']) [] ((X ++ (p ++ acc.dropLast)).length + 1),
      ?_, mk ?_ (Or.inl rfl)⟩
    · simp only [Sax2.feed, Sax2.startTag, midC, hst]
      rw [startElement_inner (by exact hcol) (he m as e3)]
      simp only
      rw [endElement_inner (by exact hq.inner e4 st.length)]
      simp [sourceOf_append, evText_append, sourceOf, evSource, evText, Nat.add_assoc, hcol, hst]
    · rw [ha] at htext ⊢
      rw [← List.append_assoc h0.srcml, ← htext, e1]; simp
  · intro m st' e1 e2 e3
    refine ⟨midC h0 b st' (ev ++ [.cl m]) (X ++ (p ++ (acc ++ [c]))) [] (X.length + 1), ?_, mk (by rw [← List.append_assoc h0.srcml, ← htext]; simp) (Or.inl rfl)⟩
    simp only [Sax2.feed, midC]
    rw [endElement_inner (by
          simp only [e1, List.length_cons]
          exact hq.inner e3 st'.length)]
    simp [sourceOf_append, evText_append, sourceOf, evSource, evText, Nat.add_assoc, hcol, e1]
  · intro e1
    refine ⟨midC h0 b st ev (X ++ (p ++ (acc ++ [c]))) [] ce, ?_, mk (by rw [← List.append_assoc h0.srcml, ← htext]; simp) (Or.inl rfl)⟩
    simp [Sax2.feed, midC, hoth, hcol]

theorem runC {b : Nat} (hi : Inside h0) (hB : B ≠ []) (s : Str) :
    ∀ {pos : Pos} {st : List Str} {ev : List Ev} {acc done : Str} {h : Sax2} {r1 : RState},
    MidC h0 b pos st ev acc done h →
    (⟨pos, st ++ [n], true, ev⟩ : RState).run s = some r1 → r1.stack ≠ [] → EscapesOk r1.evs → Quiet h0 b r1.evs →
    RunOk (fun pos' st' ev' acc' h' => MidC h0 b pos' st' ev' acc' (done ++ s) h') InUnit n B E
      ⟨⟨pos, st ++ B, true, E ++ ev⟩, acc⟩ h s r1 := by
  induction s with
  | nil =>
    intro pos st ev acc done h r1 hm h1 hne he hq
    cases h1
    exact ⟨pos, st, ev, acc, [], h, rfl, rfl, rfl, by simpa using hm, Or.inl (hm.inside hi), by simp⟩
  | cons c cs ih =>
    intro pos st ev acc done h r1 hm h1 hne he hq
    rw [RState.run] at h1
    split at h1
    · rename_i r heq
      obtain ⟨m, em⟩ := run_mono cs h1
      refine RunOk.cons (stepC hi hB hm heq (step_alive heq rfl h1 hne) (escapes_of (em ▸ he)) (quiet_of (em ▸ hq))) ?_
      intro pos' st' ev' acc' h' e1 e2
      subst e1
      have := ih (done := done ++ [c]) e2 h1 hne he hq
      simpa using this
    · cases h1

/-! ### Skipped -/

theorem stepS {b : Nat} (hi : Skipping h0) (hB : B ≠ [])
    {pos : Pos} {st : List Str} {ev : List Ev} {acc : Str} {h : Sax2} {c : Char} {r1 : RState} (hm : MidS h0 b st h)
    (h1 : (⟨pos, st ++ [n], true, ev⟩ : RState).step c = some r1) (hne : r1.stack ≠ []) (hq : Quiet h0 b r1.evs) :
    StepOk (fun _ st' _ _ h' => MidS h0 b st' h') InUnit n B E ⟨⟨pos, st ++ B, true, E ++ ev⟩, acc⟩ h c r1 := by
  have hin : Skipping h := hm.skipping hi
  have hcol : h0.collect = false := hi.collect
  refine content_step _ InUnit hB ?_ ?_ ?_ ?_ ?_ ?_ ?_ ?_ (Or.inr hin) h1 hne
  · intro pos st ev acc x hx
    exact Or.inr (hx.skipping hi)
  · intro q _ _
    exact hm
  · intro _ _
    obtain ⟨p, rfl⟩ := hm
    exact ⟨_, feed_text_skip hin _ _, _, rfl⟩
  · intro d _
    obtain ⟨p, rfl⟩ := hm
    refine ⟨{ h0 with pend := p ++ (acc ++ [c]), depth := b + st.length }, ?_, _, rfl⟩
    rcases hi.start with ⟨_, k, _⟩ | ⟨_, k⟩ <;> simp [Sax2.feed, Sax2.characters, Sax2.charactersUnit, k, hcol]
  · intro m as _ _
    obtain ⟨p, rfl⟩ := hm
    rcases hi.start with ⟨k, _⟩ | ⟨k, _⟩
    · refine ⟨{ h0 with pend := p ++ acc ++ ['>'], depth := b + (st.length + 1) }, ?_, _, rfl⟩
      simp [Sax2.feed, Sax2.startTag, k, Nat.add_assoc]
    · refine ⟨{ h0 with pend := ['>'], depth := b + (st.length + 1) }, ?_, _, rfl⟩
      simp [Sax2.feed, Sax2.startTag, Sax2.startElement, k, hcol, Nat.add_assoc]
  · intro m as _ _ _ e4
    obtain ⟨p, rfl⟩ := hm
    refine ⟨{ h0 with pend := [], depth := b + st.length }, ?_, _, rfl⟩
    rcases hi.start with ⟨k, _⟩ | ⟨k, _⟩
    · simp only [Sax2.feed, Sax2.startTag, k]
      rw [endElement_inner (by exact hq.inner e4 st.length)]
      simp [hcol, k]
    · simp only [Sax2.feed, Sax2.startTag, Sax2.startElement, k, hcol]
      simp only [Bool.false_eq_true, if_false]
      rw [endElement_inner (by exact hq.inner e4 st.length)]
      simp [hcol, k]
  · intro m st' e1 _ e3
    obtain ⟨p, rfl⟩ := hm
    refine ⟨{ h0 with pend := [], depth := b + st'.length }, ?_, _, rfl⟩
    simp only [Sax2.feed]
    rw [endElement_inner (by
          simp only [e1, List.length_cons]
          exact hq.inner e3 st'.length)]
    simp [hcol, e1]
  · intro _
    obtain ⟨p, rfl⟩ := hm
    refine ⟨{ h0 with pend := p ++ (acc ++ [c]), depth := b + st.length }, ?_, _, rfl⟩
    simp [Sax2.feed, hcol]

theorem runS {b : Nat} (hi : Skipping h0) (hB : B ≠ []) (s : Str) :
    ∀ {pos : Pos} {st : List Str} {ev : List Ev} {acc : Str} {h : Sax2} {r1 : RState}, MidS h0 b st h →
    (⟨pos, st ++ [n], true, ev⟩ : RState).run s = some r1 → r1.stack ≠ [] → Quiet h0 b r1.evs →
    RunOk (fun _ st' _ _ h' => MidS h0 b st' h') InUnit n B E ⟨⟨pos, st ++ B, true, E ++ ev⟩, acc⟩ h s r1 := by
  induction s with
  | nil =>
    intro pos st ev acc h r1 hm h1 hne hq
    cases h1
    exact ⟨pos, st, ev, acc, [], h, rfl, rfl, rfl, hm, Or.inr (hm.skipping hi), by simp⟩
  | cons c cs ih =>
    intro pos st ev acc h r1 hm h1 hne hq
    rw [RState.run] at h1
    split at h1
    · rename_i r heq
      obtain ⟨m, em⟩ := run_mono cs h1
      refine RunOk.cons (stepS hi hB hm heq (step_alive heq rfl h1 hne) (quiet_of (em ▸ hq))) ?_
      intro pos' st' ev' acc' h' e1 e2
      subst e1
      exact ih e2 h1 hne hq
    · cases h1

end

end Srcml
