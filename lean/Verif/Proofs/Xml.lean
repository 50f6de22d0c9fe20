import Verif.Model.Output
import Verif.Spec.Xml
/-
The XML reader of the specification on what the text writer writes.
-/
set_option linter.unusedSimpArgs false
namespace Srcml
open Spec

/-! ### The reader on pieces of a document -/

theorem run_append (r : RState) (a b : Str) : r.run (a ++ b) = (r.run a).bind (fun r' => r'.run b) := by
  induction a generalizing r with
  | nil => rfl
  | cons c cs ih =>
    simp only [List.cons_append, RState.run]
    cases h : r.step c with
    | none => rfl
    | some r' => simp only [ih]

theorem run_append_some {r r' : RState} {a : Str} (h : r.run a = some r') (b : Str) :
    r.run (a ++ b) = r'.run b := by rw [run_append, h]; rfl

theorem run_cons {r r' : RState} {c : Char} {cs : Str} (h : r.step c = some r') :
    r.run (c :: cs) = r'.run cs := by simp only [RState.run, h]

/-- A string that can be a name in the document. -/
def ValidName (s : Str) : Prop := s ≠ [] ∧ s.all nameChar = true

instance (s : Str) : Decidable (ValidName s) := inferInstanceAs (Decidable (_ ∧ _))

/-- A string that can be the value of an attribute. -/
def ValidValue (s : Str) : Prop := ∀ c ∈ s, xmlChar c = true ∨ c = '\r'

instance (s : Str) : Decidable (ValidValue s) := inferInstanceAs (Decidable (∀ c ∈ s, _))

theorem nameChar_ne {c : Char} (h : nameChar c = true) :
    c ≠ ' ' ∧ c ≠ '>' ∧ c ≠ '/' ∧ c ≠ '=' ∧ c ≠ '?' ∧ c ≠ '<' ∧ c ≠ '"' ∧ c ≠ '&' := by
  refine ⟨?_, ?_, ?_, ?_, ?_, ?_, ?_, ?_⟩ <;> (rintro rfl; revert h; decide)

theorem run_openName (r : RState) (acc s : Str) (h : s.all nameChar = true) (hp : r.pos = .openName acc) :
    r.run s = some { r with pos := .openName (acc ++ s) } := by
  induction s generalizing r acc with
  | nil => cases r; simp at hp; simp [RState.run, hp]
  | cons c cs ih =>
    simp only [List.all_cons, Bool.and_eq_true] at h
    obtain ⟨h1, h2, h3, _⟩ := nameChar_ne h.1
    rw [run_cons (r' := { r with pos := .openName (acc ++ [c]) })]
    · rw [ih { r with pos := .openName (acc ++ [c]) } (acc ++ [c]) h.2 rfl]; simp
    · simp only [RState.step, hp, h1, h2, h3, h.1, if_false, if_true]

theorem run_closeName (r : RState) (acc s : Str) (h : s.all nameChar = true) (hp : r.pos = .closeName acc) :
    r.run s = some { r with pos := .closeName (acc ++ s) } := by
  induction s generalizing r acc with
  | nil => cases r; simp at hp; simp [RState.run, hp]
  | cons c cs ih =>
    simp only [List.all_cons, Bool.and_eq_true] at h
    obtain ⟨h1, h2, h3, _⟩ := nameChar_ne h.1
    rw [run_cons (r' := { r with pos := .closeName (acc ++ [c]) })]
    · rw [ih { r with pos := .closeName (acc ++ [c]) } (acc ++ [c]) h.2 rfl]; simp
    · simp only [RState.step, hp, h1, h2, h3, h.1, if_false, if_true]

theorem run_attrName (r : RState) (n : Str) (as : List (Str × Str)) (acc s : Str)
    (h : s.all nameChar = true) (hp : r.pos = .attrName n as acc) :
    r.run s = some { r with pos := .attrName n as (acc ++ s) } := by
  induction s generalizing r acc with
  | nil => cases r; simp at hp; simp [RState.run, hp]
  | cons c cs ih =>
    simp only [List.all_cons, Bool.and_eq_true] at h
    obtain ⟨h1, h2, h3, h4, _⟩ := nameChar_ne h.1
    rw [run_cons (r' := { r with pos := .attrName n as (acc ++ [c]) })]
    · rw [ih { r with pos := .attrName n as (acc ++ [c]) } (acc ++ [c]) h.2 rfl]; simp
    · simp only [RState.step, hp, h1, h2, h3, h4, h.1, if_false, if_true]

/-- The reader inside a start tag, where an attribute or the end of the tag may follow. -/
def TagPos (n : Str) (as : List (Str × Str)) (p : Pos) : Prop :=
  (p = .openName n ∧ as = []) ∨ p = .afterTag n as

theorem run_attrChar (r : RState) (n an acc : Str) (as : List (Str × Str)) (c : Char)
    (hp : r.pos = .attrVal n as an acc) (hc : xmlChar c = true ∨ c = '\r') :
    r.run (attrEscapeChar c) = some { r with pos := .attrVal n as an (acc ++ [c]) } := by
  obtain ⟨pos, stack, rooted, evs⟩ := r
  simp only at hp; subst hp
  by_cases h1 : c = '"'
  · subst h1; rfl
  by_cases h2 : c = '\n'
  · subst h2; rfl
  by_cases h3 : c = '\r'
  · subst h3; rfl
  by_cases h4 : c = '\t'
  · subst h4; rfl
  by_cases h5 : c = '<'
  · subst h5; rfl
  by_cases h6 : c = '>'
  · subst h6; rfl
  by_cases h7 : c = '&'
  · subst h7; rfl
  have hx : xmlChar c = true := by cases hc with | inl h => exact h | inr h => exact absurd h h3
  simp [attrEscapeChar, h1, h2, h3, h4, h5, h6, h7, RState.run, RState.step, hx]

theorem run_attrVal (r : RState) (n an acc v : Str) (as : List (Str × Str))
    (hp : r.pos = .attrVal n as an acc) (hv : ValidValue v) :
    r.run (v.flatMap attrEscapeChar) = some { r with pos := .attrVal n as an (acc ++ v) } := by
  induction v generalizing r acc with
  | nil => cases r; simp at hp; simp [RState.run, hp]
  | cons c cs ih =>
    simp only [List.flatMap_cons]
    rw [run_append_some (run_attrChar r n an acc as c hp (hv c (by simp)))]
    rw [ih _ (acc ++ [c]) rfl (fun x hx => hv x (by simp [hx]))]
    simp

theorem run_attr (r : RState) (n an v : Str) (as : List (Str × Str))
    (hp : TagPos n as r.pos) (ha : ValidName an) (hv : ValidValue v) :
    r.run (attrText an v) = some { r with pos := .afterTag n (as ++ [(an, v)]) } := by
  obtain ⟨hne, hall⟩ := ha
  cases an with
  | nil => exact absurd rfl hne
  | cons a an =>
    simp only [List.all_cons, Bool.and_eq_true] at hall
    have step1 : r.step ' ' = some { r with pos := .inTag n as } := by
      rcases hp with ⟨h, h'⟩ | h
      · subst h'; simp [RState.step, h]
      · simp [RState.step, h]
    simp only [attrText, List.cons_append]
    rw [run_cons step1]
    rw [run_cons (r' := { r with pos := .attrName n as [a] })
      (by simp [RState.step, hall.1])]
    rw [List.append_assoc, run_append_some (run_attrName _ n as [a] an hall.2 rfl)]
    simp only [List.cons_append, List.nil_append]
    rw [run_cons (r' := { r with pos := .attrEq n as (a :: an) }) (by simp [RState.step])]
    rw [run_cons (r' := { r with pos := .attrVal n as (a :: an) [] }) (by simp [RState.step])]
    rw [run_append_some (run_attrVal _ n (a :: an) [] v as rfl hv)]
    simp [RState.run, RState.step]

theorem srcEscape_char (r : RState) (c : Char) (hp : r.pos = .content) (hs : r.stack ≠ [])
    (hc : xmlChar c = true) :
    r.run (srcEscapeChar c) = some { r with evs := r.evs ++ [.ch c] } := by
  obtain ⟨pos, stack, rooted, evs⟩ := r
  simp only at hp hs; subst hp
  cases stack with
  | nil => exact absurd rfl hs
  | cons n rest =>
    by_cases h5 : c = '<'
    · subst h5; rfl
    by_cases h6 : c = '>'
    · subst h6; rfl
    by_cases h7 : c = '&'
    · subst h7; rfl
    simp [srcEscapeChar, h5, h6, h7, RState.run, RState.step, RState.char, hc]

theorem run_srcText (r : RState) (t : Str) (hp : r.pos = .content) (hs : r.stack ≠ [])
    (ht : t.all xmlChar = true) :
    r.run (t.flatMap srcEscapeChar) = some { r with evs := r.evs ++ t.map .ch } := by
  induction t generalizing r with
  | nil => simp [RState.run]
  | cons c cs ih =>
    simp only [List.all_cons, Bool.and_eq_true] at ht
    simp only [List.flatMap_cons]
    rw [run_append_some (srcEscape_char r c hp hs ht.1)]
    rw [ih { r with evs := r.evs ++ [.ch c] } hp hs ht.2]
    simp

/-- What the code writes for a text without NUL is the escaped text, whichever way it takes. -/
theorem processedText_eq (s : Str) (h : '\x00' ∉ s) : processedText s = s.flatMap srcEscapeChar := by
  unfold processedText
  split
  · rfl
  · rename_i hm
    have htw : s.takeWhile (fun c => c ≠ '\x00') = s := by
      clear hm
      induction s with
      | nil => rfl
      | cons c cs ih =>
        simp only [List.mem_cons, not_or] at h
        have hc : c ≠ '\x00' := fun e => h.1 e.symm
        simp only [List.takeWhile_cons, hc, ne_eq, not_false_eq_true, decide_true, if_true]
        rw [ih h.2]
    simp only [hasMarkup, htw] at hm
    clear htw h
    induction s with
    | nil => rfl
    | cons c cs ih =>
      simp only [List.any_cons, Bool.or_eq_true, not_or] at hm
      simp only [decide_eq_true_eq] at hm
      simp only [List.flatMap_cons, srcEscapeChar, hm.1.1.1, hm.1.1.2, hm.1.2, if_false]
      rw [← ih (by simpa using hm.2)]
      rfl

theorem xmlChar_no_nul {s : Str} (h : s.all xmlChar = true) : '\x00' ∉ s := by
  intro hm
  have := List.all_eq_true.mp h _ hm
  revert this; decide

/-- As long as there are no events, no element is open. -/
theorem reader_root (s : Str) (r r' : RState) (h1 : r.run s = some r') (h2 : r.evs = [] → r.stack = []) :
    r'.evs = [] → r'.stack = [] := by
  induction s generalizing r with
  | nil => simp [RState.run] at h1; subst h1; exact h2
  | cons c cs ih =>
    simp only [RState.run] at h1
    cases hstep : r.step c with
    | none => simp [hstep] at h1
    | some r1 =>
      simp only [hstep] at h1
      refine ih r1 h1 ?_
      intro he
      have hop : ∀ (q : RState) n as, r.openTag n as = some q → q.evs ≠ [] := by
        intro q n as hq; unfold RState.openTag at hq
        split at hq
        · cases hq
        · split at hq
          · cases hq; simp
          · cases hq
      have hcl : ∀ (p q : RState) n, p.closeTag n = some q → q.evs ≠ [] := by
        intro p q n hq; unfold RState.closeTag at hq
        split at hq
        · split at hq
          · cases hq; simp
          · cases hq
        · cases hq
      have hchr : ∀ (q : RState) d, r.char d = some q → q.evs = [] → q.stack = [] := by
        intro q d hq hqe; unfold RState.char at hq
        split at hq
        · split at hq
          · cases hq; assumption
          · cases hq
        · cases hq; simp at hqe
      unfold RState.step at hstep
      split at hstep <;> (repeat' split at hstep) <;>
        first
        | cases hstep; done
        | (cases hstep; exact h2 he)
        | exact absurd he (hop _ _ _ hstep)
        | exact absurd he (hcl _ _ _ hstep)
        | exact hchr _ _ hstep he

/-! ### The writer and the reader together -/

/-- Where writing and reading start: the reader state, what was written before, and the elements open in
the writer, which stay open. -/
structure Base where
  r0 : RState := {}
  out0 : Str := []
  wb : List (Str × Bool) := []

/-- Conditions on the start. -/
structure Base.Ok (B : Base) : Prop where
  content : B.r0.pos = .content
  rooted : B.r0.rooted = decide (B.r0.evs ≠ [])
  sane : B.r0.evs = [] → B.r0.stack = []
  closed : ∀ x ∈ B.wb, x.2 = false
  inside : B.wb ≠ [] → B.r0.stack ≠ []

theorem Base.ok_init : ({} : Base).Ok := by
  refine ⟨rfl, rfl, fun _ => rfl, ?_, ?_⟩ <;> simp

/-- The document since the start, read from there, gives the events; the start tag that is still open, if
any, counts as read. `top` are the elements opened since. -/
def SyncAt (B : Base) (w : Writer) (evs : List Ev) (top : List (Str × Bool)) (s : Str) : Prop :=
  w.stack = top ++ B.wb ∧ w.out = B.out0 ++ s ∧ w.nsstack = [] ∧ (∀ x ∈ top, ValidName x.1) ∧
  match top with
  | (n, true) :: rest => (∀ x ∈ rest, x.2 = false) ∧
      ∃ pos attrs rooted evs0, B.r0.run s = some ⟨pos, rest.map (·.1) ++ B.r0.stack, rooted, B.r0.evs ++ evs0⟩ ∧
        TagPos n attrs pos ∧ (attrs.map (·.1)).Nodup ∧ (rest.map (·.1) ++ B.r0.stack = [] → rooted = false) ∧
        evs = evs0 ++ [.op n attrs]
  | st => (∀ x ∈ st, x.2 = false) ∧
      B.r0.run s = some ⟨.content, st.map (·.1) ++ B.r0.stack, decide (B.r0.evs ++ evs ≠ []), B.r0.evs ++ evs⟩

/-- The document since the start reads as the events. -/
def Sync (B : Base) (w : Writer) (evs : List Ev) (top : List (Str × Bool)) : Prop :=
  ∃ s, SyncAt B w evs top s

theorem Sync.stack {B : Base} {w : Writer} {evs : List Ev} {top : List (Str × Bool)}
    (h : Sync B w evs top) : w.stack = top ++ B.wb := by obtain ⟨s, h, _⟩ := h; exact h

theorem Sync.init (B : Base) (hB : B.Ok) (w : Writer) (h1 : w.stack = B.wb) (h2 : w.out = B.out0)
    (h3 : w.nsstack = []) : Sync B w [] [] := by
  refine ⟨[], by simp [h1], by simp [h2], h3, by simp, by simp, ?_⟩
  have := hB.content; have := hB.rooted
  obtain ⟨⟨pos, stack, rooted, evs⟩, out0, wb⟩ := B
  simp_all [RState.run]

theorem run_closeOpen (r : RState) (n : Str) (as : List (Str × Str)) (hp : TagPos n as r.pos)
    (hn : (as.map (·.1)).Nodup) (hr : r.stack = [] → r.rooted = false) :
    r.run ['>'] = some ⟨.content, n :: r.stack, true, r.evs ++ [.op n as]⟩ := by
  have hopen : r.openTag n as = some ⟨.content, n :: r.stack, true, r.evs ++ [.op n as]⟩ := by
    unfold RState.openTag
    rw [if_neg, if_pos hn]
    rintro ⟨h1, h2⟩
    rw [hr h1] at h2; exact absurd h2 (by decide)
  rcases hp with ⟨h, h'⟩ | h
  · subst h'; simp [RState.run, RState.step, h, hopen]
  · simp [RState.run, RState.step, h, hopen]

/-- The elements opened since the start, with the start tag closed. -/
def closedTop (top : List (Str × Bool)) : List (Str × Bool) := top.map (fun x => (x.1, false))

theorem closedTop_names (top : List (Str × Bool)) : (closedTop top).map (·.1) = top.map (·.1) := by
  simp [closedTop, Function.comp_def]

theorem closedTop_of_false {top : List (Str × Bool)} (h : ∀ x ∈ top, x.2 = false) : closedTop top = top := by
  induction top with
  | nil => rfl
  | cons x xs ih =>
    have := h x (by simp)
    simp only [closedTop, List.map_cons, List.cons.injEq] at ih ⊢
    exact ⟨by rw [← this], ih (fun y hy => h y (by simp [hy]))⟩

/-- Completing the start tag; afterwards the reader is in content. -/
theorem Sync.content {B : Base} (hB : B.Ok) {w : Writer} {evs : List Ev} {top : List (Str × Bool)}
    (h : Sync B w evs top) :
    Sync B w.closeTag evs (closedTop top) ∧
    ∃ s, w.closeTag.out = B.out0 ++ s ∧ B.r0.run s = some ⟨.content, top.map (·.1) ++ B.r0.stack,
      decide (B.r0.evs ++ evs ≠ []), B.r0.evs ++ evs⟩ := by
  obtain ⟨s, hst, hout, hns, hv, h⟩ := h
  match top, hst, hv, h with
  | (n, true) :: rest, hst, hv, h =>
    obtain ⟨hf, pos, attrs, rooted, evs0, hrun, hpos, hnd, hroot, rfl⟩ := h
    have hw : w.closeTag = { w with out := w.out ++ ['>'], stack := (n, false) :: (rest ++ B.wb) } := by
      simp [Writer.closeTag, hst, Writer.outputNs, hns]
    have hrun' : B.r0.run (s ++ ['>']) = some ⟨.content, n :: (rest.map (·.1) ++ B.r0.stack), true,
        B.r0.evs ++ evs0 ++ [.op n attrs]⟩ := by
      rw [run_append_some hrun, run_closeOpen _ n attrs hpos hnd hroot]
    have hd : decide (B.r0.evs ++ (evs0 ++ [Ev.op n attrs]) ≠ []) = true := by simp
    have hct : closedTop ((n, true) :: rest) = (n, false) :: rest := by
      have := closedTop_of_false hf
      simp only [closedTop, List.map_cons] at this ⊢; rw [this]
    refine ⟨⟨s ++ ['>'], ?_, ?_, ?_, ?_, ?_⟩, s ++ ['>'], ?_, ?_⟩
    · rw [hw, hct]; rfl
    · rw [hw]; simp [hout]
    · rw [hw]; exact hns
    · rw [hct]; intro x hx
      simp only [List.mem_cons] at hx
      rcases hx with rfl | hx
      · exact hv (n, true) (by simp)
      · exact hv x (by simp [hx])
    · rw [hct]
      refine ⟨?_, ?_⟩
      · intro x hx
        simp only [List.mem_cons] at hx
        rcases hx with rfl | hx
        · rfl
        · exact hf x hx
      · rw [hrun', hd]; simp
    · rw [hw]; simp [hout]
    · rw [hrun', hd]; simp
  | [], hst, hv, h =>
    have hw : w.closeTag = w := by
      unfold Writer.closeTag
      split
      · rename_i n rest hs
        have := hB.closed (n, true) (by rw [← show w.stack = B.wb by simpa using hst, hs]; simp)
        simp at this
      · rfl
    rw [hw]
    exact ⟨⟨s, hst, hout, hns, hv, h⟩, s, hout, by simpa using h.2⟩
  | (n, false) :: rest, hst, hv, h =>
    have hw : w.closeTag = w := by
      simp [Writer.closeTag, hst]
    have hct := closedTop_of_false h.1
    rw [hw]
    rw [hct]
    exact ⟨⟨s, hst, hout, hns, hv, h⟩, s, hout, h.2⟩

theorem Sync.of_content {B : Base} {w : Writer} {evs : List Ev} {top : List (Str × Bool)} {s : Str}
    (hst : w.stack = top ++ B.wb) (hout : w.out = B.out0 ++ s)
    (hns : w.nsstack = []) (hv : ∀ x ∈ top, ValidName x.1)
    (hr : B.r0.run s = some ⟨.content, top.map (·.1) ++ B.r0.stack, decide (B.r0.evs ++ evs ≠ []), B.r0.evs ++ evs⟩)
    (hf : ∀ x ∈ top, x.2 = false) : Sync B w evs top := by
  refine ⟨s, hst, hout, hns, hv, ?_⟩
  match top, hf, hr with
  | (n, true) :: rest, hf, _ => have := hf (n, true) (by simp); simp at this
  | [], hf, hr => exact ⟨hf, hr⟩
  | (n, false) :: rest, hf, hr => exact ⟨hf, hr⟩

theorem closedTop_false (top : List (Str × Bool)) : ∀ x ∈ closedTop top, x.2 = false := by
  simp [closedTop]

theorem Sync.valid {B : Base} {w : Writer} {evs : List Ev} {top : List (Str × Bool)}
    (h : Sync B w evs top) : ∀ x ∈ top, ValidName x.1 := by obtain ⟨_, _, _, _, h, _⟩ := h; exact h

theorem Sync.ns {B : Base} {w : Writer} {evs : List Ev} {top : List (Str × Bool)}
    (h : Sync B w evs top) : w.nsstack = [] := by obtain ⟨_, _, _, h, _⟩ := h; exact h

theorem Base.Ok.run_sane {B : Base} (hB : B.Ok) {s : Str} {r' : RState} (h : B.r0.run s = some r') :
    r'.evs = [] → r'.stack = [] := reader_root s _ _ h hB.sane

/-- Writing a piece that reads as some text, wherever an element is open. -/
theorem Sync.writeRaw {B : Base} (hB : B.Ok) {w : Writer} {evs evs' : List Ev} {top : List (Str × Bool)}
    (h : Sync B w evs top) (hs : w.stack ≠ []) (p : Str)
    (hp : ∀ r : RState, r.pos = .content → r.stack ≠ [] → r.rooted = true →
      r.run p = some { r with evs := r.evs ++ evs' }) :
    Sync B (w.writeRaw p) (evs ++ evs') (closedTop top) := by
  obtain ⟨hc, s, hout, hr⟩ := h.content hB
  have hstk : top.map (·.1) ++ B.r0.stack ≠ [] := by
    rw [h.stack] at hs
    intro e
    simp only [List.append_eq_nil_iff, List.map_eq_nil_iff] at e
    rcases e with ⟨rfl, e⟩
    exact hB.inside (by simpa using hs) e
  have hne : B.r0.evs ++ evs ≠ [] := fun e => hstk (hB.run_sane hr e)
  refine Sync.of_content (s := s ++ p) ?_ ?_ ?_ ?_ ?_ (closedTop_false top)
  · simpa [Writer.writeRaw] using hc.stack
  · simp [Writer.writeRaw, hout]
  · simpa [Writer.writeRaw] using hc.ns
  · exact hc.valid
  · rw [run_append_some hr, hp _ rfl hstk (decide_eq_true hne), closedTop_names]
    have : B.r0.evs ++ (evs ++ evs') ≠ [] := by
      intro e; rw [← List.append_assoc] at e; exact hne (List.append_eq_nil_iff.mp e).1
    simp [this, hne]

/-- Writing escaped text. -/
theorem Sync.writeText {B : Base} (hB : B.Ok) {w : Writer} {evs : List Ev} {top : List (Str × Bool)}
    (h : Sync B w evs top) (hs : w.stack ≠ []) (t : Str) (ht : t.all xmlChar = true) :
    Sync B (w.writeRaw (t.flatMap srcEscapeChar)) (evs ++ t.map .ch) (closedTop top) :=
  h.writeRaw hB hs _ (fun r h1 h2 _ => run_srcText r t h1 h2 ht)

theorem Sync.startElement {B : Base} (hB : B.Ok) {w : Writer} {evs : List Ev} {top : List (Str × Bool)}
    (h : Sync B w evs top) (pre : Option Str) (name : Str)
    (hn : ValidName (qname pre name)) (hne : name ≠ []) (hroot : w.stack ≠ [] ∨ (B.r0.evs = [] ∧ evs = [])) :
    Sync B (w.startElement pre name none).1 (evs ++ [.op (qname pre name) []])
      ((qname pre name, true) :: closedTop top) := by
  obtain ⟨hc, s, hout, hr⟩ := h.content hB
  unfold Writer.startElement
  rw [if_neg hne]
  generalize hq : qname pre name = q at hn ⊢
  refine ⟨s ++ '<' :: q, ?_, ?_, ?_, ?_, ?_⟩
  · simp [hc.stack]
  · simp [hout]
  · simp [hc.ns]
  · intro x hx
    simp only [List.mem_cons] at hx
    rcases hx with rfl | hx
    · exact hn
    · exact hc.valid x hx
  · refine ⟨closedTop_false top, .openName q, [], decide (B.r0.evs ++ evs ≠ []), evs, ?_, Or.inl ⟨rfl, rfl⟩, by simp, ?_, rfl⟩
    · obtain ⟨hq1, hq2⟩ := hn
      cases q with
      | nil => exact absurd rfl hq1
      | cons a q =>
        simp only [List.all_cons, Bool.and_eq_true] at hq2
        obtain ⟨n1, n2, n3, n4, n5, _⟩ := nameChar_ne hq2.1
        rw [run_append_some hr]
        rw [run_cons (r' := ⟨.lt, top.map (·.1) ++ B.r0.stack, decide (B.r0.evs ++ evs ≠ []), B.r0.evs ++ evs⟩)
          (by simp [RState.step])]
        rw [run_cons (r' := ⟨.openName [a], top.map (·.1) ++ B.r0.stack, decide (B.r0.evs ++ evs ≠ []), B.r0.evs ++ evs⟩)
          (by simp [RState.step, n3, n5, hq2.1])]
        rw [run_openName _ [a] q hq2.2 rfl, closedTop_names]
        rfl
    · intro he
      rw [closedTop_names] at he
      simp only [List.append_eq_nil_iff, List.map_eq_nil_iff] at he
      have hw : w.stack = B.wb := by rw [h.stack, he.1]; rfl
      rcases hroot with h1 | h1
      · rw [hw] at h1; exact absurd he.2 (hB.inside h1)
      · simp [h1.1, h1.2]

/-- Writing an attribute on the open start tag. -/
theorem Sync.writeAttribute {B : Base} {w : Writer} {evs : List Ev} {n : Str} {rest : List (Str × Bool)}
    {attrs : List (Str × Str)} (h : Sync B w (evs ++ [.op n attrs]) ((n, true) :: rest))
    (an v : Str) (ha : ValidName an) (hv : ValidValue v) (hd : an ∉ attrs.map (·.1)) :
    Sync B (w.writeAttribute an v).1 (evs ++ [.op n (attrs ++ [(an, v)])]) ((n, true) :: rest) ∧
      (w.writeAttribute an v).1 = { w with out := w.out ++ attrText an v } := by
  obtain ⟨s, hst, hout, hns, hvn, h⟩ := h
  have hw : (w.writeAttribute an v).1 = { w with out := w.out ++ attrText an v } := by
    simp [Writer.writeAttribute, hst, ha.1]
  rw [hw]
  refine ⟨⟨s ++ attrText an v, hst, by simp [hout], hns, hvn, ?_⟩, rfl⟩
  obtain ⟨hf, pos, attrs', rooted, evs0, hrun, hpos, hnd, hroot, he⟩ := h
  have hee := List.append_inj' he rfl
  obtain ⟨e1, e2⟩ := hee
  simp only [List.cons.injEq, Ev.op.injEq, true_and, and_true] at e2
  subst e1 e2
  refine ⟨hf, .afterTag n (attrs ++ [(an, v)]), attrs ++ [(an, v)], rooted, evs, ?_, Or.inr rfl, ?_, hroot, rfl⟩
  · rw [run_append_some hrun, run_attr _ n an v attrs hpos ha hv]
  · rw [List.map_append, List.nodup_append]
    refine ⟨hnd, by simp, ?_⟩
    intro x hx y hy
    simp only [List.map_cons, List.map_nil, List.mem_singleton] at hy
    rintro rfl
    exact hd (hy ▸ hx)

/-- Ending the innermost element. -/
theorem Sync.endElement {B : Base} (hB : B.Ok) {w : Writer} {evs : List Ev} {n : Str} {b : Bool}
    {rest : List (Str × Bool)} (h : Sync B w evs ((n, b) :: rest)) :
    Sync B w.endElement.1 (evs ++ [.cl n]) rest ∧ w.endElement.2 = true := by
  obtain ⟨s, hst, hout, hns, hvn, h⟩ := h
  cases b with
  | true =>
    have he : w.endElement = ({ w.outputNs with out := w.outputNs.out ++ ['/', '>'], stack := rest ++ B.wb }, true) := by
      simp [Writer.endElement, hst]
    rw [he]
    refine ⟨?_, rfl⟩
    obtain ⟨hf, pos, attrs, rooted, evs0, hrun, hpos, hnd, hroot, rfl⟩ := h
    refine Sync.of_content (s := s ++ ['/', '>']) rfl ?_ rfl ?_ ?_ hf
    · simp [Writer.outputNs, hns, hout]
    · intro x hx; exact hvn x (by simp [hx])
    · rw [run_append_some hrun]
      have h1 : (⟨pos, rest.map (·.1) ++ B.r0.stack, rooted, B.r0.evs ++ evs0⟩ : RState).step '/'
          = some ⟨.slash n attrs, rest.map (·.1) ++ B.r0.stack, rooted, B.r0.evs ++ evs0⟩ := by
        rcases hpos with ⟨rfl, rfl⟩ | rfl
        · simp [RState.step]
        · simp [RState.step]
      rw [run_cons h1]
      have hopen : (⟨.slash n attrs, rest.map (·.1) ++ B.r0.stack, rooted, B.r0.evs ++ evs0⟩ : RState).openTag n attrs
          = some ⟨.content, n :: (rest.map (·.1) ++ B.r0.stack), true, B.r0.evs ++ evs0 ++ [.op n attrs]⟩ := by
        unfold RState.openTag
        rw [if_neg, if_pos hnd]
        rintro ⟨e1, e2⟩
        simp only at e1 e2; rw [hroot e1] at e2; exact absurd e2 (by decide)
      simp [RState.run, RState.step, hopen, RState.closeTag]
  | false =>
    have he : w.endElement = ({ w with out := w.out ++ '<' :: '/' :: n ++ ['>'], stack := rest ++ B.wb }, true) := by
      simp [Writer.endElement, hst]
    rw [he]
    refine ⟨?_, rfl⟩
    obtain ⟨hf, hrun⟩ := h
    have hn : ValidName n := hvn (n, false) (by simp)
    have hne : B.r0.evs ++ evs ≠ [] := by
      intro e
      have := hB.run_sane hrun e
      simp at this
    refine Sync.of_content (s := s ++ '<' :: '/' :: n ++ ['>']) rfl ?_ hns ?_ ?_ (fun x hx => hf x (by simp [hx]))
    · simp [hout]
    · intro x hx; exact hvn x (by simp [hx])
    · rw [List.append_assoc, run_append_some hrun]
      simp only [List.map_cons, List.cons_append]
      rw [run_cons (r' := ⟨.lt, n :: (rest.map (·.1) ++ B.r0.stack), decide (B.r0.evs ++ evs ≠ []), B.r0.evs ++ evs⟩)
        (by simp [RState.step])]
      rw [run_cons (r' := ⟨.closeName [], n :: (rest.map (·.1) ++ B.r0.stack), decide (B.r0.evs ++ evs ≠ []), B.r0.evs ++ evs⟩)
        (by simp [RState.step])]
      rw [run_append_some (run_closeName _ [] n hn.2 rfl)]
      have h2 : B.r0.evs ++ (evs ++ [Ev.cl n]) ≠ [] := by simp
      simp [RState.run, RState.step, RState.closeTag, hne]

end Srcml
