import Verif.Spec.ParserTest
import Verif.Props.CliOptions
/-
C86: the parser test.
-/
set_option linter.unusedSimpArgs false
namespace Srcml
open Spec

/-! ### The counts -/

def CountsInOrder (m : List (Str × Nat)) : Prop := m.Pairwise (fun a b => a.1 < b.1)

theorem mapInc_keys {k l : Str} {m : List (Str × Nat)} : l ∈ (mapInc k m).map (·.1) ↔ l = k ∨ l ∈ m.map (·.1) := by
  induction m with
  | nil => simp [mapInc]
  | cons x xs ih =>
    unfold mapInc
    split
    · next h => subst h; simp
    · split
      · simp
      · simp only [List.map_cons, List.mem_cons, ih]; grind

theorem mapInc_order {k : Str} {m : List (Str × Nat)} (h : CountsInOrder m) : CountsInOrder (mapInc k m) := by
  induction m with
  | nil => simp [mapInc, CountsInOrder]
  | cons x xs ih =>
    obtain ⟨h1, h2⟩ := List.pairwise_cons.mp h
    unfold mapInc
    split
    · exact List.pairwise_cons.mpr ⟨h1, h2⟩
    · split
      · next hlt =>
        refine List.pairwise_cons.mpr ⟨?_, h⟩
        intro b hb
        rcases List.mem_cons.mp hb with rfl | hb
        · exact hlt
        · exact List.lt_trans hlt (h1 b hb)
      · next h3 h4 =>
        refine List.pairwise_cons.mpr ⟨?_, ih h2⟩
        intro b hb
        have : b.1 ∈ (mapInc k xs).map (·.1) := List.mem_map_of_mem hb
        rcases mapInc_keys.mp this with hk | hk
        · rw [hk]; exact str_lt_of h3 h4
        · obtain ⟨c, hc, e⟩ := List.mem_map.mp hk
          rw [← e]; exact h1 c hc

theorem mapCount_absent {k : Str} {m : List (Str × Nat)} (h : k ∉ m.map (·.1)) : mapCount k m = 0 := by
  unfold mapCount
  rw [List.find?_eq_none.mpr]
  · rfl
  · intro x hx he
    exact h (List.mem_map.mpr ⟨x, hx, by simpa using he⟩)

theorem mapInc_count {k l : Str} {m : List (Str × Nat)} (h : CountsInOrder m) : mapCount l (mapInc k m) = mapCount l m + if l = k then 1 else 0 := by
  induction m with
  | nil =>
    by_cases hl : k = l
    · subst hl; simp [mapInc, mapCount]
    · simp [mapInc, mapCount, hl, show ¬ l = k from fun e => hl e.symm]
  | cons x xs ih =>
    obtain ⟨h1, h2⟩ := List.pairwise_cons.mp h
    unfold mapInc
    split
    · next hk =>
      subst hk
      by_cases hl : x.1 = l
      · subst hl; simp [mapCount]
      · simp [mapCount, List.find?_cons, hl, show ¬ l = x.1 from fun e => hl e.symm]
    · split
      · next hk hlt =>
        by_cases hl : k = l
        · subst hl
          have habs : k ∉ (x :: xs).map (·.1) := by
            intro hm
            obtain ⟨y, hy, e⟩ := List.mem_map.mp hm
            rcases List.mem_cons.mp hy with rfl | hy
            · exact hk e.symm
            · have := List.lt_trans hlt (h1 y hy)
              rw [e] at this
              exact absurd this (List.lt_irrefl k)
          rw [mapCount_absent habs]
          simp [mapCount]
        · simp [mapCount, List.find?_cons, hl, show ¬ l = k from fun e => hl e.symm]
      · next hk _ =>
        by_cases hx : x.1 = l
        · subst hx
          simp [mapCount, show ¬ x.1 = k from fun e => hk e.symm]
        · have := ih h2
          simp only [mapCount, List.find?_cons, hx, decide_false] at this ⊢
          exact this

/-! ### One test -/

theorem colour_grey (color : Bool) : colour color "[0;30;1m" = grey color := rfl
theorem colour_plain (color : Bool) : colour color "[0m" = plain color := rfl

theorem mark_text (color : Bool) (n : Nat) (t : Str × Str) : testMark color n (decide (t.2 = t.1)) = markText color n (fails t) := by
  have hd : decide (t.2 = t.1) = !fails t := by
    unfold fails
    by_cases h : t.1 = t.2
    · simp [h]
    · simp [h, show ¬ t.2 = t.1 from fun e => h e.symm]
  rw [hd]
  unfold testMark
  cases color <;> cases fails t <;> simp [colour, markText, numeral, escape]

theorem error_text (color : Bool) (f : TestFile) (t : Str × Str) (n : Nat) : testError color f.language f.url f.name n t.1 t.2 = errorText color f (t, n) := by
  unfold testError errorText
  rw [colour_grey, colour_plain]
  by_cases h : t.1.getLast? = some '\n'
  · simp [h, numeral]
  · simp [h, numeral]

/-- The state after a test of a file that is tested already. -/
def testedOne (color : Bool) (s : ParserTest) (t : Str × Str) : ParserTest :=
  { s with
    count := s.count + 1
    total := s.total + 1
    totals := mapInc s.language s.totals
    column := (if s.column ≥ 75 then 0 else s.column) + (numeral (s.count + 1)).length + 1
    failed := if fails t then s.failed + 1 else s.failed
    misses := if fails t then mapInc s.language s.misses else s.misses
    errors := if fails t then s.errors ++ [testError color s.language s.url s.previous (s.count + 1) t.1 t.2] else s.errors
    summary := if fails t then addSummary s.summary (summaryStart s.language s.url s.previous) (s.count + 1) else s.summary }

/-- The start of a further line of the list. -/
def furtherLine : Str := '\n' :: List.replicate 12 ' ' ++ columnText 30 "...".toList

theorem test_step (color : Bool) (s : ParserTest) (f : TestFile) (t : Str × Str) (h : fails t = true → t.1 ≠ [] ∧ t.1.count '\n' ≤ 5 ∧ t.2.count '\n' ≤ 5) :
    s.test color { filename := f.name, url := some f.url, language := some f.language, expected := t.1, actual := t.2 } =
      .val (testedOne color s t, (if s.column ≥ 75 then furtherLine else []) ++ markText color (s.count + 1) (fails t) ++ [' ']) := by
  have hw : ('\n' :: padLeft 12 [' '] ++ padRight 30 "...".toList : Str) = furtherLine := by decide
  unfold ParserTest.test
  simp only [hw, mark_text]
  by_cases hf : fails t = true
  · obtain ⟨h1, h2, h3⟩ := h hf
    have hne : ¬ t.2 = t.1 := by
      unfold fails at hf
      intro e
      simp [e] at hf
    simp only [hne, decide_false, Bool.false_eq_true, if_false, ParserTest.fail]
    rw [if_neg (by omega), if_neg h1]
    simp only [Run.bind, testedOne, hf, if_true, numeral]
  · have he : t.2 = t.1 := by
      unfold fails at hf
      simp only [ne_eq, decide_not, Bool.not_eq_true, Bool.not_eq_false', decide_eq_true_eq] at hf
      exact hf.symm
    have hf : fails t = false := by simpa using hf
    simp only [he, decide_true, if_true, Run.bind, testedOne, hf, Bool.false_eq_true, if_false, numeral]

theorem entry_same (color : Bool) (s : ParserTest) (f : TestFile) (t : Str × Str) (h : fails t = true → t.1 ≠ [] ∧ t.1.count '\n' ≤ 5 ∧ t.2.count '\n' ≤ 5)
    (hn : f.name ≠ []) (hp : s.previous = f.name) (hu : s.url = f.url) :
    s.entry color { filename := f.name, url := some f.url, language := some f.language, expected := t.1, actual := t.2 } =
      .val (testedOne color s t, (if s.column ≥ 75 then furtherLine else []) ++ markText color (s.count + 1) (fails t) ++ [' ']) := by
  unfold ParserTest.entry
  have : ({ s with url := (some f.url).getD s.url } : ParserTest) = s := by rw [← hu]; rfl
  simp only [this]
  rw [if_neg (by rw [hp]; simp [hn]), test_step color s f t h]

/-! ### The tests of a file -/

/-- The line of the summary, when the last line is not that of the file. -/
def NoClash (summary : List Str) (f : TestFile) : Prop :=
  ∀ last, summary.getLast? = some last → summaryStart f.language f.url f.name ≠ last.take (summaryStart f.language f.url f.name).length

/-- The line of the summary for some failing tests of a file. -/
def lineOf (f : TestFile) (ms : List ((Str × Str) × Nat)) : Str := summaryStart f.language f.url f.name ++ [','].intercalate (ms.map (fun t => numeral t.2))

/-- What holds after some tests of a file. -/
structure FileRun (color : Bool) (f : TestFile) (s0 s : ParserTest) (done : List ((Str × Str) × Nat)) (text : Str) : Prop where
  previous : s.previous = f.name
  url : s.url = f.url
  language : s.language = f.language
  count : s.count = done.length
  total : s.total = s0.total + done.length
  failed : s.failed = s0.failed + (done.filter (fun t => fails t.1)).length
  totals : ∀ l, mapCount l s.totals = mapCount l s0.totals + if l = f.language then done.length else 0
  keys : ∀ l, l ∈ s.totals.map (·.1) ↔ l ∈ s0.totals.map (·.1) ∨ (l = f.language ∧ done ≠ [])
  totalsOrder : CountsInOrder s.totals
  misses : ∀ l, mapCount l s.misses = mapCount l s0.misses + if l = f.language then (done.filter (fun t => fails t.1)).length else 0
  missesOrder : CountsInOrder s.misses
  errors : s.errors = s0.errors ++ (done.filter (fun t => fails t.1)).map (errorText color f)
  summary : NoClash s0.summary f → s.summary = s0.summary ++ (if done.filter (fun t => fails t.1) = [] then [] else [lineOf f (done.filter (fun t => fails t.1))])
  listing : ∃ (closed : List (List ((Str × Str) × Nat))) (cur : List ((Str × Str) × Nat)), closed.flatten ++ cur = done ∧ text = (closed.map (fun l => marksText color l ++ furtherLine)).flatten ++ marksText color cur ∧ s.column = marksWidth cur ∧
    (∀ l ∈ closed, l ≠ [] ∧ 75 ≤ marksWidth l ∧ marksWidth l.dropLast < 75) ∧ (cur = [] → done = []) ∧ marksWidth cur.dropLast < 75

theorem intercalate_append (sep : Str) : ∀ (xs : List Str) (x : Str), xs ≠ [] → sep.intercalate (xs ++ [x]) = sep.intercalate xs ++ sep ++ x
  | [], _, h => absurd rfl h
  | [a], x, _ => by simp [List.intercalate]
  | a :: b :: xs, x, _ => by
    have := intercalate_append sep (b :: xs) x (by simp)
    simp only [List.intercalate, List.cons_append, List.intersperse_cons_cons, List.flatten_cons] at this ⊢
    rw [this]
    simp

theorem add_line (f : TestFile) (summary : List Str) (ms : List ((Str × Str) × Nat)) (m : (Str × Str) × Nat) (h : NoClash summary f) :
    addSummary (summary ++ (if ms = [] then [] else [lineOf f ms])) (summaryStart f.language f.url f.name) m.2 = summary ++ [lineOf f (ms ++ [m])] := by
  by_cases hm : ms = []
  · subst hm
    simp only [if_true, List.append_nil, List.nil_append]
    unfold addSummary
    have hl : lineOf f [m] = summaryStart f.language f.url f.name ++ numeral m.2 := by simp [lineOf, List.intercalate]
    cases hg : summary.getLast? with
    | none => simp only [hl]; rfl
    | some last => simp only [if_neg (h last hg), hl]; rfl
  · rw [if_neg hm]
    unfold addSummary
    rw [List.getLast?_concat]
    simp only
    rw [if_pos (by simp [lineOf])]
    simp only [List.dropLast_concat]
    congr 2
    unfold lineOf
    rw [List.map_append, List.map_cons, List.map_nil, intercalate_append _ _ _ (by simpa using hm)]
    simp [numeral]

theorem file_step {color : Bool} {f : TestFile} {s0 s : ParserTest} {done : List ((Str × Str) × Nat)} {text : Str} (h : FileRun color f s0 s done text) (t : Str × Str) :
    FileRun color f s0 (testedOne color s t) (done ++ [(t, done.length + 1)]) (text ++ ((if s.column ≥ 75 then furtherLine else []) ++ markText color (s.count + 1) (fails t) ++ [' '])) := by
  have hfil : (done ++ [(t, done.length + 1)]).filter (fun t => fails t.1) = done.filter (fun t => fails t.1) ++ (if fails t then [(t, done.length + 1)] else []) := by
    rw [List.filter_append]
    cases hf : fails t <;> simp [hf]
  refine ⟨h.previous, h.url, h.language, ?_, ?_, ?_, ?_, ?_, mapInc_order h.totalsOrder, ?_, ?_, ?_, ?_, ?_⟩
  · show s.count + 1 = _; rw [h.count]; simp
  · show s.total + 1 = _; rw [h.total]; simp; omega
  · show (if fails t then s.failed + 1 else s.failed) = _
    rw [hfil, h.failed]
    cases hf : fails t <;> simp; omega
  · intro l
    show mapCount l (mapInc s.language s.totals) = _
    rw [mapInc_count h.totalsOrder, h.totals, h.language]
    by_cases hl : l = f.language <;> simp [hl]; omega
  · intro l
    show l ∈ (mapInc s.language s.totals).map (·.1) ↔ _
    rw [mapInc_keys, h.keys, h.language]
    simp
    grind
  · intro l
    show mapCount l (if fails t then mapInc s.language s.misses else s.misses) = _
    rw [hfil]
    cases hf : fails t
    · simp [h.misses]
    · simp only [if_true]
      rw [mapInc_count h.missesOrder, h.misses, h.language]
      by_cases hl : l = f.language <;> simp [hl]; omega
  · show CountsInOrder (if fails t then mapInc s.language s.misses else s.misses)
    split
    · exact mapInc_order h.missesOrder
    · exact h.missesOrder
  · show (if fails t then s.errors ++ [testError color s.language s.url s.previous (s.count + 1) t.1 t.2] else s.errors) = _
    rw [hfil, h.errors, h.language, h.url, h.previous, h.count, error_text]
    cases hf : fails t <;> simp
  · intro hc
    show (if fails t then addSummary s.summary (summaryStart s.language s.url s.previous) (s.count + 1) else s.summary) = _
    rw [hfil, h.summary hc, h.language, h.url, h.previous, h.count]
    cases hf : fails t
    · simp only [Bool.false_eq_true, if_false, List.append_nil]
    · simp only [if_true]
      rw [add_line f s0.summary _ (t, done.length + 1) hc]
      simp
  · obtain ⟨closed, cur, l1, l2, l3, l4, l5, l6⟩ := h.listing
    by_cases hw : s.column ≥ 75
    · refine ⟨closed ++ [cur], [(t, done.length + 1)], by simp [← l1], ?_, ?_, ?_, by simp, by simp [marksWidth]⟩
      · rw [if_pos hw, l2, h.count]
        simp [marksText]
      · show (if s.column ≥ 75 then 0 else s.column) + (numeral (s.count + 1)).length + 1 = _
        rw [if_pos hw, h.count]
        simp [marksWidth]
      · intro l hl
        rcases List.mem_append.mp hl with hl | hl
        · exact l4 l hl
        · cases List.mem_singleton.mp hl
          rw [l3] at hw
          refine ⟨?_, hw, l6⟩
          rintro rfl
          simp [marksWidth] at hw
    · refine ⟨closed, cur ++ [(t, done.length + 1)], by simp [← l1], ?_, ?_, l4, by simp, ?_⟩
      · rw [if_neg hw, l2, h.count]
        simp [marksText]
      · show (if s.column ≥ 75 then 0 else s.column) + (numeral (s.count + 1)).length + 1 = _
        rw [if_neg hw, h.count, l3]
        simp [marksWidth]; omega
      · rw [List.dropLast_concat, ← l3]; omega

theorem file_rest {color : Bool} {f : TestFile} {s0 : ParserTest} (hn : f.name ≠ []) : ∀ (ts : List (Str × Str)) {s : ParserTest} {done : List ((Str × Str) × Nat)} {text : Str},
    FileRun color f s0 s done text → (∀ t ∈ ts, fails t = true → t.1 ≠ [] ∧ t.1.count '\n' ≤ 5 ∧ t.2.count '\n' ≤ 5) →
    ∃ s' out, ParserTest.entries color s (ts.map (fun t => { filename := f.name, url := some f.url, language := some f.language, expected := t.1, actual := t.2 })) = .val (s', out) ∧
      FileRun color f s0 s' (done ++ ts.zipIdx (done.length + 1)) (text ++ out)
  | [], s, done, text, h, _ => ⟨s, [], rfl, by simpa using h⟩
  | t :: ts, s, done, text, h, ht => by
    have h1 := entry_same color s f t (ht t (by simp)) hn h.previous h.url
    obtain ⟨s', out, h2, h3⟩ := file_rest hn ts (file_step h t) (fun x hx => ht x (by simp [hx]))
    refine ⟨s', (if s.column ≥ 75 then furtherLine else []) ++ markText color (s.count + 1) (fails t) ++ [' '] ++ out, ?_, ?_⟩
    · simp only [List.map_cons, ParserTest.entries, h1, Run.bind, h2]
    · have := h3
      simp only [List.length_append, List.length_cons, List.length_nil, Nat.zero_add, List.append_assoc, List.cons_append, List.nil_append] at this ⊢
      exact this

/-- The state after the heading of a file. -/
def headed (s : ParserTest) (f : TestFile) : ParserTest := { s with url := f.url, previous := f.name, count := 0, language := f.language, column := 0 }

theorem file_all {color : Bool} {s0 : ParserTest} (f : TestFile) (hf : Testable f) (hp : s0.previous ≠ f.name) (h1 : CountsInOrder s0.totals) (h2 : CountsInOrder s0.misses) :
    ∃ s' out, ParserTest.entries color s0 f.cases = .val (s', '\n' :: columnText 12 f.language ++ columnText 30 f.url ++ out) ∧ FileRun color f s0 s' (f.tests.zipIdx 1) out := by
  obtain ⟨t, ts, ht⟩ := List.exists_cons_of_ne_nil hf.tests
  have h0 : FileRun color f s0 (headed s0 f) [] [] :=
    ⟨rfl, rfl, rfl, rfl, rfl, rfl, by simp [headed], by simp [headed], h1, by simp [headed], h2, by simp [headed], by simp [headed],
      ⟨[], [], rfl, rfl, rfl, by simp, by simp, by decide⟩⟩
  have hs := hf.short
  rw [ht] at hs
  have hstep := test_step color (headed s0 f) f t (hs t (by simp))
  obtain ⟨s', out, e1, e2⟩ := file_rest hf.name ts (file_step h0 t) (fun x hx => hs x (by simp [hx]))
  have hentry : s0.entry color { filename := f.name, url := some f.url, language := some f.language, expected := t.1, actual := t.2 } =
      .val (testedOne color (headed s0 f) t, '\n' :: columnText 12 f.language ++ columnText 30 f.url ++ ((if (headed s0 f).column ≥ 75 then furtherLine else []) ++ markText color ((headed s0 f).count + 1) (fails t) ++ [' '])) := by
    unfold ParserTest.entry
    simp only [Option.getD_some]
    rw [if_pos (.inr (fun e => hp e.symm))]
    show (ParserTest.test color (headed s0 f) _).bind _ = _
    rw [hstep]
    rfl
  refine ⟨s', _, ?_, by rw [ht]; exact e2⟩
  unfold TestFile.cases
  rw [ht]
  simp only [List.map_cons, ParserTest.entries, hentry, Run.bind, e1, List.append_assoc, List.cons_append, List.nil_append]

theorem run_listing {color : Bool} {f : TestFile} {s0 s : ParserTest} {out : Str} (hf : Testable f) (h : FileRun color f s0 s (f.tests.zipIdx 1) out) :
    Listing color f ('\n' :: columnText 12 f.language ++ columnText 30 f.url ++ out) := by
  obtain ⟨closed, cur, l1, l2, l3, l4, l5, l6⟩ := h.listing
  have hne : f.tests.zipIdx 1 ≠ [] := by simpa using hf.tests
  have hcur : cur ≠ [] := fun e => hne (l5 e)
  refine ⟨closed ++ [cur], by simp [l1], by simp, ?_, ?_, ?_⟩
  · rw [l2]
    have : ∀ (xs : List (List ((Str × Str) × Nat))) (x : List ((Str × Str) × Nat)), (xs.map (fun l => marksText color l ++ furtherLine)).flatten ++ marksText color x =
        furtherLine.intercalate ((xs ++ [x]).map (marksText color)) := by
      intro xs
      induction xs with
      | nil => intro x; simp [List.intercalate]
      | cons y ys ih =>
        intro x
        have := ih x
        cases ys with
        | nil => simp [List.intercalate]
        | cons z zs =>
          simp only [List.map_cons, List.flatten_cons, List.append_assoc, List.cons_append, List.intercalate, List.intersperse_cons_cons] at this ⊢
          rw [this]
    rw [this]
    rfl
  · intro l hl
    rcases List.mem_append.mp hl with hl | hl
    · exact ⟨(l4 l hl).1, (l4 l hl).2.2⟩
    · cases List.mem_singleton.mp hl
      exact ⟨hcur, l6⟩
  · intro l hl
    rw [List.dropLast_concat] at hl
    exact (l4 l hl).2.1

/-! ### All files -/

/-- What holds after some files. -/
structure FilesRun (color : Bool) (fs : List TestFile) (s : ParserTest) : Prop where
  previous : ∀ f, fs.getLast? = some f → s.previous = f.name
  first : fs = [] → s.previous = []
  total : s.total = tested fs
  failed : s.failed = failing fs
  totals : ∀ l, mapCount l s.totals = tested (inLanguage fs l)
  keys : ∀ l, l ∈ s.totals.map (·.1) ↔ ∃ f ∈ fs, f.language = l
  totalsOrder : CountsInOrder s.totals
  misses : ∀ l, mapCount l s.misses = failing (inLanguage fs l)
  missesOrder : CountsInOrder s.misses
  errors : s.errors = fs.flatMap (fun f => f.failures.map (errorText color f))
  summary : s.summary = (fs.filter (fun f => f.failures ≠ [])).map summaryLine

theorem pad_prefix {n : Nat} {a b : Str} (hl : a.length ≤ b.length) (hb : b.getLast? ≠ some ' ') (h : padRight n a = padRight n b) : a = b := by
  unfold padRight at h
  have h1 : b = a ++ List.replicate (b.length - a.length) ' ' := by
    have hlen : a.length + (n - a.length) = b.length + (n - b.length) := by
      have := congrArg List.length h
      simpa only [List.length_append, List.length_replicate] using this
    have := congrArg (List.take b.length) h
    rw [List.take_left, List.take_append, List.take_of_length_le hl, List.take_replicate] at this
    rw [show min (b.length - a.length) (n - a.length) = b.length - a.length by omega] at this
    exact this.symm
  by_cases he : b.length - a.length = 0
  · rw [he] at h1; simpa using h1.symm
  · exfalso
    apply hb
    rw [h1, List.getLast?_append]
    obtain ⟨k, hk⟩ := Nat.exists_eq_succ_of_ne_zero he
    rw [hk, List.replicate_succ']
    simp

theorem pad_inj {n : Nat} {a b : Str} (ha : a.getLast? ≠ some ' ') (hb : b.getLast? ≠ some ' ') (h : padRight n a = padRight n b) : a = b := by
  by_cases hl : a.length ≤ b.length
  · exact pad_prefix hl hb h
  · exact (pad_prefix (by omega) ha h.symm).symm

theorem pad_length {n : Nat} {a : Str} (h : a.length ≤ n) : (padRight n a).length = n := by
  unfold padRight
  simp; omega

theorem start_length {f : TestFile} (h : Fits f) : (summaryStart f.language f.url f.name).length = 74 := by
  unfold summaryStart
  simp only [List.length_append, List.length_cons, List.length_nil, pad_length h.language.1, pad_length h.url.1, pad_length h.name.1]

theorem start_inj {f g : TestFile} (hf : Fits f) (hg : Fits g) (h : summaryStart f.language f.url f.name = summaryStart g.language g.url g.name) : f.name = g.name := by
  unfold summaryStart at h
  have h1 := List.append_inj_left' h rfl
  have h2 := List.append_inj_right h1 (by simp only [List.length_append, pad_length hf.language.1, pad_length hf.url.1, pad_length hg.language.1, pad_length hg.url.1])
  exact pad_inj hf.name.2 hg.name.2 h2

theorem line_of (f : TestFile) : lineOf f f.failures = summaryLine f := by
  unfold lineOf summaryLine summaryStart padRight columnText
  simp

theorem no_clash {f : TestFile} {fs : List TestFile} (hf : Fits f) (hfs : ∀ g ∈ fs, Fits g) (hd : ∀ g ∈ fs, g.name ≠ f.name) : NoClash ((fs.filter (fun f => f.failures ≠ [])).map summaryLine) f := by
  intro last hl he
  obtain ⟨g, hg, rfl⟩ := List.mem_map.mp (List.mem_of_getLast? hl)
  have hm := (List.mem_filter.mp hg).1
  rw [start_length hf, ← line_of g] at he
  unfold lineOf at he
  rw [List.take_left' (start_length (hfs g hm))] at he
  exact hd g hm (start_inj hf (hfs g hm) he).symm

theorem files_step {color : Bool} {fs : List TestFile} {s : ParserTest} (h : FilesRun color fs s) {f : TestFile} (ht : Testable f) (hf : Fits f) (hfs : ∀ g ∈ fs, Fits g) (hd : ∀ g ∈ fs, g.name ≠ f.name) :
    ∃ s' out, ParserTest.entries color s f.cases = .val (s', out) ∧ FilesRun color (fs ++ [f]) s' ∧ Listing color f out := by
  have hp : s.previous ≠ f.name := by
    cases hg : fs.getLast? with
    | none => rw [h.first (List.getLast?_eq_none_iff.mp hg)]; exact fun e => ht.name e.symm
    | some g => rw [h.previous g hg]; exact hd g (List.mem_of_getLast? hg)
  obtain ⟨s', out, e1, e2⟩ := file_all (color := color) f ht hp h.totalsOrder h.missesOrder
  refine ⟨s', _, e1, ?_, run_listing ht e2⟩
  have hlen : (f.tests.zipIdx 1).length = f.tests.length := by simp
  have hne : f.tests.zipIdx 1 ≠ [] := by simpa using ht.tests
  have hfl : (f.tests.zipIdx 1).filter (fun t => fails t.1) = f.failures := rfl
  refine ⟨?_, by simp, ?_, ?_, ?_, ?_, e2.totalsOrder, ?_, e2.missesOrder, ?_, ?_⟩
  · intro g hg
    rw [List.getLast?_concat] at hg
    cases hg
    exact e2.previous
  · rw [e2.total, h.total, hlen]; simp [tested]
  · rw [e2.failed, h.failed, hfl]; simp [failing]
  · intro l
    rw [e2.totals, h.totals, hlen]
    unfold inLanguage tested
    rw [List.filter_append]
    by_cases hl : l = f.language
    · simp [hl]
    · simp [hl, show ¬ f.language = l from fun e => hl e.symm]
  · intro l
    rw [e2.keys, h.keys]
    constructor
    · rintro (⟨g, hg, e⟩ | ⟨e, _⟩)
      · exact ⟨g, by simp [hg], e⟩
      · exact ⟨f, by simp, e.symm⟩
    · rintro ⟨g, hg, e⟩
      rcases List.mem_append.mp hg with hg | hg
      · exact .inl ⟨g, hg, e⟩
      · cases List.mem_singleton.mp hg
        exact .inr ⟨e.symm, hne⟩
  · intro l
    rw [e2.misses, h.misses, hfl]
    unfold inLanguage failing
    rw [List.filter_append]
    by_cases hl : l = f.language
    · simp [hl]
    · simp [hl, show ¬ f.language = l from fun e => hl e.symm]
  · rw [e2.errors, h.errors, hfl]; simp
  · rw [e2.summary (by rw [h.summary]; exact no_clash hf hfs hd), h.summary, hfl, line_of]
    rw [List.filter_append]
    by_cases hx : f.failures = []
    · simp [hx]
    · simp [hx]

theorem entries_append (color : Bool) : ∀ (a : List ParserTestCase) (s : ParserTest) (b : List ParserTestCase), ParserTest.entries color s (a ++ b) =
    (ParserTest.entries color s a).bind (fun r => (ParserTest.entries color r.1 b).bind (fun q => .val (q.1, r.2 ++ q.2)))
  | [], s, b => by
    simp only [List.nil_append, ParserTest.entries, Run.bind]
    cases ParserTest.entries color s b <;> rfl
  | t :: a, s, b => by
    simp only [List.cons_append, ParserTest.entries]
    cases s.entry color t with
    | ub => rfl
    | val r =>
      simp only [Run.bind]
      rw [entries_append color a r.1 b]
      cases ParserTest.entries color r.1 a with
      | ub => rfl
      | val q =>
        simp only [Run.bind]
        cases ParserTest.entries color q.1 b with
        | ub => rfl
        | val x => simp

theorem files_all {color : Bool} : ∀ (fs done : List TestFile) {s : ParserTest}, FilesRun color done s → (∀ f ∈ fs, Testable f) → (∀ f ∈ done ++ fs, Fits f) → ((done ++ fs).map (·.name)).Nodup →
    ∃ s' out, ParserTest.entries color s (fs.flatMap TestFile.cases) = .val (s', out) ∧ FilesRun color (done ++ fs) s' ∧ Listings color fs out
  | [], done, s, h, _, _, _ => ⟨s, [], rfl, by simpa using h, .nil⟩
  | f :: fs, done, s, h, ht, hf, hd => by
    have hd' : ∀ g ∈ done, g.name ≠ f.name := by
      intro g hg e
      rw [List.map_append, List.nodup_append] at hd
      exact hd.2.2 g.name (List.mem_map_of_mem hg) f.name (by simp) e
    obtain ⟨s1, o1, e1, e2, e3⟩ := files_step h (ht f (by simp)) (hf f (by simp)) (fun g hg => hf g (by simp [hg])) hd'
    obtain ⟨s2, o2, g1, g2, g3⟩ := files_all fs (done ++ [f]) e2 (fun x hx => ht x (by simp [hx])) (by simpa using hf) (by simpa using hd)
    refine ⟨s2, o1 ++ o2, ?_, by simpa using g2, .cons e3 g3⟩
    rw [List.flatMap_cons, entries_append, e1]
    simp only [Run.bind, g1]

theorem pairwise_get {m : List (Str × Nat)} (h : CountsInOrder m) : ∀ kv ∈ m, mapCount kv.1 m = kv.2 := by
  induction m with
  | nil => intro kv hk; cases hk
  | cons x xs ih =>
    obtain ⟨h1, h2⟩ := List.pairwise_cons.mp h
    intro kv hk
    rcases List.mem_cons.mp hk with rfl | hk
    · simp [mapCount]
    · have : ¬ x.1 = kv.1 := fun e => absurd (e ▸ h1 kv hk) (List.lt_irrefl _)
      have := ih h2 kv hk
      simp only [mapCount, List.find?_cons, *, decide_false] at this ⊢
      exact this

theorem share_text (percent : Nat → Nat → Str) (fs : List TestFile) :
    padLeft 6 (toString (failing fs)).toList ++ padLeft 6 (toString (tested fs)).toList ++ ['\t'] ++ sharePart percent (failing fs) (tested fs) = countsText percent fs := by
  unfold countsText sharePart padLeft rightText numeral
  have : (if failing fs = 0 ∨ failing fs * 100 ≥ tested fs then percent (failing fs * 100) (tested fs) else "<1".toList) =
      (if 0 < failing fs ∧ failing fs * 100 < tested fs then "<1".toList else percent (failing fs * 100) (tested fs)) := by
    by_cases h : 0 < failing fs ∧ failing fs * 100 < tested fs
    · rw [if_pos h, if_neg (by omega)]
    · rw [if_neg h, if_pos (by omega)]
  rw [this]
  simp

/-- **C86.** What the parser test writes about archives of tests with different names: for each archive the list of the numbers of its tests, in lines, with a mark for those that fail; then, for each failing test in order, where it is, the
markup that is expected and the markup that is made; a line for each archive with failing tests, with their numbers, in alphabetical order; and the numbers of failing and of all tests, of all archives and by
language. -/
theorem C86_output_partial (color : Bool) (percent : Nat → Nat → Str) (fs : List TestFile) (hne : fs ≠ []) (ht : ∀ f ∈ fs, Testable f) (hf : ∀ f ∈ fs, Fits f) (hd : (fs.map (·.name)).Nodup) :
    ∃ list report, parserTest color percent (fs.flatMap TestFile.cases) = .val (list ++ report) ∧ Listings color fs list ∧ Reports color percent fs report := by
  have h0 : FilesRun color [] ({} : ParserTest) :=
    ⟨(by intro f h; cases h), fun _ => rfl, rfl, rfl, fun _ => rfl, by simp, List.Pairwise.nil, fun _ => rfl, List.Pairwise.nil, rfl, rfl⟩
  obtain ⟨s, out, e1, e2, e3⟩ := files_all fs [] h0 ht (by simpa using hf) (by simpa using hd)
  rw [List.nil_append] at e2
  refine ⟨out, s.report color percent, by unfold parserTest; rw [e1]; rfl, e3, ?_⟩
  have hpos : s.total ≠ 0 := by
    obtain ⟨f, gs, rfl⟩ := List.exists_cons_of_ne_nil hne
    have h1 := (ht f (by simp)).tests
    have h2 : f.tests.length ≠ 0 := by simpa using h1
    rw [e2.total]
    simp [tested, h1]
  refine ⟨s.summary.mergeSort (fun a b => decide (a ≤ b)), s.totals.map (·.1), ?_, ?_, ?_, e2.keys, ?_⟩
  · rw [← e2.summary]; exact List.mergeSort_perm _ _
  · have := List.pairwise_mergeSort (le := fun a b : Str => decide (a ≤ b)) (by
      intro a b c h1 h2
      simp only [decide_eq_true_eq] at *
      exact List.le_trans h1 h2) (by
      intro a b
      simp only [Bool.or_eq_true, decide_eq_true_eq]
      exact List.le_total a b) s.summary
    exact this.imp (by simp)
  · exact List.pairwise_map.mpr e2.totalsOrder
  · unfold ParserTest.report
    rw [if_neg hpos, e2.errors, colour_grey, colour_plain, e2.failed, e2.total]
    have hrow : ∀ kv ∈ s.totals, List.replicate 8 ' ' ++ padRight 12 kv.1 ++ padLeft 6 (toString (mapCount kv.1 s.misses)).toList ++ padLeft 6 (toString kv.2).toList ++ ['\t'] ++
        sharePart percent (mapCount kv.1 s.misses) kv.2 = List.replicate 8 ' ' ++ columnText 12 kv.1 ++ countsText percent (inLanguage fs kv.1) := by
      intro kv hk
      rw [← pairwise_get e2.totalsOrder kv hk, e2.misses, e2.totals, ← share_text]
      simp [padRight, columnText]
    rw [List.map_map, List.map_congr_left hrow, ← share_text]
    simp only [List.append_assoc]
    rfl

/-- Two archives of tests: in the first the second of two tests fails, in the other all is well. -/
def someTests : List TestFile :=
  [{ name := "a.xml".toList, url := "assert".toList, language := "C".toList, tests := [("<x/>".toList, "<x/>".toList), ("<y/>\n".toList, "<z/>".toList)] },
   { name := "b.xml".toList, url := "if".toList, language := "Java".toList, tests := [("<x/>".toList, "<x/>".toList)] }]

/-- The theorem speaks of real archives: two files, one of them with a failing test. -/
example : someTests ≠ [] ∧ (∀ f ∈ someTests, Testable f) ∧ (∀ f ∈ someTests, Fits f) ∧ (someTests.map (·.name)).Nodup ∧ failing someTests = 1 ∧ tested someTests = 3 := by
  refine ⟨by decide, ?_, ?_, by decide, by decide, by decide⟩
  · intro f hf
    have h : f.name ≠ [] ∧ f.tests ≠ [] ∧ ∀ t ∈ f.tests, fails t = true → t.1 ≠ [] ∧ t.1.count '\n' ≤ 5 ∧ t.2.count '\n' ≤ 5 := by
      revert f; decide
    exact ⟨h.1, h.2.1, h.2.2⟩
  · intro f hf
    have h : (f.language.length ≤ 12 ∧ f.language.getLast? ≠ some ' ') ∧ (f.url.length ≤ 30 ∧ f.url.getLast? ≠ some ' ') ∧ (f.name.length ≤ 30 ∧ f.name.getLast? ≠ some ' ') := by
      revert f; decide
    exact ⟨h.1, h.2.1, h.2.2⟩

/-- A test as it comes from a file. -/
def aTest (filename : String) (url language : Option String) (expected actual : String) : ParserTestCase :=
  { filename := filename.toList, url := url.map String.toList, language := language.map String.toList, expected := expected.toList, actual := actual.toList }

/-- **C86.** A failing test with more than five ends of line has no defined behaviour: the iterators into the two texts are used after the texts were changed. -/
theorem C86_finding_long (color : Bool) (percent : Nat → Nat → Str) :
    parserTest color percent [aTest "a.xml" (some "u") (some "C") "1\n2\n3\n4\n5\n6\n" "1\n2\n3\n4\n5\n7\n"] = .ub := by
  cases color <;> rfl

/-- **C86.** Neither has a failing test whose expected markup is empty: the last character of the empty text is asked for. -/
theorem C86_finding_empty (color : Bool) (percent : Nat → Nat → Str) :
    parserTest color percent [aTest "a.xml" (some "u") (some "C") "" "x"] = .ub := by
  cases color <;> rfl

/-- **C86.** The first unit of a file is not tested when it has no language: it is in no count, and nothing is said of it. -/
theorem C86_finding_untested (percent : Nat → Nat → Str) :
    parserTest false percent [aTest "a.xml" (some "u") none "x" "y"] = .val [] := rfl

/-- **C86.** And the units after it are counted for the language of the file before, without a heading of their own. -/
theorem C86_finding_wrong_language : ∃ s out, ParserTest.entries false {} [aTest "a.xml" (some "u") (some "C") "x" "x", aTest "b.xml" (some "v") none "x" "x", aTest "b.xml" (some "v") (some "Java") "x" "x"] = .val (s, out) ∧
    s.totals = [("C".toList, 2)] ∧ s.total = 2 ∧ out = "\nC           u                             1 1 ".toList := ⟨_, _, rfl, by decide, by decide, by decide⟩

/-- **C86.** All units of a file are counted for the language of its first unit. -/
theorem C86_finding_mixed : ∃ s out, ParserTest.entries false {} [aTest "a.xml" (some "u") (some "C") "x" "x", aTest "a.xml" (some "u") (some "Java") "x" "y"] = .val (s, out) ∧
    s.totals = [("C".toList, 2)] ∧ s.misses = [("C".toList, 1)] := ⟨_, _, rfl, by decide, by decide⟩

/-- **C86.** An archive without url is shown with the url of the archive before. -/
theorem C86_finding_url : ∃ s, ParserTest.entries false {} [aTest "a.xml" (some "u") (some "C") "x" "x", aTest "b.xml" none (some "C") "x" "x"] =
    .val (s, "\nC           u                             1 \nC           u                             1 ".toList) := ⟨_, by rfl⟩

end Srcml
