import Verif.Model.FileList
set_option linter.unusedSimpArgs false
/-
C45: file lists.
-/
namespace Srcml

namespace Spec

/-- White space of a file list. -/
def IsSpace (c : Char) : Prop := c.toNat = 32 ∨ (9 ≤ c.toNat ∧ c.toNat ≤ 13)

/-- `t` is the line `l` without the white space around it. -/
def Trimmed (l t : Str) : Prop :=
  ∃ a b, l = a ++ t ++ b ∧ (∀ c ∈ a, IsSpace c) ∧ (∀ c ∈ b, IsSpace c) ∧
    (∀ c, t.head? = some c → ¬ IsSpace c) ∧ (∀ c, t.getLast? = some c → ¬ IsSpace c)

/-- The content of a file with these lines, the last one without a newline (an empty last line means that the file ends
with a newline). -/
def fileOf : List Str → Str
  | [] => []
  | [l] => l
  | l :: ls => l ++ '\n' :: fileOf ls

/-- The lines that are inputs: not blank, not a comment. -/
def IsInput (t : Str) : Bool := decide (t ≠ []) && decide (t.head? ≠ some '#')

end Spec

open Spec

theorem char_eq_iff (a b : Char) : a = b ↔ a.toNat = b.toNat :=
  ⟨fun h => by rw [h], fun h => by have := congrArg Char.ofNat h; rwa [Char.ofNat_toNat, Char.ofNat_toNat] at this⟩

theorem listSpace_iff (c : Char) : c ∈ listSpace ↔ IsSpace c := by
  simp only [listSpace, List.mem_cons, List.not_mem_nil, or_false, char_eq_iff, IsSpace,
    show ' '.toNat = 32 from rfl, show '\n'.toNat = 10 from rfl, show '\r'.toNat = 13 from rfl,
    show '\t'.toNat = 9 from rfl, show (Char.ofNat 12).toNat = 12 from rfl, show (Char.ofNat 11).toNat = 11 from rfl]
  omega

theorem firstNotSpace_none {s : Str} (h : firstNotSpace s = none) : ∀ c ∈ s, IsSpace c := by
  induction s with
  | nil => simp
  | cons x s ih =>
    simp only [firstNotSpace] at h
    split at h
    · next hx =>
      intro c hc
      rcases List.mem_cons.mp hc with rfl | hc
      · exact (listSpace_iff _).mp hx
      · exact ih (by simpa using h) c hc
    · simp at h

theorem firstNotSpace_some {s : Str} {n : Nat} (h : firstNotSpace s = some n) :
    (∀ c ∈ s.take n, IsSpace c) ∧ ∃ c, (s.drop n).head? = some c ∧ ¬ IsSpace c := by
  induction s generalizing n with
  | nil => simp [firstNotSpace] at h
  | cons x s ih =>
    simp only [firstNotSpace] at h
    split at h
    · next hx =>
      simp at h
      obtain ⟨m, hm, rfl⟩ := h
      have := ih hm
      refine ⟨?_, by simpa using this.2⟩
      intro c hc
      simp at hc
      rcases hc with rfl | hc
      · exact (listSpace_iff _).mp hx
      · exact this.1 c hc
    · next hx =>
      simp at h; subst h
      exact ⟨by simp, x, by simp, fun h => hx ((listSpace_iff _).mpr h)⟩

theorem lastNotSpace_none {s : Str} (h : lastNotSpace s = none) : ∀ c ∈ s, IsSpace c := by
  induction s with
  | nil => simp
  | cons x s ih =>
    simp only [lastNotSpace] at h
    split at h
    · simp at h
    · next hn =>
      split at h
      · next hx =>
        intro c hc
        rcases List.mem_cons.mp hc with rfl | hc
        · exact (listSpace_iff _).mp hx
        · exact ih hn c hc
      · simp at h

theorem lastNotSpace_some {s : Str} {n : Nat} (h : lastNotSpace s = some n) :
    (∀ c ∈ s.drop (n + 1), IsSpace c) ∧ ∃ c, (s.take (n + 1)).getLast? = some c ∧ ¬ IsSpace c := by
  induction s generalizing n with
  | nil => simp [lastNotSpace] at h
  | cons x s ih =>
    simp only [lastNotSpace] at h
    split at h
    · next m hm =>
      simp at h; subst h
      have := ih hm
      refine ⟨by simpa using this.1, ?_⟩
      obtain ⟨c, h1, h2⟩ := this.2
      refine ⟨c, ?_, h2⟩
      rw [List.take_succ_cons, List.getLast?_cons, h1]
      rfl
    · next hn =>
      split at h
      · simp at h
      · next hx =>
        simp at h; subst h
        refine ⟨by simpa using lastNotSpace_none hn, x, by simp, fun h => hx ((listSpace_iff _).mpr h)⟩

theorem trimLine_spec (l : Str) : Trimmed l (trimLine l) := by
  unfold trimLine
  cases hf : firstNotSpace l with
  | none => exact ⟨l, [], by simp [lastNotSpace], firstNotSpace_none hf, by simp, by simp [lastNotSpace], by simp [lastNotSpace]⟩
  | some n =>
    obtain ⟨h1, c, h2, h3⟩ := firstNotSpace_some hf
    simp only
    cases hl : lastNotSpace (l.drop n) with
    | none =>
      have := lastNotSpace_none hl c (List.mem_of_head? h2)
      exact absurd this h3
    | some m =>
      obtain ⟨g1, d, g2, g3⟩ := lastNotSpace_some hl
      refine ⟨l.take n, (l.drop n).drop (m + 1), ?_, h1, g1, ?_, ?_⟩
      · simp only [List.append_assoc]
        rw [List.take_append_drop, List.take_append_drop]
      · intro x hx
        simp only at hx
        have : (List.take (m + 1) (l.drop n)).head? = (l.drop n).head? := by
          cases l.drop n <;> rfl
        rw [this, h2] at hx
        simp at hx; subst hx; exact h3
      · intro x hx
        simp only at hx
        rw [g2] at hx
        simp at hx; subst hx; exact g3

theorem Trimmed_unique {l t t' : Str} (h : Trimmed l t) (h' : Trimmed l t') : t = t' := by
  obtain ⟨a, b, e, ha, hb, hh, hl⟩ := h
  obtain ⟨a', b', e', ha', hb', hh', hl'⟩ := h'
  have blank : ∀ (a b t a' b' t' : Str), a ++ t ++ b = a' ++ t' ++ b' → (∀ c ∈ a, IsSpace c) → (∀ c ∈ b, IsSpace c) → t = [] →
      (∀ c, t'.head? = some c → ¬ IsSpace c) → t' = [] := by
    intro a b t a' b' t' e ha hb ht hh'
    cases t' with
    | nil => rfl
    | cons x t' =>
      exfalso
      have hx : x ∈ a ++ t ++ b := by rw [e]; simp
      simp [ht] at hx
      have := hh' x rfl
      rcases hx with hx | hx
      · exact this (ha x hx)
      · exact this (hb x hx)
  have e2 := e.symm.trans e'
  by_cases ht : t = []
  · rw [ht, blank a b t a' b' t' e2 ha hb ht hh']
  · by_cases ht' : t' = []
    · exact absurd (blank a' b' t' a b t e2.symm ha' hb' ht' hh) ht
    · -- the first and the last non-space characters are at the same places
      have hlen : ∀ (a r a' r' : Str), a ++ r = a' ++ r' → (∀ c ∈ a, IsSpace c) →
          (∃ c, r'.head? = some c ∧ ¬ IsSpace c) → a.length ≤ a'.length := by
        intro a r a' r' e ha ⟨c, hc, hs⟩
        apply Classical.byContradiction; intro hlt
        have h1 := congrArg (fun l => l[a'.length]?) e
        rw [List.getElem?_append_left (by omega), List.getElem?_append_right (by omega)] at h1
        simp [← List.head?_eq_getElem?, hc] at h1
        exact hs (ha c (List.mem_of_getElem? h1))
      have hd : ∀ (t b : Str), t ≠ [] → (∀ c, t.head? = some c → ¬ IsSpace c) → ∃ c, (t ++ b).head? = some c ∧ ¬ IsSpace c := by
        intro t b ht h
        cases t with
        | nil => exact absurd rfl ht
        | cons x t => exact ⟨x, rfl, h x rfl⟩
      have hdl : ∀ (a t : Str), t ≠ [] → (∀ c, t.getLast? = some c → ¬ IsSpace c) →
          ∃ c, (a ++ t).reverse.head? = some c ∧ ¬ IsSpace c := by
        intro a t ht h
        refine ⟨t.getLast ht, ?_, h _ (List.getLast?_eq_some_getLast ht)⟩
        rw [List.head?_reverse, List.getLast?_append, List.getLast?_eq_some_getLast ht]
        rfl
      have l1 := hlen a (t ++ b) a' (t' ++ b') (by simpa using e2) ha (hd _ _ ht' hh')
      have l2 := hlen a' (t' ++ b') a (t ++ b) (by simpa using e2.symm) ha' (hd _ _ ht hh)
      have er : b.reverse ++ (a ++ t).reverse = b'.reverse ++ (a' ++ t').reverse := by
        rw [← List.reverse_append, ← List.reverse_append, e2]
      have l3 := hlen _ _ _ _ er (by simpa using hb) (hdl _ _ ht' hl')
      have l4 := hlen _ _ _ _ er.symm (by simpa using hb') (hdl _ _ ht hl)
      simp at l3 l4
      have e3 := List.append_inj (by simpa using e2 : a ++ (t ++ b) = a' ++ (t' ++ b')) (by omega)
      have hlt : t.length = t'.length := by
        have := congrArg List.length e3.2
        simp at this; omega
      exact (List.append_inj e3.2 hlt).1

theorem takeLine_line (l rest : Str) (h : '\n' ∉ l) : takeLine (l ++ '\n' :: rest) = (l ++ ['\n'], rest) := by
  induction l with
  | nil => cases rest <;> simp [takeLine]
  | cons c l ih =>
    have hc : c ≠ '\n' := by rintro rfl; exact h (by simp)
    have ih := ih (by simp at h; exact h.2)
    cases l with
    | nil => simp [takeLine, hc] at ih ⊢; cases rest <;> simp [takeLine] 
    | cons d l => simp only [List.cons_append] at ih ⊢; simp only [takeLine, hc, if_false] ; rw [ih]

theorem takeLine_last (l : Str) (h : '\n' ∉ l) : takeLine l = (l, []) := by
  induction l with
  | nil => rfl
  | cons c l ih =>
    have hc : c ≠ '\n' := by rintro rfl; exact h (by simp)
    have ih := ih (by simp at h; exact h.2)
    cases l with
    | nil => rfl
    | cons d l => simp only [takeLine, hc, if_false]; rw [ih]

theorem trim_newline (l : Str) : trimLine (l ++ ['\n']) = trimLine l := by
  apply Trimmed_unique (trimLine_spec _)
  obtain ⟨a, b, e, ha, hb, h1, h2⟩ := trimLine_spec l
  refine ⟨a, b ++ ['\n'], by rw [← List.append_assoc, ← e], ha, ?_, h1, h2⟩
  intro c hc
  simp at hc
  rcases hc with hc | rfl
  · exact hb c hc
  · exact .inr ⟨by decide, by decide⟩

/-- One line of the loop. -/
theorem loop_line (dispatch : Str → Int) (rest : Str) (hl : 2 ≤ rest.length) (hn : Char.ofNat 0 ∉ (takeLine rest).1) :
    fileListLoop dispatch rest =
      if IsInput (trimLine (takeLine rest).1) = false then fileListLoop dispatch (takeLine rest).2
      else if dispatch (trimLine (takeLine rest).1) = -1 then ([trimLine (takeLine rest).1], -1)
      else (trimLine (takeLine rest).1 :: (fileListLoop dispatch (takeLine rest).2).1,
        (fileListLoop dispatch (takeLine rest).2).2) := by
  rw [fileListLoop, dif_neg (by omega)]
  simp only
  have hsub : ∀ c, (trimLine (takeLine rest).1).head? = some c → c ≠ Char.ofNat 0 := by
    intro c hc e
    obtain ⟨a, b, e1, _⟩ := trimLine_spec (takeLine rest).1
    apply hn
    rw [e1]
    have := List.mem_of_head? hc
    rw [e] at this
    simp [this]
  generalize trimLine (takeLine rest).1 = t at *
  cases t with
  | nil => simp [IsInput]
  | cons c t =>
    have := hsub c rfl
    simp only [List.head?_cons, Option.getD_some, this, if_false, IsInput, Option.some.injEq]
    by_cases hc : c = '#'
    · simp [hc]
    · simp [hc]

theorem loop_lines (dispatch : Str → Int) (ls : List Str) (hne : ls ≠ []) (h1 : ∀ l ∈ ls, '\n' ∉ l)
    (h0 : ∀ l ∈ ls, Char.ofNat 0 ∉ l) (hlast : ∀ l, ls.getLast? = some l → l.length ≠ 1)
    (hok : ∀ l ∈ ls, IsInput (trimLine l) = true → dispatch (trimLine l) ≠ -1) :
    fileListLoop dispatch (fileOf ls) = ((ls.map trimLine).filter IsInput, 1) := by
  induction ls with
  | nil => exact absurd rfl hne
  | cons l ls ih =>
    cases ls with
    | nil =>
      simp only [fileOf]
      have hl := hlast l rfl
      by_cases he : l = []
      · subst he
        rw [fileListLoop, dif_pos (by simp)]
        simp [trimLine, firstNotSpace, lastNotSpace, IsInput]
      · have hlen : 2 ≤ l.length := by
          have : l.length ≠ 0 := by simpa using he
          omega
        have ht := takeLine_last l (h1 l (by simp))
        rw [loop_line dispatch l hlen (by rw [ht]; exact h0 l (by simp)), ht]
        have hnil : fileListLoop dispatch [] = ([], 1) := by rw [fileListLoop, dif_pos (by simp)]
        simp only [hnil]
        by_cases hi : IsInput (trimLine l) = true
        · simp [hi, hok l (by simp) hi]
        · simp [hi]
    | cons m ls =>
      have ih := ih (by simp) (fun x hx => h1 x (by simp_all)) (fun x hx => h0 x (by simp_all))
        (fun x hx => hlast x (by rw [List.getLast?_cons]; simp [hx])) (fun x hx => hok x (by simp_all))
      have hf : fileOf (l :: m :: ls) = l ++ '\n' :: fileOf (m :: ls) := rfl
      rw [hf]
      have ht := takeLine_line l (fileOf (m :: ls)) (h1 l (by simp))
      by_cases hlen : 2 ≤ (l ++ '\n' :: fileOf (m :: ls)).length
      · rw [loop_line dispatch _ hlen (by
          rw [ht]
          have := h0 l (by simp)
          simp only [List.mem_append, List.mem_singleton, not_or]
          exact ⟨this, by decide⟩), ht, ih]
        simp only [trim_newline]
        by_cases hi : IsInput (trimLine l) = true
        · simp [hi, hok l (by simp) hi]
        · simp [hi]
      · simp at hlen
        have hl0 : l = [] := by apply List.eq_nil_of_length_eq_zero; omega
        have hf0 : fileOf (m :: ls) = [] := by apply List.eq_nil_of_length_eq_zero; omega
        have hne : fileListLoop dispatch (l ++ '\n' :: fileOf (m :: ls)) = ([], 1) := by
          rw [fileListLoop, dif_pos (by simp [hl0, hf0])]
        have hnil : fileListLoop dispatch [] = ([], 1) := by rw [fileListLoop, dif_pos (by simp)]
        rw [hf0, hnil] at ih
        rw [hne, List.map_cons, List.filter_cons, hl0]
        have : IsInput (trimLine []) = false := rfl
        rw [this]
        simpa using ih

/-- **C45.** For a list file with any lines (no newline, no NUL in them), the last of which is not a single character
without newline: the inputs are the trimmed lines that are not blank and not comments, each once and in order, if no
input is refused. -/
theorem C45_lines_partial (dispatch : Str → Int) (ls : List Str) (hf : fileOf ls ≠ []) (h1 : ∀ l ∈ ls, '\n' ∉ l)
    (h0 : ∀ l ∈ ls, Char.ofNat 0 ∉ l) (hlast : ∀ l, ls.getLast? = some l → l.length ≠ 1)
    (hok : ∀ l ∈ ls, ∀ t, Trimmed l t → IsInput t = true → dispatch t ≠ -1) :
    ∃ ts : List Str, ts.length = ls.length ∧ (∀ (i : Nat) (h : i < ls.length) (h' : i < ts.length), Trimmed ls[i] ts[i]) ∧
      src_input_filelist dispatch (fileOf ls) = .val (ts.filter IsInput, 1) := by
  refine ⟨ls.map trimLine, by simp, ?_, ?_⟩
  · intro i h h'
    simpa using trimLine_spec ls[i]
  · rw [src_input_filelist, if_neg hf]
    rw [loop_lines dispatch ls (by rintro rfl; exact hf rfl) h1 h0 hlast
      (fun l hl hi => hok l hl _ (trimLine_spec l) hi)]

/-- Trimming is determined by its description. -/
theorem C45_trim_unique (l t t' : Str) (h : Trimmed l t) (h' : Trimmed l t') : t = t' := Trimmed_unique h h'

/-- **C45.** Processing stops with the first input that is refused: the inputs before it and this one are handed on. -/
theorem C45_refused (dispatch : Str → Int) (pre : List Str) (x post : Str) (hx1 : '\n' ∉ x) (hp1 : ∀ l ∈ pre, '\n' ∉ l)
    (h0 : ∀ l ∈ pre, Char.ofNat 0 ∉ l) (hx0 : Char.ofNat 0 ∉ x)
    (hok : ∀ l ∈ pre, ∀ t, Trimmed l t → IsInput t = true → dispatch t ≠ -1)
    (t : Str) (ht : Trimmed x t) (hi : IsInput t = true) (hbad : dispatch t = -1) :
    ∃ ts : List Str, ts.length = pre.length ∧ (∀ (i : Nat) (h : i < pre.length) (h' : i < ts.length), Trimmed pre[i] ts[i]) ∧
      src_input_filelist dispatch (pre.flatMap (· ++ ['\n']) ++ x ++ '\n' :: post) = .val (ts.filter IsInput ++ [t], -1) := by
  refine ⟨pre.map trimLine, by simp, ?_, ?_⟩
  · intro i h h'
    simpa using trimLine_spec pre[i]
  · rw [src_input_filelist, if_neg (by simp)]
    have hxne : x ≠ [] := by
      rintro rfl
      obtain ⟨a, b, e, _⟩ := ht
      have : t = [] := by
        have := congrArg List.length e
        simp at this
        exact List.eq_nil_of_length_eq_zero (by omega)
      subst this
      simp [IsInput] at hi
    have htx : trimLine x = t := Trimmed_unique (trimLine_spec x) ht
    congr 1
    induction pre with
    | nil =>
      simp only [List.flatMap_nil, List.nil_append, List.map_nil, List.filter_nil]
      have hl : 2 ≤ (x ++ '\n' :: post).length := by
        have : x.length ≠ 0 := by simpa using hxne
        simp; omega
      have hl' := takeLine_line x post hx1
      rw [loop_line dispatch _ hl (by
        rw [hl']; simp only [List.mem_append, List.mem_singleton, not_or]; exact ⟨hx0, by decide⟩), hl']
      simp [trim_newline, htx, hi, hbad]
    | cons l pre ih =>
      have ih := ih (fun y hy => hp1 y (by simp [hy])) (fun y hy => h0 y (by simp [hy]))
        (fun y hy => hok y (by simp [hy]))
      simp only [List.flatMap_cons, List.append_assoc, List.cons_append, List.nil_append] at ih ⊢
      have hl : 2 ≤ (l ++ '\n' :: (pre.flatMap (· ++ ['\n']) ++ (x ++ '\n' :: post))).length := by
        simp; omega
      have hl' := takeLine_line l (pre.flatMap (· ++ ['\n']) ++ (x ++ '\n' :: post)) (hp1 l (by simp))
      rw [loop_line dispatch _ hl (by
        rw [hl']; simp only [List.mem_append, List.mem_singleton, not_or]; exact ⟨h0 l (by simp), by decide⟩), hl', ih]
      simp only [trim_newline]
      by_cases hi' : IsInput (trimLine l) = true
      · simp [hi', hok l (by simp) _ (trimLine_spec l) hi']
      · simp [hi']

/-- A last line of one character without a newline is ignored. -/
theorem C45_finding_last_character (dispatch : Str → Int) (c : Char) :
    src_input_filelist dispatch [c] = .val ([], 1) := by
  rw [src_input_filelist, if_neg (by simp), fileListLoop, dif_pos (by simp)]

/-- A line that begins with a character NUL is skipped. -/
theorem C45_finding_nul : src_input_filelist (fun _ => 1) ([Char.ofNat 0] ++ "ab\n".toList) = .val ([], 1) := by
  decide +kernel

/-- A list with a comment, a blank line and two inputs; the hypotheses hold. -/
def sampleList : List Str := ["# list".toList, "  a.c\t".toList, "".toList, "b b.c\r".toList, "".toList]

example : fileOf sampleList = "# list\n  a.c\t\n\nb b.c\r\n".toList ∧ fileOf sampleList ≠ [] ∧ (∀ l ∈ sampleList, '\n' ∉ l) ∧
    (∀ l ∈ sampleList, Char.ofNat 0 ∉ l) ∧ (∀ l, sampleList.getLast? = some l → l.length ≠ 1) := by
  refine ⟨by decide, by decide, by decide, by decide, ?_⟩
  intro l h
  simp [sampleList] at h
  subst h; decide
example : src_input_filelist (fun _ => 1) (fileOf sampleList) = .val (["a.c".toList, "b b.c".toList], 1) := by decide +kernel

end Srcml
