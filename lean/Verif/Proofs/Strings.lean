import Verif.Model.Basic
/- Facts about the string searches of the model. -/
namespace Srcml

theorem findLast_none {c : Char} {s : Str} : findLast c s = none ↔ c ∉ s := by
  induction s with
  | nil => simp [findLast]
  | cons x xs ih =>
    simp only [findLast]
    cases h : findLast c xs with
    | some n =>
      have : c ∈ xs := by
        have := (not_congr ih).mp (by simp [h])
        simpa using this
      simp [this]
    | none =>
      have hx := ih.mp h
      by_cases hc : x = c
      · simp [hc]
      · simp [hc, hx]; exact fun h => hc h.symm

theorem findLast_append {c : Char} (stem rest : Str) (h : c ∉ rest) :
    findLast c (stem ++ c :: rest) = some stem.length := by
  induction stem with
  | nil => simp [findLast, findLast_none.mpr h]
  | cons x xs ih => simp [findLast, ih]

theorem findLast_some {c : Char} {s : Str} {n : Nat} (h : findLast c s = some n) :
    s = s.take n ++ c :: s.drop (n + 1) ∧ c ∉ s.drop (n + 1) := by
  induction s generalizing n with
  | nil => simp [findLast] at h
  | cons x xs ih =>
    simp only [findLast] at h
    cases hx : findLast c xs with
    | some m =>
      simp [hx] at h
      subst h
      have := ih hx
      constructor
      · simp only [List.take_succ_cons, List.cons_append, List.drop_succ_cons]
        exact congrArg _ this.1
      · simpa using this.2
    | none =>
      simp [hx] at h
      obtain ⟨rfl, rfl⟩ := h
      simp [findLast_none.mp hx]

theorem findFirst_none {c : Char} {s : Str} : findFirst c s = none ↔ c ∉ s := by
  induction s with
  | nil => simp [findFirst]
  | cons x xs ih =>
    simp only [findFirst]
    by_cases hc : x = c
    · simp [hc]
    · simp [hc, ih]; intro _; exact fun h => hc h.symm

theorem findFirst_append {c : Char} (pre rest : Str) (h : c ∉ pre) :
    findFirst c (pre ++ c :: rest) = some pre.length := by
  induction pre with
  | nil => simp [findFirst]
  | cons x xs ih =>
    have hx : x ≠ c := by intro e; simp [e] at h
    simp [findFirst, hx, ih (by intro e; exact h (by simp [e]))]

theorem findFirst_some {c : Char} {s : Str} {n : Nat} (h : findFirst c s = some n) :
    s = s.take n ++ c :: s.drop (n + 1) ∧ c ∉ s.take n := by
  induction s generalizing n with
  | nil => simp [findFirst] at h
  | cons x xs ih =>
    simp only [findFirst] at h
    by_cases hc : x = c
    · simp [hc] at h; subst h; simp [hc]
    · simp [hc] at h
      obtain ⟨m, hm, rfl⟩ := h
      have := ih hm
      refine ⟨?_, ?_⟩
      · simp only [List.take_succ_cons, List.cons_append, List.drop_succ_cons]
        exact congrArg _ this.1
      · simp [this.2]; exact fun h => hc h.symm

theorem findSub_some_decomp {n : Str} {s : Str} {k : Nat} (h : findSub n s = some k) :
    ∃ pre post, s = pre ++ n ++ post ∧ pre.length = k := by
  induction s generalizing k with
  | nil =>
    simp [findSub] at h
    exact ⟨[], [], by simp [h.1], by simp [h.2]⟩
  | cons x xs ih =>
    simp only [findSub] at h
    split at h
    · rename_i hp
      simp at h; subst h
      obtain ⟨post, hpost⟩ := List.isPrefixOf_iff_prefix.mp hp
      exact ⟨[], post, by simp [hpost], rfl⟩
    · simp at h
      obtain ⟨m, hm, rfl⟩ := h
      obtain ⟨pre, post, e, hl⟩ := ih hm
      exact ⟨x :: pre, post, by simp [e], by simp [hl]⟩

/-- `findSub` returns the least offset. -/
theorem findSub_least {n : Str} {s : Str} {k : Nat} (h : findSub n s = some k) :
    ∀ pre post, s = pre ++ n ++ post → k ≤ pre.length := by
  induction s generalizing k with
  | nil =>
    simp [findSub] at h
    intro pre post _; omega
  | cons x xs ih =>
    simp only [findSub] at h
    intro pre post e
    split at h
    · simp at h; omega
    · rename_i hp
      simp at h
      obtain ⟨m, hm, rfl⟩ := h
      cases pre with
      | nil =>
        exfalso; apply hp
        exact List.isPrefixOf_iff_prefix.mpr ⟨post, by simpa using e.symm⟩
      | cons y ys =>
        simp at e
        have := ih hm ys post (by simp [e.2])
        simp; omega

theorem findSub_none {n : Str} {s : Str} (h : findSub n s = none) :
    ¬ ∃ pre post, s = pre ++ n ++ post := by
  induction s with
  | nil =>
    simp [findSub] at h
    rintro ⟨pre, post, e⟩
    simp at e; exact h e.2.1
  | cons x xs ih =>
    simp only [findSub] at h
    split at h
    · simp at h
    · rename_i hp
      simp at h
      rintro ⟨pre, post, e⟩
      cases pre with
      | nil =>
        apply hp
        exact List.isPrefixOf_iff_prefix.mpr ⟨post, by simpa using e.symm⟩
      | cons y ys =>
        simp at e
        exact ih h ⟨ys, post, by simp [e.2]⟩

end Srcml
