import Verif.Model.Archive
import Verif.Spec.Archive
set_option linter.unusedSimpArgs false
/-
Lemmas about the namespace table and the macro vector.
-/
namespace Srcml
open Spec

theorem mem_firstOccurrences (l : List Str) (x : Str) : x ∈ firstOccurrences l ↔ x ∈ l := by
  induction l with
  | nil => simp [firstOccurrences]
  | cons y ys ih =>
    by_cases h : x = y <;> simp [firstOccurrences, ih, h]

theorem firstOccurrences_concat (l : List Str) (x : Str) :
    firstOccurrences (l ++ [x]) = if x ∈ l then firstOccurrences l else firstOccurrences l ++ [x] := by
  induction l with
  | nil => simp [firstOccurrences]
  | cons y ys ih =>
    simp only [List.cons_append, firstOccurrences, ih]
    by_cases hy : x = y
    · subst hy
      by_cases hm : x ∈ ys <;> simp [hm]
    · by_cases hm : x ∈ ys <;> simp [hm, hy]

theorem firstOccurrences_nodup (l : List Str) : (firstOccurrences l).Nodup := by
  induction l with
  | nil => simp [firstOccurrences]
  | cons y ys ih =>
    simp only [firstOccurrences, List.nodup_cons]
    exact ⟨by simp, ih.filter _⟩

theorem firstOccurrences_append (l m : List Str) (x : Str) :
    firstOccurrences (l ++ x :: m) = firstOccurrences (firstOccurrences (l ++ [x]) ++ m) := by
  suffices h : ∀ (m l : List Str), firstOccurrences (l ++ m) = firstOccurrences (firstOccurrences l ++ m) by
    have := h m (l ++ [x])
    simpa using this
  intro m
  -- snoc induction on m via its reverse
  suffices h : ∀ (r l : List Str), firstOccurrences (l ++ r.reverse) =
      firstOccurrences (firstOccurrences l ++ r.reverse) by
    intro l; simpa using h m.reverse l
  intro r
  induction r with
  | nil =>
    intro l
    simp only [List.reverse_nil, List.append_nil]
    induction l with
    | nil => rfl
    | cons y ys ih =>
      have key : ∀ (l : List Str), l.Nodup → firstOccurrences l = l := by
        intro l hl
        induction l with
        | nil => rfl
        | cons z zs ihz =>
          simp only [List.nodup_cons] at hl
          simp only [firstOccurrences, ihz hl.2]
          congr 1
          rw [List.filter_eq_self]
          intro a ha
          simp
          rintro rfl
          exact hl.1 ha
      exact (key _ (firstOccurrences_nodup _)).symm
  | cons y r ih =>
    intro l
    simp only [List.reverse_cons, ← List.append_assoc]
    rw [firstOccurrences_concat, firstOccurrences_concat, ih l]
    simp only [List.mem_append, mem_firstOccurrences]

/-! Namespace table -/

theorem modifyUri_uris (ns : List Namespace) (u : Str) (f : Namespace → Namespace)
    (hf : ∀ n, (f n).uri = n.uri) : (modifyUri ns u f).map (·.uri) = ns.map (·.uri) := by
  induction ns with
  | nil => rfl
  | cons n rest ih =>
    simp only [modifyUri]
    split <;> simp [hf, ih]

theorem findUri_modifyUri_self (ns : List Namespace) (u : Str) (f : Namespace → Namespace)
    (hf : ∀ n, (f n).uri = n.uri) : findUri (modifyUri ns u f) u = (findUri ns u).map f := by
  induction ns with
  | nil => rfl
  | cons n rest ih =>
    simp only [modifyUri, findUri]
    by_cases h : n.uri = u
    · simp [h, hf]
    · simp only [h, if_false, List.find?_cons, decide_false, Bool.false_eq_true]
      simpa [findUri] using ih

theorem findUri_modifyUri_ne (ns : List Namespace) (u v : Str) (hv : v ≠ u)
    (f : Namespace → Namespace) (hf : ∀ n, (f n).uri = n.uri) :
    findUri (modifyUri ns u f) v = findUri ns v := by
  induction ns with
  | nil => rfl
  | cons n rest ih =>
    simp only [modifyUri, findUri]
    by_cases h : n.uri = u
    · have : ¬ u = v := fun e => hv e.symm
      simp [h, hf, this]
    · simp only [h, if_false, List.find?_cons]
      split
      · rfl
      · simpa [findUri] using ih

theorem findUri_none (ns : List Namespace) (u : Str) : findUri ns u = none ↔ u ∉ ns.map (·.uri) := by
  simp [findUri, List.find?_eq_none]

theorem findUri_append (ns ms : List Namespace) (u : Str) :
    findUri (ns ++ ms) u = (findUri ns u).or (findUri ms u) := by
  simp [findUri, List.find?_append]

theorem registerNs_uris (ns : List Namespace) (p u : Str) :
    (registerNs ns p u).map (·.uri) =
      if u ∈ ns.map (·.uri) then ns.map (·.uri) else ns.map (·.uri) ++ [u] := by
  unfold registerNs
  cases h : findUri ns u with
  | none =>
    have := (findUri_none ns u).mp h
    simp only [this, if_false]; simp
  | some n =>
    have : u ∈ ns.map (·.uri) := by
      apply Classical.byContradiction
      intro hn
      rw [(findUri_none ns u).mpr hn] at h
      simp at h
    simp only [this, if_true]
    exact modifyUri_uris _ _ _ (fun _ => rfl)

theorem registerNs_prefix (ns : List Namespace) (p u v : Str) :
    (findUri (registerNs ns p u) v).map (·.prefix_) =
      if v = u then some p else (findUri ns v).map (·.prefix_) := by
  unfold registerNs
  cases h : findUri ns u with
  | none =>
    by_cases hv : v = u
    · subst hv
      simp [findUri_append, h]
      simp [findUri]
    · have : ¬ u = v := fun e => hv e.symm
      simp [findUri_append, hv]
      cases findUri ns v <;> simp [findUri, this]
  | some n =>
    by_cases hv : v = u
    · subst hv
      rw [findUri_modifyUri_self _ _ _ (by intro; rfl)]
      simp [h]
    · rw [findUri_modifyUri_ne _ _ _ hv _ (by intro; rfl)]
      simp [hv]

/-- With unique uris the entry at a position is the one found by its uri. -/
theorem findUri_of_getElem (ns : List Namespace) (hn : (ns.map (·.uri)).Nodup) (pos : Nat) (n : Namespace)
    (h : ns[pos]? = some n) : findUri ns n.uri = some n := by
  induction ns generalizing pos with
  | nil => simp at h
  | cons m rest ih =>
    simp only [List.map_cons, List.nodup_cons] at hn
    cases pos with
    | zero =>
      simp at h; subst h; simp [findUri]
    | succ k =>
      simp at h
      have hmem : n ∈ rest := List.mem_of_getElem? h
      have hne : ¬ m.uri = n.uri := by
        intro e
        exact hn.1 (by rw [e]; exact List.mem_map_of_mem hmem)
      simp only [findUri, List.find?_cons, hne, decide_false, Bool.false_eq_true]
      exact ih hn.2 k h

/-! Macro vector: even length, seen as pairs -/

/-- The vector of a list of pairs. -/
def flatten : List (Str × Str) → List Str
  | [] => []
  | (t, y) :: rest => t :: y :: flatten rest

/-- Registration on pairs. -/
def pairRegister (l : List (Str × Str)) (t y : Str) : List (Str × Str) :=
  match l with
  | [] => [(t, y)]
  | (t', y') :: rest => if t' = t then (t', y) :: rest else (t', y') :: pairRegister rest t y

theorem flatten_append (l m : List (Str × Str)) : flatten (l ++ m) = flatten l ++ flatten m := by
  induction l with
  | nil => rfl
  | cons p rest ih => obtain ⟨t, y⟩ := p; simp [flatten, ih]

theorem flatten_length (l : List (Str × Str)) : (flatten l).length = 2 * l.length := by
  induction l with
  | nil => rfl
  | cons p rest ih => obtain ⟨t, y⟩ := p; simp [flatten, ih]; omega

theorem macroRegister_flatten (l : List (Str × Str)) (t y : Str) :
    macroRegister (flatten l) t y = flatten (pairRegister l t y) := by
  induction l with
  | nil => simp [macroRegister, flatten, macroSlot, pairRegister]
  | cons p rest ih =>
    obtain ⟨t', y'⟩ := p
    by_cases h : t' = t
    · simp [macroRegister, flatten, macroSlot, pairRegister, h]
    · simp only [macroRegister, flatten, macroSlot, pairRegister, h, if_false] at ih ⊢
      cases hs : macroSlot t (flatten rest) with
      | none => simp [hs] at ih ⊢; simp [← ih, flatten]
      | some i =>
        simp [hs] at ih ⊢
        simp [flatten, ← ih, List.set_cons_succ]

theorem pairRegister_fst (l : List (Str × Str)) (t y : Str) :
    (pairRegister l t y).map (·.1) = if t ∈ l.map (·.1) then l.map (·.1) else l.map (·.1) ++ [t] := by
  induction l with
  | nil => simp [pairRegister]
  | cons p rest ih =>
    obtain ⟨t', y'⟩ := p
    simp only [pairRegister]
    by_cases h : t' = t
    · simp [h]
    · have h2 : ¬ t = t' := fun e => h e.symm
      simp only [h, if_false, List.map_cons, ih, List.mem_cons, h2, false_or]
      split <;> simp

/-- Lookup on pairs. -/
def pairType (t : Str) (l : List (Str × Str)) : Option Str := (l.find? (fun p => p.1 = t)).map (·.2)

theorem pairType_register (l : List (Str × Str)) (t y v : Str) :
    pairType v (pairRegister l t y) = if v = t then some y else pairType v l := by
  induction l with
  | nil =>
    by_cases h : v = t
    · simp [pairRegister, pairType, h]
    · have : ¬ t = v := fun e => h e.symm
      simp [pairRegister, pairType, h, this]
  | cons p rest ih =>
    obtain ⟨t', y'⟩ := p
    simp only [pairRegister]
    by_cases h : t' = t
    · subst h
      by_cases hv : v = t'
      · simp [pairType, hv]
      · have : ¬ t' = v := fun e => hv e.symm
        simp [pairType, hv, this]
    · simp only [h, if_false]
      by_cases hv : t' = v
      · have : ¬ v = t := fun e => h (hv.trans e)
        simp [pairType, hv, this]
      · simpa [pairType, hv] using ih

theorem macroTokenType_flatten (l : List (Str × Str)) (t : Str) :
    macroTokenType t (flatten l) = pairType t l := by
  induction l with
  | nil => simp [flatten, macroTokenType, pairType]
  | cons p rest ih =>
    obtain ⟨t', y'⟩ := p
    simp only [flatten]
    rw [macroTokenType]
    by_cases h : t' = t
    · simp [h, pairType]
    · simp only [h, if_false, List.tail_cons, ih]
      simp [pairType, h]

theorem flatten_even (l : List (Str × Str)) (i : Nat) : (flatten l)[2 * i]? = (l[i]?).map (·.1) := by
  induction l generalizing i with
  | nil => simp [flatten]
  | cons p rest ih =>
    obtain ⟨t', y'⟩ := p
    cases i with
    | zero => simp [flatten]
    | succ k =>
      have : 2 * (k + 1) = 2 * k + 1 + 1 := by omega
      rw [this]
      simp [flatten, ih]

theorem flatten_odd (l : List (Str × Str)) (i : Nat) : (flatten l)[2 * i + 1]? = (l[i]?).map (·.2) := by
  induction l generalizing i with
  | nil => simp [flatten]
  | cons p rest ih =>
    obtain ⟨t', y'⟩ := p
    cases i with
    | zero => simp [flatten]
    | succ k =>
      have : 2 * (k + 1) + 1 = 2 * k + 1 + 1 + 1 := by omega
      rw [this]
      simp only [flatten, List.getElem?_cons_succ]
      exact ih k

end Srcml
