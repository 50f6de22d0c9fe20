import Verif.Spec.Inputs
import Verif.Proofs.Strings
set_option linter.unusedSimpArgs false
/-
Lemmas for C69: the files of a directory.
-/
namespace Srcml
open Spec

theorem pathOf_cons (dir n : Str) (hn : n ≠ []) (hs : '/' ∉ n) (p : List Str) (hp : p ≠ []) :
    pathOf dir (n :: p) = pathOf (fsJoin dir n) p := by
  have hl : (fsJoin dir n).getLast? ≠ some '/' := by
    intro h
    have : (fsJoin dir n).getLast? = n.getLast? := by
      unfold fsJoin
      split
      · rw [List.getLast?_append]
        cases h' : n.getLast? with
        | none => exact absurd (List.getLast?_eq_none_iff.mp h') hn
        | some c => rfl
      · rw [List.getLast?_append, List.getLast?_cons]
        cases h' : n.getLast? with
        | none => exact absurd (List.getLast?_eq_none_iff.mp h') hn
        | some c => rfl
    rw [this] at h
    exact hs (List.mem_of_getLast? h)
  unfold pathOf
  rw [if_neg hl]
  cases p with
  | nil => exact absurd rfl hp
  | cons m p =>
    simp only [List.intersperse_cons_cons, List.flatten_cons]
    unfold fsJoin
    split <;> simp

theorem pathOf_single (dir n : Str) : pathOf dir [n] = fsJoin dir n := by
  unfold pathOf fsJoin
  split <;> simp

theorem fsHidden_join (dir n : Str) (hs : '/' ∉ n) : fsHidden (fsJoin dir n) = true ↔ ¬ Visible n := by
  have key : ∀ a : Str, fsHidden (a ++ '/' :: n) = true ↔ n.head? = some '.' := by
    intro a
    unfold fsHidden
    rw [findLast_append a n hs]
    simp only [decide_eq_true_eq]
    rw [List.getElem?_append_right (by omega)]
    cases n <;> simp
  have : ¬ Visible n ↔ n.head? = some '.' := by
    unfold Visible
    cases n with
    | nil => simp
    | cons c r => simp
  rw [this]
  unfold fsJoin
  split
  · next h =>
    obtain ⟨b, hb⟩ : ∃ b, dir = b ++ ['/'] := by
      have hne : dir ≠ [] := by intro e; simp [e] at h
      rw [List.getLast?_eq_some_getLast hne] at h
      refine ⟨dir.dropLast, ?_⟩
      have := List.dropLast_concat_getLast hne
      simp at h; rw [h] at this; exact this.symm
    rw [hb]
    have := key b
    simpa using this
  · exact key dir

theorem fsHidden_last (path : Str) : fsHidden path = true ↔ ¬ LastVisible path := by
  have hL : ¬ LastVisible path ↔ ∃ a r, path = a ++ '.' :: r ∧ '/' ∉ r ∧ (a = [] ∨ ∃ b, a = b ++ ['/']) := by
    unfold LastVisible; exact Classical.not_not
  rw [hL]
  unfold fsHidden
  split
  · next e =>
    have hn := findLast_none.mp e
    simp only [decide_eq_true_eq]
    constructor
    · intro h
      cases path with
      | nil => simp at h
      | cons c r =>
        simp at h
        subst h
        exact ⟨[], r, rfl, fun hm => hn (List.mem_cons_of_mem _ hm), .inl rfl⟩
    · rintro ⟨a, r, e1, _, h | ⟨b, h⟩⟩
      · subst e1; subst h; rfl
      · exact absurd (by rw [e1, h]; simp) hn
  · next p e =>
    obtain ⟨h1, h2⟩ := findLast_some e
    have hp : (path.take p).length = p := by
      have := congrArg List.length h1
      simp at this
      rw [List.length_take]; omega
    simp only [decide_eq_true_eq]
    constructor
    · intro h
      refine ⟨path.take p ++ ['/'], path.drop (p + 2), ?_, ?_, .inr ⟨_, rfl⟩⟩
      · have : path.drop (p + 1) = '.' :: path.drop (p + 2) := by
          have hlt : p + 1 < path.length := by
            rw [List.getElem?_eq_some_iff] at h; exact h.1
          rw [List.drop_eq_getElem_cons hlt]
          rw [List.getElem?_eq_getElem hlt] at h
          simp at h
          rw [h]
        rw [← this]
        simpa using h1
      · intro hm
        apply h2
        rw [show p + 2 = (p + 1) + 1 from rfl, ← List.drop_drop] at hm
        exact List.mem_of_mem_drop hm
    · rintro ⟨a, r, e1, hr, h | ⟨b, h⟩⟩
      · subst h
        exfalso
        have : '/' ∈ path := by rw [h1]; simp
        rw [e1] at this
        simp at this
        exact hr this
      · subst h
        rw [e1, List.append_assoc, List.singleton_append] at e
        have h3 := findLast_append (c := '/') b ('.' :: r) (by simp [hr])
        rw [h3] at e
        simp at e
        subst e
        rw [e1]
        simp

theorem Spec.FileAt.ne_nil {t : FsTree} {p : List Str} (h : FileAt t p) : p ≠ [] := by
  induction h <;> simp_all

theorem Spec.FileAt.head {t : FsTree} {p : List Str} (h : FileAt t p) : ∃ n q, p = n :: q ∧ n ∈ nodeNames t := by
  induction h with
  | here n rest => exact ⟨n, [], rfl, by simp [nodeNames]⟩
  | inside n rest h ih => exact ⟨n, _, rfl, by simp [nodeNames]⟩
  | afterFile n h ih => obtain ⟨m, q, e, hm⟩ := ih; exact ⟨m, q, e, by simp [nodeNames, hm]⟩
  | afterOther n h ih => obtain ⟨m, q, e, hm⟩ := ih; exact ⟨m, q, e, by simp [nodeNames, hm]⟩
  | afterDir n k h ih => obtain ⟨m, q, e, hm⟩ := ih; exact ⟨m, q, e, by simp [nodeNames, hm]⟩

/-- The names that the loop finds, for the proofs. -/
def namesBelow : FsTree → List (List Str)
  | .nil => []
  | .file n rest => (if n.head? = some '.' then [] else [[n]]) ++ namesBelow rest
  | .other _ rest => namesBelow rest
  | .dir n kids rest => (if n.head? = some '.' then [] else (namesBelow kids).map (n :: ·)) ++ namesBelow rest

theorem visible_iff (n : Str) : Visible n ↔ ¬ n.head? = some '.' := by
  unfold Visible
  cases n <;> simp

theorem mem_namesBelow (t : FsTree) (p : List Str) : p ∈ namesBelow t ↔ FileAt t p ∧ ∀ n ∈ p, Visible n := by
  induction t generalizing p with
  | nil => simp only [namesBelow, List.not_mem_nil, false_iff]; rintro ⟨h, _⟩; cases h
  | file n rest ih =>
    simp only [namesBelow, List.mem_append, ih]
    constructor
    · rintro (h | h)
      · split at h
        · simp at h
        · next hv =>
          simp at h; subst h
          exact ⟨.here n rest, by simpa using (visible_iff n).mpr hv⟩
      · exact ⟨.afterFile n h.1, h.2⟩
    · rintro ⟨h, hv⟩
      cases h with
      | here => left; rw [if_neg ((visible_iff n).mp (hv n (by simp)))]; simp
      | afterFile _ h => exact .inr ⟨h, hv⟩
  | other n rest ih =>
    simp only [namesBelow, ih]
    constructor
    · rintro h; exact ⟨.afterOther n h.1, h.2⟩
    · rintro ⟨h, hv⟩
      cases h with
      | afterOther _ h => exact ⟨h, hv⟩
  | dir n kids rest ihk ih =>
    simp only [namesBelow, List.mem_append, ih]
    constructor
    · rintro (h | h)
      · split at h
        · simp at h
        · next hv =>
          simp at h
          obtain ⟨q, hq, e⟩ := h
          obtain ⟨h1, h2⟩ := (ihk q).mp hq
          subst e
          refine ⟨.inside n rest h1, ?_⟩
          intro m hm
          rcases List.mem_cons.mp hm with rfl | hm
          · exact (visible_iff m).mpr hv
          · exact h2 m hm
      · exact ⟨.afterDir n kids h.1, h.2⟩
    · rintro ⟨h, hv⟩
      cases h with
      | inside _ _ h =>
        left; rw [if_neg ((visible_iff n).mp (hv n (by simp)))]
        simp only [List.mem_map]
        exact ⟨_, (ihk _).mpr ⟨h, fun m hm => hv m (by simp [hm])⟩, rfl⟩
      | afterDir _ _ h => exact .inr ⟨h, hv⟩

theorem nodup_namesBelow (t : FsTree) (hw : DistinctNames t) : (namesBelow t).Nodup := by
  induction t with
  | nil => simp [namesBelow]
  | file n rest ih =>
    obtain ⟨_, _, hn, hr⟩ := hw
    simp only [namesBelow]
    rw [List.nodup_append]
    refine ⟨by split <;> simp, ih hr, ?_⟩
    intro a ha b hb e
    subst e
    split at ha
    · simp at ha
    · simp at ha
      subst ha
      obtain ⟨m, q, e, hm⟩ := ((mem_namesBelow _ _).mp hb).1.head
      simp at e; rw [e.1] at hn; exact hn hm
  | other n rest ih => exact ih hw.2.2.2
  | dir n kids rest ihk ih =>
    obtain ⟨_, _, hn, hk, hr⟩ := hw
    simp only [namesBelow]
    rw [List.nodup_append]
    refine ⟨?_, ih hr, ?_⟩
    · split
      · simp
      · exact List.Pairwise.map _ (fun a b h e => h (by simpa using e)) (ihk hk)
    · intro a ha b hb e
      subst e
      split at ha
      · simp at ha
      · simp at ha
        obtain ⟨q, _, ha⟩ := ha
        subst ha
        obtain ⟨m, q, e, hm⟩ := ((mem_namesBelow _ _).mp hb).1.head
        simp at e; rw [e.1] at hn; exact hn hm

theorem collect_eq (t : FsTree) (hw : DistinctNames t) (dir : Str) : t.collect dir = (namesBelow t).map (pathOf dir) := by
  induction t generalizing dir with
  | nil => rfl
  | file n rest ih =>
    obtain ⟨_, hs, hn, hr⟩ := hw
    simp only [FsTree.collect, namesBelow, List.map_append, ih hr]
    congr 1
    have := fsHidden_join dir n hs
    rw [visible_iff, Classical.not_not] at this
    by_cases h : n.head? = some '.'
    · rw [if_pos (this.mpr h), if_pos h]; rfl
    · rw [if_neg (fun h' => h (this.mp h')), if_neg h]
      simp [pathOf_single]
  | other n rest ih => exact ih hw.2.2.2 dir
  | dir n kids rest ihk ih =>
    obtain ⟨h0, hs, hn, hk, hr⟩ := hw
    simp only [FsTree.collect, namesBelow, List.map_append, ih hr]
    congr 1
    have := fsHidden_join dir n hs
    rw [visible_iff, Classical.not_not] at this
    by_cases h : n.head? = some '.'
    · rw [if_pos (this.mpr h), if_pos h]; rfl
    · rw [if_neg (fun h' => h (this.mp h')), if_neg h, ihk hk, List.map_map]
      apply List.map_congr_left
      intro p hp
      exact (pathOf_cons dir n h0 hs p ((mem_namesBelow _ _).mp hp).1.ne_nil).symm

theorem Spec.FileAt.names {t : FsTree} (hw : DistinctNames t) {p : List Str} (h : FileAt t p) : ∀ n ∈ p, n ≠ [] ∧ '/' ∉ n := by
  induction h with
  | here n rest => intro m hm; simp at hm; subst hm; exact ⟨hw.1, hw.2.1⟩
  | inside n rest h ih =>
    intro m hm
    rcases List.mem_cons.mp hm with rfl | hm
    · exact ⟨hw.1, hw.2.1⟩
    · exact ih hw.2.2.2.1 m hm
  | afterFile n h ih => exact ih hw.2.2.2
  | afterOther n h ih => exact ih hw.2.2.2
  | afterDir n k h ih => exact ih hw.2.2.2.2

theorem join_inj : ∀ (p q : List Str), p ≠ [] → q ≠ [] → (∀ n ∈ p, '/' ∉ n) → (∀ n ∈ q, '/' ∉ n) →
    (p.intersperse ['/']).flatten = (q.intersperse ['/']).flatten → p = q
  | [], _, h, _, _, _, _ => absurd rfl h
  | _ :: _, [], _, h, _, _, _ => absurd rfl h
  | [a], [b], _, _, _, _, h => by simpa using h
  | [a], b :: c :: q, _, _, ha, hb, h => by
    exfalso
    simp only [List.intersperse_singleton, List.flatten_cons, List.flatten_nil, List.append_nil, List.intersperse_cons_cons] at h
    exact ha a (by simp) (by rw [h]; simp)
  | a :: c :: p, [b], _, _, ha, hb, h => by
    exfalso
    simp only [List.intersperse_singleton, List.flatten_cons, List.flatten_nil, List.append_nil, List.intersperse_cons_cons] at h
    exact hb b (by simp) (by rw [← h]; simp)
  | a :: c :: p, b :: d :: q, _, _, ha, hb, h => by
    simp only [List.intersperse_cons_cons, List.flatten_cons, List.singleton_append] at h
    have h1 := findFirst_append a ((List.intersperse ['/'] (c :: p)).flatten) (ha a (by simp))
    have h2 := findFirst_append b ((List.intersperse ['/'] (d :: q)).flatten) (hb b (by simp))
    rw [h, h2] at h1
    have hl : a.length = b.length := by simpa using h1.symm
    have h3 := List.append_inj h hl
    have h4 := join_inj (c :: p) (d :: q) (by simp) (by simp) (fun n hn => ha n (List.mem_cons_of_mem _ hn)) (fun n hn => hb n (List.mem_cons_of_mem _ hn))
      (by simpa using h3.2)
    rw [h3.1, h4]

theorem nodup_collect (t : FsTree) (hw : DistinctNames t) (dir : Str) : (t.collect dir).Nodup := by
  rw [collect_eq t hw]
  have h := nodup_namesBelow t hw
  have hm : ∀ p ∈ namesBelow t, FileAt t p := fun p hp => ((mem_namesBelow _ _).mp hp).1
  revert h hm
  generalize namesBelow t = l
  intro h hm
  unfold List.Nodup
  rw [List.pairwise_map]
  apply List.Pairwise.imp_of_mem _ h
  intro a b ha hb hne e
  apply hne
  have ha' := hm a ha
  have hb' := hm b hb
  unfold pathOf at e
  exact join_inj a b ha'.ne_nil hb'.ne_nil (fun n hn => (ha'.names hw n hn).2) (fun n hn => (hb'.names hw n hn).2) ((List.append_right_inj _).mp e)

theorem strLe_iff (a b : Str) : strLe a b = true ↔ NotAfter a b := by
  induction a generalizing b with
  | nil => simp only [strLe, true_iff]; exact .inl ⟨b, rfl⟩
  | cons c a ih =>
    cases b with
    | nil =>
      simp only [strLe, Bool.false_eq_true, false_iff]
      rintro (⟨r, h⟩ | ⟨p, _, _, _, _, _, h, _⟩)
      · simp at h
      · simp at h
    | cons d b =>
      simp only [strLe]
      split
      · next e =>
        subst e
        rw [ih]
        constructor
        · rintro (⟨r, h⟩ | ⟨p, x, y, u, v, h1, h2, h3⟩)
          · exact .inl ⟨r, by rw [h]; rfl⟩
          · exact .inr ⟨c :: p, x, y, u, v, by rw [h1]; rfl, by rw [h2]; rfl, h3⟩
        · rintro (⟨r, h⟩ | ⟨p, x, y, u, v, h1, h2, h3⟩)
          · exact .inl ⟨r, by simpa using h⟩
          · cases p with
            | nil =>
              simp at h1 h2
              rw [← h1.1, ← h2.1] at h3
              omega
            | cons z p =>
              simp at h1 h2
              exact .inr ⟨p, x, y, u, v, h1.2, h2.2, h3⟩
      · next e =>
        rw [decide_eq_true_eq]
        constructor
        · intro h; exact .inr ⟨[], c, d, a, b, rfl, rfl, h⟩
        · rintro (⟨r, h⟩ | ⟨p, x, y, u, v, h1, h2, h3⟩)
          · simp at h; exact absurd h.1.symm e
          · cases p with
            | nil =>
              simp at h1 h2
              rw [h1.1, h2.1]; exact h3
            | cons z p =>
              simp at h1 h2
              exact absurd (h1.1.trans h2.1.symm) e

theorem strLe_trans (a b c : Str) (h1 : strLe a b = true) (h2 : strLe b c = true) : strLe a c = true := by
  induction a generalizing b c with
  | nil => rfl
  | cons x a ih =>
    cases b with
    | nil => simp [strLe] at h1
    | cons y b =>
      cases c with
      | nil => simp [strLe] at h2
      | cons z c =>
        simp only [strLe] at *
        split at h1
        · next e =>
          subst e
          split at h2
          · next e2 => rw [if_pos e2]; exact ih _ _ h1 h2
          · next e2 => rw [if_neg e2]; exact h2
        · next e =>
          split at h2
          · next e2 =>
            subst e2
            rw [if_neg e]; exact h1
          · simp only [decide_eq_true_eq] at h1 h2
            rw [if_neg (by intro e3; subst e3; omega)]
            rw [decide_eq_true_eq]; omega

theorem strLe_total (a b : Str) : (strLe a b || strLe b a) = true := by
  induction a generalizing b with
  | nil => rfl
  | cons x a ih =>
    cases b with
    | nil => simp [strLe]
    | cons y b =>
      simp only [strLe]
      by_cases e : x = y
      · subst e; simpa using ih b
      · rw [if_neg e, if_neg (fun h => e h.symm)]
        have : x.toNat ≠ y.toNat := fun h => e (Char.ext (UInt32.toNat_inj.mp h))
        simp only [Bool.or_eq_true, decide_eq_true_eq]
        omega

end Srcml
