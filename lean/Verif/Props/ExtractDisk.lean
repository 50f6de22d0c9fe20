import Verif.Spec.ExtractDisk
import Verif.Props.UnitSelect
/-
C92: extraction to a directory, on the disk.
-/
set_option linter.unusedSimpArgs false
namespace Srcml
open Spec

/-! ### Paths -/

theorem splitSlash_ne : ∀ s : Str, splitSlash s ≠ []
  | [] => by simp [splitSlash]
  | c :: cs => by
    unfold splitSlash
    split
    · simp
    · split <;> simp

theorem splitSlash_cons (c : Char) (cs : Str) : splitSlash (c :: cs) = if c = '/' then [] :: splitSlash cs else match splitSlash cs with | [] => [[c]] | x :: xs => (c :: x) :: xs := by
  rw [splitSlash]
  cases splitSlash cs <;> rfl

theorem splitSlash_slash (b : Str) : ∀ a : Str, splitSlash (a ++ '/' :: b) = splitSlash a ++ splitSlash b
  | [] => by simp [splitSlash]
  | c :: a => by
    have ih := splitSlash_slash b a
    have hne := splitSlash_ne a
    rw [List.cons_append, splitSlash_cons, splitSlash_cons, ih]
    by_cases hc : c = '/'
    · simp [hc]
    · rw [if_neg hc, if_neg hc]
      cases hs : splitSlash a with
      | nil => exact absurd hs hne
      | cons x xs => rfl

theorem splitSlash_plain : ∀ l : Str, '/' ∉ l → splitSlash l = [l]
  | [], _ => rfl
  | c :: l, h => by
    have hc : c ≠ '/' := fun e => h (by rw [e]; exact List.mem_cons_self ..)
    unfold splitSlash
    rw [if_neg hc, splitSlash_plain l (fun k => h (List.mem_cons_of_mem _ k))]

theorem pathNames_slash (a b : Str) : pathNames (a ++ '/' :: b) = pathNames a ++ pathNames b := by
  unfold pathNames
  rw [splitSlash_slash, List.filter_append]

theorem last_slash : ∀ f : Str, '/' ∈ f → ∃ h l, f = h ++ '/' :: l ∧ '/' ∉ l
  | [], h => by cases h
  | c :: f, hm => by
    by_cases hf : '/' ∈ f
    · obtain ⟨h, l, rfl, hl⟩ := last_slash f hf
      exact ⟨c :: h, l, rfl, hl⟩
    · rcases List.mem_cons.mp hm with rfl | h
      · exact ⟨[], f, rfl, hf⟩
      · exact absurd h hf

theorem dropWhile_append {p : Char → Bool} : ∀ (a : Str) (c : Char) (b : Str), (∀ x ∈ a, p x = true) → p c = false → (a ++ c :: b).dropWhile p = c :: b
  | [], c, b, _, hc => by rw [List.nil_append, List.dropWhile_cons, if_neg (by rw [hc]; simp)]
  | x :: a, c, b, ha, hc => by
    rw [List.cons_append, List.dropWhile_cons, if_pos (ha x (List.mem_cons_self ..))]
    exact dropWhile_append a c b (fun y hy => ha y (List.mem_cons_of_mem _ hy)) hc

theorem dropWhile_all {p : Char → Bool} : ∀ a : Str, (∀ x ∈ a, p x = true) → a.dropWhile p = []
  | [], _ => rfl
  | x :: a, ha => by
    rw [List.dropWhile_cons, if_pos (ha x (List.mem_cons_self ..))]
    exact dropWhile_all a (fun y hy => ha y (List.mem_cons_of_mem _ hy))

theorem before_slash (h l : Str) (hl : '/' ∉ l) : beforeLastSlash (h ++ '/' :: l) = h := by
  unfold beforeLastSlash
  rw [show (h ++ '/' :: l).reverse = l.reverse ++ '/' :: h.reverse by simp, dropWhile_append _ _ _ (by
    intro x hx
    have : x ≠ '/' := fun e => hl (by rw [← e]; exact List.mem_reverse.mp hx)
    simpa using this) (by simp)]
  simp

theorem before_plain (l : Str) (hl : '/' ∉ l) : beforeLastSlash l = [] := by
  unfold beforeLastSlash
  rw [dropWhile_all _ (by
    intro x hx
    have : x ≠ '/' := fun e => hl (by rw [← e]; exact List.mem_reverse.mp hx)
    simpa using this)]
  rfl

theorem names_before {f : Str} (h : FileNamed f) : pathNames (beforeLastSlash f) = (pathNames f).dropLast ∧ pathNames f ≠ [] := by
  obtain ⟨_, l, hl, h1, h2⟩ := h
  by_cases hs : '/' ∈ f
  · obtain ⟨a, b, rfl, hb⟩ := last_slash f hs
    rw [splitSlash_slash, splitSlash_plain b hb, List.getLast?_append] at hl
    simp at hl
    subst hl
    have : pathNames b = [b] := by unfold pathNames; rw [splitSlash_plain b hb]; simp [h1, h2]
    rw [before_slash a b hb, pathNames_slash, this]
    simp
  · rw [splitSlash_plain f hs] at hl
    simp at hl
    subst hl
    have : pathNames f = [f] := by unfold pathNames; rw [splitSlash_plain f hs]; simp [h1, h2]
    rw [before_plain f hs, this]
    exact ⟨rfl, by simp⟩

theorem output_names {dir : Str} (hd : dir ≠ ".".toList ∧ dir ≠ "./".toList) (f : Str) : outputFileName dir f = dir ++ '/' :: f ∧ pathNames (outputFileName dir f) = placeOf dir f := by
  have : outputFileName dir f = dir ++ '/' :: f := by unfold outputFileName; rw [if_pos hd]
  rw [this]
  exact ⟨rfl, pathNames_slash dir f⟩

theorem place_ne {dir f : Str} (h : FileNamed f) : placeOf dir f ≠ [] := by
  unfold placeOf
  intro e
  exact (names_before h).2 (List.append_eq_nil_iff.mp e).2

theorem output_dir {dir f : Str} (hd : dir ≠ ".".toList ∧ dir ≠ "./".toList) (h : FileNamed f) : pathNames (outputPath dir f) = (placeOf dir f).dropLast ∧ outputPath dir f ≠ [] := by
  obtain ⟨h1, h2⟩ := names_before h
  unfold outputPath
  rw [(output_names hd _).2, (output_names hd _).1]
  refine ⟨?_, by simp⟩
  unfold placeOf
  rw [h1, List.dropLast_append_of_ne_nil h2]

theorem proper_iff {α : Type} {l p : List α} (h : l ≠ []) : (∃ q, q ≠ [] ∧ l = p ++ q) ↔ ∃ q, l.dropLast = p ++ q := by
  constructor
  · rintro ⟨q, hq, rfl⟩
    exact ⟨q.dropLast, List.dropLast_append_of_ne_nil hq⟩
  · rintro ⟨q, hq⟩
    refine ⟨q ++ [l.getLast h], by simp, ?_⟩
    rw [← List.append_assoc, ← hq, List.dropLast_concat_getLast]

/-! ### The disk -/

theorem mkdirs_dirs {d : Disk} {p : List Str} (hf : ∀ q r, p = q ++ r → d.file q = none) (q : List Str) : (d.mkdirs p).dirs q = true ↔ d.dirs q = true ∨ ∃ r, p = q ++ r := by
  unfold Disk.mkdirs
  dsimp only
  rw [Bool.or_eq_true, Bool.and_eq_true, List.isPrefixOf_iff_prefix, List.all_eq_true]
  constructor
  · rintro (h | ⟨⟨r, hr⟩, _⟩)
    · exact .inl h
    · exact .inr ⟨r, hr.symm⟩
  · rintro (h | ⟨r, hr⟩)
    · exact .inl h
    · refine .inr ⟨⟨r, hr.symm⟩, ?_⟩
      intro n _
      rw [hf (q.take n) (q.drop n ++ r) (by rw [hr, ← List.append_assoc, List.take_append_drop])]
      rfl

/-- The directory of a file is there after the call of `mkdir`. -/
theorem mkdir_dirs {dir f last : Str} {d : Disk} (hd : dir ≠ ".".toList ∧ dir ≠ "./".toList) (hn : FileNamed f) (hf : ∀ p q, placeOf dir f = p ++ q → q ≠ [] → d.file p = none)
    (hl : last ≠ [] → ∀ p q, pathNames last = p ++ q → d.dirs p = true) (p : List Str) :
    (d.mkdir last (outputPath dir f)).dirs p = true ↔ d.dirs p = true ∨ ∃ q, q ≠ [] ∧ placeOf dir f = p ++ q := by
  obtain ⟨h1, h2⟩ := output_dir hd hn
  rw [proper_iff (place_ne hn)]
  unfold Disk.mkdir
  by_cases he : last = outputPath dir f
  · rw [if_neg (by simp [he])]
    constructor
    · exact .inl
    · rintro (h | ⟨q, hq⟩)
      · exact h
      · exact hl (by rw [he]; exact h2) p q (by rw [he, h1]; exact hq)
  · rw [if_pos he, mkdirs_dirs ?_, h1]
    intro q r hr
    rw [h1] at hr
    obtain ⟨r', hr', e⟩ := (proper_iff (place_ne hn)).mpr ⟨r, hr⟩
    exact hf q r' e hr'

theorem mkdir_file (d : Disk) (last path : Str) : (d.mkdir last path).file = d.file := by
  unfold Disk.mkdir
  split <;> rfl

theorem opens_place {dir f : Str} {d : Disk} (hd : dir ≠ ".".toList ∧ dir ≠ "./".toList) (hn : FileNamed f) (h1 : ∀ q, q ≠ [] → ∀ p, placeOf dir f = p ++ q → d.dirs p = true) (h2 : d.dirs (placeOf dir f) = false) :
    d.opens (outputFileName dir f) = true := by
  unfold Disk.opens
  dsimp only
  rw [(output_names hd f).2, h2]
  have hne := place_ne (dir := dir) hn
  have hdir : d.dirs (placeOf dir f).dropLast = true := h1 [(placeOf dir f).getLast hne] (by simp) _ (List.dropLast_concat_getLast hne).symm
  obtain ⟨_, l, hl, k1, k2⟩ := hn
  have : (splitSlash (outputFileName dir f)).getLast? = some l := by
    rw [(output_names hd f).1, splitSlash_slash, List.getLast?_append, hl]; rfl
  rw [this, hdir]
  simp [hne, k1, k2]

/-! ### The extraction -/

theorem extract_any (sax : Sax) (dir : Str) (hd : dir ≠ ".".toList ∧ dir ≠ "./".toList) : ∀ (us : List UnitData) (s : ArchiveIO) (d : Disk) (last : Str), Holds s us → Placeable dir (us.filterMap (·.filename)) d →
    (last ≠ [] → ∀ p q, pathNames last = p ++ q → d.dirs p = true) → ∃ after, extractToDisk sax s dir d last = .val after ∧ Extracted dir us d after := by
  intro us
  induction us with
  | nil =>
    intro s d last h _ _
    refine ⟨d, ?_, ⟨by intro us1 u us2 f he; simp at he, fun _ _ => rfl, by simp⟩⟩
    unfold extractToDisk
    split
    · rfl
    · next hx => rw [h.readEnd] at hx; cases hx
  | cons u us ih =>
    intro s d last h hp hl
    cases hf : u.filename with
    | none =>
      obtain ⟨after, e1, e2⟩ := ih { s with reader := us } d last h.readUnit.2 (by simpa [hf] using hp) hl
      refine ⟨after, ?_, ?_, ?_, ?_⟩
      · unfold extractToDisk
        split
        · next hx => rw [h.readUnit.1] at hx; cases hx
        · next hx =>
          rw [h.readUnit.1] at hx
          cases hx
          simp only [hf]
          exact e1
      · intro us1 v us2 f he hv hn
        cases us1 with
        | nil => cases he; rw [hf] at hv; cases hv
        | cons w us1 => cases he; exact e2.written us1 v us2 f rfl hv hn
      · intro p hk
        exact e2.kept p (fun v hv => hk v (List.mem_cons_of_mem _ hv))
      · intro p
        rw [e2.dirs]
        simp [hf]
    | some f =>
      have hfs : (u :: us).filterMap (·.filename) = f :: us.filterMap (·.filename) := by simp [hf]
      rw [hfs] at hp
      have hm : f ∈ f :: us.filterMap (·.filename) := List.mem_cons_self ..
      have hn := hp.named f hm
      have hdirs := mkdir_dirs hd hn (hp.noFile f hm) hl
      have hno : (d.mkdir last (outputPath dir f)).dirs (placeOf dir f) = false := by
        cases hx : (d.mkdir last (outputPath dir f)).dirs (placeOf dir f) with
        | false => rfl
        | true =>
          rcases (hdirs _).mp hx with k | ⟨q, hq, e⟩
          · rw [hp.noDir f hm] at k; cases k
          · exact absurd (List.self_eq_append_right.mp e) hq
      have hopen := opens_place hd hn (fun q hq p e => (hdirs p).mpr (.inr ⟨q, hq, e⟩)) hno
      obtain ⟨t, t1, t2⟩ := unparse_source sax { s with reader := us } h.readUnit.2.mode (.filename (some (outputFileName dir f)))
        (by simp [Usable]) none u u (h.read u (by simp)).1 (h.read u (by simp)).2 ⟨rfl, rfl, rfl⟩
      have hfile : ∀ p, ((d.mkdir last (outputPath dir f)).write (outputFileName dir f) t).file p = if p = placeOf dir f then some t else d.file p := by
        intro p
        unfold Disk.write
        dsimp only
        rw [(output_names hd f).2, mkdir_file]
      have hcut : ∀ {g more : Str} {q : List Str}, placeOf dir g = placeOf dir more ++ q → pathNames g = pathNames more ++ q := by
        intro g more q e
        unfold placeOf at e
        rw [List.append_assoc] at e
        exact List.append_cancel_left e
      obtain ⟨after, e1, e2⟩ := ih { s with reader := us } ((d.mkdir last (outputPath dir f)).write (outputFileName dir f) t) (outputPath dir f) h.readUnit.2
        { named := fun g hg => hp.named g (List.mem_cons_of_mem _ hg)
          apart := fun g hg k hk => hp.apart g (List.mem_cons_of_mem _ hg) k (List.mem_cons_of_mem _ hk)
          noFile := by
            intro g hg p q e hq
            rw [hfile]
            rw [if_neg]
            · exact hp.noFile g (List.mem_cons_of_mem _ hg) p q e hq
            · rintro rfl
              exact hq (hp.apart f hm g (List.mem_cons_of_mem _ hg) q (hcut e))
          noDir := by
            intro g hg
            cases hx : ((d.mkdir last (outputPath dir f)).write (outputFileName dir f) t).dirs (placeOf dir g) with
            | false => rfl
            | true =>
              rcases (hdirs _).mp hx with k | ⟨q, hq, e⟩
              · rw [hp.noDir g (List.mem_cons_of_mem _ hg)] at k; cases k
              · exact absurd (hp.apart g (List.mem_cons_of_mem _ hg) f hm q (hcut e)) hq }
        (by
          intro _ p q e
          refine (hdirs p).mpr (.inr ?_)
          rw [(output_dir hd hn).1] at e
          exact (proper_iff (place_ne hn)).mpr ⟨q, e⟩)
      refine ⟨after, ?_, ?_, ?_, ?_⟩
      · unfold extractToDisk
        split
        · next hx => rw [h.readUnit.1] at hx; cases hx
        · next hx =>
          rw [h.readUnit.1] at hx
          cases hx
          simp only [hf, hopen, t2]
          exact e1
      · intro us1 v us2 g he hv hlast
        cases us1 with
        | nil =>
          cases he
          rw [hf] at hv
          cases hv
          refine ⟨t, t1, ?_⟩
          rw [e2.kept, hfile, if_pos rfl]
          intro w hw k hk e
          refine hlast w hw k hk ?_
          have := hcut (g := f) (more := k) (q := []) (by rw [List.append_nil]; exact e)
          rw [List.append_nil] at this
          exact this.symm
        | cons w us1 => cases he; exact e2.written us1 v us2 g rfl hv hlast
      · intro p hk
        rw [e2.kept p (fun v hv => hk v (List.mem_cons_of_mem _ hv)), hfile, if_neg (hk u (List.mem_cons_self ..) f hf)]
      · intro p
        rw [e2.dirs]
        show ((d.mkdir last (outputPath dir f)).dirs p = true ∨ _) ↔ _
        rw [hdirs]
        constructor
        · rintro ((k | ⟨q, hq, e⟩) | ⟨v, hv, g, hg, k⟩)
          · exact .inl k
          · exact .inr ⟨u, List.mem_cons_self .., f, hf, q, hq, e⟩
          · exact .inr ⟨v, List.mem_cons_of_mem _ hv, g, hg, k⟩
        · rintro (k | ⟨v, hv, g, hg, q, hq, e⟩)
          · exact .inl (.inl k)
          · rcases List.mem_cons.mp hv with rfl | hv
            · rw [hf] at hg; cases hg
              exact .inl (.inr ⟨q, hq, e⟩)
            · exact .inr ⟨v, hv, g, hg, q, hq, e⟩

/-- **C92.** Extraction to a directory, on any disk on which the files can be put there: afterwards every file of a unit has the source text of the last unit with that place, the directories of the files are there, and nothing else on the disk has
changed. Directories are made once for neighbouring units with the same one. -/
theorem C92_extract (sax : Sax) (dir : Str) (hd : dir ≠ ".".toList ∧ dir ≠ "./".toList) (_ : "..".toList ∉ pathNames dir) (us : List UnitData) (s : ArchiveIO) (h : Holds s us) (before : Disk)
    (hp : Placeable dir (us.filterMap (·.filename)) before) : ∃ after, extractToDisk sax s dir before [] = .val after ∧ Extracted dir us before after :=
  extract_any sax dir hd us s before [] h hp (fun h => absurd rfl h)

/-- Units whose names lead to the same file, in different spellings: the last one stays, nothing is said about the others. -/
theorem C92_finding_same_place (dir : Str) : placeOf dir "a/b.c".toList = placeOf dir "./a//b.c".toList := by
  unfold placeOf
  have : pathNames "a/b.c".toList = pathNames "./a//b.c".toList := by decide +kernel
  rw [this]

/-- A unit with the name of the directory of another one, that was written before: no directory can be made there, and the file of the other one cannot be opened. That is not looked at. -/
theorem C92_finding_conflict (t last : Str) (h : last ≠ "out/a".toList) :
    let d : Disk := { dirs := fun p => decide (p = ["out".toList]), file := fun p => if p = ["out".toList, "a".toList] then some t else none }
    outputPath "out".toList "a/b".toList = "out/a".toList ∧ (d.mkdir last "out/a".toList).opens (outputFileName "out".toList "a/b".toList) = false := by
  intro d
  refine ⟨by decide +kernel, ?_⟩
  unfold Disk.mkdir
  rw [if_pos h]
  rfl

/-- Two units in a directory and one below it, on an empty disk. -/
example : Placeable "out".toList ["a/b.c".toList, "a/c.c".toList, "a/d/b.c".toList] { dirs := fun _ => false, file := fun _ => none } where
  named := by
    intro f hf
    simp only [List.mem_cons, List.not_mem_nil, or_false] at hf
    rcases hf with rfl | rfl | rfl
    · exact ⟨by decide +kernel, _, rfl, by decide, by decide⟩
    · exact ⟨by decide +kernel, _, rfl, by decide, by decide⟩
    · exact ⟨by decide +kernel, _, rfl, by decide, by decide⟩
  apart := by
    have e1 : pathNames "a/b.c".toList = ["a".toList, "b.c".toList] := by decide +kernel
    have e2 : pathNames "a/c.c".toList = ["a".toList, "c.c".toList] := by decide +kernel
    have e3 : pathNames "a/d/b.c".toList = ["a".toList, "d".toList, "b.c".toList] := by decide +kernel
    intro f hf g hg more e
    simp only [List.mem_cons, List.not_mem_nil, or_false] at hf hg
    rcases hf with rfl | rfl | rfl <;> rcases hg with rfl | rfl | rfl <;> simp only [e1, e2, e3, List.cons_append, List.nil_append, List.cons.injEq] at e <;> simp_all
  noFile := by intros; rfl
  noDir := by intros; rfl

end Srcml
