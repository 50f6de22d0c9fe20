import Verif.Spec.ExtractBack
import Verif.Props.CommandLine
/-
C93: a tree of source files through the command, and back onto the disk.
-/
set_option linter.unusedSimpArgs false
namespace Srcml
open Spec

/-- Names with and without `./` in front lead to the same place. -/
theorem withoutDots_place {s name : Str} (h : WithoutDots s name) : pathNames s = pathNames name ∧ (splitSlash s).getLast? = (splitSlash name).getLast? := by
  obtain ⟨n, rfl, _⟩ := h
  induction n with
  | zero => exact ⟨rfl, rfl⟩
  | succ n ih =>
    rw [List.replicate_succ, List.flatten_cons, List.append_assoc]
    generalize (List.replicate n ['.', '/']).flatten ++ name = s at ih
    have e : (['.', '/'] ++ s : Str) = ['.'] ++ '/' :: s := rfl
    rw [e, pathNames_slash, splitSlash_slash, List.getLast?_append, ih.1, ih.2]
    refine ⟨rfl, ?_⟩
    cases hs : (splitSlash name).getLast? with
    | none => rw [List.getLast?_eq_none_iff] at hs; exact absurd hs (splitSlash_ne name)
    | some l => rfl

theorem withoutDots_named {s name : Str} (h : WithoutDots s name) (hs : FileNamed s) : FileNamed name := by
  obtain ⟨h1, h2⟩ := withoutDots_place h
  unfold FileNamed at hs ⊢
  rw [← h1, ← h2]
  exact hs

/-- **C93.** The files of one tree can be put into every directory that is empty or not there yet. -/
theorem C93_placeable (tree : Disk) (ht : IsTree tree) (names : List Str) (hn : ∀ f ∈ names, FileNamed f ∧ tree.file (pathNames f) ≠ none) (dir : Str) (before : Disk) (he : EmptyDir dir before) : Placeable dir names before where
  named := fun f hf => (hn f hf).1
  apart := by
    intro f hf g hg more e
    cases more with
    | nil => rfl
    | cons x xs => exact absurd ((ht _ (hn g hg).2).2 _ _ e (by simp)) (hn f hf).2
  noFile := by
    intro f hf p q e hq
    unfold placeOf at e
    rcases List.append_eq_append_iff.mp e with ⟨m, h1, h2⟩ | ⟨m, h1, h2⟩
    · subst h1
      cases m with
      | nil => rw [List.append_nil]; exact he.way _ [] (by simp)
      | cons x xs => exact (he.inside _ (by simp)).1
    · exact he.way p m h1
  noDir := by
    intro f hf
    exact (he.inside _ (names_before (hn f hf).1).2).2

/-- A list of files under names that lead to the same places as others. -/
theorem placeable_names {dir : Str} {d : Disk} {names others : List Str} (h : Placeable dir names d) (hs : ∀ g ∈ others, FileNamed g ∧ ∃ f ∈ names, pathNames f = pathNames g) : Placeable dir others d where
  named := fun g hg => (hs g hg).1
  apart := by
    intro f hf g hg more e
    obtain ⟨_, f', hf', ef⟩ := hs f hf
    obtain ⟨_, g', hg', eg⟩ := hs g hg
    exact h.apart f' hf' g' hg' more (by rw [ef, eg]; exact e)
  noFile := by
    intro g hg p q e hq
    obtain ⟨_, g', hg', eg⟩ := hs g hg
    exact h.noFile g' hg' p q (by unfold placeOf; rw [eg]; exact e) hq
  noDir := by
    intro g hg
    obtain ⟨_, g', hg', eg⟩ := hs g hg
    have := h.noDir g' hg'
    unfold placeOf at this ⊢
    rwa [eg] at this

/-- The files that come back, on the disk, at the places of the inputs. -/
theorem tree_back {files : List (Str × Str)} {us : List UnitData} {wanted : List (Str × Str)} (hg : GivesBack files us) (hlen : files.length = wanted.length)
    (hf : ∀ k (h0 : k < files.length) (h1 : k < wanted.length), WithoutDots (wanted[k]).1 (files[k]).1 ∧ (files[k]).2 = (wanted[k]).2) (hnd : (wanted.map (fun f => pathNames f.1)).Nodup)
    (sax : Sax) (b : Archive) (th : ThreadState) (dir : Str) (hd1 : dir ≠ ".".toList) (hd2 : dir ≠ "./".toList) (hd3 : "..".toList ∉ pathNames dir) (before : Disk) (hp : Placeable dir (wanted.map (·.1)) before) :
    ∃ after, extractToDisk sax ((newIO b th).openRead true (some us)).2 dir before [] = .val after ∧ TreeIn dir wanted before after := by
  have hpl : files.map (fun f => pathNames f.1) = wanted.map (fun f => pathNames f.1) := by
    apply List.ext_getElem (by simpa using hlen)
    intro k h0 h1
    rw [List.getElem_map, List.getElem_map]
    exact (withoutDots_place (hf k (by simpa using h0) (by simpa using h1)).1).1.symm
  obtain ⟨after, e1, e2, e3⟩ := hg.disk sax b th dir hd1 hd2 hd3 before (placeable_names hp (by
    intro g hgm
    obtain ⟨f, hfm, rfl⟩ := List.mem_map.mp hgm
    obtain ⟨k, hk, rfl⟩ := List.getElem_of_mem hfm
    obtain ⟨m1, _⟩ := hf k hk (by omega)
    have hin : (wanted[k]'(by omega)).1 ∈ wanted.map (·.1) := List.mem_map_of_mem (List.getElem_mem _)
    exact ⟨withoutDots_named m1 (hp.named _ hin), _, hin, (withoutDots_place m1).1⟩)) (by rw [hpl]; exact hnd)
  refine ⟨after, e1, ?_, ?_⟩
  · intro f hfm
    obtain ⟨k, hk, rfl⟩ := List.getElem_of_mem hfm
    obtain ⟨m1, m2⟩ := hf k (by omega) hk
    rw [(withoutDots_place m1).1, ← m2]
    exact e2 _ (List.getElem_mem _)
  · intro p hk
    refine e3 p ?_
    intro f hfm e
    obtain ⟨k, hk', rfl⟩ := List.getElem_of_mem hfm
    obtain ⟨m1, _⟩ := hf k hk' (by omega)
    refine hk _ (List.getElem_mem (by omega : k < wanted.length)) ?_
    rw [(withoutDots_place m1).1]
    exact e

/-- **C93.** A tree of source files through the command line, and back onto the disk. A user gives files of this machine to the command, which writes an archive; the archive, read again, is extracted to a directory that is empty or not there yet:
afterwards it has every file, at the same place and with the same text, and nothing else on the disk has changed. -/
theorem C93_tree_partial {N D : Type} [DecidableEq N] (stat : Str → FileKind) (enc : Str → Bool) (opts : List CliOpt) (hacc : Accepted stat enc opts) (hp : OnlySrcml stat opts) (is : List InputSrc)
    (hi : Inputs stat opts is) (hne : is ≠ []) (hl : ∀ i ∈ is, LocalFile i ∧ i.resource ≠ "-".toList) (hone : is.length ≠ 1 ∨ .flag .archive ∈ opts) (hf : ∀ v, .filename v ∉ opts)
    (hnd : (is.map (fun i => pathNames i.resource)).Nodup) :
    ∃ r a, CommandOf stat enc opts is r a ∧
      ∀ (lib : ParseLib) (_ : lib.iconv.WellBehaved) (num : NumberText D) (zero : D) (xml : Str → Option N) (view : N → NodeView) (attrsOf : Str → List (Str × Str)) (opened : Str → Bool) (out : Str)
        (arch : Str → Option ArchIn) (cwd : Str) (tree : Str → FsTree) (other : Handlers D) (th : ThreadState) (dest : Destination) (xs : List SourceFile), dest ≠ .file false → xs.length = is.length →
        (∀ k (h1 : k < is.length) (h2 : k < xs.length), GivenFile lib a th opts is[k] xs[k]) →
        ∃ e, create_srcml r.cmdOptions r.createReq (clientEnv lib a th zero xml view attrsOf) num zero opened (clientHandlers r.cmdOptions (r.createReq.cmd out) stat arch cwd tree other) th dest r.mainInputs = .val e ∧
          e.exited = false ∧ e.messages = [] ∧
          ∀ fs wants, Delivers e.output fs → (∀ i, i ≤ is.length → wants[i]? = some true) → ∃ h : Sax2, ({ wants := wants } : Sax2).feeds fs = .val h ∧ AnyCalls h.log ∧
            ∀ (fin : Finish) (rd : Reader), Reach { todo := h.log.filterMap saxCall, finish := fin } Reader.Step rd → rd.log.map (·.1) = List.replicate (is.length + 1) .read →
              ∃ us : List UnitData, ReadAll h.log rd us ∧
                ∀ (sax : Sax) (b : Archive) (th' : ThreadState) (dir : Str) (source before : Disk), dir ≠ ".".toList → dir ≠ "./".toList → "..".toList ∉ pathNames dir →
                  IsTree source → (∀ i ∈ is, FileNamed i.resource ∧ source.file (pathNames i.resource) ≠ none) → EmptyDir dir before →
                  ∃ after, extractToDisk sax ((newIO b th').openRead true (some us)).2 dir before [] = .val after ∧ TreeIn dir ((is.map (·.resource)).zip (xs.map (·.text))) before after := by
  obtain ⟨r, a, h1, h2⟩ := C85_archive_partial (N := N) (D := D) stat enc opts hacc hp is hi hne hl hone hf
  refine ⟨r, a, h1, ?_⟩
  intro lib hio num zero xml view attrsOf opened out arch cwd tree other th dest xs hdest hlen hx
  obtain ⟨e, e1, e2, e3, _, _, e6⟩ := h2 lib hio num zero xml view attrsOf opened out arch cwd tree other th dest xs hdest hlen hx
  refine ⟨e, e1, e2, e3, ?_⟩
  intro fs wants hdl hw
  obtain ⟨h, g1, g2, g3⟩ := e6 fs wants hdl hw
  refine ⟨h, g1, g2, ?_⟩
  intro fin rd hr hc
  obtain ⟨us, files, k1, k2, k3, k4⟩ := g3 fin rd hr hc
  refine ⟨us, k1, ?_⟩
  intro sax b th' dir source before hd1 hd2 hd3 hs hsn he
  have hm : ((is.map (·.resource)).zip (xs.map (·.text))).map (·.1) = is.map (·.resource) := by
    rw [List.map_fst_zip]; simp; omega
  refine tree_back k4 (by simp; omega) ?_ ?_ sax b th' dir hd1 hd2 hd3 before ?_
  · intro k h0 h1
    simp only [List.length_zip, List.length_map] at h1
    simp only [List.getElem_zip, List.getElem_map]
    exact k3 k h0 (by omega) (by omega)
  · have : ((is.map (·.resource)).zip (xs.map (·.text))).map (fun f => pathNames f.1) = is.map (fun i => pathNames i.resource) := by
      rw [show (fun f : Str × Str => pathNames f.1) = pathNames ∘ (·.1) from rfl, ← List.map_map, hm, List.map_map]; rfl
    rw [this]
    exact hnd
  · rw [hm]
    refine C93_placeable source hs _ ?_ dir before he
    intro f hfm
    obtain ⟨i, him, rfl⟩ := List.mem_map.mp hfm
    exact hsn i him

/-- A tree of two files, and an empty directory. -/
example : IsTree { dirs := fun p => decide (p = ["a".toList]), file := fun p => if p = ["a".toList, "b.c".toList] ∨ p = ["c.c".toList] then some [] else none } := by
  intro p hp
  dsimp only at hp ⊢
  by_cases h : p = ["a".toList, "b.c".toList] ∨ p = ["c.c".toList]
  · rcases h with rfl | rfl
    · refine ⟨by decide +kernel, ?_⟩
      intro q r e hr
      match q, r, e, hr with
      | [], r, e, hr => exact if_neg (by decide +kernel)
      | [x], r, e, hr => cases e; exact if_neg (by decide +kernel)
      | [x, y], r, e, hr => cases e; exact absurd rfl hr
      | x :: y :: z :: q, r, e, hr => cases e
    · refine ⟨by decide +kernel, ?_⟩
      intro q r e hr
      match q, r, e, hr with
      | [], r, e, hr => exact if_neg (by decide +kernel)
      | [x], r, e, hr => cases e; exact absurd rfl hr
      | x :: y :: q, r, e, hr => cases e
  · exact absurd (if_neg h) hp
example : EmptyDir "out".toList { dirs := fun p => decide (p = ["a".toList]), file := fun p => if p = ["a".toList, "b.c".toList] then some [] else none } where
  way := by
    have e : pathNames "out".toList = ["out".toList] := by decide +kernel
    intro p q h
    rw [e] at h
    refine if_neg ?_
    rintro rfl
    cases h
  inside := by
    have e : pathNames "out".toList = ["out".toList] := by decide +kernel
    intro q hq
    rw [e]
    dsimp only
    constructor
    · refine if_neg (fun h => ?_)
      have k : "out".toList = "a".toList := (List.cons.inj h).1
      exact absurd k (by decide +kernel)
    · refine decide_eq_false (fun h => ?_)
      have k : "out".toList = "a".toList := (List.cons.inj h).1
      exact absurd k (by decide +kernel)

end Srcml
