import Verif.Proofs.Inputs
import Verif.Props.InputName
set_option linter.unusedSimpArgs false
/-
C69, C70: directories, archives of other kinds, compressed and single files as inputs of the command.
-/
namespace Srcml
open Spec

/-! ### C70: entries, compressed files, single files -/

namespace Spec

/-- The name for an entry of an archive: its path, below the directory `pre` if there is one; entries without a path, or called `data`, take the name `own` of the archive itself. -/
def entryName (pre path own : Str) : Str :=
  if path = [] ∨ path = "data".toList then own else if pre = [] then path else pre ++ '/' :: path

/-- What the command knows about file names: the language of a name, with the extensions of the archive that is written. -/
def look (reg : Registry) (name : Str) : Option Str := srcml_archive_check_extension reg (some name)

/-- The language asked for counts for every name (text of the command line, standard input). -/
def asksAlways (input : InputSrc) : Bool := decide (input.protocol = "text".toList ∨ input.protocol = "stdin".toList)

/-- The input is opened with libarchive: it is a stream, or has an extension of a compression, of an archive, or of source known to the library, and is not to be skipped. -/
def Opened (input : InputSrc) (skip : Bool) : Prop :=
  skip = false ∧ (input.fd ≠ none ∨ input.compressions ≠ [] ∨ input.archives ≠ [] ∨ srcml_check_extension input.plainfile ≠ none)

/-- The name of the input itself: the resource without `./` and without as many characters at its end as the extensions of the compressions have. -/
def OwnName (input : InputSrc) (own : Str) : Prop :=
  ∃ tail, WithoutDots input.resource (own ++ tail) ∧ own ++ tail ≠ [] ∧ tail.length = (input.compressions.map List.length).sum

end Spec

theorem stripDots_iff (s name : Str) : stripDots s = .val name ↔ WithoutDots s name ∧ name ≠ [] := by
  fun_induction stripDots s with
  | case1 =>
    simp only [reduceCtorEq, false_iff, not_and, Classical.not_not]
    rintro ⟨n, h, _⟩
    have := congrArg List.length h
    simp at this
    cases name with
    | nil => rfl
    | cons => simp at this
  | case2 rest ih =>
    rw [ih]
    constructor
    · rintro ⟨⟨n, h1, h2⟩, h3⟩
      exact ⟨⟨n + 1, by rw [h1]; simp [List.replicate_succ], h2⟩, h3⟩
    · rintro ⟨⟨n, h1, h2⟩, h3⟩
      cases n with
      | zero => exact absurd ⟨rest, by simpa using h1.symm⟩ h2
      | succ n => exact ⟨⟨n, by simpa [List.replicate_succ] using h1, h2⟩, h3⟩
  | case3 s h1 h2 =>
    simp only [Run.val.injEq]
    constructor
    · rintro rfl
      refine ⟨⟨0, by simp, ?_⟩, ?_⟩
      · rintro ⟨r, e⟩; exact h2 r e
      · exact h1
    · rintro ⟨⟨n, h3, _⟩, _⟩
      cases n with
      | zero => simpa using h3
      | succ n => exact absurd (by simpa [List.replicate_succ] using h3) (h2 _)

theorem cut_eq (cs : List Str) (g tail : Str) (h : tail.length = (cs.map List.length).sum) :
    cs.foldl (fun f x => f.take (f.length - x.length)) (g ++ tail) = g := by
  induction cs generalizing tail with
  | nil => simp at h; simp [h]
  | cons c cs ih =>
    simp only [List.map_cons, List.sum_cons] at h
    rw [List.foldl_cons]
    have : (g ++ tail).take ((g ++ tail).length - c.length) = g ++ tail.take (tail.length - c.length) := by
      rw [List.take_append]
      simp only [List.length_append]
      rw [List.take_of_length_le (by omega)]
      congr 2
      omega
    rw [this, ih _ (by rw [List.length_take]; omega)]

theorem language_eq (c : LibConf) (name : Str) :
    c.language name = languageFor (look c.reg) c.req.attLanguage (asksAlways c.input) name c.input.extension := by
  unfold LibConf.language languageFor asksAlways look
  cases ha : c.req.attLanguage with
  | none =>
    simp only [if_true]
    cases srcml_archive_check_extension c.reg (some name) <;> simp
  | some l =>
    cases l with
    | nil =>
      simp only [ite_self, if_true]
      cases srcml_archive_check_extension c.reg (some name) <;> simp
    | cons x l =>
      simp only [decide_eq_true_eq]
      cases hl : srcml_archive_check_extension c.reg (some name) with
      | none =>
        simp only [Option.isSome_none, Bool.false_eq_true, or_false, ne_eq, not_true_eq_false]
        by_cases hp : c.input.protocol = "text".toList ∨ c.input.protocol = "stdin".toList
        · simp only [if_pos hp, reduceCtorEq, if_false]
        · simp only [if_neg hp, if_true, Option.getD_none]
      | some y => simp

/-- The outcome of a round in terms of the description. -/
theorem round_eq (c : LibConf) (sol : Bool) (e : Option ArchEntry) (name : Str)
    (hx : ¬ ((if c.format = .raw then "data".toList else (e.map (·.path)).getD []) = "data".toList ∧ c.req.attLanguage = none ∧ c.input.filename = "stdin://-".toList))
    (hn : c.name sol (e.map (·.path)) = .val name) (ht : c.opts.timestamp = true → e ≠ none) :
    c.round sol e = .val (match gives c.opts c.req name (languageFor (look c.reg) c.req.attLanguage (asksAlways c.input) name c.input.extension)
      (e.map (·.mtime)) ((e.map (·.blocks)).getD []).flatten with | none => .skip | some r => .request r) := by
  unfold LibConf.round
  rw [if_neg hx, hn]
  simp only [Run.bind]
  rw [← language_eq c name]
  unfold gives
  split
  · rfl
  · rw [if_neg (fun h => ht h.1 h.2)]
    congr 2
    unfold requestFor
    congr 1
    · cases c.req.attFilename with
      | none =>
        by_cases hd : name = ['-']
        · subst hd; simp
        · have : name ≠ "-".toList := hd
          simp [hd, this]
      | some f => simp
    · by_cases hl : c.language name = [] <;> simp [hl]
    · by_cases hl : c.language name = [] <;> simp [hl]

theorem name_own (c : LibConf) (sol : Bool) (path : Option Str) (own : Str) (h : OwnName c.input own)
    (hp : c.format = .raw ∨ path.getD [] = [] ∨ path.getD [] = "data".toList) :
    c.name sol path = .val (if sol then c.req.attFilename.getD own else own) := by
  obtain ⟨tail, h1, h2, h3⟩ := h
  have hs := (stripDots_iff _ _).mpr ⟨h1, h2⟩
  have hd : (if c.format = .raw then "data".toList else path.getD []) = [] ∨ (if c.format = .raw then "data".toList else path.getD []) = "data".toList := by
    split
    · exact .inr rfl
    · next hr => exact hp.resolve_left hr
  unfold LibConf.name
  simp only
  generalize (if c.format = .raw then "data".toList else path.getD []) = f at hd
  have h4 : ¬ (f ≠ "data".toList ∧ f ≠ [] ∧ c.pre ≠ []) := by
    rintro ⟨a, b, _⟩
    rcases hd with hd | hd
    · exact b hd
    · exact a hd
  rw [if_neg h4, if_pos hd, hs]
  simp only [Run.bind, cut_eq _ _ _ h3]
  congr 1
  cases c.req.attFilename with
  | none => simp
  | some n => cases sol <;> simp

theorem name_entry (c : LibConf) (path own : Str) (h : OwnName c.input own) (hf : c.format ≠ .raw) :
    c.name false (some path) = .val (entryName c.pre path own) := by
  by_cases hd : path = [] ∨ path = "data".toList
  · rw [name_own c false (some path) own h (.inr hd)]
    unfold entryName
    rw [if_pos hd]; rfl
  · unfold entryName
    rw [if_neg hd]
    have hd' : path ≠ [] ∧ path ≠ "data".toList := ⟨fun e => hd (.inl e), fun e => hd (.inr e)⟩
    unfold LibConf.name
    simp only [Option.getD_some, if_neg hf]
    by_cases hp : c.pre = []
    · have e : (if path ≠ "data".toList ∧ path ≠ [] ∧ c.pre ≠ [] then c.pre ++ '/' :: path else path) = path := if_neg (fun h => h.2.2 hp)
      simp only [e]
      rw [if_neg hd, if_pos hp]
      simp only [Run.bind]
      cases c.req.attFilename <;> simp
    · have e : (if path ≠ "data".toList ∧ path ≠ [] ∧ c.pre ≠ [] then c.pre ++ '/' :: path else path) = c.pre ++ '/' :: path := if_pos ⟨hd'.2, hd'.1, hp⟩
      simp only [e]
      rw [if_neg hp]
      have : ¬ (c.pre ++ '/' :: path = [] ∨ c.pre ++ '/' :: path = "data".toList) := by
        rintro (e | e)
        · simp at e
        · have : '/' ∈ "data".toList := by rw [← e]; simp
          revert this; decide
      rw [if_neg this]
      simp only [Run.bind]
      cases c.req.attFilename <;> simp

theorem loop_archive (c : LibConf) (eof : Bool) (own : Str) (ho : OwnName c.input own) (hf : c.format = .archive)
    (hx : c.input.filename = "stdin://-".toList → c.req.attLanguage ≠ none) (es : List ArchEntry) (sol : Bool) (count : Nat) (hc : count ≠ 0 → sol = false)
    (hne : count = 0 → ∃ e ∈ es, e.dir = false) :
    c.loop eof sol count es = .val {
      requests := es.filterMap (fun e => if e.dir then none else gives c.opts c.req (entryName c.pre e.path own)
        (languageFor (look c.reg) c.req.attLanguage (asksAlways c.input) (entryName c.pre e.path own) c.input.extension) (some e.mtime) e.blocks.flatten)
      handled := (count : Int) + (es.filter (fun e => !e.dir)).length
      solitary := false } := by
  induction es generalizing sol count with
  | nil =>
    have h0 : count ≠ 0 := fun h => by obtain ⟨e, he, _⟩ := hne h; cases he
    unfold LibConf.loop
    rw [if_neg (fun h => h0 h.2), hc h0]
    simp
  | cons e es ih =>
    unfold LibConf.loop
    have hsol : (if count = 0 ∧ c.format ≠ .raw ∧ c.format ≠ .empty then false else sol) = false := by
      by_cases h0 : count = 0
      · rw [if_pos ⟨h0, by rw [hf]; decide, by rw [hf]; decide⟩]
      · rw [if_neg (fun h => h0 h.1)]; exact hc h0
    simp only [hsol]
    by_cases hd : e.dir = true
    · rw [if_pos hd, ih false count (fun _ => rfl) ?_]
      · simp [hd]
      · intro h
        obtain ⟨e', he', h'⟩ := hne h
        rcases List.mem_cons.mp he' with rfl | he'
        · rw [hd] at h'; cases h'
        · exact ⟨e', he', h'⟩
    · rw [if_neg hd]
      have hnm := name_entry c e.path own ho (by rw [hf]; decide)
      rw [round_eq c false (some e) _ (fun h => hx h.2.2 h.2.1) hnm (by simp)]
      have hih := ih false (count + 1) (fun _ => rfl) (by omega)
      simp only [Run.bind, hih, Option.map_some, Option.getD_some]
      have hd' : e.dir = false := by simpa using hd
      cases hg : gives c.opts c.req (entryName c.pre e.path own)
        (languageFor (look c.reg) c.req.attLanguage (asksAlways c.input) (entryName c.pre e.path own) c.input.extension) (some e.mtime) e.blocks.flatten with
      | none => simp [hd', hg, List.filterMap_cons]; omega
      | some r => simp [hd', hg, List.filterMap_cons, Run.bind]; omega

/-- **C70.** An archive of another kind (tar, zip, ...): every entry that is not a directory is handled, in order; it gives a request with the name of the entry, its
language, its time and all its bytes, or nothing when it has no language (and not everything is to be listed). The output becomes an archive. -/
theorem C70_archive (opts : CmdOptions) (req : CmdRequest) (reg : Registry) (solitary : Bool) (input : InputSrc) (skip : Bool) (pre : Str) (a : ArchIn) (own : Str)
    (hopen : Opened input skip) (hf : a.format = .archive) (ho : OwnName input own) (hx : input.filename = "stdin://-".toList → req.attLanguage ≠ none)
    (hne : ∃ e ∈ a.entries, e.dir = false) :
    src_input_libarchive opts req reg solitary input skip pre (some a) = .val {
      requests := a.entries.filterMap (fun e => if e.dir then none else gives opts req (entryName pre e.path own)
        (languageFor (look reg) req.attLanguage (asksAlways input) (entryName pre e.path own) input.extension) (some e.mtime) e.blocks.flatten)
      handled := (a.entries.filter (fun e => !e.dir)).length
      solitary := false } := by
  unfold src_input_libarchive
  rw [if_neg]
  · simp only
    rw [loop_archive _ _ own ho hf hx _ _ _ (by simp) (fun _ => hne)]
    simp
  · rintro (h | h)
    · rcases hopen.2 with h' | h' | h' | h'
      · exact h' h.1
      · exact h' h.2.1
      · exact h' h.2.2.1
      · exact h' h.2.2.2
    · rw [hopen.1] at h; cases h

/-- What libarchive makes of an input that is not an archive: one entry with the contents, or nothing for an empty one. -/
inductive Spec.ReadAs : ArchIn → Option Str → Str → Prop where
  | raw (e : ArchEntry) (eof : Bool) (hd : e.dir = false) : ReadAs { format := .raw, entries := [e], eof := eof } (some e.mtime) e.blocks.flatten
  | empty : ReadAs { format := .empty, entries := [], eof := true } none []

/-- **C70.** An input that is not an archive (plain or compressed) gives one request, with the whole contents and the name of the input less the extensions of the compressions - or the name asked for, if one unit is written. -/
theorem C70_single (opts : CmdOptions) (req : CmdRequest) (reg : Registry) (solitary : Bool) (input : InputSrc) (skip : Bool) (pre : Str) (a : ArchIn) (own : Str)
    (time : Option Str) (contents : Str) (hopen : Opened input skip) (ho : OwnName input own) (hr : ReadAs a time contents)
    (hx : input.filename = "stdin://-".toList → req.attLanguage ≠ none) (ht : opts.timestamp = true → time ≠ none) :
    ∃ name, name = (if solitary then req.attFilename.getD own else own) ∧
    src_input_libarchive opts req reg solitary input skip pre (some a) = .val {
      requests := (gives opts req name (languageFor (look reg) req.attLanguage (asksAlways input) name input.extension) time contents).toList
      handled := 1
      solitary := solitary } := by
  refine ⟨_, rfl, ?_⟩
  unfold src_input_libarchive
  rw [if_neg]
  · cases hr with
    | raw e eof hd =>
      simp only
      unfold LibConf.loop
      simp only [ne_eq, not_true_eq_false, false_and, and_false, if_false, hd, Bool.false_eq_true]
      rw [round_eq _ solitary (some e) _ (fun h => hx h.2.2 h.2.1) (name_own _ solitary _ own ho (.inl rfl)) (by simp)]
      simp only [Run.bind, Option.map_some, Option.getD_some]
      generalize gives opts req _ _ _ _ = g
      cases g with
      | none => simp [LibConf.loop, Run.bind]
      | some r => simp [LibConf.loop, Run.bind]
    | empty =>
      simp only
      unfold LibConf.loop
      simp only [and_self, if_true, ne_eq, not_true_eq_false, and_false, if_false]
      rw [round_eq _ solitary none _ (fun h => hx h.2.2 h.2.1) (name_own _ solitary _ own ho (.inr (.inl rfl))) (by
        intro h; exact absurd rfl (ht h))]
      simp only [Run.bind, Option.map_none, Option.getD_none, List.flatten_nil]
      generalize gives opts req _ _ _ _ = g
      cases g <;> rfl
  · rintro (h | h)
    · rcases hopen.2 with h' | h' | h' | h'
      · exact h' h.1
      · exact h' h.2.1
      · exact h' h.2.2.1
      · exact h' h.2.2.2
    · rw [hopen.1] at h; cases h

/-- **C70.** Inputs that are not opened give nothing, or a line in the list of everything. -/
theorem C70_not_opened (opts : CmdOptions) (req : CmdRequest) (reg : Registry) (solitary : Bool) (input : InputSrc) (skip : Bool) (pre name : Str) (arch : Option ArchIn)
    (h : ¬ Opened input skip) (hn : WithoutDots input.resource name) (hne : name ≠ []) :
    src_input_libarchive opts req reg solitary input skip pre arch = .val {
      requests := if opts.verbose then [{ filename := some name, url := req.attUrl, version := req.attVersion, status := .unsetLanguage }] else []
      handled := if opts.verbose then 1 else 0
      solitary := solitary } := by
  unfold src_input_libarchive
  rw [if_pos]
  · cases hv : opts.verbose with
    | false => simp
    | true => simp [(stripDots_iff _ _).mpr ⟨hn, hne⟩, Run.bind]
  · apply Classical.byContradiction
    intro hc
    apply h
    refine ⟨by simpa using fun e => hc (.inr e), ?_⟩
    by_cases h1 : input.fd = none
    · by_cases h2 : input.compressions = []
      · by_cases h3 : input.archives = []
        · by_cases h4 : srcml_check_extension input.plainfile = none
          · exact absurd (.inl ⟨h1, h2, h3, h4⟩) hc
          · exact .inr (.inr (.inr h4))
        · exact .inr (.inr (.inl h3))
      · exact .inr (.inl h2)
    · exact .inl h1

/-- **C70.** A single local file: one request, to be read from that file, with the name asked for or its own, and the language asked for or that of the name. -/
theorem C70_file (opts : CmdOptions) (req : CmdRequest) (reg : Registry) (solitary : Bool) (input : InputSrc) (arch : Option ArchIn) (hv : opts.verbose = false)
    (h : req.attFilename ≠ none ∨ input.resource ≠ "_".toList) :
    ∃ name lang, (name = req.attFilename.getD input.resource) ∧
      (∀ c l, req.attLanguage = some (c :: l) → lang = c :: l) ∧
      ((req.attLanguage = none ∨ req.attLanguage = some []) → lang = (look reg name).getD []) ∧
      src_input_file opts req reg solitary input arch = .val { handled := 1, solitary := solitary, requests := [{
        filename := some name, language := lang, url := req.attUrl, version := req.attVersion, diskFilename := some input.resource
        diskDir := if opts.noarchive then some req.outputFilename else none }] } := by
  refine ⟨_, if req.attLanguage.getD [] = [] then (look reg (req.attFilename.getD input.resource)).getD [] else req.attLanguage.getD [], rfl, ?_, ?_, ?_⟩
  · intro c l e; rw [e]; simp
  · rintro (e | e) <;> rw [e] <;> simp
  · unfold src_input_file
    simp only [hv, Bool.false_eq_true, if_false]
    cases hf : req.attFilename with
    | none =>
      have e : (if input.resource ≠ "_".toList then some input.resource else none) = some input.resource := if_pos (h.resolve_left (fun e => e hf))
      simp only [e]
      split <;> rfl
    | some n => split <;> rfl

/-- A damaged archive is not told from a complete one, as soon as it has a file: no message, and the requests for what comes before the damage. -/
theorem C70_finding_damaged (opts : CmdOptions) (req : CmdRequest) (reg : Registry) (solitary : Bool) (input : InputSrc) (skip : Bool) (pre own : Str) (entries : List ArchEntry)
    (hopen : Opened input skip) (ho : OwnName input own) (hx : input.filename = "stdin://-".toList → req.attLanguage ≠ none) (hne : ∃ e ∈ entries, e.dir = false) :
    src_input_libarchive opts req reg solitary input skip pre (some { format := .archive, entries := entries, eof := false }) =
    src_input_libarchive opts req reg solitary input skip pre (some { format := .archive, entries := entries, eof := true }) := by
  rw [C70_archive opts req reg solitary input skip pre _ own hopen rfl ho hx hne, C70_archive opts req reg solitary input skip pre _ own hopen rfl ho hx hne]

/-- An archive without any file gives a request for an empty file all the same, if its name without the extensions is one of source. -/
theorem C70_finding_no_files : src_input_libarchive {} {} Registry.ofNewArchive true
    { filename := "file://a.c.tar".toList, protocol := "file".toList, resource := "a.c.tar".toList, plainfile := "a.c".toList, extension := ".c".toList, archives := [".tar".toList] } false []
    (some { format := .archive, entries := [{ path := "d/".toList, dir := true }] }) =
    .val { requests := [{ filename := some "a.c.tar".toList, language := "C".toList }], handled := 1, solitary := false } := by decide +kernel

/-- An entry that is not source takes its language from the name of the archive. -/
theorem C70_finding_language_of_archive : src_input_libarchive {} {} Registry.ofNewArchive true
    { filename := "file://a.c.tar".toList, protocol := "file".toList, resource := "a.c.tar".toList, plainfile := "a.c".toList, extension := ".c".toList, archives := [".tar".toList] } false []
    (some { format := .archive, entries := [{ path := "README".toList, blocks := ["Hello".toList] }] }) =
    .val { requests := [{ filename := some "README".toList, language := "C".toList, buffer := "Hello".toList }], handled := 1, solitary := false } := by decide +kernel

/-- The time of an empty input is taken from an entry that was never read. -/
theorem C70_finding_time_of_empty : src_input_libarchive { timestamp := true } {} Registry.ofNewArchive true
    { filename := "file://a.c.gz".toList, protocol := "file".toList, resource := "a.c.gz".toList, plainfile := "a.c".toList, extension := ".c".toList, compressions := [".gz".toList] } false []
    (some { format := .empty, entries := [] }) = .ub := by decide +kernel

/-- Extensions of compressions are counted from the end of the name even if an extension of an archive is there. -/
theorem C70_finding_cut_name : src_input_libarchive {} { attLanguage := some "C".toList } Registry.ofNewArchive true
    { filename := "file://b.c.gz.ar".toList, protocol := "file".toList, resource := "b.c.gz.ar".toList, plainfile := "b.c".toList, extension := ".c".toList,
      compressions := [".gz".toList], archives := [".ar".toList] } false []
    (some { format := .raw, entries := [{ path := [], blocks := ["x".toList] }] }) =
    .val { requests := [{ filename := some "b.c.gz".toList, language := "C".toList, buffer := "x".toList }], handled := 1, solitary := true } := by decide +kernel

/-- A local file called `_`, without a name and a language asked for: a name that is not there is looked into. -/
theorem C70_finding_underscore (reg : Registry) (solitary : Bool) (input : InputSrc) (arch : Option ArchIn) (h : input.resource = "_".toList) :
    src_input_file {} {} reg solitary input arch = .ub := by
  simp [src_input_file, h]

/-! ### C69: directories -/

/-- **C69.** The files handled for a directory are the regular files below it for which no name on the way starts with a dot: all of them, -/
theorem C69_files (cwd raw dir : Str) (tree : FsTree) (hdir : dir = if raw = ['.'] then cwd else raw) (hw : DistinctNames tree) (hv : LastVisible dir) (f : Str) :
    f ∈ directoryFiles cwd raw tree ↔ ∃ p, FileAt tree p ∧ (∀ n ∈ p, Visible n) ∧ f = pathOf dir p := by
  have hh : fsHidden dir = false := by
    cases h : fsHidden dir with
    | false => rfl
    | true => exact absurd hv ((fsHidden_last dir).mp h)
  have e : directoryFiles cwd raw tree = (tree.collect dir).mergeSort strLe := by
    unfold directoryFiles
    have : (if raw = ".".toList then cwd else raw) = dir := hdir.symm
    simp only [this, hh, Bool.false_eq_true, if_false]
  rw [e, List.mem_mergeSort, collect_eq tree hw]
  simp only [List.mem_map, mem_namesBelow]
  constructor
  · rintro ⟨p, ⟨h1, h2⟩, rfl⟩; exact ⟨p, h1, h2, rfl⟩
  · rintro ⟨p, h1, h2, rfl⟩; exact ⟨p, ⟨h1, h2⟩, rfl⟩

/-- **C69.** ... each once, -/
theorem C69_once (cwd raw : Str) (tree : FsTree) (hw : DistinctNames tree) : (directoryFiles cwd raw tree).Nodup := by
  unfold directoryFiles
  simp only
  generalize (if raw = ".".toList then cwd else raw) = d
  have := (List.mergeSort_perm (if fsHidden d then [] else tree.collect d) strLe).symm
  refine this.nodup ?_
  split
  · simp
  · exact nodup_collect tree hw d

/-- **C69.** ... and in the order of their paths, whatever order the file system gives them in. -/
theorem C69_sorted (cwd raw : Str) (tree : FsTree) : (directoryFiles cwd raw tree).Pairwise NotAfter := by
  unfold directoryFiles
  simp only
  generalize (if raw = ".".toList then cwd else raw) = d
  have := List.pairwise_mergeSort strLe_trans strLe_total (if fsHidden d then [] else tree.collect d)
  exact this.imp (fun h => (strLe_iff _ _).mp h)

theorem inputSrc_file (stat : Str → FileKind) (f : Str) (hc : ':' ∉ f) (hq : '?' ∉ f) (h1 : f ≠ "-".toList) (h2 : f ≠ "/dev/stdin".toList) (h0 : f ≠ []) (hs : stat f ≠ .directory) :
    ∃ i es, inputSrc stat f = .val i ∧ i.filename = "file://".toList ++ f ∧ i.protocol = "file".toList ∧ i.resource = f ∧ i.fd = none ∧ Plain f i.plainfile i.extension es ∧
      i.compressions = es.filter (fun e => decide (String.ofList e ∈ compressionExts)) ∧ i.archives = es.filter (fun e => decide (String.ofList e ∈ archiveExts)) := by
  have hp : ¬ HasProtocol f := by
    rintro ⟨p, r, e⟩; exact hc (by rw [e]; simp)
  have hw : ¬ WebLike f := by
    rintro ⟨⟨a, b, e⟩, _⟩; exact hc (by rw [e]; simp)
  obtain ⟨h3, h4⟩ := (C42_add_partial f hp).2 h1 h2 hw
  have hr : inputResource (src_prefix_add_uri f) = ("file".toList, f) := by
    unfold inputResource
    simp only [h4]
    rw [if_pos (by decide), findFirst_none.mpr hq]
  obtain ⟨i, es, a1, a2, a3, a4, a5, a6, a7⟩ := C43_input stat f (by rw [hr]; exact h0)
  have hpr : i.protocol = "file".toList ∧ i.resource = f ∧ i.fd = none := by
    unfold inputSrc at a1
    simp only [hr, List.getLast?_eq_some_getLast h0, Run.val.injEq] at a1
    subst a1
    exact ⟨rfl, rfl, by simp only [inputFields]; decide⟩
  have hd : i.isdirectory = false := by
    rw [a4, hpr.2.1]; simp [hs]
  obtain ⟨b1, b2, b3, _⟩ := a6 hd (by rw [hpr.1]; decide)
  exact ⟨i, es, a1, by rw [a2, h3], hpr.1, hpr.2.1, hpr.2.2, by rw [← hpr.2.1]; exact b1, b2, b3⟩

theorem known_no_slash (e : Str) (h : KnownExt e) : '/' ∉ e := by
  rcases h with h | h
  · have h' := (isArchive_iff e).mpr h
    have : ∀ e ∈ archiveExtensions, '/' ∉ e := by decide +kernel
    exact this e (by simpa [is_archive] using h')
  · have h' := (isCompressed_iff e).mpr h
    have : ∀ e ∈ compressionExtensions, '/' ∉ e := by decide +kernel
    exact this e (by simpa [is_compressed] using h')

theorem dots_tail (tail : Str) (ht : '/' ∉ tail) : ∀ (n : Nat) (p : Str), p.length ≤ n → p ++ tail ≠ [] → (p ++ tail).getLast? ≠ some '/' →
    ∃ own, WithoutDots (p ++ tail) (own ++ tail) ∧ own ++ tail ≠ [] := by
  intro n
  induction n with
  | zero =>
    intro p hl h0 _
    have : p = [] := List.eq_nil_of_length_eq_zero (by omega)
    subst this
    refine ⟨[], ⟨0, by simp, ?_⟩, by simpa using h0⟩
    rintro ⟨r, e⟩
    exact ht (by simp at e; rw [e]; simp)
  | succ n ih =>
    intro p hl h0 hg
    by_cases hd : ∃ q, p = '.' :: '/' :: q
    · obtain ⟨q, rfl⟩ := hd
      have hq0 : q ++ tail ≠ [] := by
        intro e
        apply hg
        have : '.' :: '/' :: q ++ tail = ['.', '/'] := by simp at e; simp [e]
        rw [this]; rfl
      obtain ⟨own, ⟨k, e1, e2⟩, h2⟩ := ih q (by simp at hl; omega) hq0 (by
        intro e; apply hg
        have : '.' :: '/' :: q ++ tail = ['.', '/'] ++ (q ++ tail) := by simp
        rw [this, List.getLast?_append, e]; rfl)
      refine ⟨own, ⟨k + 1, ?_, e2⟩, h2⟩
      simp only [List.cons_append, e1]
      simp [List.replicate_succ]
    · refine ⟨p, ⟨0, by simp, ?_⟩, h0⟩
      rintro ⟨r, e⟩
      match p with
      | [] => exact ht (by simp at e; rw [e]; simp)
      | [a] =>
        simp at e
        exact ht (by rw [e.2]; simp)
      | a :: b :: q =>
        simp at e
        exact hd ⟨q, by rw [e.1, e.2.1]⟩

/-- What a file in a directory gives. Files with an extension of an archive, and files whose name has no language known to the library, are left out (or listed); of the others
the name is that of the file without `./` and without the extensions of compressions. -/
def Spec.FileGives (opts : CmdOptions) (req : CmdRequest) (reg : Registry) (solitary : Bool) (f : Str) (time : Option Str) (contents : Str) (o : Option ParseReq) : Prop :=
  ∃ p x es own name, Plain f p x es ∧ WithoutDots f (own ++ es.reverse.flatten) ∧ name = (if solitary then req.attFilename.getD own else own) ∧
    ((∀ e ∈ es, String.ofList e ∉ archiveExts) ∧ (es ≠ [] ∨ srcml_check_extension p ≠ none) →
      o = gives opts req name (languageFor (look reg) req.attLanguage false name x) time contents) ∧
    ((∃ e ∈ es, String.ofList e ∈ archiveExts) ∨ (es = [] ∧ srcml_check_extension p = none) →
      o = if opts.verbose then some { filename := some (own ++ es.reverse.flatten), url := req.attUrl, version := req.attVersion, status := .unsetLanguage } else none)

theorem file_gives (opts : CmdOptions) (req : CmdRequest) (reg : Registry) (solitary : Bool) (stat : Str → FileKind) (f : Str) (a : ArchIn) (time : Option Str) (contents : Str)
    (hc : ':' ∉ f) (hq : '?' ∉ f) (h1 : f ≠ "-".toList) (h2 : f ≠ "/dev/stdin".toList) (h0 : f ≠ []) (hl : f.getLast? ≠ some '/') (hs : stat f ≠ .directory)
    (hr : ReadAs a time contents) (ht : opts.timestamp = true → time ≠ none) :
    ∃ i o, inputSrc stat f = .val i ∧ i.resource = f ∧ FileGives opts req reg solitary f time contents o ∧
      ∃ h, ∀ pre, src_input_libarchive opts req reg solitary i (!i.archives.isEmpty) pre (some a) = .val { requests := o.toList, handled := h, solitary := solitary } := by
  obtain ⟨i, es, b1, b2, b3, b4, b5, b6, b7, b8⟩ := inputSrc_file stat f hc hq h1 h2 h0 hs
  have htail : '/' ∉ es.reverse.flatten := by
    intro hm
    obtain ⟨e, he, hme⟩ := List.mem_flatten.mp hm
    exact known_no_slash e (b6.known e (by simpa using he)).2 hme
  have hw := b6.whole
  obtain ⟨own, d1, d2⟩ := dots_tail _ htail _ i.plainfile (Nat.le_refl _) (by rw [← hw]; exact h0) (by rw [← hw]; exact hl)
  rw [← hw] at d1
  have hx : i.filename = "stdin://-".toList → req.attLanguage ≠ none := by
    intro e
    rw [b2] at e
    have := congrArg (fun l => l.take 4) e
    simp at this
  have hal : asksAlways i = false := by
    unfold asksAlways; rw [b3]; decide
  by_cases hop : (∀ e ∈ es, String.ofList e ∉ archiveExts) ∧ (es ≠ [] ∨ srcml_check_extension i.plainfile ≠ none)
  · have harch : i.archives = [] := by
      rw [b8, List.filter_eq_nil_iff]
      intro e he
      simpa using hop.1 e he
    have hcomp : i.compressions = es := by
      rw [b7, List.filter_eq_self]
      intro e he
      have := (b6.known e he).2
      rcases this with h | h
      · exact absurd h (hop.1 e he)
      · simpa using h
    have hown : OwnName i own := ⟨es.reverse.flatten, by rw [b4]; exact d1, d2, by
      rw [hcomp, List.length_flatten, List.map_reverse]
      exact List.sum_reverse _⟩
    have hopen : Opened i (!i.archives.isEmpty) := by
      refine ⟨by rw [harch]; rfl, ?_⟩
      rcases hop.2 with h | h
      · exact .inr (.inl (by rw [hcomp]; exact h))
      · exact .inr (.inr (.inr h))
    refine ⟨i, gives opts req (if solitary then req.attFilename.getD own else own)
      (languageFor (look reg) req.attLanguage false (if solitary then req.attFilename.getD own else own) i.extension) time contents, b1, b4,
      ⟨i.plainfile, i.extension, es, own, _, b6, d1, rfl, fun _ => rfl, ?_⟩, 1, ?_⟩
    · rintro (⟨e, he, h⟩ | ⟨h, h'⟩)
      · exact absurd h (hop.1 e he)
      · rcases hop.2 with h'' | h''
        · exact absurd h h''
        · exact absurd h' h''
    · intro pre
      obtain ⟨name, hn, hres⟩ := C70_single opts req reg solitary i (!i.archives.isEmpty) pre a own time contents hopen hown hr hx ht
      rw [hres, hal, ← hn]
  · have hnop : ¬ Opened i (!i.archives.isEmpty) := by
      intro h
      apply hop
      have harch : i.archives = [] := by simpa using h.1
      have ha : ∀ e ∈ es, String.ofList e ∉ archiveExts := by
        rw [b8, List.filter_eq_nil_iff] at harch
        intro e he
        simpa using harch e he
      refine ⟨ha, ?_⟩
      rcases h.2 with h | h | h | h
      · exact absurd b5 h
      · left; rintro rfl; exact h (by rw [b7]; rfl)
      · exact absurd harch h
      · exact .inr h
    refine ⟨i, if opts.verbose then some { filename := some (own ++ es.reverse.flatten), url := req.attUrl, version := req.attVersion, status := .unsetLanguage } else none, b1, b4,
      ⟨i.plainfile, i.extension, es, own, _, b6, d1, rfl, fun h => absurd h hop, fun _ => rfl⟩, (if opts.verbose then 1 else 0), ?_⟩
    intro pre
    rw [C70_not_opened opts req reg solitary i _ pre (own ++ es.reverse.flatten) (some a) hnop (by rw [b4]; exact d1) d2]
    cases opts.verbose <;> rfl

/-- **C69.** The requests for a directory are those of its files, one after the other, if all of them can be read and none is an archive under another name.
The kind of the output does not change. -/
theorem C69_requests (opts : CmdOptions) (req : CmdRequest) (reg : Registry) (stat : Str → FileKind) (arch : Str → Option ArchIn) (time : Str → Option Str) (contents : Str → Str)
    (solitary : Bool) (cwd raw : Str) (tree : FsTree) (hw : DistinctNames tree)
    (hv : LastVisible (if raw = ['.'] then cwd else raw))
    (hread : ∀ f ∈ directoryFiles cwd raw tree, ':' ∉ f ∧ '?' ∉ f ∧ f ≠ "/dev/stdin".toList ∧ stat f ≠ .directory ∧
      (∃ a, arch f = some a ∧ ReadAs a (time f) (contents f)) ∧ (opts.timestamp = true → time f ≠ none)) :
    ∃ g : Str → Option ParseReq, (∀ f ∈ directoryFiles cwd raw tree, FileGives opts req reg solitary f (time f) (contents f) (g f)) ∧
      src_input_filesystem opts req reg stat arch solitary cwd raw tree = .val {
        requests := (directoryFiles cwd raw tree).filterMap g, handled := 1, solitary := solitary } := by
  have hall : ∀ f ∈ directoryFiles cwd raw tree, f ≠ "-".toList ∧ f ≠ [] ∧ f.getLast? ≠ some '/' := by
    intro f hf
    obtain ⟨p, h1, h2, rfl⟩ := (C69_files cwd raw _ tree rfl hw hv f).mp hf
    generalize (if raw = ['.'] then cwd else raw) = d
    have hnames := h1.names hw
    have hne := h1.ne_nil
    have hslash : '/' ∈ pathOf d p := by
      unfold pathOf
      split
      · next h => exact List.mem_append_left _ (List.mem_of_getLast? h)
      · simp
    refine ⟨(fun e => by rw [e] at hslash; revert hslash; decide), (fun e => by rw [e] at hslash; cases hslash), ?_⟩
    have hlast : ∀ q : List Str, q ≠ [] → (∀ n ∈ q, n ≠ [] ∧ '/' ∉ n) → ∃ c, (q.intersperse ['/']).flatten.getLast? = some c ∧ c ≠ '/' := by
      intro q
      induction q with
      | nil => intro h; exact absurd rfl h
      | cons n q ih =>
        intro _ hn
        cases q with
        | nil =>
          have h3 := hn n (by simp)
          refine ⟨n.getLast h3.1, by simp [List.getLast?_eq_some_getLast h3.1], ?_⟩
          intro e
          exact h3.2 (e ▸ List.getLast_mem h3.1)
        | cons m q =>
          obtain ⟨c, hc, hc'⟩ := ih (by simp) (fun x hx => hn x (List.mem_cons_of_mem _ hx))
          refine ⟨c, ?_, hc'⟩
          simp only [List.intersperse_cons_cons, List.flatten_cons, List.getLast?_append, hc]
          rfl
    obtain ⟨c, hc, hc'⟩ := hlast p hne hnames
    unfold pathOf
    rw [List.getLast?_append, hc]
    intro e
    exact hc' (by simpa using e)
  unfold src_input_filesystem
  revert hread hall
  have hnd := C69_once cwd raw tree hw
  revert hnd
  generalize directoryFiles cwd raw tree = files
  intro hnd hread hall
  induction files with
  | nil => exact ⟨fun _ => none, by simp, rfl⟩
  | cons f files ih =>
    have hnd' := List.nodup_cons.mp hnd
    obtain ⟨g, hg, hres⟩ := ih hnd'.2 (fun x hx => hread x (List.mem_cons_of_mem _ hx)) (fun x hx => hall x (List.mem_cons_of_mem _ hx))
    obtain ⟨r1, r2, r3, r4, ⟨a, ha, hra⟩, r5⟩ := hread f (by simp)
    obtain ⟨l1, l2, l3⟩ := hall f (by simp)
    obtain ⟨i, o, e1, e2, e3, h, e4⟩ := file_gives opts req reg solitary stat f a (time f) (contents f) r1 r2 l1 r3 l2 l3 r4 hra r5
    refine ⟨fun x => if x = f then o else g x, ?_, ?_⟩
    · intro x hx
      rcases List.mem_cons.mp hx with rfl | hx
      · simpa using e3
      · have : x ≠ f := fun e => hnd'.1 (e ▸ hx)
        simpa [this] using hg x hx
    · unfold filesLoop
      rw [e1]
      simp only [Run.bind, e2, ha, e4, Bool.false_eq_true, if_false, hres]
      have : List.filterMap (fun x => if x = f then o else g x) files = List.filterMap g files := by
        have hnf := hnd'.1
        clear hres hg hread hall hnd hnd' ih
        induction files with
        | nil => rfl
        | cons y ys ih =>
          have h1 : y ≠ f := fun e => hnf (by simp [e])
          rw [List.filterMap_cons, List.filterMap_cons, if_neg h1, ih (fun h => hnf (List.mem_cons_of_mem _ h))]
      rw [List.filterMap_cons, this]
      cases o <;> simp

/-- A directory whose last part starts with a dot gives nothing, though it was asked for by name: `..`, `../..`, a hidden directory, or `.` in one. -/
theorem C69_finding_dot_directory (cwd raw dir : Str) (tree : FsTree) (hdir : dir = if raw = ['.'] then cwd else raw) (hv : ¬ LastVisible dir) : directoryFiles cwd raw tree = [] := by
  have hh : fsHidden dir = true := (fsHidden_last dir).mpr hv
  unfold directoryFiles
  have : (if raw = ".".toList then cwd else raw) = dir := hdir.symm
  simp only [this, hh, if_true]
  simp

example : directoryFiles "/home/u".toList "..".toList (.file "a.c".toList .nil) = [] :=
  C69_finding_dot_directory _ _ _ _ rfl (fun h => h ⟨['.'].take 0 , ['.'], by decide, by decide, .inl rfl⟩ )

/-- Extensions registered for the command are not known for the files of directories. -/
theorem C69_finding_register : ∃ reg, (srcml_archive_register_file_extension Registry.ofNewArchive (some "foo".toList) (some "C++".toList)) = (.ok, reg) ∧
    srcml_archive_check_extension reg (some "d/a.foo".toList) = some "C++".toList ∧
    (inputSrc (fun _ => .other) "d/a.foo".toList).bind (fun i => src_input_libarchive {} {} reg true i false "d".toList (some { format := .raw, entries := [{ path := [], blocks := ["int x;".toList] }] })) =
      .val { handled := 0, solitary := true } := by
  refine ⟨_, rfl, by decide +kernel, ?_⟩
  obtain ⟨i, es, b1, b2, b3, b4, b5, b6, b7, b8⟩ := inputSrc_file (fun _ => .other) "d/a.foo".toList (by decide) (by decide) (by decide) (by decide) (by decide) (by decide)
  obtain ⟨u1, u2, u3⟩ := C43_unique _ _ "d/a.foo".toList _ ".foo".toList _ [] b6
    ⟨by decide, by simp, .inl ⟨⟨"foo".toList, by decide, by decide⟩, "d/a".toList, by decide⟩, by
      rintro (h | h) <;> revert h <;> decide +kernel⟩
  subst u3
  rw [b1]
  simp only [Run.bind]
  rw [C70_not_opened {} {} _ true i false _ "d/a.foo".toList _ ?_ (by rw [b4]; exact ⟨0, by decide, by rintro ⟨r, e⟩; simp at e⟩) (by decide)]
  · rfl
  · rintro ⟨_, h | h | h | h⟩
    · exact h b5
    · exact h b7
    · exact h b8
    · rw [u1] at h; revert h; decide +kernel

/-- A question mark ends the name: the file of that name is not looked at, but another one, if it exists. -/
theorem C69_finding_question_mark (stat : Str → FileKind) : ∃ i, inputSrc stat "d/a.c?b.c".toList = .val i ∧ i.resource = "d/a.c".toList := by
  have hr : inputResource (src_prefix_add_uri "d/a.c?b.c".toList) = ("file".toList, "d/a.c".toList) := by decide +kernel
  unfold inputSrc
  simp only [hr]
  exact ⟨_, rfl, rfl⟩

/-! Examples for the hypotheses. -/

example : DistinctNames (.dir "src".toList (.file "b.c".toList (.file ".x.c".toList .nil)) (.file "a.c".toList (.dir ".git".toList (.file "h.c".toList .nil) .nil))) ∧
    LastVisible "/home/u".toList ∧
    directoryFiles "/home/u".toList ".".toList (.dir "src".toList (.file "b.c".toList (.file ".x.c".toList .nil)) (.file "a.c".toList (.dir ".git".toList (.file "h.c".toList .nil) .nil))) =
      ["/home/u/a.c".toList, "/home/u/src/b.c".toList] := by
  refine ⟨by simp [DistinctNames, nodeNames], ?_, ?_⟩
  · intro h
    have := (fsHidden_last "/home/u".toList).mpr (fun hv => hv h)
    revert this; decide
  · unfold directoryFiles
    simp only [if_true]
    rw [show (if fsHidden "/home/u".toList = true then [] else
      (FsTree.dir "src".toList (.file "b.c".toList (.file ".x.c".toList .nil)) (.file "a.c".toList (.dir ".git".toList (.file "h.c".toList .nil) .nil))).collect "/home/u".toList) =
        ["/home/u/src/b.c".toList, "/home/u/a.c".toList] by decide]
    unfold List.mergeSort
    simp only [List.MergeSort.Internal.splitInTwo]
    simp [List.merge, strLe]

example : ∃ i, Opened i false ∧ OwnName i "a".toList ∧ i.filename ≠ "stdin://-".toList ∧
    src_input_libarchive { timestamp := true } { attVersion := some "1".toList } Registry.ofNewArchive true i false [] (some { format := .archive, entries :=
      [{ path := "d/".toList, dir := true }, { path := "d/x.c".toList, blocks := ["ab".toList, "c".toList], mtime := "T".toList }, { path := "y".toList }, { path := "z.java".toList, mtime := "U".toList }] }) =
      .val { handled := 3, solitary := false, requests := [
        { filename := some "d/x.c".toList, language := "C".toList, version := some "1".toList, buffer := "abc".toList, timeStamp := some "T".toList },
        { filename := some "z.java".toList, language := "Java".toList, version := some "1".toList, timeStamp := some "U".toList }] } :=
  ⟨{ filename := "file://./a.tgz".toList, protocol := "file".toList, resource := "./a.tgz".toList, plainfile := "./a".toList, compressions := [".tgz".toList], archives := [".tgz".toList] },
    ⟨rfl, .inr (.inl (by decide))⟩, ⟨".tgz".toList, ⟨1, by decide, by rintro ⟨r, e⟩; simp at e⟩, by decide, by decide⟩, by decide, by decide +kernel⟩

example : ∃ g : Str → Option ParseReq, (∀ f ∈ directoryFiles [] "d".toList (.file "a.c".toList .nil), FileGives {} {} Registry.ofNewArchive true f (some []) "x".toList (g f)) ∧
    src_input_filesystem {} {} Registry.ofNewArchive (fun _ => .other) (fun _ => some { format := .raw, entries := [{ path := [], blocks := ["x".toList] }] }) true [] "d".toList (.file "a.c".toList .nil) =
      .val { requests := (directoryFiles [] "d".toList (.file "a.c".toList .nil)).filterMap g, handled := 1, solitary := true } := by
  have hw : DistinctNames (.file "a.c".toList .nil) := by simp [DistinctNames, nodeNames]
  have hv : LastVisible "d".toList := by
    intro h
    have := (fsHidden_last "d".toList).mpr (fun hv => hv h)
    revert this; decide
  refine C69_requests {} {} Registry.ofNewArchive (fun _ => .other) _ (fun _ => some []) (fun _ => "x".toList) true [] "d".toList _ hw hv ?_
  intro f hf
  obtain ⟨p, h1, _, rfl⟩ := (C69_files [] "d".toList _ _ rfl hw hv f).mp hf
  cases h1 with
  | here =>
    refine ⟨by decide, by decide, by decide, by decide, ⟨_, rfl, ?_⟩, by simp⟩
    exact ReadAs.raw { path := [], blocks := ["x".toList] } true rfl
  | afterFile _ h => cases h

end Srcml
