import Verif.Spec.Command
import Verif.Props.UnitSelect
import Verif.Props.ExtractDisk
/-
C77: source files through the command and back. A user gives files to the command, which writes an archive; and from this archive the command gets the source code back.
-/
set_option linter.unusedSimpArgs false
namespace Srcml
open Spec CharBuffer

theorem runSetup_ok : ∀ (cs : List (Option SetCall)) (a b : Archive), SetUpOk a → runSetup a cs = .val (some b) → SetUpOk b
  | [], a, b, ha, h => by cases h; exact ha
  | none :: _, a, b, _, h => by cases h
  | some c :: cs, a, b, ha, h => by
    simp only [runSetup] at h
    cases hc : c.run a with
    | ub => rw [hc] at h; cases h
    | val p =>
      rw [hc] at h
      simp only [Run.bind] at h
      split at h
      · cases h
      · exact runSetup_ok cs p.2 b (setUp_step ha hc) h

/-- The output archive of the command is one that was set up by calls of the library. -/
theorem createArchive_ok {req : CreateReq} {inputs : List InputSrc} {a : Archive} (h : createArchive req inputs = .val (some a)) : SetUpOk a := by
  unfold createArchive at h
  cases hu : urlAsked req inputs with
  | ub => rw [hu] at h; cases h
  | val url =>
    rw [hu] at h
    exact runSetup_ok _ _ _ setUp_create h

theorem archive_filename {req : CreateReq} {inputs : List InputSrc} {a : Archive} (ha : createArchive req inputs = .val (some a)) (hone : ¬ OneUnit req inputs) : req.attFilename = none := by
  by_cases hx : req.attFilename = none
  · exact hx
  · obtain ⟨url, hu, _⟩ := create_done req _ a ha
    obtain ⟨r', hr1, hr2⟩ := C72_refused req _ url hu
    rw [ha] at hr1
    cases hr1
    exact absurd (hr2.mpr (.inl ⟨hone, hx⟩)) (by simp)

/-- A file of the command is parsed by the library. -/
theorem file_parses {N D : Type} [DecidableEq N] {lib : ParseLib} {a : Archive} {th : ThreadState} {zero : D} {xml : Str → Option N} {view : N → NodeView} {attrsOf : Str → List (Str × Str)}
    {req : CreateReq} {i : InputSrc} {x : SourceFile} (hx : CommandFile lib a th req i x) {v : UnitObj}
    (hv : srcml_unit_parse lib a th x.from_ (some x.unit) = .val (.ok, some v)) (hk : v.data.language = x.unit.data.language ∧ v.data.filename = x.unit.data.filename ∧
      v.data.version = x.unit.data.version ∧ v.data.timestamp = x.unit.data.timestamp) (evs : List Ev) (w : Work D) (hw : FileWork req a.registeredLanguages i w) :
    Parses (clientEnv lib a th zero xml view attrsOf) w (MadeUnit.mk a v.data evs) := by
  obtain ⟨lang, h1, h2, rfl⟩ := hw
  obtain ⟨name, lang', k1, k2, k3, k4⟩ := hx.unit
  have hl : lang = lang' := by
    cases hq : req.attLanguage with
    | none =>
      rw [hq] at k3
      rw [h2 (.inl hq)]
      show (srcml_archive_check_extension a.registeredLanguages (some (req.attFilename.getD i.resource))).getD [] = _
      rw [k3]; rfl
    | some q => cases q with
      | nil =>
        rw [hq] at k3
        rw [h2 (.inr hq)]
        show (srcml_archive_check_extension a.registeredLanguages (some (req.attFilename.getD i.resource))).getD [] = _
        rw [k3]; rfl
      | cons c l =>
        rw [hq] at k3
        rw [h1 c l hq, k3]
  subst hl
  refine ⟨rfl, ⟨rfl, rfl, rfl⟩, ?_, ?_, rfl⟩
  · intro f hf
    cases hf
    exact ⟨name, k1, k2⟩
  · intro u hu
    have hlang : u.language = some lang := hu.language
    have hver : u.version = req.attVersion := hu.version
    have htime : u.timestamp = none := hu.timestamp
    have hn : u.filename = some name := by
      obtain ⟨n, n1, n2⟩ := hu.filename
      rw [n2]
      exact congrArg some (WithoutDots.functional n1 k1)
    have hu' : x.unit = { data := u } := by
      rw [k4, hu.rest, hlang, hver, htime, hn]
    rw [hu'] at hk hv
    rw [hx.from_] at hv
    refine ⟨v, ?_, rfl, hk.1, hk.2.1, hk.2.2.1, hk.2.2.2⟩
    simp only [clientEnv, hv, Run.bind, Option.getD_some]

/-- **C77.** Source files through the command. The command is run on files of this machine, more than one or with `--archive`: it writes no message and ends normally, and whoever reads its output, in every
interleaving of the two threads of the reader and whatever the pieces in which it is delivered, gets one unit for each file, in that order and no other; its text is exactly that of the file
(after decoding, without byte order mark, with unified newlines), and it has the language, the hash and the name of the file, without `./` in front. What is missing is what is missing in `C73_reads_partial`. -/
theorem C77_files_partial {N D : Type} [DecidableEq N] (opts : CmdOptions) (req : CreateReq) (lib : ParseLib) (hio : lib.iconv.WellBehaved) (num : NumberText D) (zero : D)
    (xml : Str → Option N) (view : N → NodeView) (attrsOf : Str → List (Str × Str)) (opened : Str → Bool) (out : Str) (stat : Str → FileKind)
    (arch : Str → Option ArchIn) (cwd : Str) (tree : Str → FsTree) (other : Handlers D) (th : ThreadState) (dest : Destination) (a : Archive) (ps : List (InputSrc × SourceFile))
    (hopts : opts.noarchive = false ∧ opts.xmlFragment = false ∧ opts.xmlRaw = false ∧ opts.verbose = false) (hdest : dest ≠ .file false)
    (ha : createArchive req (ps.map (·.1)) = .val (some a)) (hne : ps ≠ []) (hone : ¬ OneUnit req (ps.map (·.1)))
    (hk : KeepsSource a) (hps : ∀ p ∈ ps, CommandFile lib a th req p.1 p.2) :
    ∃ e, create_srcml opts req (clientEnv lib a th zero xml view attrsOf) num zero opened (clientHandlers opts (req.cmd out) stat arch cwd tree other) th dest (ps.map (·.1)) = .val e ∧
      e.exited = false ∧ e.messages = [] ∧ e.files = [] ∧ e.cut = false ∧
      ∀ fs wants, Delivers e.output fs → ∃ h : Sax2, ({ wants := wants } : Sax2).feeds fs = .val h ∧ AnyCalls h.log ∧
        ∀ (fin : Finish) (r : Reader), Reach { todo := h.log.filterMap saxCall, finish := fin } Reader.Step r →
          (∀ i (hi : i < r.log.length), (wants[i]?).getD false = decide ((r.log[i]).1 = .read)) →
          ∀ i (hi : i < r.log.length),
            (∀ hn : i < ps.length, (r.log[i]).1 = .read → ∃ w, gets h.log (r.log[i]).2 = some w ∧ (ps[i]).2.ReadAs lib a w) ∧
            (ps.length ≤ i → (r.log[i]).2 = none) := by
  have hs := createArchive_ok ha
  have hex : ∀ p : InputSrc × SourceFile, ∃ q : UnitObj × Nat × List Ev, p ∈ ps →
      srcml_unit_parse lib a th p.2.from_ (some p.2.unit) = .val (.ok, some q.1) ∧ getLanguageString q.2.1 = p.2.language ∧ ParsedUnit a q.2.1 p.2.unit.data q.1.data p.2.text q.2.2 ∧
      HashAfter lib a p.2.unit.data.hash q.1.data.hash (p.2.reads.filterMap id).flatten ∧
      ∀ d, (MadeUnit.mk a q.1.data q.2.2).Fits a d ∧ ("xmlns".toList, CPP_NS_URI) ∉ (jobOut a a q.1.data d).tagAttrs (unitMetaOf a a q.1.data) := by
    intro p
    by_cases hp : p ∈ ps
    · obtain ⟨v, n, evs, k1, k2, _, k4, k5, k6⟩ := source_parsed hio hs hk (hps p hp).ok
      exact ⟨(v, n, evs), fun _ => ⟨k1, k2, k4, k5, k6⟩⟩
    · exact ⟨({}, 0, []), fun h => absurd h hp⟩
  obtain ⟨f, hf⟩ := Classical.axiomOfChoice hex
  have hmap : (ps.map (fun p => (p.1, MadeUnit.mk a (f p).1.data (f p).2.2))).map (·.1) = ps.map (·.1) := by rw [List.map_map]; rfl
  obtain ⟨e, e1, e2, e3, e4, e5, e6⟩ := C72_command opts req (clientEnv lib a th zero xml view attrsOf) num zero opened out stat arch cwd tree other th dest a
    (ps.map (fun p => (p.1, MadeUnit.mk a (f p).1.data (f p).2.2))) hopts hdest (by rw [hmap]; exact ha) (by simpa using hne) (by rw [hmap]; exact hone)
    (by
      intro q hq
      obtain ⟨p, hp, rfl⟩ := List.mem_map.mp hq
      exact ⟨(hps p hp).file, (hps p hp).name⟩)
    (by
      intro q hq
      obtain ⟨p, hp, rfl⟩ := List.mem_map.mp hq
      intro w hw
      obtain ⟨k1, _, k3, _, _⟩ := hf p hp
      exact file_parses (hps p hp) k1 ⟨k3.same.language, k3.same.filename, k3.same.version, k3.same.timestamp⟩ _ w hw)
    (hk.carried hs)
    (by
      intro q hq
      obtain ⟨p, hp, rfl⟩ := List.mem_map.mp hq
      obtain ⟨_, _, k3, _, k5⟩ := hf p hp
      have hat : (f p).1.data.attributes = p.2.unit.data.attributes := k3.same.attributes
      exact ⟨(k5 1).1, k3.escapes, (k5 1).2, by show ∀ y ∈ attrPairs (f p).1.data.attributes, _; rw [hat]; exact (hps p hp).ok.names,
        by show (f p).1.data.attributes.length % 2 = 0; rw [hat]; exact (hps p hp).ok.pairs⟩)
    (by
      intro q hq
      obtain ⟨p, hp, rfl⟩ := List.mem_map.mp hq
      rfl)
  rw [hmap] at e1
  refine ⟨e, e1, e2, e3, e4, e5, ?_⟩
  intro fs wants hd
  obtain ⟨h, g1, g0, g2⟩ := e6 fs wants hd
  refine ⟨h, g1, g0, ?_⟩
  intro fin r hr hw i hi
  obtain ⟨q1, q2⟩ := g2 fin r hr hw i hi
  refine ⟨?_, fun hn => q2 (by simpa using hn)⟩
  intro hn hread
  obtain ⟨w, w1, w2, _⟩ := q1 (by simpa using hn) hread
  rw [List.getElem_map] at w2
  obtain ⟨_, k2, k3, k4, _⟩ := hf _ (List.getElem_mem hn)
  exact ⟨w, w1, source_read k2 k3 k4 w2.src w2.language w2.filename w2.version w2.timestamp w2.hash w2.attributes (gets_ready w1)⟩

theorem gets_none {log : List Upper} : gets log none = none := rfl

/-- A list of units that was read to the end: one for each file. -/
theorem readAll_units {log : List Upper} {r : Reader} {us : List UnitData} (h : ReadAll log r us) {lib : ParseLib} {a : Archive} {xs : List SourceFile}
    (hr : ∀ i (hi : i < r.log.length), (∀ hn : i < xs.length, (r.log[i]).1 = .read → ∃ w, gets log (r.log[i]).2 = some w ∧ (xs[i]).ReadAs lib a w) ∧ (xs.length ≤ i → (r.log[i]).2 = none)) :
    us.length = xs.length ∧ ∀ i (hi : i < us.length) (hi' : i < xs.length), (xs[i]).ReadAs lib a us[i] ∧ us[i].readBody = true ∧ us[i].eol = EOL_AUTO := by
  obtain ⟨h1, h2⟩ := h
  have hl : r.log.length = us.length + 1 := by have := congrArg List.length h2; simpa using this
  have hat : ∀ i (hi : i < us.length), gets log (r.log[i]'(by omega)).2 = some us[i] := by
    intro i hi
    have := congrArg (·[i]?) h2
    simp only [List.getElem?_map] at this
    rw [List.getElem?_eq_getElem (by omega), List.getElem?_append_left (by simpa using hi), List.getElem?_map, List.getElem?_eq_getElem hi] at this
    simpa using this
  have hend : gets log (r.log[us.length]'(by omega)).2 = none := by
    have := congrArg (·[us.length]?) h2
    simp only [List.getElem?_map] at this
    rw [List.getElem?_eq_getElem (by omega), List.getElem?_append_right (by simp)] at this
    simpa using this
  have hge : ¬ us.length < xs.length := by
    intro hc
    obtain ⟨w, w1, _⟩ := (hr us.length (by omega)).1 hc (h1 _ (List.getElem_mem _))
    rw [hend] at w1; cases w1
  have hle : ¬ xs.length < us.length := by
    intro hc
    have h3 := hat xs.length hc
    rw [(hr xs.length (by omega)).2 (Nat.le_refl _), gets_none] at h3
    cases h3
  refine ⟨by omega, ?_⟩
  intro i hi hi'
  obtain ⟨w, w1, w2⟩ := (hr i (by omega)).1 hi' (h1 _ (List.getElem_mem _))
  rw [hat i hi] at w1
  cases w1
  exact ⟨w2, gets_ready (hat i hi)⟩

theorem sourceText_auto {u : UnitData} {t x : Str} (h : SourceText none u t) (hs : u.src = some x) (he : u.eol = EOL_AUTO) : t = x := by
  obtain ⟨y, h1, h2⟩ := h
  rw [hs] at h1
  cases h1
  have h3 : endingOf ((none : Option Nat).getD u.eol) = none := by rw [Option.getD_none, he]; decide
  rw [h3] at h2
  exact h2

/-- The source code of the files, got back from the units `us` that were read: what C77 says. -/
structure Spec.GivesBack (files : List (Str × Str)) (us : List UnitData) : Prop where
  /-- to the standard output: all files, with a NUL between two of them; -/
  all : ∀ sax (b : Archive) th encoding, createSrc sax { srcEncoding := encoding } ((newIO b th).openRead true (some us)).2 .stdout = .val { stdout := nulSeparated (files.map (·.2)) }
  /-- with a selection: the file of that number, to the standard output or to a file; -/
  one : ∀ sax (b : Archive) th encoding n (h : n < files.length), createSrc sax { unit := n + 1, srcEncoding := encoding } ((newIO b th).openRead true (some us)).2 .stdout = .val { stdout := (files[n]).2 } ∧
    ∀ to, createSrc sax { unit := n + 1, srcEncoding := encoding } ((newIO b th).openRead true (some us)).2 (.file to true) = .val { files := [(to, (files[n]).2)] }
  /-- a number that is too large is refused; -/
  outside : ∀ sax (b : Archive) th encoding n to, files.length ≤ n → Refused (createSrc sax { unit := n + 1, srcEncoding := encoding } ((newIO b th).openRead true (some us)).2 to)
  /-- into a directory: every file under its name. -/
  directory : ∀ sax (b : Archive) th dir, dir ≠ ".".toList → dir ≠ "./".toList →
    srcToDirectory sax ((newIO b th).openRead true (some us)).2 dir (fun _ => true) = .val (files.map (fun f => (inDirectory dir f.1, f.2)))
  /-- on the disk, if the files have different places and can be put there: every file is at its place, and every other one is as it was. -/
  disk : ∀ sax (b : Archive) th dir, dir ≠ ".".toList → dir ≠ "./".toList → "..".toList ∉ pathNames dir → ∀ before : Disk, Placeable dir (files.map (·.1)) before → (files.map (fun f => pathNames f.1)).Nodup →
    ∃ after, extractToDisk sax ((newIO b th).openRead true (some us)).2 dir before [] = .val after ∧ (∀ f ∈ files, after.file (placeOf dir f.1) = some f.2) ∧
      ∀ p, (∀ f ∈ files, p ≠ placeOf dir f.1) → after.file p = before.file p

theorem units_names {files : List (Str × Str)} {us : List UnitData} (hl : us.length = files.length)
    (hu : ∀ i (hi : i < us.length) (hi' : i < files.length), us[i].filename = some (files[i]).1) : us.filterMap (·.filename) = files.map (·.1) := by
  have : us.map (·.filename) = files.map (fun f => some f.1) := by
    apply List.ext_getElem (by simp; omega)
    intro i hi hi'
    rw [List.getElem_map, List.getElem_map]
    exact hu i (by simpa using hi) (by simpa using hi')
  have h5 : us.filterMap (·.filename) = (us.map (·.filename)).filterMap id := by rw [List.filterMap_map]; rfl
  rw [h5, this, List.filterMap_map]
  simp only [Function.comp_def, id_eq]
  rw [← List.filterMap_eq_map]
  rfl

theorem gives_back {files : List (Str × Str)} {us : List UnitData} (hl : us.length = files.length)
    (hu : ∀ i (hi : i < us.length) (hi' : i < files.length), us[i].src = some (files[i]).2 ∧ us[i].filename = some (files[i]).1 ∧ us[i].readBody = true ∧ us[i].eol = EOL_AUTO) :
    GivesBack files us := by
  have hold : ∀ (b : Archive) th, Holds ((newIO b th).openRead true (some us)).2 us := by
    intro b th
    refine ⟨rfl, rfl, ?_⟩
    intro u hm
    obtain ⟨i, hi, rfl⟩ := List.getElem_of_mem hm
    obtain ⟨k1, _, k3, _⟩ := hu i hi (by omega)
    exact ⟨k3, by rw [k1]; rfl⟩
  constructor
  · intro sax b th encoding
    obtain ⟨ts, h1, h2, h3⟩ := C47_all_partial sax { srcEncoding := encoding } _ us rfl (hold b th) (by intro e h; cases h)
    rw [h3]
    have : ts = files.map (·.2) := by
      apply List.ext_getElem (by simp; omega)
      intro i hi hi'
      obtain ⟨k1, _, _, k4⟩ := hu i (by omega) (by omega)
      rw [List.getElem_map]
      exact sourceText_auto (h2 i (by omega) hi) k1 k4
    rw [this]
  · intro sax b th encoding n h
    have key : ∀ to, ∃ t, SourceText none us[n] t ∧ createSrc sax { unit := n + 1, srcEncoding := encoding } ((newIO b th).openRead true (some us)).2 .stdout = .val { stdout := t } ∧
        createSrc sax { unit := n + 1, srcEncoding := encoding } ((newIO b th).openRead true (some us)).2 (.file to true) = .val { files := [(to, t)] } := by
      intro to
      obtain ⟨t, h1, h2, h3⟩ := C47_selected sax { unit := n + 1, srcEncoding := encoding } _ us (n + 1) to rfl (by omega) (by omega) (hold b th) (by intro e h; cases h)
      exact ⟨t, h1, h2, h3⟩
    obtain ⟨k1, _, _, k4⟩ := hu n (by omega) h
    refine ⟨?_, ?_⟩
    · obtain ⟨t, h1, h2, _⟩ := key []
      rw [h2, sourceText_auto h1 k1 k4]
    · intro to
      obtain ⟨t, h1, _, h2⟩ := key to
      rw [h2, sourceText_auto h1 k1 k4]
  · intro sax b th encoding n to h
    exact C47_out_of_range sax { unit := n + 1, srcEncoding := encoding } _ us to (by show (us.length : Int) < (n : Int) + 1; omega) (hold b th)
  · intro sax b th dir hd1 hd2
    obtain ⟨fs, h1, h2, h3, h4⟩ := C57_to_directory_partial sax dir ⟨hd1, hd2⟩ us _ (hold b th)
    have hf : us.filter (·.filename.isSome) = us := by
      apply List.filter_eq_self.mpr
      intro u hm
      obtain ⟨i, hi, rfl⟩ := List.getElem_of_mem hm
      rw [(hu i hi (by omega)).2.1]; rfl
    have hn : us.filterMap (·.filename) = files.map (·.1) := units_names hl (fun i hi hi' => (hu i hi hi').2.1)
    rw [h1]
    congr 1
    apply List.ext_getElem
    · rw [h3, hf]; simp; omega
    intro i hi hi'
    have hi2 : i < files.length := by simpa using hi'
    obtain ⟨k1, k2, _, k4⟩ := hu i (by omega) hi2
    have h6 := h4 i hi (by rw [hf]; omega)
    simp only [hf] at h6
    have h7 : (fs[i]).1 = inDirectory dir (files[i]).1 := by
      have := congrArg (·[i]?) h2
      rw [hn] at this
      simp only [List.getElem?_map, List.getElem?_eq_getElem hi, List.getElem?_eq_getElem hi2, Option.map_some, Option.some.injEq] at this
      exact this
    rw [List.getElem_map, ← h7, ← sourceText_auto h6 k1 k4]
  · intro sax b th dir hd1 hd2 hd3 before hp hnd
    have hn : us.filterMap (·.filename) = files.map (·.1) := units_names hl (fun i hi hi' => (hu i hi hi').2.1)
    obtain ⟨after, e1, e2⟩ := C92_extract sax dir ⟨hd1, hd2⟩ hd3 us _ (hold b th) before (by rw [hn]; exact hp)
    refine ⟨after, e1, ?_, ?_⟩
    · intro f hf
      obtain ⟨i, hi, rfl⟩ := List.getElem_of_mem hf
      obtain ⟨k1, k2, _, k4⟩ := hu i (by omega) hi
      have hsplit : us = us.take i ++ us[i]'(by omega) :: us.drop (i + 1) := by
        rw [← List.drop_eq_getElem_cons, List.take_append_drop]
      obtain ⟨t, t1, t2⟩ := e2.written _ _ _ _ hsplit k2 (by
        intro v hv g hg e
        obtain ⟨j, hj, rfl⟩ := List.getElem_of_mem hv
        rw [List.length_drop] at hj
        rw [List.getElem_drop] at hg
        obtain ⟨_, m2, _⟩ := hu (i + 1 + j) (by omega) (by omega)
        rw [m2] at hg
        cases hg
        have := (List.pairwise_iff_getElem.mp hnd) i (i + 1 + j) (by simpa using hi) (by rw [List.length_map]; omega) (by omega)
        rw [List.getElem_map, List.getElem_map] at this
        exact this e.symm)
      rw [t2, sourceText_auto t1 k1 k4]
    · intro p hk
      refine e2.kept p ?_
      intro u hm f hf
      obtain ⟨i, hi, rfl⟩ := List.getElem_of_mem hm
      obtain ⟨_, k2, _⟩ := hu i hi (by omega)
      rw [k2] at hf
      cases hf
      exact hk _ (List.getElem_mem _)

theorem map_somes {α β : Type} (g : α → Option β) : ∀ l : List α, (∀ x ∈ l, ∃ y, g x = some y) → l.map g = (l.filterMap g).map some
  | [], _ => rfl
  | x :: l, h => by
    obtain ⟨y, hy⟩ := h x (by simp)
    rw [List.map_cons, List.filterMap_cons, hy, map_somes g l (fun z hz => h z (by simp [hz]))]
    rfl

/-- **C77.** Source files through the command and back. A user reads the archive that the command has written once for each file and once more: these are the units of the files and then the end;
from these units the command gets the source code of the files back: of all files, of one that is selected by its number, or into a directory with the names of the files. -/
theorem C77_back_partial {N D : Type} [DecidableEq N] (opts : CmdOptions) (req : CreateReq) (lib : ParseLib) (hio : lib.iconv.WellBehaved) (num : NumberText D) (zero : D)
    (xml : Str → Option N) (view : N → NodeView) (attrsOf : Str → List (Str × Str)) (opened : Str → Bool) (out : Str) (stat : Str → FileKind)
    (arch : Str → Option ArchIn) (cwd : Str) (tree : Str → FsTree) (other : Handlers D) (th : ThreadState) (dest : Destination) (a : Archive) (ps : List (InputSrc × SourceFile))
    (hopts : opts.noarchive = false ∧ opts.xmlFragment = false ∧ opts.xmlRaw = false ∧ opts.verbose = false) (hdest : dest ≠ .file false)
    (ha : createArchive req (ps.map (·.1)) = .val (some a)) (hne : ps ≠ []) (hone : ¬ OneUnit req (ps.map (·.1)))
    (hk : KeepsSource a) (hps : ∀ p ∈ ps, CommandFile lib a th req p.1 p.2) :
    ∃ e, create_srcml opts req (clientEnv lib a th zero xml view attrsOf) num zero opened (clientHandlers opts (req.cmd out) stat arch cwd tree other) th dest (ps.map (·.1)) = .val e ∧
      ∀ fs wants, Delivers e.output fs → (∀ i, i ≤ ps.length → wants[i]? = some true) → ∃ h : Sax2, ({ wants := wants } : Sax2).feeds fs = .val h ∧ AnyCalls h.log ∧
        ∀ (fin : Finish) (r : Reader), Reach { todo := h.log.filterMap saxCall, finish := fin } Reader.Step r → r.log.map (·.1) = List.replicate (ps.length + 1) .read →
          ∃ (us : List UnitData) (files : List (Str × Str)), ReadAll h.log r us ∧ files.length = ps.length ∧
            (∀ i (hi : i < files.length) (hi' : i < ps.length), WithoutDots (ps[i]).1.resource (files[i]).1 ∧ (files[i]).2 = (ps[i]).2.text) ∧ GivesBack files us := by
  obtain ⟨e, e1, _, _, _, _, e6⟩ := C77_files_partial opts req lib hio num zero xml view attrsOf opened out stat arch cwd tree other th dest a ps hopts hdest ha hne hone hk hps
  refine ⟨e, e1, ?_⟩
  intro fs wants hd hw
  obtain ⟨h, g1, g0, g2⟩ := e6 fs wants hd
  refine ⟨h, g1, g0, ?_⟩
  intro fin r hr hcalls
  have hlen : r.log.length = ps.length + 1 := by have := congrArg List.length hcalls; simpa using this
  have hread : ∀ c ∈ r.log, c.1 = .read := by
    intro c hc
    have : c.1 ∈ r.log.map (·.1) := List.mem_map_of_mem hc
    rw [hcalls] at this
    exact (List.mem_replicate.mp this).2
  have hlog := g2 fin r hr (by
    intro i hi
    rw [hw i (by omega), hread _ (List.getElem_mem hi)]
    rfl)
  have hsplit : r.log = r.log.take ps.length ++ [r.log[ps.length]'(by omega)] := by
    have := List.take_succ_eq_append_getElem (l := r.log) (i := ps.length) (by omega)
    rw [← this, List.take_of_length_le (by omega)]
  have hall : ReadAll h.log r ((r.log.take ps.length).filterMap (fun c => gets h.log c.2)) := by
    refine ⟨hread, ?_⟩
    conv => lhs; rw [hsplit]
    rw [List.map_append, map_somes _ _ (by
      intro c hc
      obtain ⟨i, hi, rfl⟩ := List.getElem_of_mem hc
      have hi2 : i < ps.length := by simp at hi; omega
      rw [List.getElem_take]
      obtain ⟨w, w1, _⟩ := (hlog i (by omega)).1 hi2 (hread _ (List.getElem_mem _))
      exact ⟨w, w1⟩)]
    congr 1
    show [gets h.log _] = _
    rw [(hlog ps.length (by omega)).2 (Nat.le_refl _)]
    rfl
  generalize (r.log.take ps.length).filterMap (fun c => gets h.log c.2) = us at hall
  obtain ⟨l1, l2⟩ := readAll_units (xs := ps.map (·.2)) (lib := lib) (a := a) hall (by
    intro i hi
    obtain ⟨q1, q2⟩ := hlog i hi
    refine ⟨?_, fun hn => q2 (by simpa using hn)⟩
    intro hn
    rw [List.getElem_map]
    exact q1 (by simpa using hn))
  have l1 : us.length = ps.length := by simpa using l1
  refine ⟨us, ps.map (fun p => (p.2.unit.data.filename.getD [], p.2.text)), hall, by simp, ?_, ?_⟩
  · intro i hi hi'
    rw [List.getElem_map]
    obtain ⟨name, lang, k1, _, _, k4⟩ := (hps _ (List.getElem_mem hi')).unit
    refine ⟨?_, rfl⟩
    rw [k4]
    rw [archive_filename ha hone] at k1
    exact k1
  · apply gives_back (by simpa using l1)
    intro i hi hi'
    have hi2 : i < ps.length := by simpa using hi'
    obtain ⟨r1, r2, r3⟩ := l2 i hi (by simpa using hi2)
    rw [List.getElem_map] at r1
    rw [List.getElem_map]
    obtain ⟨name, lang, _, _, _, k4⟩ := (hps _ (List.getElem_mem hi2)).unit
    refine ⟨r1.src, ?_, r2, r3⟩
    rw [r1.filename, k4]
    rfl

/-! ### One file -/

/-- The requests of the command, parsed and written to its output, are the calls on an archive in memory. -/
theorem requests_written {D : Type} (env : ParseEnv D) (opts : CmdOptions) (num : NumberText D) (zero : D) (opened : Str → Bool) (a : Archive) (th : ThreadState) (ps : List (Work D × MadeUnit))
    (hp : ∀ p ∈ ps, Parses env p.1 p.2) (hopts : opts.noarchive = false ∧ opts.xmlFragment = false ∧ opts.xmlRaw = false)
    (hm : ∀ p ∈ ps, Made p.2.u p.2.evs) (hua : ∀ p ∈ ps, p.2.ua = a) (m : ArchiveIO) (doc : Str)
    (c1 : (newIO a th).calls (.openWrite true .memory :: (ps.map (·.2)).map (fun m => .writeUnit m.ua (some m.u) none) ++ [.close]) = .val m) (c2 : m.delivered = some doc) :
    ∃ ws o s, consumeAll env (ps.map (·.1)) = .val ws ∧
      writeAll opts num zero opened none { main := ((newIO a th).openWrite true (.other true)).2 } ws = .val o ∧ o.messages = [] ∧ o.files = [] ∧ o.main.close = .val s ∧ s.kept = doc := by
  have hcons : ∀ qs : List (Work D × MadeUnit), (∀ p ∈ qs, Parses env p.1 p.2) →
      ∃ ws, consumeAll env (qs.map (·.1)) = .val ws ∧ ShowsAll opts num ws (qs.map (fun p => Effect.unit p.2.u)) [] := by
    intro qs
    induction qs with
    | nil => intro _; exact ⟨[], rfl, .nil⟩
    | cons q qs ih =>
      intro h1
      obtain ⟨ws, e1, e2⟩ := ih (fun p hp => h1 p (by simp [hp]))
      obtain ⟨w', u, o, k1, k2, k3, k4, k5, _⟩ := consume_parses env q.1 q.2 (h1 q (by simp))
      refine ⟨w' :: ws, ?_, ?_⟩
      · simp only [List.map_cons, consumeAll, k1, Run.bind, e1]
      · have := Shows.unit (opts := opts) (num := num) k2 k3 k4 hopts.2.1 hopts.2.2
        rw [k5] at this
        exact .cons this e2
  obtain ⟨ws, w1, w2⟩ := hcons ps hp
  generalize hs0 : ((newIO a th).openWrite true (.other true)).2 = s0
  have hmem0 : ((newIO a th).openWrite true .memory).2 = inMemory s0 := by rw [← hs0]; rfl
  have hset : s0.settings = a ∧ s0.memory = false ∧ s0.mode = .write := by rw [← hs0]; exact ⟨rfl, rfl, rfl⟩
  rw [List.cons_append, ArchiveIO.calls] at c1
  simp only [ArchiveIO.call, hmem0] at c1
  rw [ioCalls_append] at c1
  cases hcs : (inMemory s0).calls ((ps.map (·.2)).map (fun m => .writeUnit m.ua (some m.u) none)) with
  | ub => rw [hcs] at c1; cases c1
  | val m1 =>
    rw [hcs] at c1
    simp only [ArchiveIO.calls, ArchiveIO.call] at c1
    obtain ⟨s1, r1, r2, r3, r4⟩ := runEffects_units none (ps.map (·.2)) s0 m1 (by
      intro x hx; obtain ⟨p, hp', rfl⟩ := List.mem_map.mp hx; rw [hset.1]; exact hua p hp') hcs
    subst r2
    cases hcl : (inMemory s1).close with
    | ub => rw [hcl] at c1; cases c1
    | val m2 =>
      rw [hcl] at c1
      simp only [Run.val.injEq] at c1
      subst c1
      obtain ⟨s2, d1, d2⟩ := close_inMemory s1 m2 (by rw [r3]; exact hset.2.1) hcl
      obtain ⟨f, f1, f2⟩ := C71_writes opts num zero opened none none hopts.1 ws { main := s0 } _ _ w2 (fun w hw => by rw [consumeAll_input w1 (by intro w hw; obtain ⟨p, hp', rfl⟩ := List.mem_map.mp hw; exact (hp p hp').new.2.2) w hw]; rfl) hset.2.2 (by
        intro u hu
        simp only [List.mem_map] at hu
        obtain ⟨p, hp', h⟩ := hu
        cases h
        exact ((made_finished (hm p hp')).choose_spec.choose_spec.choose_spec.1).body)
      have r1' : runEffects none s0 (ps.map (fun p => Effect.unit p.2.u)) = .val s1 := by
        rw [← r1, List.map_map]; rfl
      rw [r1'] at f1
      obtain ⟨q1, q2, q3⟩ := f2 s1
      refine ⟨ws, f s1, s2, w1, f1, q3, q2, by rw [q1]; exact d1, ?_⟩
      rw [c2] at d2
      exact (Option.some.inj d2).symm

/-- **C72.** One file, without `--archive`: the output of the command is a document of one unit, and whoever reads it gets exactly the unit that the parser made of the file. -/
theorem C72_one_unit {D : Type} (opts : CmdOptions) (req : CreateReq) (env : ParseEnv D) (num : NumberText D) (zero : D) (opened : Str → Bool) (out : Str) (stat : Str → FileKind)
    (arch : Str → Option ArchIn) (cwd : Str) (tree : Str → FsTree) (other : Handlers D) (th : ThreadState) (dest : Destination) (a : Archive) (input : InputSrc) (m : MadeUnit)
    (hopts : opts.noarchive = false ∧ opts.xmlFragment = false ∧ opts.xmlRaw = false ∧ opts.verbose = false) (hdest : dest ≠ .file false)
    (ha : createArchive req [input] = .val (some a)) (hone : req.markup.archive = false)
    (hf : LocalFile input ∧ input.resource ≠ "_".toList)
    (hp : ∀ w : Work D, FileWork req a.registeredLanguages input w → Parses env w m)
    (hm : m.CarriedSolo a) (hua : m.ua = a) :
    ∃ e, create_srcml opts req env num zero opened (clientHandlers opts (req.cmd out) stat arch cwd tree other) th dest [input] = .val e ∧
      e.exited = false ∧ e.messages = [] ∧ e.files = [] ∧ e.cut = false ∧
      ∀ fs wants, Delivers e.output fs → ∃ h : Sax2, ({ wants := wants } : Sax2).feeds fs = .val h ∧ AnyCalls h.log ∧
        ∀ (fin : Finish) (r : Reader), Reach { todo := h.log.filterMap saxCall, finish := fin } Reader.Step r →
          (∀ hi : 0 < r.log.length, wants.headD false = decide ((r.log[0]).1 = .read)) →
          ∀ i (hi : i < r.log.length),
            (i = 0 → (r.log[i]).1 = .read → ∃ v, gets h.log (r.log[i]).2 = some v ∧ SameSolo a m v) ∧
            (0 < i → (r.log[i]).2 = none) := by
  have hOne : OneUnit req [input] := ⟨input, rfl, hone, by rw [hf.1.protocol]; decide, hf.1.dir, hf.1.plain.1⟩
  have hbit : isoption a.options OPTION_ARCHIVE = false := by
    obtain ⟨⟨b, h1, h2⟩, _⟩ := C72_settings req _ a ha
    have h3 : isSolitary a = b := Run.val.inj h1
    rw [h2.mpr hOne] at h3
    unfold isSolitary at h3
    unfold isoption
    simpa using h3
  obtain ⟨w, w1, w2⟩ := local_work opts req out stat arch cwd tree other hopts.2.2.2 hopts.1 a input hf.1 hf.2
  rw [hbit] at w2
  generalize hh : clientHandlers opts (req.cmd out) stat arch cwd tree other = h at w2
  obtain ⟨⟨R, r1, r2, r3, r4, r5, _, r7⟩, _⟩ := C72_inputs h a a [(input, { requests := [w], handled := 1, full := false })]
    (.cons w2 (show (1 : Int) ≠ -1 by decide) rfl (fun _ => rfl) (fun hx => by cases hx) rfl (.nil a))
  obtain ⟨s0, doc, c1, c2, c3⟩ := C25_solitary_made_unit a th m hbit hm
  obtain ⟨ws, o, s, k1, k2, k3, k4, k5, k6⟩ := requests_written env opts num zero opened a th [(w, m)] (by intro p hp'; cases List.mem_singleton.mp hp'; exact hp w w1)
    ⟨hopts.1, hopts.2.1, hopts.2.2.1⟩ (by intro p hp'; cases List.mem_singleton.mp hp'; exact hm.made) (by intro p hp'; cases List.mem_singleton.mp hp'; exact hua) s0 doc c1 c2
  have hex' : ws.any (·.exits) = false := by
    refine consume_exits env _ ws (fun x hx => ?_) k1
    cases List.mem_singleton.mp hx
    obtain ⟨w', _, _, g1, g2, _⟩ := consume_parses env _ _ (hp w w1)
    obtain ⟨_, _, _, hw0⟩ := w1
    exact ⟨w', g1, g2, by rw [hw0]⟩
  have hopen : (ArchiveIO.openWrite { settings := a, thread := th } true (.other dest.opened)).2 = ((newIO a th).openWrite true (.other true)).2 := by
    cases dest with
    | fd => rfl
    | file b => cases b with
      | true => rfl
      | false => exact absurd rfl hdest
  have herr : R.errors = 0 := r7
  have hreq : R.requests = [(w, m)].map (·.1) := r2
  refine ⟨{ output := s.kept, files := o.files, messages := o.messages }, ?_, rfl, k3, k4, rfl, ?_⟩
  · unfold create_srcml
    rw [ha]
    simp only [Run.bind]
    have r1' : handleInputs h a 0 [input] = .val R := r1
    rw [r1']
    simp only [Run.bind, r5, Bool.false_eq_true, if_false, hopts.1, r3, hopen]
    rw [hreq, k1]
    simp only [hex', Bool.false_eq_true, if_false]
    rw [k2]
    simp only [finishCommand, herr, k3, List.length_nil, Nat.add_zero, Nat.lt_irrefl, gt_iff_lt, if_false]
    rw [if_pos (.inl r4), k5]
    simp only [Run.bind]
  · show ∀ fs wants, Delivers s.kept fs → _
    rw [k6]
    exact c3

/-- **C77** for one file, without `--archive`: the output is a document of one unit, which has exactly the text of the file, and from which the command gets this text back. -/
theorem C77_one_partial {N D : Type} [DecidableEq N] (opts : CmdOptions) (req : CreateReq) (lib : ParseLib) (hio : lib.iconv.WellBehaved) (num : NumberText D) (zero : D)
    (xml : Str → Option N) (view : N → NodeView) (attrsOf : Str → List (Str × Str)) (opened : Str → Bool) (out : Str) (stat : Str → FileKind)
    (arch : Str → Option ArchIn) (cwd : Str) (tree : Str → FsTree) (other : Handlers D) (th : ThreadState) (dest : Destination) (a : Archive) (input : InputSrc) (x : SourceFile)
    (hopts : opts.noarchive = false ∧ opts.xmlFragment = false ∧ opts.xmlRaw = false ∧ opts.verbose = false) (hdest : dest ≠ .file false)
    (ha : createArchive req [input] = .val (some a)) (hone : req.markup.archive = false)
    (hk : KeepsSource a) (hx : CommandFile lib a th req input x) :
    ∃ e, create_srcml opts req (clientEnv lib a th zero xml view attrsOf) num zero opened (clientHandlers opts (req.cmd out) stat arch cwd tree other) th dest [input] = .val e ∧
      e.exited = false ∧ e.messages = [] ∧ e.files = [] ∧ e.cut = false ∧
      ∀ fs wants, Delivers e.output fs → wants.head? = some true → ∃ h : Sax2, ({ wants := wants } : Sax2).feeds fs = .val h ∧ AnyCalls h.log ∧
        ∀ (fin : Finish) (r : Reader), Reach { todo := h.log.filterMap saxCall, finish := fin } Reader.Step r → r.log.map (·.1) = [.read, .read] →
          ∃ (u : UnitData) (name : Str), ReadAll h.log r [u] ∧ x.ReadAs lib a u ∧ WithoutDots (req.attFilename.getD input.resource) name ∧ GivesBack [(name, x.text)] [u] := by
  have hs := createArchive_ok ha
  obtain ⟨v, n, evs, k1, k2, _, k4, k5, k6⟩ := source_parsed hio hs hk hx.ok
  have hat : v.data.attributes = x.unit.data.attributes := k4.same.attributes
  have hm : (MadeUnit.mk a v.data evs).CarriedSolo a :=
    { toFits := (k6 0).1, prolog := hk.prolog, instruction := hk.instruction, escapes := k4.escapes, cpp := (k6 0).2, plain := k4.plain,
      names := by show ∀ p ∈ attrPairs v.data.attributes, _; rw [hat]; exact hx.ok.names,
      pairs := by show v.data.attributes.length % 2 = 0; rw [hat]; exact hx.ok.pairs }
  obtain ⟨e, e1, e2, e3, e4, e5, e6⟩ := C72_one_unit opts req (clientEnv lib a th zero xml view attrsOf) num zero opened out stat arch cwd tree other th dest a input (MadeUnit.mk a v.data evs)
    hopts hdest ha hone ⟨hx.file, hx.name⟩ (fun w hw => file_parses hx k1 ⟨k4.same.language, k4.same.filename, k4.same.version, k4.same.timestamp⟩ _ w hw) hm rfl
  refine ⟨e, e1, e2, e3, e4, e5, ?_⟩
  intro fs wants hd hw
  obtain ⟨h, g1, g0, g2⟩ := e6 fs wants hd
  refine ⟨h, g1, g0, ?_⟩
  intro fin r hr hcalls
  have hlen : r.log.length = 2 := by have := congrArg List.length hcalls; simpa using this
  have hread : ∀ c ∈ r.log, c.1 = .read := by
    intro c hc
    have : c.1 ∈ r.log.map (·.1) := List.mem_map_of_mem hc
    rw [hcalls] at this
    simpa using this
  have hlog := g2 fin r hr (by
    intro hi
    rw [hread _ (List.getElem_mem hi), List.headD_eq_head?_getD, hw]
    rfl)
  obtain ⟨w, w1, w2⟩ := (hlog 0 (by omega)).1 rfl (hread _ (List.getElem_mem _))
  have hend := (hlog 1 (by omega)).2 (by decide)
  have hra : x.ReadAs lib a w := source_read k2 k4 k5 w2.src w2.language w2.filename w2.version w2.timestamp w2.hash w2.attributes (gets_ready w1)
  obtain ⟨name, lang, n1, _, _, n4⟩ := hx.unit
  refine ⟨w, name, ⟨hread, ?_⟩, hra, n1, ?_⟩
  · have hl : r.log = [r.log[0], r.log[1]] := by
      apply List.ext_getElem (by simp [hlen])
      intro i hi hi'
      match i, hi with
      | 0, _ => rfl
      | 1, _ => rfl
      | i + 2, hi => omega
    conv => lhs; rw [hl]
    simp only [List.map_cons, List.map_nil, w1, hend, gets_none, List.cons_append, List.nil_append]
  · apply gives_back rfl
    intro i hi hi'
    match i, hi with
    | 0, _ =>
      refine ⟨hra.src, ?_, gets_ready w1⟩
      rw [show [w][0].filename = w.filename from rfl, hra.filename, n4]
      rfl

/-! ### An example -/

/-- The input `a.c` of the command. -/
def commandInput : InputSrc :=
  match inputSrc (fun _ => .other) "a.c".toList with
  | .val i => i
  | .ub => {}

/-- The file `a.c`, with the unit into which the command parses it. -/
def commandSource : SourceFile := { sampleFile with unit := { data := { filename := some "a.c".toList, language := some "C".toList } } }

theorem command_file : CommandFile sampleLib srcml_archive_create {} {} commandInput commandSource where
  file := ⟨by decide +kernel, by decide +kernel, by decide +kernel, by decide +kernel⟩
  name := by decide +kernel
  from_ := by
    have : commandInput.resource = "a.c".toList := by decide +kernel
    rw [this]; rfl
  unit := ⟨"a.c".toList, "C".toList, ⟨0, by decide +kernel, by rintro ⟨r, hr⟩; cases hr⟩, by decide, by decide +kernel, rfl⟩
  ok := by
    obtain ⟨h1, _, h3, h4, h5, h6, h7, h8, h9, h10, _, _, _, _⟩ := sampleFile_ok
    refine ⟨h1, by unfold LanguageIs; decide +kernel, h3, h4, h5, h6, h7, h8, h9, h10, ?_, rfl, by decide, by decide⟩
    intro n k1 k2
    cases sample_language k1 k2
    have : commandSource.text = exSource := sampleFile_text
    rw [this]
    exact sample_parseOk' _ (.inr rfl) _ (.inr (by decide +kernel))

theorem command_archive : createArchive {} [commandInput, commandInput] = .val (some srcml_archive_create) := by decide +kernel

/-- An instance of `C77_back_partial` and `C77_files_partial`: the file twice. -/
example : ∃ e, create_srcml {} {} (clientEnv sampleLib srcml_archive_create {} (0 : Int) (fun _ => (none : Option Nat)) (fun _ => .text []) (fun _ => [])) sampleNumbers 0 (fun _ => true) createdHandlers {} .fd
    [commandInput, commandInput] = .val e := by
  obtain ⟨e, h1, _⟩ := C77_back_partial {} {} sampleLib iconvBasic_wellBehaved sampleNumbers 0 (fun _ => (none : Option Nat)) (fun _ => .text []) (fun _ => []) (fun _ => true) [] (fun _ => .other) (fun _ => none) []
    (fun _ => .nil) { run := fun _ _ _ => .ub } {} .fd srcml_archive_create [(commandInput, commandSource), (commandInput, commandSource)] ⟨rfl, rfl, rfl, rfl⟩ (by decide)
    command_archive (by simp) (by rintro ⟨i, h, _⟩; simp at h) create_keeps
    (by intro p hp; simp only [List.mem_cons, List.not_mem_nil, or_false, or_self] at hp; subst hp; exact command_file)
  exact ⟨e, h1⟩

/-- The output archive for one file. -/
def oneArchive : Archive := { srcml_archive_create with options := srcml_archive_create.options &&& ~~~OPTION_ARCHIVE &&& ~~~OPTION_HASH }

theorem one_archive : createArchive {} [commandInput] = .val (some oneArchive) := by decide +kernel

theorem one_keeps : KeepsSource oneArchive where
  declared := by decide +kernel
  prefixes := by
    have : mergeNamespaces defaultNamespaces oneArchive.namespaces = defaultNamespaces := by decide +kernel
    rw [this]
    constructor <;> decide +kernel
  plain := by decide +kernel
  cpp := by unfold CppPrefix; decide +kernel
  url := by intro x h; cases h
  version := by intro x h; cases h
  macros := by
    have : oneArchive.userMacroList = [] := rfl
    rw [this]; simp
  encoding := by decide +kernel
  instruction := rfl
  revision := rfl

theorem one_parseOk : ParseOk sampleLib oneArchive {} commandSource.unit LANGUAGE_C [] exSource := by
  have hlc : unitLexConf oneArchive LANGUAGE_C = exLexConf := by
    have h1 : oneArchive.tabstop = 8 := by decide +kernel
    have h2 : isoption (unitOptions oneArchive) OPTION_LINE = false := by decide +kernel
    have h3 : oneArchive.userMacroList = [] := by decide +kernel
    unfold unitLexConf exLexConf
    rw [h1, h2, h3]
  refine ⟨?_, ?_, rfl, sampleSax_reads, ?_, ?_, ?_, ?_⟩
  · have hns : namespacesOf oneArchive (beforeParse oneArchive { commandSource.unit.data with derivedLanguage := LANGUAGE_C } (some [])) = startingNamespaces := by decide +kernel
    refine ⟨by decide +kernel, ?_, by rw [hns]; exact starting_sound, ?_⟩
    · have : mergeNamespaces defaultNamespaces (namespacesOf oneArchive (beforeParse oneArchive { commandSource.unit.data with derivedLanguage := LANGUAGE_C } (some []))) = defaultNamespaces := by decide +kernel
      rw [this]
      constructor <;> decide +kernel
    · have hm : startMeta oneArchive (beforeParse oneArchive { commandSource.unit.data with derivedLanguage := LANGUAGE_C } (some [])) =
          { revision := some "1.0.0".toList, filename := some "a.c".toList, encoding := some [], language := some "C".toList } := by decide +kernel
      rw [hm]
      refine ⟨?_, by simp [attrPairs], by simp [attrPairs], by simp [attrPairs]⟩
      intro v hv
      simp only [List.mem_cons, List.not_mem_nil, or_false, Option.some.injEq, reduceCtorEq, false_or] at hv
      rcases hv with rfl | rfl | rfl | rfl <;> decide
  · exact ⟨.inl (by decide +kernel), .inl (by decide +kernel)⟩
  · rw [hlc]; intro p hp; cases hp
  · rw [hlc]; exact .inl (by decide)
  · rw [hlc]; exact exSource_closed
  · rw [hlc]
    have h1 : isoption (unitOptions oneArchive) OPTION_POSITION = false := by decide +kernel
    have h2 : (isoption (unitOptions oneArchive) OPTION_CPP || usesPreprocessor LANGUAGE_C) = true := by decide +kernel
    rw [h1, h2]
    exact sampleLib_finishes

theorem one_file : CommandFile sampleLib oneArchive {} {} commandInput commandSource where
  file := command_file.file
  name := command_file.name
  from_ := command_file.from_
  unit := ⟨"a.c".toList, "C".toList, ⟨0, by decide +kernel, by rintro ⟨r, hr⟩; cases hr⟩, by decide, by decide +kernel, rfl⟩
  ok := by
    have hs := command_file.ok
    refine ⟨hs.from_, by unfold LanguageIs; decide +kernel, .inr ⟨rfl, rfl⟩, hs.known, hs.uses, hs.converts, hs.decodes, hs.yields, hs.mark, hs.delete, ?_, rfl, by decide, by decide⟩
    intro n k1 k2
    cases sample_language k1 k2
    have : commandSource.text = exSource := sampleFile_text
    rw [this]
    exact one_parseOk

/-- An instance of `C77_one_partial`, and so of `C72_one_unit`. -/
example : ∃ e, create_srcml {} {} (clientEnv sampleLib oneArchive {} (0 : Int) (fun _ => (none : Option Nat)) (fun _ => .text []) (fun _ => [])) sampleNumbers 0 (fun _ => true) createdHandlers {} .fd
    [commandInput] = .val e ∧ e.messages = [] := by
  obtain ⟨e, h1, _, h2, _⟩ := C77_one_partial {} {} sampleLib iconvBasic_wellBehaved sampleNumbers 0 (fun _ => (none : Option Nat)) (fun _ => .text []) (fun _ => []) (fun _ => true) [] (fun _ => .other) (fun _ => none) []
    (fun _ => .nil) { run := fun _ _ _ => .ub } {} .fd oneArchive commandInput commandSource ⟨rfl, rfl, rfl, rfl⟩ (by decide) one_archive rfl one_keeps one_file
  exact ⟨e, h1, h2⟩

end Srcml
