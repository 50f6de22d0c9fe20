import Verif.Spec.CommandLine
import Verif.Props.Command
import Verif.Props.CliOptions
import Verif.Props.SrcmlInput
/-
C85: a command line, the document that it makes, and the source code back from it.
-/
set_option linter.unusedSimpArgs false
namespace Srcml
open Spec CharBuffer

theorem lastOf_mem {α : Type} {value : CliOpt → Option α} {opts : List CliOpt} {x : α} (h : lastOf value opts = some x) : ∃ o ∈ opts, value o = some x := by
  unfold lastOf at h
  exact List.mem_filterMap.mp (List.mem_of_getLast? h)

theorem inputs_named {stat : Str → FileKind} {opts : List CliOpt} {is : List InputSrc} (h : Inputs stat opts is) : ∀ i ∈ is, ∃ v, inputSrc stat v = .val i := by
  induction h with
  | nil => intro i hi; cases hi
  | input h1 _ _ _ ih => intro i hi; exact (List.mem_cons.mp hi).elim (fun e => ⟨_, e ▸ h1⟩) (ih i)
  | style _ _ _ ih => exact ih
  | text h1 _ ih => intro i hi; exact (List.mem_cons.mp hi).elim (fun e => ⟨_, e ▸ h1⟩) (ih i)
  | list h1 _ ih => intro i hi; exact (List.mem_cons.mp hi).elim (fun e => ⟨_, e ▸ h1⟩) (ih i)
  | other _ _ ih => exact ih

theorem inputs_stdin {stat : Str → FileKind} {opts : List CliOpt} {is : List InputSrc} (h : Inputs stat opts is) {v : Str} (hv : .input v ∈ opts) (hs : stdinName v) :
    ∃ i ∈ is, i.protocol = "stdin".toList ∧ i.state = .indeterminate := by
  have hsrc := stdin_src stat v hs
  induction h with
  | nil => cases hv
  | @input w i os is h1 _ _ _ ih =>
    rcases List.mem_cons.mp hv with e | hv
    · cases e
      cases h1.symm.trans hsrc
      exact ⟨_, List.mem_cons_self .., rfl, rfl⟩
    · obtain ⟨j, hj, hp⟩ := ih hv; exact ⟨j, List.mem_cons_of_mem _ hj, hp⟩
  | @style w i os is h1 h2 _ ih =>
    rcases List.mem_cons.mp hv with e | hv
    · cases e
      cases h1.symm.trans hsrc
      rcases h2 with h2 | h2 <;> exact absurd h2 (by decide)
    · exact ih hv
  | text _ _ ih =>
    rcases List.mem_cons.mp hv with e | hv
    · cases e
    · obtain ⟨j, hj, hp⟩ := ih hv; exact ⟨j, List.mem_cons_of_mem _ hj, hp⟩
  | list _ _ ih =>
    rcases List.mem_cons.mp hv with e | hv
    · cases e
    · obtain ⟨j, hj, hp⟩ := ih hv; exact ⟨j, List.mem_cons_of_mem _ hj, hp⟩
  | @other o os is h1 _ ih =>
    rcases List.mem_cons.mp hv with e | hv
    · exact absurd e.symm (h1 v).1
    · exact ih hv

theorem source_of (p : Prop) [Decidable p] (h : ¬ (if p then InputState.srcml else .src) = .srcml) : (if p then InputState.srcml else .src) = .src := by
  by_cases hp : p
  · rw [if_pos hp] at h; exact absurd rfl h
  · rw [if_neg hp]

/-- A file of this machine is source code, unless its name is that of a srcML document. -/
theorem local_source {stat : Str → FileKind} {v : Str} {i : InputSrc} (h : inputSrc stat v = .val i) (hl : LocalFile i) (hr : i.resource ≠ "-".toList) : i.state = .src := by
  unfold inputSrc at h
  dsimp only at h
  split at h
  · cases h
  · have e := Run.val.inj h
    have hp : i.protocol = (inputResource (src_prefix_add_uri v)).1 := by rw [← e]; rfl
    have hres : i.resource = (inputResource (src_prefix_add_uri v)).2 := by rw [← e]; rfl
    have hne : (inputResource (src_prefix_add_uri v)).1 ≠ "text".toList := by rw [← hp, hl.protocol]; decide
    have hs := hl.source
    rw [← e] at hs ⊢
    unfold inputFields at hs ⊢
    simp only [hne, if_false, ← hres, ne_eq, hr, not_false_eq_true, and_self, if_true] at hs ⊢
    exact source_of _ hs

theorem resource_valid {u : Str} (h : ValidValue u) : ValidValue (src_prefix_resource u) := by
  unfold src_prefix_resource
  split
  · exact h
  · exact fun c hc => h c (List.mem_of_mem_drop hc)

/-- The output is one unit: there is one file and no `--archive`. -/
def oneAsked (opts : List CliOpt) (is : List InputSrc) : Bool := decide (is.length = 1) && !given opts .archive

theorem one_asked {opts : List CliOpt} {req : CreateReq} {is : List InputSrc} (hm : req.markup.archive = given opts .archive) (hl : ∀ i ∈ is, LocalFile i) :
    OneUnit req is ↔ oneAsked opts is = true := by
  unfold oneAsked
  constructor
  · rintro ⟨i, rfl, h, _⟩
    rw [hm] at h
    simp [h]
  · intro h
    simp only [Bool.and_eq_true, decide_eq_true_eq, Bool.not_eq_true'] at h
    obtain ⟨i, rfl⟩ := List.length_eq_one_iff.mp h.1
    have := hl i (by simp)
    exact ⟨i, rfl, hm.trans h.2, by rw [this.protocol]; decide, this.dir, this.plain.1⟩

theorem sublist_filter {α : Type} [DecidableEq α] {l m : List α} (h : l.Sublist m) (hn : m.Nodup) : l = m.filter (fun x => decide (x ∈ l)) := by
  induction h with
  | slnil => rfl
  | @cons l m a h ih =>
    have ha : a ∉ l := fun hl => (List.nodup_cons.mp hn).1 (h.subset hl)
    rw [List.filter_cons, if_neg (by simpa using ha)]
    exact ih (List.nodup_cons.mp hn).2
  | @cons_cons l m a h ih =>
    rw [List.filter_cons, if_pos (by simp)]
    congr 1
    have := ih (List.nodup_cons.mp hn).2
    conv => lhs; rw [this]
    apply List.filter_congr
    intro x hx
    have : x ≠ a := by rintro rfl; exact (List.nodup_cons.mp hn).1 hx
    simp [this]

theorem tabs_given (opts : List CliOpt) : (lastOf tabsOf opts).isSome = true ↔ ∃ n, .tabs n ∈ opts := by
  unfold lastOf
  rw [Option.isSome_iff_exists]
  constructor
  · rintro ⟨n, h⟩
    obtain ⟨o, ho, hv⟩ := lastOf_mem (value := tabsOf) h
    cases o <;> simp only [tabsOf, reduceCtorEq] at hv
    exact ⟨_, ho⟩
  · rintro ⟨n, h⟩
    have hm : n ∈ opts.filterMap tabsOf := List.mem_filterMap.mpr ⟨_, h, rfl⟩
    cases hg : (opts.filterMap tabsOf).getLast? with
    | none => rw [List.getLast?_eq_none_iff] at hg; rw [hg] at hm; cases hm
    | some x => exact ⟨x, rfl⟩

set_option maxHeartbeats 1000000 in
/-- **C85.** From the command line to the settings. A user gives files of this machine to the command, asks for srcML of them and for nothing else, and `--filename` only if the output is one unit. Then the options are
accepted, the only step is to make srcML (and to compress it, if the name of the output says so), the inputs are those files in that order, and the settings of the output are those that the options ask for. -/
theorem C85_request (stat : Str → FileKind) (enc : Str → Bool) (opts : List CliOpt) (hacc : Accepted stat enc opts) (hp : OnlySrcml stat opts) (is : List InputSrc) (hi : Inputs stat opts is) (hne : is ≠ [])
    (hl : ∀ i ∈ is, LocalFile i ∧ i.resource ≠ "-".toList) (hf : oneAsked opts is = false → ∀ v, .filename v ∉ opts) :
    ∃ r a out, parseOpts stat enc opts = .val (some r) ∧ inputSrc stat ((lastOf outputOf opts).getD "stdout://-".toList) = .val out ∧
      r.steps = some (if out.compressions = [] then [.createSrcml] else [.createSrcml, .compress]) ∧ r.mainInputs = is ∧
      createArchive r.createReq is = .val (some a) ∧ AsAsked opts (oneAsked opts is) a ∧ KeepsSource a := by
  obtain ⟨r, hr⟩ := (C83_accepted stat enc opts).mpr hacc
  have hstd : ∀ v, .input v ∈ opts → ¬ stdinName v := by
    intro v hv hs
    obtain ⟨i, h1, h2, _⟩ := inputs_stdin hi hv hs
    rw [(hl i h1).1.protocol] at h2
    exact absurd h2 (by decide)
  have hmain := (C83_no_stdin stat enc opts hstd r hr is hi).1 hne
  obtain ⟨⟨is', hi1, hi2, _⟩, ⟨out, ho1, ho2⟩, _⟩ := C83_inputs stat enc opts r hr
  cases inputs_unique hi hi1
  have hin : r.inputs = is := hi2 hne
  have hurl := C83_url stat enc opts r hr (by
    intro i h
    rw [hin] at h
    exact (hl i (by rw [h]; simp)).1.dir)
  obtain ⟨hset, hns, _⟩ := C83_settings stat enc opts r hr
  have hnn : r.createReq.namespaces = [] := by
    cases hc : r.createReq.namespaces with
    | nil => rfl
    | cons n l =>
      obtain ⟨b, c, v, e, _⟩ := (hns n.1 n.2).mp (by rw [hc]; exact List.mem_cons_self ..)
      exact absurd (by rw [e]; simp) (hp.namespaces v)
  have noflag : ∀ f ∈ [CliFlag.version, .verbose, .outputSrcmlOuter, .outputSrcmlInner, .outputSrc, .parserTest, .cat] ++ showing, given opts f = false := by
    intro f hf
    simp only [given, decide_eq_false_iff_not]
    exact hp.flags f hf
  -- the archive
  generalize hq : r.createReq = req at *
  have q1 : req.xmlEncoding = some ((lastOf xmlEncodingOf opts).getD "UTF-8".toList) := by rw [hset]
  have q2 : req.srcEncoding = lastOf srcEncodingOf opts := by rw [hset]
  have q3 : req.attVersion = lastOf versionOf opts := by rw [hset]
  have q4 : req.attLanguage = lastOf languageOf opts := by rw [hset]
  have q5 : req.attFilename = lastOf filenameOf opts := by rw [hset]
  have q6 : req.markup = { archive := given opts .archive, position := given opts .position || (lastOf tabsOf opts).isSome, cpp := given opts .cpp, markupIf0 := given opts .cppMarkupIf0, textElse := given opts .cppNomarkupElse, noXmlDecl := given opts .noXmlDeclaration, hash := given opts .hash } := by rw [hset]
  have q7 : req.tabs = (lastOf tabsOf opts).getD 8 := by rw [hset]
  have q8 : req.languageExt = opts.filterMap extensionOf := by rw [hset]
  clear hset
  have hone := one_asked (opts := opts) (req := req) (is := is) (by rw [q6]) (fun i h => (hl i h).1)
  have hu : UrlIs req is ((lastOf urlOf opts).map src_prefix_resource) := by
    cases hx : lastOf urlOf opts with
    | none => exact .inr (.inr ⟨hurl.trans hx, fun i h => (hl i (by rw [h]; simp)).1.plain.1, rfl⟩)
    | some u => exact .inl ⟨u, hurl.trans hx, rfl⟩
  obtain ⟨x, hx1, hx2⟩ := C72_refused req is _ hu
  have hnot : ¬ NotAccepted req is := by
    rintro (⟨h1, h2⟩ | ⟨arg, h1, ext, lang, h2, h3⟩)
    · rw [hone] at h1
      have h1 : oneAsked opts is = false := by simpa using h1
      rw [q5] at h2
      cases hx : lastOf filenameOf opts with
      | none => exact h2 hx
      | some v =>
        obtain ⟨o, ho, hv⟩ := lastOf_mem hx
        cases o <;> simp only [filenameOf, reduceCtorEq] at hv
        exact hf h1 _ ho
    · rw [q8] at h1
      obtain ⟨o, ho, hv⟩ := List.mem_filterMap.mp h1
      cases o <;> simp only [extensionOf, reduceCtorEq] at hv
      cases hv
      obtain ⟨e, l, k1, k2, k3⟩ := hp.extensions _ ho
      have e1 := (splitExt_parts _ _ _).mpr h2
      rw [(splitExt_parts _ e l).mpr (.inl ⟨k1, k2⟩)] at e1
      cases e1
      exact h3 k3
  cases x with
  | none => exact absurd (hx2.mp rfl) hnot
  | some a =>
    obtain ⟨⟨b, s1, s2⟩, ⟨b', s3, s4⟩, s5, s6, s7, s8, s9, s10, s11, s12, _⟩ := C72_settings req is a hx1
    have hua : a.url = (lastOf urlOf opts).map src_prefix_resource := Run.val.inj (((urlAsked_iff req is _).mpr s10).symm.trans ((urlAsked_iff req is _).mpr hu))
    refine ⟨r, a, out, hr, ho2, ?_, hmain, by rw [hq]; exact hx1, ?_, ?_⟩
    · obtain ⟨l, l1, l2, l3, l4, l5, l6⟩ := (C83_steps stat enc opts r hr [] hp.queries out ho1).2 (noflag _ (by decide))
      have c1 : .createSrcml ∈ l := l3.mpr (.inr (.inr (.inr (by
        obtain ⟨i, hi'⟩ := List.exists_mem_of_ne_nil _ hne
        obtain ⟨v, hv⟩ := inputs_named hi i hi'
        exact ⟨i, by rw [hmain]; exact hi', local_source hv (hl i hi').1 (hl i hi').2⟩))))
      have c2 : .displayMetadata ∉ l := by
        intro hd
        rcases l4.mp hd with ⟨f, h1, h2⟩ | h | h
        · exact hp.flags f (List.mem_append_right _ h1) h2
        · cases hx : lastOf showPrefixOf opts with
          | none => exact h hx
          | some v =>
            obtain ⟨o, ho, hv⟩ := lastOf_mem hx
            cases o <;> simp only [showPrefixOf, reduceCtorEq] at hv
            exact (hp.shows _).1 ho
        · cases hx : lastOf prettyOf opts with
          | none => exact h hx
          | some v =>
            obtain ⟨o, ho, hv⟩ := lastOf_mem hx
            cases o <;> simp only [prettyOf, reduceCtorEq] at hv
            exact (hp.shows _).2 ho
      have c3 : .createSrc ∉ l := by
        intro hd
        rcases l5.mp hd with h | h
        · exact hp.flags .outputSrc (by decide) h
        · exact h.2.1 c1
      rw [l1]
      congr 1
      by_cases hc : out.compressions = []
      · rw [if_pos hc]
        have c4 : .compress ∉ l := by rw [l6]; simp [hc]
        rw [sublist_filter l2 (by decide)]
        simp [List.filter_cons, c1, c2, c3, c4]
      · rw [if_neg hc]
        have c4 : .compress ∈ l := by rw [l6]; exact hc
        rw [sublist_filter l2 (by decide)]
        simp [List.filter_cons, c1, c2, c3, c4]
    · refine ⟨?_, ?_, by rw [s5, q1], by rw [s6, q2], by rw [s7, q3], by rw [s8, q4], by rw [s9, q7], hua, ?_, ?_⟩
      · rw [s1]
        congr 1
        rw [Bool.eq_iff_iff, s2, hone]
      · rw [s3]
        congr 1
        rw [Bool.eq_iff_iff, s4, hone, q6]
        simp
      · intro i
        rw [s11, q6]
        have ht : (lastOf tabsOf opts).isSome = true ↔ ∃ n, .tabs n ∈ opts := tabs_given opts
        have hr : ∀ u, ¬ Registers req u := by rintro u ⟨p, h⟩; rw [hnn] at h; cases h
        simp only [given, decide_eq_true_eq, Bool.or_eq_true, ht, hr, or_false]
      · rw [← q8]; exact s12
    · obtain ⟨url, _, e⟩ := create_done req is a hx1
      have w := (word_bits' req.markup (oneUnit req is)).2.2.2.2.2.2.2.2.2
      have hn : a.namespaces = startingNamespaces := by rw [e]; show req.namespaces.foldl _ _ = _; rw [hnn]; rfl
      have ho : a.options = setupWord req.markup (oneUnit req is) := by rw [e]; show req.namespaces.foldl _ _ = _; rw [hnn]; rfl
      refine ⟨?_, ?_, ?_, ?_, ?_, ?_, ?_, ?_, ?_, ?_⟩
      · rw [ho, OPTION_NAMESPACE_DECL, isoption_getLsbD _ 8 (by decide)]; exact w
      · rw [hn]; exact create_keeps.prefixes
      · rw [hn]; exact create_keeps.plain
      · have := create_keeps.cpp
        unfold CppPrefix srcml_archive_get_prefix_from_uri at this ⊢
        rw [hn]; exact this
      · intro x hx
        rw [hua] at hx
        cases hy : lastOf urlOf opts with
        | none => rw [hy] at hx; cases hx
        | some u =>
          rw [hy] at hx
          cases hx
          obtain ⟨o, ho, hv⟩ := lastOf_mem hy
          cases o <;> simp only [urlOf, reduceCtorEq] at hv
          cases hv
          exact resource_valid (hp.values _ (.inl ho))
      · intro x hx
        rw [s7, q3] at hx
        obtain ⟨o, ho, hv⟩ := lastOf_mem hx
        cases o <;> simp only [versionOf, reduceCtorEq] at hv
        cases hv
        exact hp.values _ (.inr ho)
      · rw [e]; exact create_keeps.macros
      · rw [s5, q1]
        show '?' ∉ (lastOf xmlEncodingOf opts).getD _ ∧ '>' ∉ (lastOf xmlEncodingOf opts).getD _
        cases hy : lastOf xmlEncodingOf opts with
        | none => decide
        | some u =>
          obtain ⟨o, ho, hv⟩ := lastOf_mem hy
          cases o <;> simp only [xmlEncodingOf, reduceCtorEq] at hv
          cases hv
          exact hp.encoding _ ho
      · rw [e]; rfl
      · rw [e]; rfl

/-- The command of the options, as far as it makes srcML. -/
structure Spec.CommandOf (stat : Str → FileKind) (enc : Str → Bool) (opts : List CliOpt) (is : List InputSrc) (r : CliReq) (a : Archive) : Prop where
  parsed : parseOpts stat enc opts = .val (some r)
  inputs : r.mainInputs = is
  output : ∃ out, inputSrc stat ((lastOf outputOf opts).getD "stdout://-".toList) = .val out ∧ r.steps = some (if out.compressions = [] then [.createSrcml] else [.createSrcml, .compress])
  archive : createArchive r.createReq is = .val (some a)
  asked : AsAsked opts (oneAsked opts is) a

theorem given_file {stat : Str → FileKind} {enc : Str → Bool} {opts : List CliOpt} {r : CliReq} (hr : parseOpts stat enc opts = .val (some r)) (hv : ∀ o ∈ opts, ValidOpt stat enc o) {lib : ParseLib} {a : Archive} {th : ThreadState} {i : InputSrc} {x : SourceFile}
    (hl : LocalFile i) (h : GivenFile lib a th opts i x) : CommandFile lib a th r.createReq i x := by
  obtain ⟨hset, _⟩ := C83_settings stat enc opts r hr
  have q3 : r.createReq.attVersion = lastOf versionOf opts := by rw [hset]
  have q4 : r.createReq.attLanguage = lastOf languageOf opts := by rw [hset]
  have q5 : r.createReq.attFilename = lastOf filenameOf opts := by rw [hset]
  obtain ⟨name, lang, k1, k2, k3, k4⟩ := h.unit
  refine ⟨hl, h.name, h.from_, ⟨name, lang, by rw [q5]; exact k1, k2, ?_, by rw [q3]; exact k4⟩, h.ok⟩
  rw [q4, q5]
  rcases k3 with k3 | k3
  · obtain ⟨o, ho, hx⟩ := lastOf_mem k3
    rw [k3]
    cases o <;> simp only [languageOf, reduceCtorEq] at hx
    cases hx
    have hv := hv _ ho
    cases lang with
    | nil => exact absurd (show [] ∈ ["C", "C++", "C#", "Java", "Objective-C"].map String.toList from hv) (by decide)
    | cons c l => rfl
  · rw [k3.1]
    exact k3.2

theorem no_extras {stat : Str → FileKind} {enc : Str → Bool} {opts : List CliOpt} {r : CliReq} (hr : parseOpts stat enc opts = .val (some r)) (hp : OnlySrcml stat opts) :
    r.cmdOptions.noarchive = false ∧ r.cmdOptions.xmlFragment = false ∧ r.cmdOptions.xmlRaw = false ∧ r.cmdOptions.verbose = false := by
  obtain ⟨hc, hd, _⟩ := C83_commands stat enc opts r hr
  have hd : r.cmdOptions.toDirectory = false := by
    cases hx : r.cmdOptions.toDirectory with
    | false => rfl
    | true => obtain ⟨o, h1, h2⟩ := hd.mp hx; exact absurd h2 (hp.directory o h1)
  have noflag : ∀ f ∈ [CliFlag.version, .verbose, .outputSrcmlOuter, .outputSrcmlInner, .outputSrc, .parserTest, .cat] ++ showing, given opts f = false := by
    intro f hf
    simp only [given, decide_eq_false_iff_not]
    exact hp.flags f hf
  rw [hd] at hc
  refine ⟨by rw [hc], ?_, ?_, ?_⟩
  · rw [hc]; exact noflag _ (by decide)
  · rw [hc]; exact noflag _ (by decide)
  · rw [hc]; exact noflag _ (by decide)

/-- **C85.** A command line that makes an archive, and the source code back from it. A user gives files to the command, more than one or with `--archive`, and asks for srcML of them and for nothing else. Then the command runs
with the settings that the options ask for, writes no message and ends normally; from what it writes a user gets, in every interleaving of the threads of the reader and whatever the pieces in which it is delivered, one
unit for each file, and from these units the command gives the source code of each file back. What is missing is what is missing in `C77_back_partial`, and the options for namespaces. -/
theorem C85_archive_partial {N D : Type} [DecidableEq N] (stat : Str → FileKind) (enc : Str → Bool) (opts : List CliOpt) (hacc : Accepted stat enc opts) (hp : OnlySrcml stat opts) (is : List InputSrc)
    (hi : Inputs stat opts is) (hne : is ≠ []) (hl : ∀ i ∈ is, LocalFile i ∧ i.resource ≠ "-".toList) (hone : is.length ≠ 1 ∨ .flag .archive ∈ opts) (hf : ∀ v, .filename v ∉ opts) :
    ∃ r a, CommandOf stat enc opts is r a ∧
      ∀ (lib : ParseLib) (_ : lib.iconv.WellBehaved) (num : NumberText D) (zero : D) (xml : Str → Option N) (view : N → NodeView) (attrsOf : Str → List (Str × Str)) (opened : Str → Bool) (out : Str)
        (arch : Str → Option ArchIn) (cwd : Str) (tree : Str → FsTree) (other : Handlers D) (th : ThreadState) (dest : Destination) (xs : List SourceFile), dest ≠ .file false → xs.length = is.length →
        (∀ k (h1 : k < is.length) (h2 : k < xs.length), GivenFile lib a th opts is[k] xs[k]) →
        ∃ e, create_srcml r.cmdOptions r.createReq (clientEnv lib a th zero xml view attrsOf) num zero opened (clientHandlers r.cmdOptions (r.createReq.cmd out) stat arch cwd tree other) th dest r.mainInputs = .val e ∧
          e.exited = false ∧ e.messages = [] ∧ e.files = [] ∧ e.cut = false ∧
          ∀ fs wants, Delivers e.output fs → (∀ i, i ≤ is.length → wants[i]? = some true) → ∃ h : Sax2, ({ wants := wants } : Sax2).feeds fs = .val h ∧ AnyCalls h.log ∧
            ∀ (fin : Finish) (rd : Reader), Reach { todo := h.log.filterMap saxCall, finish := fin } Reader.Step rd → rd.log.map (·.1) = List.replicate (is.length + 1) .read →
              ∃ (us : List UnitData) (files : List (Str × Str)), ReadAll h.log rd us ∧ files.length = is.length ∧
                (∀ k (h0 : k < files.length) (h1 : k < is.length) (h2 : k < xs.length), WithoutDots (is[k]).resource (files[k]).1 ∧ (files[k]).2 = (xs[k]).text) ∧ GivesBack files us := by
  have hoa : oneAsked opts is = false := by
    unfold oneAsked
    rcases hone with h | h
    · simp [h]
    · simp [given, h]
  obtain ⟨r, a, out, h1, h2, h3, h4, h5, h6, h7⟩ := C85_request stat enc opts hacc hp is hi hne hl (fun _ => hf)
  refine ⟨r, a, ⟨h1, h4, ⟨out, h2, h3⟩, h5, h6⟩, ?_⟩
  intro lib hio num zero xml view attrsOf opened outName arch cwd tree other th dest xs hdest hlen hx
  have hm : (is.zip xs).map (·.1) = is := by rw [List.map_fst_zip]; omega
  have hnone : ¬ OneUnit r.createReq is := by
    rw [one_asked (opts := opts) (by rw [(C83_settings stat enc opts r h1).1]) (fun i h => (hl i h).1), hoa]
    simp
  have hps : ∀ p ∈ is.zip xs, CommandFile lib a th r.createReq p.1 p.2 := by
    intro p hp'
    obtain ⟨k, hk, rfl⟩ := List.getElem_of_mem hp'
    rw [List.length_zip] at hk
    simp only [List.getElem_zip]
    exact given_file h1 hacc.values (hl _ (List.getElem_mem _)).1 (hx k (by omega) (by omega))
  obtain ⟨e, e1, e2, e3, e4, e5, _⟩ := C77_files_partial r.cmdOptions r.createReq lib hio num zero xml view attrsOf opened outName stat arch cwd tree other th dest a (is.zip xs) (no_extras h1 hp) hdest
    (by rw [hm]; exact h5) (by intro h; rw [h] at hm; exact hne hm.symm) (by rw [hm]; exact hnone) h7 hps
  obtain ⟨e', e1', e6⟩ := C77_back_partial r.cmdOptions r.createReq lib hio num zero xml view attrsOf opened outName stat arch cwd tree other th dest a (is.zip xs) (no_extras h1 hp) hdest
    (by rw [hm]; exact h5) (by intro h; rw [h] at hm; exact hne hm.symm) (by rw [hm]; exact hnone) h7 hps
  cases e1.symm.trans e1'
  rw [hm] at e1
  have hzl : (is.zip xs).length = is.length := by rw [List.length_zip]; omega
  refine ⟨e, by rw [h4]; exact e1, e2, e3, e4, e5, ?_⟩
  intro fs wants hd hw
  obtain ⟨h, g1, g2, g3⟩ := e6 fs wants hd (by rw [hzl]; exact hw)
  refine ⟨h, g1, g2, ?_⟩
  intro fin rd hrd hc
  obtain ⟨us, files, u1, u2, u3, u4⟩ := g3 fin rd hrd (by rw [hzl]; exact hc)
  refine ⟨us, files, u1, u2.trans hzl, ?_, u4⟩
  intro k k0 k1 k2
  have := u3 k k0 (by omega)
  simpa only [List.getElem_zip] using this

/-- **C85** for one file, without `--archive`: the output is a document of one unit, named by `--filename` or by the file. -/
theorem C85_one_partial {N D : Type} [DecidableEq N] (stat : Str → FileKind) (enc : Str → Bool) (opts : List CliOpt) (hacc : Accepted stat enc opts) (hp : OnlySrcml stat opts) (input : InputSrc)
    (hi : Inputs stat opts [input]) (hl : LocalFile input ∧ input.resource ≠ "-".toList) (hone : .flag .archive ∉ opts) :
    ∃ r a, CommandOf stat enc opts [input] r a ∧
      ∀ (lib : ParseLib) (_ : lib.iconv.WellBehaved) (num : NumberText D) (zero : D) (xml : Str → Option N) (view : N → NodeView) (attrsOf : Str → List (Str × Str)) (opened : Str → Bool) (out : Str)
        (arch : Str → Option ArchIn) (cwd : Str) (tree : Str → FsTree) (other : Handlers D) (th : ThreadState) (dest : Destination) (x : SourceFile), dest ≠ .file false → GivenFile lib a th opts input x →
        ∃ e, create_srcml r.cmdOptions r.createReq (clientEnv lib a th zero xml view attrsOf) num zero opened (clientHandlers r.cmdOptions (r.createReq.cmd out) stat arch cwd tree other) th dest r.mainInputs = .val e ∧
          e.exited = false ∧ e.messages = [] ∧ e.files = [] ∧ e.cut = false ∧
          ∀ fs wants, Delivers e.output fs → wants.head? = some true → ∃ h : Sax2, ({ wants := wants } : Sax2).feeds fs = .val h ∧ AnyCalls h.log ∧
            ∀ (fin : Finish) (rd : Reader), Reach { todo := h.log.filterMap saxCall, finish := fin } Reader.Step rd → rd.log.map (·.1) = [.read, .read] →
              ∃ (u : UnitData) (name : Str), ReadAll h.log rd [u] ∧ x.ReadAs lib a u ∧ WithoutDots ((lastOf filenameOf opts).getD input.resource) name ∧ GivesBack [(name, x.text)] [u] := by
  have hoa : oneAsked opts [input] = true := by
    unfold oneAsked
    simp [given, hone]
  obtain ⟨r, a, out, h1, h2, h3, h4, h5, h6, h7⟩ := C85_request stat enc opts hacc hp [input] hi (by simp) (by intro i h; cases List.mem_singleton.mp h; exact hl) (fun h => by rw [hoa] at h; cases h)
  refine ⟨r, a, ⟨h1, h4, ⟨out, h2, h3⟩, h5, h6⟩, ?_⟩
  intro lib hio num zero xml view attrsOf opened outName arch cwd tree other th dest x hdest hx
  have q : r.createReq.markup.archive = false ∧ r.createReq.attFilename = lastOf filenameOf opts := by
    rw [(C83_settings stat enc opts r h1).1]
    exact ⟨by simp [given, hone], rfl⟩
  have := C77_one_partial r.cmdOptions r.createReq lib hio num zero xml view attrsOf opened outName stat arch cwd tree other th dest a input x (no_extras h1 hp) hdest h5 q.1 h7
    (given_file h1 hacc.values hl.1 hx)
  rw [h4]
  rw [q.2] at this
  exact this

/-- **C85.** The command back. A user gives the document to the command, and at most `--unit`, `--src-encoding`, or an output that is not compressed and not srcML: then the only step is to make source code of it. -/
theorem C85_back (stat : Str → FileKind) (enc : Str → Bool) (opts : List CliOpt) (hacc : Accepted stat enc opts) (input : InputSrc) (hi : Inputs stat opts [input]) (hs : input.state = .srcml)
    (hf : ∀ f, .flag f ∉ opts) (hq : Queries stat opts []) (hsh : ∀ v, .showPrefix v ∉ opts ∧ .pretty v ∉ opts)
    (hout : ∀ out, inputSrc stat ((lastOf outputOf opts).getD "stdout://-".toList) = .val out → out.state ≠ .srcml ∧ out.compressions = []) :
    ∃ r, parseOpts stat enc opts = .val (some r) ∧ r.mainInputs = [input] ∧ r.steps = some [.createSrc] ∧ r.unitOf = (lastOf unitNumberOf opts).getD 0 := by
  obtain ⟨r, hr⟩ := (C83_accepted stat enc opts).mpr hacc
  have hstd : ∀ v, .input v ∈ opts → ¬ stdinName v := by
    intro v hv hx
    obtain ⟨i, h1, _, h3⟩ := inputs_stdin hi hv hx
    cases List.mem_singleton.mp h1
    rw [hs] at h3
    cases h3
  have hmain := (C83_no_stdin stat enc opts hstd r hr [input] hi).1 (by simp)
  obtain ⟨⟨is', hi1, hi2, _⟩, ⟨out, ho1, ho2⟩, _⟩ := C83_inputs stat enc opts r hr
  cases inputs_unique hi hi1
  have hin : r.inputs = [input] := hi2 (by simp)
  refine ⟨r, hr, hmain, ?_, C83_unit stat enc opts r hr input hin⟩
  obtain ⟨o1, o2⟩ := hout out ho2
  obtain ⟨l, l1, l2, l3, l4, l5, l6⟩ := (C83_steps stat enc opts r hr [] hq out ho1).2 (by simp [given, hf])
  have c1 : .createSrcml ∉ l := by
    intro h
    rcases l3.mp h with ⟨f, _, h⟩ | h | h | ⟨i, h1, h2⟩
    · exact hf f h
    · exact h rfl
    · exact o1 h
    · rw [hmain] at h1
      cases List.mem_singleton.mp h1
      rw [hs] at h2
      cases h2
  have c2 : .displayMetadata ∉ l := by
    intro hd
    rcases l4.mp hd with ⟨f, _, h2⟩ | h | h
    · exact hf f h2
    · cases hx : lastOf showPrefixOf opts with
      | none => exact h hx
      | some v =>
        obtain ⟨o, ho, hv⟩ := lastOf_mem hx
        cases o <;> simp only [showPrefixOf, reduceCtorEq] at hv
        exact (hsh _).1 ho
    · cases hx : lastOf prettyOf opts with
      | none => exact h hx
      | some v =>
        obtain ⟨o, ho, hv⟩ := lastOf_mem hx
        cases o <;> simp only [prettyOf, reduceCtorEq] at hv
        exact (hsh _).2 ho
  have c3 : .createSrc ∈ l := l5.mpr (.inr ⟨o1, c1, c2⟩)
  have c4 : .compress ∉ l := by rw [l6]; simp [o2]
  rw [l1, sublist_filter l2 (by decide)]
  simp [List.filter_cons, c1, c2, c3, c4]

/-! ### An example -/

/-- The output archive of `srcml a.c`. -/
def lineArchive : Archive := { oneArchive with encoding := some "UTF-8".toList }

theorem line_parseOk : ParseOk sampleLib lineArchive {} commandSource.unit LANGUAGE_C [] exSource := by
  have hlc : unitLexConf lineArchive LANGUAGE_C = exLexConf := by
    have h1 : lineArchive.tabstop = 8 := by decide +kernel
    have h2 : isoption (unitOptions lineArchive) OPTION_LINE = false := by decide +kernel
    have h3 : lineArchive.userMacroList = [] := by decide +kernel
    unfold unitLexConf exLexConf
    rw [h1, h2, h3]
  refine ⟨?_, ?_, rfl, sampleSax_reads, ?_, ?_, ?_, ?_⟩
  · have hns : namespacesOf lineArchive (beforeParse lineArchive { commandSource.unit.data with derivedLanguage := LANGUAGE_C } (some [])) = startingNamespaces := by decide +kernel
    refine ⟨by decide +kernel, ?_, by rw [hns]; exact starting_sound, ?_⟩
    · have : mergeNamespaces defaultNamespaces (namespacesOf lineArchive (beforeParse lineArchive { commandSource.unit.data with derivedLanguage := LANGUAGE_C } (some []))) = defaultNamespaces := by decide +kernel
      rw [this]
      constructor <;> decide +kernel
    · have hm : startMeta lineArchive (beforeParse lineArchive { commandSource.unit.data with derivedLanguage := LANGUAGE_C } (some [])) =
          { revision := some "1.0.0".toList, filename := some "a.c".toList, encoding := some [], language := some "C".toList } := by decide +kernel
      rw [hm]
      refine ⟨?_, by simp [attrPairs], by simp [attrPairs], by simp [attrPairs]⟩
      intro v hv
      simp only [List.mem_cons, List.not_mem_nil, or_false, Option.some.injEq, reduceCtorEq, false_or] at hv
      rcases hv with rfl | rfl | rfl | rfl <;> decide
  · exact ⟨.inl (by decide +kernel), .inl (by decide +kernel)⟩
  · rw [hlc]; intro p hp; cases hp
  · rw [hlc]; exact .inl (by decide)
  · rw [hlc]; exact exSource_closed
  · rw [hlc]
    have h1 : isoption (unitOptions lineArchive) OPTION_POSITION = false := by decide +kernel
    have h2 : (isoption (unitOptions lineArchive) OPTION_CPP || usesPreprocessor LANGUAGE_C) = true := by decide +kernel
    rw [h1, h2]
    exact sampleLib_finishes

theorem line_input : inputSrc (fun _ => .other) "a.c".toList = .val commandInput := by decide +kernel

theorem line_accepted (enc : Str → Bool) : Accepted (fun _ => .other) enc [.input "a.c".toList] := by
  refine ⟨?_, ?_, ?_, ?_, .inl ?_⟩
  · intro o ho
    cases List.mem_singleton.mp ho
    exact ⟨_, line_input⟩
  · rintro a b h ⟨h1, h2⟩
    cases List.mem_singleton.mp h1
    cases h
  · intro ts h
    cases queries_unique h (.input line_input (by decide +kernel) (by decide +kernel) .nil)
    exact ⟨_, rfl⟩
  · intro h; exact absurd rfl h
  · rintro u ⟨before, after, v, h, _⟩
    have hm : CliOpt.xmlns v ∈ [CliOpt.input "a.c".toList] := by rw [h]; simp
    exact absurd (List.mem_singleton.mp hm) (by simp)

theorem line_only : OnlySrcml (fun _ => .other) [.input "a.c".toList] where
  flags := by intro f _ h; exact absurd (List.mem_singleton.mp h) (by simp)
  shows := by intro v; exact ⟨by simp, by simp⟩
  directory := by
    intro o ho h
    cases List.mem_singleton.mp ho
    exact h
  queries := .input line_input (by decide +kernel) (by decide +kernel) .nil
  namespaces := by intro v; simp
  values := by intro u h; simp at h
  encoding := by intro u h; simp at h
  extensions := by intro u h; simp at h

theorem line_file : GivenFile sampleLib lineArchive {} [.input "a.c".toList] commandInput commandSource where
  name := command_file.name
  from_ := command_file.from_
  unit := ⟨"a.c".toList, "C".toList, ⟨0, by decide +kernel, by rintro ⟨r, hr⟩; cases hr⟩, by decide, .inr (by decide +kernel), rfl⟩
  ok := by
    have hs := command_file.ok
    refine ⟨hs.from_, by unfold LanguageIs; decide +kernel, .inr ⟨rfl, rfl⟩, hs.known, hs.uses, hs.converts, hs.decodes, hs.yields, hs.mark, hs.delete, ?_, rfl, by decide, by decide⟩
    intro n k1 k2
    cases sample_language k1 k2
    have : commandSource.text = exSource := sampleFile_text
    rw [this]
    exact line_parseOk

theorem line_archive : createArchive { xmlEncoding := some "UTF-8".toList } [commandInput] = .val (some lineArchive) := by decide +kernel

/-- An instance of `C85_one_partial`, and so of `C85_request`: `srcml a.c`. -/
example (enc : Str → Bool) : ∃ r a e, CommandOf (fun _ => .other) enc [.input "a.c".toList] [commandInput] r a ∧
    create_srcml r.cmdOptions r.createReq (clientEnv sampleLib a {} (0 : Int) (fun _ => (none : Option Nat)) (fun _ => .text []) (fun _ => [])) sampleNumbers 0 (fun _ => true)
      (clientHandlers r.cmdOptions (r.createReq.cmd []) (fun _ => .other) (fun _ => none) [] (fun _ => .nil) { run := fun _ _ _ => .ub }) {} .fd r.mainInputs = .val e ∧ e.messages = [] := by
  obtain ⟨r, a, h1, h2⟩ := C85_one_partial (N := Nat) (D := Int) (fun _ => .other) enc [.input "a.c".toList] (line_accepted enc) line_only commandInput
    (.input line_input (by decide +kernel) (by decide +kernel) .nil) ⟨command_file.file, by decide +kernel⟩ (by simp)
  have hset := C83_settings _ _ _ _ h1.parsed
  have hq : r.createReq = { xmlEncoding := some "UTF-8".toList } := by
    have hu : r.createReq.attUrl = none := C83_url _ _ _ _ h1.parsed (by
      intro i hi
      obtain ⟨is, k1, k2, _⟩ := (C83_inputs _ _ _ _ h1.parsed).1
      cases inputs_unique k1 (.input line_input (by decide +kernel) (by decide +kernel) .nil)
      cases (k2 (by simp)).symm.trans hi
      exact command_file.file.dir)
    have hn : r.createReq.namespaces = [] := by
      cases hc : r.createReq.namespaces with
      | nil => rfl
      | cons n l =>
        obtain ⟨b, c, v, e, _⟩ := (hset.2.1 n.1 n.2).mp (by rw [hc]; exact List.mem_cons_self ..)
        exact absurd (by rw [e]; simp) (line_only.namespaces v)
    rw [hset.1, hu, hn]
    decide +kernel
  have ha := h1.archive
  rw [hq, line_archive] at ha
  cases ha
  obtain ⟨e, e1, _, e3, _⟩ := h2 sampleLib iconvBasic_wellBehaved sampleNumbers 0 (fun _ => none) (fun _ => .text []) (fun _ => []) (fun _ => true) [] (fun _ => none) [] (fun _ => .nil)
    { run := fun _ _ _ => .ub } {} .fd commandSource (by decide) line_file
  exact ⟨r, lineArchive, e, h1, e1, e3⟩

end Srcml
