import Verif.Spec.Create
import Verif.Props.Consume
import Verif.Props.Archive
import Verif.Props.ArchiveTables
import Verif.Props.Language
import Verif.Props.InputText
import Verif.Proofs.Strings
import Verif.Proofs.RunSat
/-
C72: the command from its options and inputs to the output.
-/
set_option linter.unusedSimpArgs false
set_option linter.unusedVariables false

namespace Srcml
open Spec

theorem oneUnit_iff (req : CreateReq) (inputs : List InputSrc) : oneUnit req inputs = true ↔ OneUnit req inputs := by
  unfold oneUnit OneUnit
  match inputs with
  | [] => exact ⟨(fun h => by cases h), (fun ⟨i, h, _⟩ => by cases h)⟩
  | [i] =>
    generalize "filelist".toList = fl
    simp only [Bool.and_eq_true, decide_eq_true_eq, Bool.not_eq_true', List.isEmpty_iff]
    constructor
    · rintro ⟨⟨⟨h1, h2⟩, h3⟩, h4⟩; exact ⟨i, rfl, h2, h1, h3, h4⟩
    · rintro ⟨j, h, h2, h1, h3, h4⟩; cases h; exact ⟨⟨⟨h1, h2⟩, h3⟩, h4⟩
  | i :: j :: l => exact ⟨(fun h => by cases h), (fun ⟨k, h, _⟩ => by cases h)⟩

theorem splitExt_parts (arg ext lang : Str) : splitExt arg = (ext, lang) ↔ ExtParts arg ext lang := by
  unfold splitExt ExtParts
  cases h : findFirst '=' arg with
  | none =>
    have hn := findFirst_none.mp h
    simp only [Prod.mk.injEq]
    constructor
    · rintro ⟨rfl, rfl⟩; exact .inr ⟨hn, rfl, rfl⟩
    · rintro (⟨_, rfl⟩ | ⟨_, rfl, rfl⟩)
      · simp at hn
      · exact ⟨rfl, rfl⟩
  | some p =>
    obtain ⟨h1, h2⟩ := findFirst_some h
    simp only [Prod.mk.injEq]
    constructor
    · rintro ⟨rfl, rfl⟩; exact .inl ⟨h2, h1⟩
    · rintro (⟨k1, rfl⟩ | ⟨k1, rfl, rfl⟩)
      · rw [findFirst_append _ _ k1] at h
        cases h
        simp
      · exact absurd (h1 ▸ List.mem_append_right _ (List.mem_cons_self ..)) k1

theorem pairs_map (l : List Str) : Pairs l (l.map splitExt) := by
  induction l with
  | nil => exact .nil
  | cons a l ih => exact .cons ((splitExt_parts a _ _).mp rfl) ih

theorem Spec.Pairs.eq {l : List Str} {ps : List (Str × Str)} (h : Pairs l ps) : ps = l.map splitExt := by
  induction h with
  | nil => rfl
  | cons h1 _ ih => simp [ih, (splitExt_parts _ _ _).mpr h1]

/-! ### The setup -/

theorem runSetup_opt (a : Archive) (o : Option Str) (f : Option Str → SetCall) (g : Archive → Option Str → Archive) (rest : List (Option SetCall))
    (hf : ∀ s, (f (some s)).run a = .val (.ok, g a (some s))) (hg : g a none = a) :
    runSetup a (optCall o f ++ rest) = runSetup (g a o) rest := by
  cases o with
  | none => simp [optCall, hg]
  | some s => simp [optCall, runSetup, hf, Run.bind]

theorem runSetup_bit (a : Archive) (b : Bool) (c : SetCall) (w : Opts) (rest : List (Option SetCall)) (hc : c.run a = .val (.ok, { a with options := w })) :
    runSetup a (bitCall b c ++ rest) = runSetup { a with options := if b then w else a.options } rest := by
  cases b with
  | false => simp [bitCall]
  | true => simp [bitCall, runSetup, hc, Run.bind]

/-- The option word before the registrations. -/
def setupWord (m : MarkupBits) (one : Bool) : Opts :=
  let o := OPTION_DEFAULT_INTERNAL
  let o := if m.archive then o ||| OPTION_ARCHIVE else o
  let o := if m.position then enableOptionWord o OPTION_POSITION else o
  let o := if m.cpp then enableOptionWord o OPTION_CPP else o
  let o := if m.markupIf0 then enableOptionWord o OPTION_CPP_MARKUP_IF0 else o
  let o := if m.textElse then enableOptionWord o OPTION_CPP_TEXT_ELSE else o
  let o := if m.noXmlDecl then enableOptionWord o OPTION_NO_XML_DECL else o
  let o := if m.hash then o ||| OPTION_HASH else o
  if one then (if m.hash then (o &&& ~~~OPTION_ARCHIVE) ||| OPTION_HASH else (o &&& ~~~OPTION_ARCHIVE) &&& ~~~OPTION_HASH)
  else (o ||| OPTION_ARCHIVE) ||| OPTION_HASH

/-- The archive before the registrations. -/
def setupBase (req : CreateReq) (one : Bool) (url : Option Str) : Archive :=
  { srcml_archive_create with encoding := req.xmlEncoding, srcEncoding := req.srcEncoding, url := url, version := req.attVersion, language := req.attLanguage, tabstop := req.tabs
                              options := setupWord req.markup one }

theorem setup_exts (a : Archive) (rest : List (Option SetCall)) : ∀ l : List Str,
    runSetup a (l.map (fun e => some (.registerExtension (some (splitExt e).1) (some (splitExt e).2))) ++ rest) =
      if ∃ e ∈ l, ¬ IsLanguage (splitExt e).2 then .val none
      else runSetup { a with registeredLanguages := (l.map splitExt).foldl (fun r p => (srcml_archive_register_file_extension r (some p.1) (some p.2)).2) a.registeredLanguages } rest := by
  intro l
  induction l generalizing a with
  | nil => simp
  | cons e l ih =>
    obtain ⟨h1, h2, h3, h4⟩ := C07_register_status a.registeredLanguages (some (splitExt e).1) (some (splitExt e).2)
    simp only [List.map_cons, List.cons_append, runSetup, SetCall.run, Run.bind, List.foldl_cons]
    generalize srcml_archive_register_file_extension a.registeredLanguages (some (splitExt e).1) (some (splitExt e).2) = res at h1 h2 h3 h4 ⊢
    by_cases hl : IsLanguage (splitExt e).2
    · have hok : res.1 = .ok := h1.mpr ⟨_, _, rfl, rfl, hl⟩
      simp only [hok, ne_eq, not_true_eq_false, if_false]
      rw [ih]
      simp only [List.mem_cons, exists_eq_or_imp, hl, not_true_eq_false, false_or]
    · have hok : res.1 ≠ .ok := by rw [h3 _ _ rfl rfl hl]; decide
      rw [if_pos hok, if_pos ⟨e, by simp, hl⟩]

theorem setup_ns (a : Archive) : ∀ l : List (Str × Str),
    runSetup a (l.map (fun n => some (.registerNamespace (some n.1) (some n.2)))) =
      .val (some { a with namespaces := l.foldl (fun ns n => registerNs ns n.1 n.2) a.namespaces, options := l.foldl (fun o n => registerNsOptions o n.2) a.options }) := by
  intro l
  induction l generalizing a with
  | nil => rfl
  | cons n l ih =>
    simp only [List.map_cons, runSetup, SetCall.run, Run.bind, List.foldl_cons]
    rw [if_neg (by decide), ih]

/-- The archive after the registrations. -/
def setupDone (req : CreateReq) (one : Bool) (url : Option Str) : Archive :=
  { setupBase req one url with
    registeredLanguages := runRegistrations (req.languageExt.map splitExt)
    namespaces := req.namespaces.foldl (fun ns n => registerNs ns n.1 n.2) startingNamespaces
    options := req.namespaces.foldl (fun o n => registerNsOptions o n.2) (setupWord req.markup one) }

theorem setup_eq (req : CreateReq) (inputs : List InputSrc) (url : Option Str) :
    runSetup srcml_archive_create (setupCalls req inputs url) =
      if (oneUnit req inputs = false ∧ req.attFilename ≠ none) ∨ ∃ e ∈ req.languageExt, ¬ IsLanguage (splitExt e).2 then .val none
      else .val (some (setupDone req (oneUnit req inputs) url)) := by
  unfold setupCalls
  rw [runSetup_opt _ _ _ (fun a o => { a with encoding := o }) _ (fun s => rfl) rfl,
    runSetup_opt _ _ _ (fun a o => { a with srcEncoding := o }) _ (fun s => rfl) rfl,
    runSetup_opt _ _ _ (fun a o => { a with url := o }) _ (fun s => rfl) rfl,
    runSetup_opt _ _ _ (fun a o => { a with version := o }) _ (fun s => rfl) rfl,
    runSetup_bit _ _ _ _ _ rfl, runSetup_bit _ _ _ _ _ rfl, runSetup_bit _ _ _ _ _ rfl, runSetup_bit _ _ _ _ _ rfl, runSetup_bit _ _ _ _ _ rfl, runSetup_bit _ _ _ _ _ rfl,
    runSetup_bit _ _ _ _ _ rfl]
  simp only [runSetup, SetCall.run, Run.bind]
  rw [if_neg (by decide), if_neg (by decide)]
  unfold formCalls
  cases h1 : oneUnit req inputs with
  | true =>
    simp only [if_true, List.cons_append, List.nil_append, runSetup, SetCall.run, Run.bind]
    rw [if_neg (by decide)]
    cases hh : req.markup.hash with
    | true =>
      simp only [if_true, SetCall.run]
      rw [if_neg (by decide), setup_exts, setup_ns]
      simp only [Bool.true_eq_false, false_and, false_or]
      simp only [setupDone, setupBase, setupWord, hh, if_true]
      rfl
    | false =>
      simp only [Bool.false_eq_true, if_false, SetCall.run]
      rw [if_neg (by decide), setup_exts, setup_ns]
      simp only [Bool.true_eq_false, false_and, false_or]
      simp only [setupDone, setupBase, setupWord, hh, if_true, Bool.false_eq_true, if_false]
      rfl
  | false =>
    cases hf : req.attFilename with
    | some n => simp [runSetup]
    | none =>
      simp only [Bool.false_eq_true, if_false, Option.isSome_none, List.cons_append, List.nil_append, runSetup, SetCall.run, Run.bind]
      rw [if_neg (by decide), if_neg (by decide), setup_exts, setup_ns]
      simp only [ne_eq, not_true_eq_false, and_false, false_or]
      simp only [setupDone, setupBase, setupWord, if_true, Bool.false_eq_true, if_false]
      rfl

theorem refused_iff (req : CreateReq) (inputs : List InputSrc) :
    NotAccepted req inputs ↔ (oneUnit req inputs = false ∧ req.attFilename ≠ none) ∨ ∃ e ∈ req.languageExt, ¬ IsLanguage (splitExt e).2 := by
  unfold NotAccepted
  rw [← oneUnit_iff, Bool.not_eq_true]
  refine or_congr Iff.rfl (exists_congr fun e => and_congr Iff.rfl ⟨?_, fun h => ⟨_, _, (splitExt_parts e _ _).mp rfl, h⟩⟩)
  rintro ⟨x, l, h1, h2⟩
  rw [(splitExt_parts e x l).mpr h1]
  exact h2

theorem urlOfInput_iff (name url : Str) : urlOfInput name = .val url ↔ ∃ front, src_prefix_resource name = front ++ url ∧ (∀ c ∈ front, c = '.' ∨ c = '/') ∧
    ∃ c r, url = c :: r ∧ c ≠ '.' ∧ c ≠ '/' := by
  unfold urlOfInput
  generalize src_prefix_resource name = s
  induction s with
  | nil =>
    refine ⟨(fun h => by cases h), ?_⟩
    rintro ⟨front, h1, _, c, r, rfl, _⟩
    simp at h1
  | cons c s ih =>
    by_cases hc : c = '.' ∨ c = '/'
    · rw [List.dropWhile_cons_of_pos (by simpa using hc), ih]
      constructor
      · rintro ⟨front, h1, h2, h3⟩
        exact ⟨c :: front, by simp [h1], by simpa using ⟨hc, h2⟩, h3⟩
      · rintro ⟨front, h1, h2, x, r, rfl, h4, h5⟩
        cases front with
        | nil => simp at h1; rw [← h1.1] at h4 h5; rcases hc with h | h <;> contradiction
        | cons y front =>
          simp at h1 h2
          exact ⟨front, h1.2, h2.2, x, r, rfl, h4, h5⟩
    · rw [List.dropWhile_cons_of_neg (by simpa using hc)]
      simp only [Run.val.injEq]
      constructor
      · rintro rfl
        exact ⟨[], rfl, by simp, c, s, rfl, fun h => hc (.inl h), fun h => hc (.inr h)⟩
      · rintro ⟨front, h1, h2, x, r, rfl, h4, h5⟩
        cases front with
        | nil => exact h1
        | cons y front => simp at h1 h2; exact absurd (h1.1 ▸ h2.1) hc

theorem urlAsked_iff (req : CreateReq) (inputs : List InputSrc) (url : Option Str) : urlAsked req inputs = .val url ↔ UrlIs req inputs url := by
  unfold urlAsked UrlIs
  cases hu : req.attUrl with
  | some u => simp [eq_comm]
  | none =>
    match inputs with
    | [] => simp [eq_comm]
    | i :: j :: l => simp [eq_comm]
    | [i] =>
      simp only [reduceCtorEq, false_and, exists_false, true_and, false_or, List.cons.injEq, and_true, exists_eq_left', forall_eq']
      by_cases hi : i.archives = []
      · simp [hi, eq_comm]
      · have hb : i.archives.isEmpty = false := by simpa using hi
        simp only [hb, Bool.false_eq_true, if_false, hi, not_false_eq_true, ne_eq, true_and, false_and, or_false]
        constructor
        · intro h
          cases hx : urlOfInput i.filename with
          | ub => rw [hx] at h; cases h
          | val x =>
            rw [hx] at h
            cases h
            obtain ⟨front, h1, h2, h3⟩ := (urlOfInput_iff _ _).mp hx
            exact ⟨front, x, h1, h2, h3, rfl⟩
        · rintro ⟨front, rest, h1, h2, h3, rfl⟩
          rw [(urlOfInput_iff _ _).mpr ⟨front, h1, h2, h3⟩]
          rfl

/-- **C72.** When the command is refused: exactly when a name for the unit is given although the output is not one unit, or an extension is registered for a language that there is not. -/
theorem C72_refused (req : CreateReq) (inputs : List InputSrc) (url : Option Str) (hu : UrlIs req inputs url) :
    ∃ r, createArchive req inputs = .val r ∧ (r = none ↔ NotAccepted req inputs) := by
  unfold createArchive
  rw [(urlAsked_iff req inputs url).mpr hu]
  simp only [Run.bind]
  rw [setup_eq]
  by_cases h : NotAccepted req inputs
  · rw [if_pos ((refused_iff req inputs).mp h)]
    exact ⟨none, rfl, by simp [h]⟩
  · rw [if_neg (fun k => h ((refused_iff req inputs).mpr k))]
    exact ⟨_, rfl, by simp [h]⟩

theorem create_done (req : CreateReq) (inputs : List InputSrc) (a : Archive) (h : createArchive req inputs = .val (some a)) :
    ∃ url, UrlIs req inputs url ∧ a = setupDone req (oneUnit req inputs) url := by
  unfold createArchive at h
  cases hu : urlAsked req inputs with
  | ub => rw [hu] at h; cases h
  | val url =>
    rw [hu] at h
    simp only [Run.bind] at h
    rw [setup_eq] at h
    split at h
    · cases h
    · cases h
      exact ⟨url, (urlAsked_iff req inputs url).mp hu, rfl⟩

theorem ns_bits (i : Nat) (o : Opts) : ∀ l : List (Str × Str), (l.foldl (fun o n => registerNsOptions o n.2) o).getLsbD i =
    (o.getLsbD i || (decide (∃ n ∈ l, n.2 = CPP_NS_URI) && decide (i = 3 ∨ i = 13)) || (decide (∃ n ∈ l, n.2 = ERROR_NS_URI) && decide (i = 11)) ||
      (decide (∃ n ∈ l, n.2 = POSITION_NS_URI) && decide (i = 2))) := by
  intro l
  induction l generalizing o with
  | nil => simp
  | cons n l ih =>
    simp only [List.foldl_cons]
    rw [ih]
    have hb : (registerNsOptions o n.2).getLsbD i = (o.getLsbD i || (decide (n.2 = CPP_NS_URI) && decide (i = 3 ∨ i = 13)) || (decide (n.2 = ERROR_NS_URI) && decide (i = 11)) ||
        (decide (n.2 = POSITION_NS_URI) && decide (i = 2))) := by
      obtain ⟨u1, u2, u3⟩ := uris_distinct
      unfold registerNsOptions
      split
      · next h =>
        rw [or_bit, or_bit, OPTION_CPP, OPTION_CPP_DECLARED, pow_bit _ _ (by decide), pow_bit _ _ (by decide)]
        have h1 : n.2 ≠ ERROR_NS_URI := by rw [h]; exact u1.symm
        have h2 : n.2 ≠ POSITION_NS_URI := by rw [h]; exact u2.symm
        rw [Bool.eq_iff_iff]
        simp [h, h1, h2, u1.symm, u2.symm, or_assoc]
      · next h =>
        split
        · next h' =>
          rw [or_bit, OPTION_DEBUG, pow_bit _ _ (by decide), Bool.eq_iff_iff]
          simp [h', u1, u3.symm]
        · next h' =>
          split
          · next h'' =>
            rw [or_bit, OPTION_POSITION, pow_bit _ _ (by decide), Bool.eq_iff_iff]
            simp [h'', u2, u3]
          · next h'' => simp [h, h', h'']
    rw [hb, Bool.eq_iff_iff]
    simp only [List.mem_cons, exists_eq_or_imp, Bool.or_eq_true, Bool.and_eq_true, decide_eq_true_eq]
    grind

theorem word_bits (b1 b2 b3 b4 b5 b6 b7 one : Bool) : let o := setupWord ⟨b1, b2, b3, b4, b5, b6, b7⟩ one
    o.getLsbD 0 = false ∧ o.getLsbD 1 = b6 ∧ o.getLsbD 2 = b2 ∧ o.getLsbD 3 = b3 ∧ o.getLsbD 4 = b5 ∧ o.getLsbD 5 = b4 ∧ o.getLsbD 6 = false ∧ o.getLsbD 14 = !one ∧
      o.getLsbD 15 = (!one || b7) ∧ o.getLsbD 8 = true := by
  revert b1 b2 b3 b4 b5 b6 b7 one
  decide +kernel

theorem word_bits' (m : MarkupBits) (one : Bool) : let o := setupWord m one
    o.getLsbD 0 = false ∧ o.getLsbD 1 = m.noXmlDecl ∧ o.getLsbD 2 = m.position ∧ o.getLsbD 3 = m.cpp ∧ o.getLsbD 4 = m.textElse ∧ o.getLsbD 5 = m.markupIf0 ∧ o.getLsbD 6 = false ∧
      o.getLsbD 14 = !one ∧ o.getLsbD 15 = (!one || m.hash) ∧ o.getLsbD 8 = true :=
  word_bits m.archive m.position m.cpp m.markupIf0 m.textElse m.noXmlDecl m.hash one

/-- **C72.** The settings of the output archive. It is one unit exactly when there is one input that can only be one and no archive was asked for; hashes are stored in archives, and in one unit when asked for.
The encodings, the version, the language, the tabs and the url are those asked for (or the url is the name of a single source archive). An option is on exactly when it was asked for or its namespace is registered.
Extensions and prefixes are those registered last. -/
theorem C72_settings (req : CreateReq) (inputs : List InputSrc) (a : Archive) (h : createArchive req inputs = .val (some a)) :
    (∃ b, srcml_archive_is_solitary_unit (some a) = .val b ∧ (b = true ↔ OneUnit req inputs)) ∧
    (∃ b, srcml_archive_has_hash (some a) = .val b ∧ (b = true ↔ ¬ OneUnit req inputs ∨ req.markup.hash = true)) ∧
    a.encoding = req.xmlEncoding ∧ a.srcEncoding = req.srcEncoding ∧ a.version = req.attVersion ∧ a.language = req.attLanguage ∧ a.tabstop = req.tabs ∧ UrlIs req inputs a.url ∧
    (∀ i, (srcml_archive_get_options a).getLsbD i = true ↔
      (i = 1 ∧ req.markup.noXmlDecl = true) ∨ (i = 2 ∧ (req.markup.position = true ∨ Registers req POSITION_NS_URI)) ∨
      (i = 3 ∧ (req.markup.cpp = true ∨ Registers req CPP_NS_URI)) ∨ (i = 4 ∧ req.markup.textElse = true) ∨ (i = 5 ∧ req.markup.markupIf0 = true)) ∧
    (∀ ps, Pairs req.languageExt ps → ∀ f e, HasExtension f e → srcml_archive_check_extension a.registeredLanguages (some f) = lookupSpec e ps) ∧
    (∀ uri, srcml_archive_get_prefix_from_uri a (some uri) =
      (lastPrefix uri (req.namespaces.map (fun n => .registerNamespace (some n.1) (some n.2)))).or (if uri = "http://www.srcML.org/srcML/src".toList then some [] else none)) := by
  obtain ⟨url, hu, rfl⟩ := create_done req inputs a h
  obtain ⟨w0, w1, w2, w3, w4, w5, w6, w14, w15, w8⟩ := word_bits' req.markup (oneUnit req inputs)
  have hbit : ∀ i, (setupDone req (oneUnit req inputs) url).options.getLsbD i = _ := fun i => ns_bits i (setupWord req.markup (oneUnit req inputs)) req.namespaces
  have hreg : ∀ uri, (∃ n ∈ req.namespaces, n.2 = uri) ↔ Registers req uri := fun uri =>
    ⟨fun ⟨n, h1, h2⟩ => ⟨n.1, h2 ▸ h1⟩, fun ⟨p, hp⟩ => ⟨_, hp, rfl⟩⟩
  refine ⟨⟨_, rfl, ?_⟩, ⟨_, rfl, ?_⟩, rfl, rfl, rfl, rfl, rfl, hu, ?_, ?_, ?_⟩
  · show isSolitary _ = true ↔ _
    rw [isSolitary_bit, hbit 14, w14, ← oneUnit_iff]
    simp
  · show hasHash _ = true ↔ _
    rw [hasHash_bit, hbit 15, w15, ← oneUnit_iff]
    simp
  · intro i
    simp only [srcml_archive_get_options, publicPart_bit, hbit]
    by_cases hi : i < 7
    · rcases lowBit_cases i hi with rfl | rfl | rfl | rfl | rfl | rfl | rfl
      · rw [w0]; simp [w0]
      · rw [w1]; simp [w1]
      · rw [w2]; simp [w2, ← hreg]
      · rw [w3]; simp [w3, ← hreg]
      · rw [w4]; simp [w4]
      · rw [w5]; simp [w5]
      · rw [w6]; simp [w6]
    · simp [hi]; omega
  · intro ps hp f e he
    rw [hp.eq]
    exact C06_lookup _ f e he
  · intro uri
    have hr : ∀ (l : List (Str × Str)) (b : Archive), runCalls b (l.map (fun n => .registerNamespace (some n.1) (some n.2))) =
        .val { b with namespaces := l.foldl (fun ns n => registerNs ns n.1 n.2) b.namespaces, options := l.foldl (fun o n => registerNsOptions o n.2) b.options } := by
      intro l
      induction l with
      | nil => intro b; rfl
      | cons n l ih => intro b; simp only [List.map_cons, runCalls, SetCall.run, ih, List.foldl_cons]
    rw [← C21_prefix_lookup _ _ (hr req.namespaces srcml_archive_create) uri]
    rfl

/-! ### The inputs -/

/-- The loop with another name for lists. -/
def handleInputs' {D : Type} (fl : Str) (h : Handlers D) (a : Archive) (status : Int) : List InputSrc → Run (InputsRun D)
  | [] => .val { status := status, archive := a }
  | i :: is =>
    (dispatchInput h a i).bind (fun r => (runCalls (if r.full then { a with options := a.options ||| OPTION_ARCHIVE } else a) r.calls).bind (fun a =>
      let list := decide (i.protocol = fl)
      let status := if r.handled = 0 then 1 else status
      if r.exited then .val { requests := r.requests, archive := a, errors := r.errors, exited := true }
      else if r.handled = -1 then .val { requests := r.requests, status := -1, archive := a, errors := r.errors, always := list }
      else (handleInputs' fl h a status is).bind (fun rest => .val { rest with requests := r.requests ++ rest.requests, errors := r.errors + rest.errors, always := list || rest.always })))

theorem handleInputs_eq {D : Type} (h : Handlers D) : ∀ (is : List InputSrc) (a : Archive) (st : Int), handleInputs h a st is = handleInputs' "filelist".toList h a st is
  | [], _, _ => rfl
  | i :: is, a, st => by
    simp only [handleInputs, handleInputs', handleInputs_eq h is]

theorem handle_append' {D : Type} (fl : Str) (h : Handlers D) {a b : Archive} {ps : List (InputSrc × Handled D)} (hp : InTurn h a ps b) (rest : List InputSrc) : ∀ st : Int,
    handleInputs' fl h a st (ps.map (·.1) ++ rest) = (handleInputs' fl h b (if ∃ p ∈ ps, p.2.handled = 0 then 1 else st) rest).bind (fun r =>
      .val { r with requests := (ps.map (·.2.requests)).flatten ++ r.requests, errors := (ps.map (·.2.errors)).sum + r.errors
                    always := decide (∃ p ∈ ps, p.1.protocol = fl) || r.always }) := by
  induction hp with
  | nil a =>
    intro st
    simp only [List.map_nil, List.nil_append, List.not_mem_nil, false_and, exists_false, if_false, List.flatten_nil, List.sum_nil, decide_false, Bool.false_or, Nat.zero_add]
    cases handleInputs' fl h a st rest with
    | ub => rfl
    | val r => rfl
  | @cons a mid a' b i r ps h1 h2 h3 h4 h5 h5' h6 ih =>
    intro st
    have ha : (if r.full = true then { a with options := a.options ||| OPTION_ARCHIVE } else a) = mid := by
      cases hf : r.full with
      | false => rw [h4 hf]; rfl
      | true => rw [h5 hf]; rfl
    simp only [List.map_cons, List.cons_append, handleInputs', h1, Run.bind, ha, h5', h3, Bool.false_eq_true, if_false, h2, List.mem_cons, exists_eq_or_imp]
    rw [ih]
    have hs : (if ∃ p ∈ ps, p.2.handled = 0 then 1 else if r.handled = 0 then 1 else st) = if r.handled = 0 ∨ ∃ p ∈ ps, p.2.handled = 0 then (1 : Int) else st := by
      by_cases x : r.handled = 0 <;> by_cases y : ∃ p ∈ ps, p.2.handled = 0 <;> simp [x, y]
    rw [hs]
    cases handleInputs' fl h b (if r.handled = 0 ∨ ∃ p ∈ ps, p.2.handled = 0 then 1 else st) rest with
    | ub => rfl
    | val q => simp [Run.bind, List.append_assoc, Nat.add_assoc, Bool.or_assoc]

theorem handle_append {D : Type} (h : Handlers D) {a b : Archive} {ps : List (InputSrc × Handled D)} (hp : InTurn h a ps b) (rest : List InputSrc) (st : Int) :
    handleInputs h a st (ps.map (·.1) ++ rest) = (handleInputs h b (if ∃ p ∈ ps, p.2.handled = 0 then 1 else st) rest).bind (fun r =>
      .val { r with requests := (ps.map (·.2.requests)).flatten ++ r.requests, errors := (ps.map (·.2.errors)).sum + r.errors
                    always := decide (∃ p ∈ ps, p.1.protocol = "filelist".toList) || r.always }) := by
  rw [handleInputs_eq, handleInputs_eq]
  exact handle_append' _ h hp rest st

/-- **C72.** The inputs are handled in order: the requests are those of the first input, then those of the second, and so on. After an input that failed no other is looked at. -/
theorem C72_inputs {D : Type} (h : Handlers D) (a b : Archive) (ps : List (InputSrc × Handled D)) (hp : InTurn h a ps b) :
    (∃ r, handleInputs h a 0 (ps.map (·.1)) = .val r ∧ r.requests = (ps.map (·.2.requests)).flatten ∧ r.archive = b ∧ r.status ≠ -1 ∧ r.exited = false ∧
      (r.always = true ↔ ∃ p ∈ ps, p.1.protocol = "filelist".toList) ∧ r.errors = (ps.map (·.2.errors)).sum) ∧
    (∀ i q rest, dispatchInput h b i = .val q → q.handled = -1 → q.exited = false →
      (∃ c, runCalls (if q.full then { b with options := b.options ||| OPTION_ARCHIVE } else b) q.calls = .val c) →
      ∃ r, handleInputs h a 0 (ps.map (·.1) ++ i :: rest) = .val r ∧ r.requests = (ps.map (·.2.requests)).flatten ++ q.requests ∧ r.status = -1 ∧ r.exited = false) := by
  constructor
  · have := handle_append h hp [] 0
    rw [List.append_nil] at this
    rw [this]
    refine ⟨_, rfl, List.append_nil _, rfl, ?_, rfl, ?_, Nat.add_zero _⟩
    · show (if _ then (1 : Int) else 0) ≠ -1
      split <;> decide
    · show (decide _ || false) = true ↔ _
      rw [Bool.or_false, decide_eq_true_eq]
  · rintro i q rest h1 h2 h3 ⟨c, h4⟩
    rw [handle_append h hp (i :: rest) 0]
    simp only [handleInputs, h1, Run.bind, h4, h3, h2, Bool.false_eq_true, if_false, if_true]
    exact ⟨_, rfl, rfl, rfl, rfl⟩

/-! ### The whole command -/

/-- C72: a list of files as input makes the output an archive, already for its files, and the output is closed whatever happens to them. -/
theorem C72_list {D : Type} (h : Handlers D) (a : Archive) (i : InputSrc) (hs : i.state ≠ .srcml) (hp : i.protocol = "filelist".toList) (q : Handled D)
    (hq : h.run .filelist { a with options := a.options ||| OPTION_ARCHIVE } i = .val q) (hx : q.exited = false) (c : Archive)
    (hc : runCalls { a with options := a.options ||| OPTION_ARCHIVE } q.calls = .val c) :
    ∃ r, handleInputs h a 0 [i] = .val r ∧ r.requests = q.requests ∧ r.archive = c ∧ r.always = true ∧
      (r.status = -1 ↔ q.handled = -1) := by
  have hh : handlerOf i = .filelist := by
    unfold handlerOf
    rw [if_neg hs, if_neg (by rw [hp]; decide), if_pos hp]
  have hd : dispatchInput h a i = .val { q with full := true } := by
    unfold dispatchInput
    rw [hh]
    simp only [reduceCtorEq, or_self, false_and, if_false, if_true]
    rw [hq]; rfl
  simp only [handleInputs, hd, Run.bind, hc, hx, hp, decide_true, if_true, Bool.false_eq_true, if_false]
  by_cases hm : q.handled = -1
  · rw [if_pos hm]
    exact ⟨_, rfl, rfl, rfl, rfl, by simp [hm]⟩
  · rw [if_neg hm]
    refine ⟨_, rfl, List.append_nil _, rfl, rfl, ?_⟩
    show (if q.handled = 0 then (1 : Int) else 0) = -1 ↔ _
    constructor
    · intro h; split at h <;> cases h
    · intro h; exact absurd h hm

/-- C72: a srcML document or a source archive at an address that cannot be reached is an error: nothing is made of it and of the inputs after it. -/
theorem C72_unreachable {D : Type} (h : Handlers D) (a b : Archive) (ps : List (InputSrc × Handled D)) (hps : InTurn h a ps b) (i : InputSrc) (rest : List InputSrc)
    (hk : i.state = .srcml ∨ (i.protocol ≠ "text".toList ∧ i.protocol ≠ "filelist".toList)) (hp : i.protocol ≠ "file".toList)
    (hc : h.curl i = true) (ho : h.opened i = false) :
    ∃ r, handleInputs h a 0 (ps.map (·.1) ++ i :: rest) = .val r ∧ r.requests = (ps.map (·.2.requests)).flatten ∧ r.status = -1 ∧ r.exited = false ∧ 0 < r.errors := by
  have hh : handlerOf i = .srcml ∨ handlerOf i = .libarchive := by
    unfold handlerOf
    by_cases hs : i.state = .srcml
    · rw [if_pos hs]; exact .inl rfl
    · have hk := hk.resolve_left hs
      rw [if_neg hs, if_neg hk.1, if_neg hk.2, if_neg (fun h => hp h.1), if_neg (fun h => hp h.1)]
      exact .inr rfl
  have hd : dispatchInput h b i = .val { handled := -1, errors := 1 } := by
    unfold dispatchInput
    rw [if_pos ⟨hh, hc, hp, ho⟩]
  obtain ⟨r, h1, h2, h3, h4⟩ := (C72_inputs h a b ps hps).2 i _ rest hd rfl rfl ⟨b, rfl⟩
  refine ⟨r, h1, by simpa using h2, h3, h4, ?_⟩
  have := handle_append h hps (i :: rest) 0
  rw [h1] at this
  simp only [handleInputs, hd, Run.bind, runCalls, Bool.false_eq_true, if_false, if_true] at this
  cases this
  show 0 < _ + 1
  omega

/-- An example of each: a list of two files, one of which fails, and a document at an address without a host. -/
example : let h : Handlers Int := { run := fun k _ _ => if k = .filelist then .val { requests := [{ req := {} }], handled := -1 } else .ub, curl := fun _ => true, opened := fun _ => false }
    let l : InputSrc := { filename := "l".toList, protocol := "filelist".toList, resource := "l".toList }
    let d : InputSrc := { filename := "http://x".toList, protocol := "http".toList, resource := "x".toList, state := .srcml }
    (∃ r, handleInputs h srcml_archive_create 0 [l] = .val r ∧ r.requests.length = 1 ∧ r.always = true) ∧
    (∃ r, handleInputs h srcml_archive_create 0 [d, l] = .val r ∧ r.requests = [] ∧ r.status = -1) := by
  refine ⟨?_, ?_⟩
  · obtain ⟨r, h1, h2, _, h4, _⟩ := C72_list (D := Int) { run := fun k _ _ => if k = .filelist then .val { requests := [{ req := {} }], handled := -1 } else .ub, curl := fun _ => true, opened := fun _ => false }
      srcml_archive_create { filename := "l".toList, protocol := "filelist".toList, resource := "l".toList } (by decide) rfl _ rfl rfl _ rfl
    exact ⟨r, h1, by rw [h2]; rfl, h4⟩
  · obtain ⟨r, h1, h2, h3, _⟩ := C72_unreachable (D := Int) { run := fun k _ _ => if k = .filelist then .val { requests := [{ req := {} }], handled := -1 } else .ub, curl := fun _ => true, opened := fun _ => false }
      srcml_archive_create srcml_archive_create [] (.nil _) { filename := "http://x".toList, protocol := "http".toList, resource := "x".toList, state := .srcml }
      [{ filename := "l".toList, protocol := "filelist".toList, resource := "l".toList }] (.inl rfl) (by decide) rfl rfl
    exact ⟨r, h1, h2, h3⟩

/-- The request for a local file: read from the file, with the name asked for or its own, and the language asked for or that of the name. -/
def Spec.FileWork {D : Type} (req : CreateReq) (reg : Registry) (i : InputSrc) (w : Work D) : Prop :=
  ∃ lang, (∀ c l, req.attLanguage = some (c :: l) → lang = c :: l) ∧
    ((req.attLanguage = none ∨ req.attLanguage = some []) → lang = (look reg (req.attFilename.getD i.resource)).getD []) ∧
    w = { req := { filename := some (req.attFilename.getD i.resource), language := lang, url := req.attUrl, version := req.attVersion, diskFilename := some i.resource } }

/-- A file on this machine that is neither compressed nor an archive nor a directory nor srcML. -/
structure Spec.LocalFile (i : InputSrc) : Prop where
  source : i.state ≠ .srcml
  protocol : i.protocol = "file".toList
  dir : i.isdirectory = false
  plain : i.archives = [] ∧ i.compressions = []

theorem local_handler {i : InputSrc} (h : LocalFile i) : handlerOf i = .file := by
  unfold handlerOf
  rw [if_neg h.source, if_neg (by rw [h.protocol]; decide), if_neg (by rw [h.protocol]; decide), if_neg (by rw [h.dir]; simp), if_pos ⟨h.protocol, h.plain⟩]

theorem local_work {D : Type} (opts : CmdOptions) (req : CreateReq) (out : Str) (stat : Str → FileKind) (arch : Str → Option ArchIn) (cwd : Str) (tree : Str → FsTree) (other : Handlers D)
    (hv : opts.verbose = false) (hn : opts.noarchive = false) (a : Archive) (i : InputSrc) (hi : LocalFile i) (hr : i.resource ≠ "_".toList) :
    ∃ w, FileWork req a.registeredLanguages i w ∧
      dispatchInput (clientHandlers opts (req.cmd out) stat arch cwd tree other) a i = .val { requests := [w], handled := 1, full := isoption a.options OPTION_ARCHIVE } := by
  obtain ⟨name, lang, h1, h2, h3, h4⟩ := C70_file opts (req.cmd out) a.registeredLanguages (!isoption a.options OPTION_ARCHIVE) i (arch i.resource) hv (.inr hr)
  refine ⟨_, ⟨lang, h2, ?_, rfl⟩, ?_⟩
  · intro h; rw [h3 h, h1]; rfl
  · unfold dispatchInput
    rw [local_handler hi]
    simp only [reduceCtorEq, or_self, false_and, if_false]
    have hx : (clientHandlers opts (req.cmd out) stat arch cwd tree other).run .file a i =
        (src_input_file opts (req.cmd out) a.registeredLanguages (!isoption a.options OPTION_ARCHIVE) i (arch i.resource)).bind (fun r => .val r.handled') := rfl
    rw [hx, h4]
    simp only [Run.bind, InputRun.handled', hn, h1, CreateReq.cmd, List.map_cons, List.map_nil, Bool.not_not, Bool.false_eq_true, if_false]

theorem prepare_exits {D : Type} (w w' : Work D) (u : UnitData) (h : prepareUnit w = .val (u, w')) : w'.exits = w.exits := by
  unfold prepareUnit at h
  cases hf : w.req.filename with
  | none => simp only [hf, Run.bind, Run.val.injEq, Prod.mk.injEq] at h; rw [← h.2]
  | some f =>
    simp only [hf] at h
    cases hd : stripDots f with
    | ub => rw [hd] at h; cases h
    | val d =>
      rw [hd] at h
      simp only [Run.bind, Run.val.injEq, Prod.mk.injEq] at h
      rw [← h.2]

theorem consume_exit {D : Type} (env : ParseEnv D) (w w' : Work D) (h : srcml_consume env w = .val w') (hs : w'.req.status = .ok) (he : w.exits = false) : w'.exits = false := by
  unfold srcml_consume at h
  split at h
  · cases h; exact he
  · cases hp : prepareUnit w with
    | ub => rw [hp] at h; cases h
    | val p =>
      rw [hp] at h
      have hx := prepare_exits w p.2 p.1 hp
      simp only [Run.bind] at h
      split at h
      · next q f st o =>
        dsimp only at h
        split at h
        · cases h; cases hs
        · split at h
          · next hne => cases h; exact absurd hs hne
          · split at h
            · cases h; rw [hx]; exact he
            · cases h
      · cases h

theorem consume_exits {D : Type} (env : ParseEnv D) : ∀ (l ws : List (Work D)), (∀ w ∈ l, ∃ w', srcml_consume env w = .val w' ∧ w'.req.status = .ok ∧ w.exits = false) →
    consumeAll env l = .val ws → ws.any (·.exits) = false := by
  intro l
  induction l with
  | nil => intro ws _ h; cases h; rfl
  | cons w l ih =>
    intro ws hall h
    obtain ⟨w', h1, h2, h3⟩ := hall w (by simp)
    simp only [consumeAll, h1, Run.bind] at h
    cases hc : consumeAll env l with
    | ub => rw [hc] at h; cases h
    | val ws' =>
      rw [hc] at h
      cases h
      rw [List.any_cons, ih ws' (fun x hx => hall x (by simp [hx])) hc, Bool.or_false]
      exact consume_exit env w w' h1 h2 h3

/-- **C72.** From the files to the units that are read. The command is run on local files, more than one or with `--archive`. Whoever reads its output gets for the `i`-th file exactly the unit that the parser
made of it, with the name of the file without `./` in front, and its language; and after the last one the end. -/
theorem C72_command {D : Type} (opts : CmdOptions) (req : CreateReq) (env : ParseEnv D) (num : NumberText D) (zero : D) (opened : Str → Bool) (out : Str) (stat : Str → FileKind)
    (arch : Str → Option ArchIn) (cwd : Str) (tree : Str → FsTree) (other : Handlers D) (th : ThreadState) (dest : Destination) (a : Archive) (ps : List (InputSrc × MadeUnit))
    (hopts : opts.noarchive = false ∧ opts.xmlFragment = false ∧ opts.xmlRaw = false ∧ opts.verbose = false) (hdest : dest ≠ .file false)
    (ha : createArchive req (ps.map (·.1)) = .val (some a)) (hne : ps ≠ []) (hone : ¬ OneUnit req (ps.map (·.1)))
    (hf : ∀ p ∈ ps, LocalFile p.1 ∧ p.1.resource ≠ "_".toList)
    (hp : ∀ p ∈ ps, ∀ w : Work D, FileWork req a.registeredLanguages p.1 w → Parses env w p.2)
    (hc : CarriedArchive a) (hm : ∀ p ∈ ps, p.2.Carried a) (hua : ∀ p ∈ ps, p.2.ua = a) :
    ∃ e, create_srcml opts req env num zero opened (clientHandlers opts (req.cmd out) stat arch cwd tree other) th dest (ps.map (·.1)) = .val e ∧
      e.exited = false ∧ e.messages = [] ∧ e.files = [] ∧ e.cut = false ∧
      ∀ fs wants, Delivers e.output fs → ∃ h : Sax2, ({ wants := wants } : Sax2).feeds fs = .val h ∧ AnyCalls h.log ∧
        ∀ (fin : Finish) (r : Reader), Reach { todo := h.log.filterMap saxCall, finish := fin } Reader.Step r →
          (∀ i (hi : i < r.log.length), (wants[i]?).getD false = decide ((r.log[i]).1 = .read)) →
          ∀ i (hi : i < r.log.length),
            (∀ hn : i < ps.length, (r.log[i]).1 = .read → ∃ v, gets h.log (r.log[i]).2 = some v ∧ SameUnit a (ps[i]).2 v ∧
              (∃ name, WithoutDots (ps[i]).1.resource name ∧ v.filename = some name) ∧ v.version = req.attVersion ∧ v.timestamp = none ∧
              (∀ c l, req.attLanguage = some (c :: l) → v.language = some (c :: l)) ∧
              (req.attLanguage = none → v.language = some ((look a.registeredLanguages (ps[i]).1.resource).getD []))) ∧
            (ps.length ≤ i → (r.log[i]).2 = none) := by
  have hbit : isoption a.options OPTION_ARCHIVE = true := by
    obtain ⟨⟨b, h1, h2⟩, _⟩ := C72_settings req _ a ha
    have h3 : isSolitary a = b := Run.val.inj h1
    cases hb : b with
    | true => exact absurd (h2.mp hb) hone
    | false =>
      rw [hb] at h3
      unfold isSolitary at h3
      unfold isoption
      simpa using h3
  have hsame : { a with options := a.options ||| OPTION_ARCHIVE } = a := by
    have : a.options ||| OPTION_ARCHIVE = a.options := by
      have h14 : a.options.getLsbD 14 = true := by
        have := and_twoPow_eq_zero a.options 14 (by decide)
        unfold isoption at hbit
        have h2 : decide (a.options &&& (1#64 <<< 14) = 0) = false := decide_eq_false (of_decide_eq_true hbit)
        rw [h2] at this
        simpa using this.symm
      apply BitVec.eq_of_getLsbD_eq
      intro i hi
      rw [or_bit, OPTION_ARCHIVE, pow_bit _ _ (by decide)]
      by_cases h : i = 14
      · subst h; simp only [h14, Bool.true_or]
      · simp [h]
    rw [this]
  generalize hh : clientHandlers opts (req.cmd out) stat arch cwd tree other = h
  have hex : ∀ i : InputSrc, ∃ w : Work D, LocalFile i ∧ i.resource ≠ "_".toList → FileWork req a.registeredLanguages i w ∧
      dispatchInput h a i = .val { requests := [w], handled := 1, full := true } := by
    intro i
    by_cases hi : LocalFile i ∧ i.resource ≠ "_".toList
    · obtain ⟨w, h1, h2⟩ := local_work opts req out stat arch cwd tree other hopts.2.2.2 hopts.1 a i hi.1 hi.2
      rw [hh, hbit] at h2
      exact ⟨w, fun _ => ⟨h1, h2⟩⟩
    · exact ⟨{ req := {} }, fun h => absurd h hi⟩
  obtain ⟨f, hfw⟩ := Classical.axiomOfChoice hex
  have hturn : ∀ qs : List (InputSrc × MadeUnit), (∀ p ∈ qs, LocalFile p.1 ∧ p.1.resource ≠ "_".toList) →
      InTurn h a (qs.map (fun p => (p.1, { requests := [f p.1], handled := 1, full := true }))) a := by
    intro qs
    induction qs with
    | nil => intro _; exact .nil a
    | cons q qs ih =>
      intro hq
      refine .cons (mid := a) (a' := a) (hfw q.1 (hq q (by simp))).2 (show (1 : Int) ≠ -1 by decide) rfl (fun _ => rfl) (fun _ => hsame.symm) rfl (ih (fun p hp => hq p (by simp [hp])))
  obtain ⟨⟨R, r1, r2, r3, r4, r5, _, r7⟩, _⟩ := C72_inputs h a a _ (hturn ps hf)
  have hflat : ∀ qs : List (InputSrc × MadeUnit), (qs.map ((fun x : InputSrc × Handled D => x.2.requests) ∘ fun p => (p.1, { requests := [f p.1], handled := 1, full := true }))).flatten =
      qs.map ((fun x : Work D × MadeUnit => x.1) ∘ fun p => (f p.1, p.2)) := by
    intro qs
    induction qs with
    | nil => rfl
    | cons p qs ih => simpa using ih
  have hreq : R.requests = (ps.map (fun p => (f p.1, p.2))).map (·.1) := by
    rw [r2, List.map_map, List.map_map]
    exact hflat ps
  have herr : R.errors = 0 := by
    rw [r7, List.map_map]
    have : ∀ qs : List (InputSrc × MadeUnit), (qs.map ((fun x : InputSrc × Handled D => x.2.errors) ∘ fun p => (p.1, { requests := [f p.1], handled := 1, full := true }))).sum = 0 := by
      intro qs
      induction qs with
      | nil => rfl
      | cons p qs ih => simpa using ih
    exact this ps
  have hins : (ps.map (fun p => (p.1, ({ requests := [f p.1], handled := 1, full := true } : Handled D)))).map (·.1) = ps.map (·.1) := by
    rw [List.map_map]; rfl
  rw [hins] at r1
  have hpar : ∀ p ∈ ps.map (fun p => (f p.1, p.2)), Parses env p.1 p.2 := by
    intro p hp'
    obtain ⟨q, hq, rfl⟩ := List.mem_map.mp hp'
    exact hp q hq _ (hfw q.1 (hf q hq)).1
  obtain ⟨ws, o, s, c1, c2, c3, c4, c5, c6⟩ := C71_command env opts num zero opened none a th (ps.map (fun p => (f p.1, p.2))) hpar (by simpa using hne) ⟨hopts.1, hopts.2.1, hopts.2.2.1⟩ hbit hc
    (by intro p hp'; obtain ⟨q, hq, rfl⟩ := List.mem_map.mp hp'; exact hm q hq)
    (by intro p hp'; obtain ⟨q, hq, rfl⟩ := List.mem_map.mp hp'; exact hua q hq)
  have hex' : ws.any (·.exits) = false := by
    refine consume_exits env _ ws (fun w hw => ?_) c1
    obtain ⟨p, hp', rfl⟩ := List.mem_map.mp hw
    obtain ⟨q, hq, rfl⟩ := List.mem_map.mp hp'
    obtain ⟨w', _, _, k1, k2, _⟩ := consume_parses env _ _ (hpar _ hp')
    obtain ⟨_, _, _, hw0⟩ := (hfw q.1 (hf q hq)).1
    refine ⟨w', k1, k2, ?_⟩
    show (f q.1).exits = false
    rw [hw0]
  have hopen : (ArchiveIO.openWrite { settings := a, thread := th } true (.other dest.opened)).2 = ((newIO a th).openWrite true (.other true)).2 := by
    cases dest with
    | fd => rfl
    | file b => cases b with
      | true => rfl
      | false => exact absurd rfl hdest
  refine ⟨{ output := s.kept, files := o.files, messages := o.messages }, ?_, rfl, c3, c4, rfl, ?_⟩
  · unfold create_srcml
    rw [ha]
    simp only [Run.bind]
    rw [r1]
    simp only [Run.bind, r5, Bool.false_eq_true, if_false, hopts.1, r3, hopen]
    rw [hreq, c1]
    simp only [hex', Bool.false_eq_true, if_false]
    rw [c2]
    simp only [finishCommand, herr, c3, List.length_nil, Nat.add_zero, Nat.lt_irrefl, gt_iff_lt, if_false]
    rw [if_pos (.inl r4), c5]
    simp only [Run.bind]
  · intro fs wants hd
    obtain ⟨hs, e1, e0, e2⟩ := c6 fs wants hd
    refine ⟨hs, e1, e0, ?_⟩
    intro fin r hr hw i hi
    obtain ⟨g1, g2⟩ := e2 fin r hr hw i hi
    refine ⟨?_, by simpa using g2⟩
    intro hn hread
    obtain ⟨v, v1, v2, v3, v4, v5, v6⟩ := g1 (by simpa using hn) hread
    simp only [List.getElem_map] at v2 v3 v4 v5 v6
    obtain ⟨lang, l1, l2, l3⟩ := (hfw (ps[i]).1 (hf _ (List.getElem_mem hn))).1
    rw [l3] at v3 v4 v5 v6
    obtain ⟨name, n1, n2⟩ := v6
    have hfn : req.attFilename = none := by
      by_cases hx : req.attFilename = none
      · exact hx
      · obtain ⟨url, hu, _⟩ := create_done req _ a ha
        obtain ⟨r', hr1, hr2⟩ := C72_refused req _ url hu
        rw [ha] at hr1
        cases hr1
        exact absurd (hr2.mpr (.inl ⟨hone, hx⟩)) (by simp)
    rw [hfn] at n1 l2
    refine ⟨v, v1, v2, ⟨name, n1, n2⟩, v4, v5, ?_, ?_⟩
    · intro c l hl; rw [v3, l1 c l hl]
    · intro hl; rw [v3, l2 (.inl hl)]; rfl

/-- **C72.** A text on the command line is made to one request for each of its units, in order; with more than one the output is an archive. -/
theorem C72_text {D : Type} (opts : CmdOptions) (req : CmdRequest) (stat : Str → FileKind) (arch : Str → Option ArchIn) (cwd : Str) (tree : Str → FsTree) (other : Handlers D) (a : Archive) (i : InputSrc)
    (hs : i.state ≠ .srcml) (hp : i.protocol = "text".toList) (is : List Item) (hr : i.resource = itemsText is) (hok : ItemsOk is []) (hpr : ¬ HasProtocol (itemsText is))
    (c : Char) (l lang : Str) (hl : (req.attLanguage = some (c :: l) ∧ lang = c :: l) ∨ (req.attLanguage = none ∧ ∃ f, req.attFilename = some f ∧ lang = (look a.registeredLanguages f).getD [])) :
    dispatchInput (clientHandlers opts req stat arch cwd tree other) a i = .val {
      requests := (units is).map (fun u => { req := { filename := req.attFilename, language := lang, url := req.attUrl, version := req.attVersion, buffer := u
                                                      diskDir := if opts.noarchive then some req.outputFilename else none } })
      handled := (units is).length, full := decide (1 < (units is).length) } := by
  have hh : handlerOf i = .text := by
    unfold handlerOf
    rw [if_neg hs, if_pos hp]
  unfold dispatchInput
  rw [hh]
  simp only [reduceCtorEq, or_self, false_and, if_false]
  have hx : (clientHandlers opts req stat arch cwd tree other).run .text a i = (textRequests opts req a.registeredLanguages i.resource).bind (fun (rs, more) =>
      .val { requests := rs.map (fun q => { req := q }), handled := rs.length, full := more }) := rfl
  rw [hx, hr]
  unfold textRequests
  rw [C44_items_partial is hok hpr]
  rcases hl with ⟨h1, rfl⟩ | ⟨h1, f, h2, rfl⟩
  · simp only [Run.bind, h1, Option.getD_some, ne_eq, reduceCtorEq, not_false_eq_true, if_true, List.map_map, List.length_map]
    rfl
  · simp only [Run.bind, h1, h2, Option.getD_none, ne_eq, not_true_eq_false, if_false, List.map_map, List.length_map]
    rfl

/-- **C72.** A directory is made to the requests of its files, in the order of their paths (C69 says which). -/
theorem C72_directory {D : Type} (opts : CmdOptions) (req : CmdRequest) (stat : Str → FileKind) (arch : Str → Option ArchIn) (time : Str → Option Str) (contents : Str → Str) (cwd : Str) (tree : Str → FsTree)
    (other : Handlers D) (a : Archive) (i : InputSrc) (hs : i.state ≠ .srcml) (hp : i.protocol = "file".toList) (hd : i.isdirectory = true)
    (hw : DistinctNames (tree i.resource)) (hv : LastVisible (if i.resource = ['.'] then cwd else i.resource))
    (hread : ∀ f ∈ directoryFiles cwd i.resource (tree i.resource), ':' ∉ f ∧ '?' ∉ f ∧ f ≠ "/dev/stdin".toList ∧ stat f ≠ .directory ∧
      (∃ a, arch f = some a ∧ ReadAs a (time f) (contents f)) ∧ (opts.timestamp = true → time f ≠ none)) :
    ∃ g : Str → Option ParseReq,
      (∀ f ∈ directoryFiles cwd i.resource (tree i.resource), FileGives opts req a.registeredLanguages (!isoption a.options OPTION_ARCHIVE) f (time f) (contents f) (g f)) ∧
      dispatchInput (clientHandlers opts req stat arch cwd tree other) a i = .val {
        requests := ((directoryFiles cwd i.resource (tree i.resource)).filterMap g).map (fun q => { req := q }), handled := 1, full := isoption a.options OPTION_ARCHIVE } := by
  have hh : handlerOf i = .filesystem := by
    unfold handlerOf
    rw [if_neg hs, if_neg (by rw [hp]; decide), if_neg (by rw [hp]; decide), if_pos ⟨hp, hd⟩]
  obtain ⟨g, g1, g2⟩ := C69_requests opts req a.registeredLanguages stat arch time contents (!isoption a.options OPTION_ARCHIVE) cwd i.resource (tree i.resource) hw hv hread
  refine ⟨g, g1, ?_⟩
  unfold dispatchInput
  rw [hh]
  simp only [reduceCtorEq, or_self, false_and, if_false]
  have hx : (clientHandlers opts req stat arch cwd tree other).run .filesystem a i =
      (src_input_filesystem opts req a.registeredLanguages stat arch (!isoption a.options OPTION_ARCHIVE) cwd i.resource (tree i.resource)).bind (fun r => .val r.handled') := rfl
  rw [hx, g2]
  simp only [Run.bind, InputRun.handled', Bool.not_not]

/-- **C72.** A source archive (tar, zip, ...) that is a local file is made to the requests of its entries, in order, and the output is an archive. -/
theorem C72_source_archive {D : Type} (opts : CmdOptions) (req : CmdRequest) (stat : Str → FileKind) (arch : Str → Option ArchIn) (cwd : Str) (tree : Str → FsTree) (other : Handlers D) (a : Archive)
    (i : InputSrc) (hs : i.state ≠ .srcml) (hp : i.protocol = "file".toList) (hd : i.isdirectory = false) (har : i.archives ≠ []) (A : ArchIn) (own : Str)
    (hA : arch i.resource = some A) (hf : A.format = .archive) (ho : OwnName i own) (hx : i.filename ≠ "stdin://-".toList) (hne : ∃ e ∈ A.entries, e.dir = false) :
    dispatchInput (clientHandlers opts req stat arch cwd tree other) a i = .val {
      requests := (A.entries.filterMap (fun e => if e.dir then none else gives opts req (entryName [] e.path own)
        (languageFor (look a.registeredLanguages) req.attLanguage false (entryName [] e.path own) i.extension) (some e.mtime) e.blocks.flatten)).map (fun q => { req := q })
      handled := (A.entries.filter (fun e => !e.dir)).length, full := true } := by
  have hh : handlerOf i = .libarchive := by
    unfold handlerOf
    rw [if_neg hs, if_neg (by rw [hp]; decide), if_neg (by rw [hp]; decide), if_neg (by rw [hd]; simp), if_neg (fun h => har h.2.1)]
  have hal : asksAlways i = false := by unfold asksAlways; rw [hp]; decide
  have h := C70_archive opts req a.registeredLanguages (!isoption a.options OPTION_ARCHIVE) i false [] A own ⟨rfl, .inr (.inr (.inl har))⟩ hf ho (fun h => absurd h hx) hne
  rw [hal] at h
  unfold dispatchInput
  rw [hh, if_neg (fun h => h.2.2.1 hp)]
  simp only [reduceCtorEq, if_false]
  have hx : (clientHandlers opts req stat arch cwd tree other).run .libarchive a i =
      (src_input_libarchive opts req a.registeredLanguages (!isoption a.options OPTION_ARCHIVE) i false [] (arch i.resource)).bind (fun r => .val r.handled') := rfl
  rw [hx, hA, h]
  rfl

/-- **C72.** A parameter `name=value` of a transformation: the value is put in quotes, unless it has one in front. -/
theorem C72_param (name value : Str) (hn : '=' ∉ name) :
    (∀ r, value = '"' :: r → xsltParam (name ++ '=' :: value) = (name, value)) ∧
    ((¬ ∃ r, value = '"' :: r) → xsltParam (name ++ '=' :: value) = (name, '"' :: value ++ ['"'])) := by
  have hs : splitExt (name ++ '=' :: value) = (name, value) := (splitExt_parts _ _ _).mpr (.inl ⟨hn, rfl⟩)
  unfold xsltParam
  simp only [hs]
  constructor
  · rintro r rfl; rfl
  · intro h
    cases value with
    | nil => rfl
    | cons c r =>
      have hc : c ≠ '"' := fun e => h ⟨r, by rw [e]⟩
      simp [hc]

/-! ### Instances -/

/-- The library of the instances of C71, for a new archive. -/
def createdEnv : ParseEnv Int where
  parseFile u _ := ({ data := { u with derivedLanguage := LANGUAGE_CXX } } : UnitObj).parseTokens sampleSax srcml_archive_create {} none sampleToks
  parseMemory u _ := ({ data := { u with derivedLanguage := LANGUAGE_CXX } } : UnitObj).parseTokens sampleSax srcml_archive_create {} none sampleToks
  apply _ := .val none

/-- The unit that the parser makes of it. -/
@[irreducible] def createdUnit (name : Str) : UnitObj :=
  match createdEnv.parseFile { language := some "C++".toList, filename := some name } [] with
  | .val (_, u) => u
  | .ub => {}

def createdMade (name : Str) : MadeUnit :=
  { ua := srcml_archive_create, u := (createdUnit name).data, evs := [.op "cpp:directive".toList [], .ch '#', .ch 'a', .cl "cpp:directive".toList] }

theorem created_run (name : Str) (hn : name = "a.cpp".toList ∨ name = "b.cpp".toList) :
    createdEnv.parseFile { language := some "C++".toList, filename := some name } name = .val (.ok, createdUnit name) := by
  rcases hn with rfl | rfl <;> decide +kernel

theorem created_made (name : Str) (hn : name = "a.cpp".toList ∨ name = "b.cpp".toList) : (createdMade name).Carried srcml_archive_create := by
  have hmade : Made (createdMade name).u (createdMade name).evs := by
    refine .parsed sampleSax srcml_archive_create {} { data := { language := some "C++".toList, filename := some name, derivedLanguage := LANGUAGE_CXX } } (createdUnit name) none
      sampleToks _ "#a".toList ?_ ⟨Or.inl (by rcases hn with rfl | rfl <;> decide +kernel), Or.inl (by rcases hn with rfl | rfl <;> decide +kernel)⟩ (by decide +kernel) (by rcases hn with rfl | rfl <;> decide +kernel)
      (Carries.markup _ _ _ (by decide +kernel)
        (Carries.text _ _ [] (by decide +kernel) (by decide +kernel) (Carries.markup _ _ _ (by decide +kernel) .nil)))
      sampleSax_reads rfl none (fun _ h => by cases h) (created_run name hn)
    have hns : namespacesOf srcml_archive_create (beforeParse srcml_archive_create { language := some "C++".toList, filename := some name, derivedLanguage := LANGUAGE_CXX } none) = startingNamespaces := by
      rcases hn with rfl | rfl <;> decide +kernel
    refine ⟨by rcases hn with rfl | rfl <;> decide +kernel, ?_, by rw [hns]; exact starting_sound, ?_⟩
    · rw [hns]
      have : mergeNamespaces defaultNamespaces startingNamespaces = defaultNamespaces := by decide +kernel
      rw [this]
      constructor <;> decide +kernel
    · have hm : startMeta srcml_archive_create (beforeParse srcml_archive_create { language := some "C++".toList, filename := some name, derivedLanguage := LANGUAGE_CXX } none) =
          { language := some "C++".toList, revision := some "1.0.0".toList, filename := some name } := by
        rcases hn with rfl | rfl <;> decide +kernel
      rw [hm]
      refine ⟨?_, by simp [attrPairs], by simp [attrPairs], by simp [attrPairs]⟩
      intro v hv
      simp only [List.mem_cons, List.not_mem_nil, or_false, Option.some.injEq, reduceCtorEq, false_or] at hv
      rcases hn with rfl | rfl <;> rcases hv with rfl | rfl | rfl | rfl <;> decide +kernel
  refine ⟨⟨hmade, rfl, ?_, ?_⟩, ?_, by rcases hn with rfl | rfl <;> decide +kernel, by rcases hn with rfl | rfl <;> decide +kernel, by rcases hn with rfl | rfl <;> decide +kernel⟩
  · have h1 : (jobOut srcml_archive_create srcml_archive_create (createdMade name).u 1).namespaces.map (·.prefix_) = defaultNamespaces.map (·.prefix_) := by
      rcases hn with rfl | rfl <;> decide +kernel
    have h2 : (jobOut srcml_archive_create srcml_archive_create (createdMade name).u 1).namespaces.map (·.uri) = defaultNamespaces.map (·.uri) := by
      rcases hn with rfl | rfl <;> decide +kernel
    exact CleanPrefixes.congr (a := defaultNamespaces) (by constructor <;> decide +kernel) h1 h2
  · have hm : unitMetaOf srcml_archive_create (createdMade name).ua (createdMade name).u =
        { language := some "C++".toList, revision := some "1.0.0".toList, filename := some name } := by
      rcases hn with rfl | rfl <;> decide +kernel
    rw [hm]
    refine ⟨?_, by simp [attrPairs], by simp [attrPairs], by simp [attrPairs]⟩
    intro v hv
    simp only [List.mem_cons, List.not_mem_nil, or_false, Option.some.injEq, reduceCtorEq, false_or] at hv
    rcases hn with rfl | rfl <;> rcases hv with rfl | rfl | rfl | rfl <;> decide +kernel
  · intro n attrs h1 h2
    simp only [createdMade, List.mem_cons, List.not_mem_nil, or_false, Ev.op.injEq, reduceCtorEq, false_or] at h1
    obtain ⟨rfl, rfl⟩ := h1
    exact absurd h2 (by decide)

theorem created_carried : CarriedArchive srcml_archive_create where
  prefixes := by
    have : (rootOut srcml_archive_create).namespaces = defaultNamespaces := by decide +kernel
    rw [this]
    constructor <;> decide +kernel
  values := by
    refine ⟨?_, by simp [rootMeta, srcml_archive_create, attrPairs], by simp [rootMeta, srcml_archive_create, attrPairs], by simp [rootMeta, srcml_archive_create, attrPairs]⟩
    have : [(rootMeta srcml_archive_create).revision, (rootMeta srcml_archive_create).language, (rootMeta srcml_archive_create).url,
        (rootMeta srcml_archive_create).filename, (rootMeta srcml_archive_create).version, (rootMeta srcml_archive_create).timestamp,
        (rootMeta srcml_archive_create).hash, (rootMeta srcml_archive_create).encoding] =
        [some "1.0.0".toList, none, none, none, none, none, none, none] := by decide +kernel
    rw [this]
    intro v hv
    simp only [List.mem_cons, List.not_mem_nil, or_false, Option.some.injEq, reduceCtorEq, false_or] at hv
    subst hv
    decide
  macros := by
    have : srcml_archive_create.userMacroList = [] := rfl
    rw [this]; simp
  prolog := ⟨by decide +kernel, by intro t d h; cases h⟩
  prolog' := ⟨⟨by decide +kernel, by intro t d h; cases h⟩, by decide +kernel, by intro t d h; cases h⟩
  uris := by
    have : (rootOut srcml_archive_create).tagAttrs (rootMeta srcml_archive_create) =
        [("xmlns".toList, SRC_NS_URI), ("revision".toList, "1.0.0".toList)] := by decide +kernel
    rw [this]
    unfold PlainUris
    decide +kernel
  cpp := by decide +kernel

/-- The input for a file. -/
def createdInput (name : Str) : InputSrc :=
  match inputSrc (fun _ => .other) ("./".toList ++ name) with
  | .val i => i
  | .ub => {}

theorem created_input (name : Str) (hn : name = "a.cpp".toList ∨ name = "b.cpp".toList) : LocalFile (createdInput name) ∧ (createdInput name).resource = "./".toList ++ name := by
  rcases hn with rfl | rfl <;> exact ⟨⟨by decide +kernel, by decide +kernel, by decide +kernel, by decide +kernel⟩, by decide +kernel⟩

theorem created_archive : createArchive {} [createdInput "a.cpp".toList, createdInput "b.cpp".toList] = .val (some srcml_archive_create) := by decide +kernel

theorem created_parses (name : Str) (hn : name = "a.cpp".toList ∨ name = "b.cpp".toList) (w : Work Int) (h : FileWork {} srcml_archive_create.registeredLanguages (createdInput name) w) :
    Parses createdEnv w (createdMade name) := by
  obtain ⟨lang, h1, h2, rfl⟩ := h
  have hl : lang = "C++".toList := by
    rw [h2 (.inl rfl)]
    rcases hn with rfl | rfl <;> decide +kernel
  subst hl
  have hr : (createdInput name).resource = "./".toList ++ name := (created_input name hn).2
  have hw : WithoutDots ("./".toList ++ name) name ∧ name ≠ [] := (stripDots_iff _ _).mp (by rcases hn with rfl | rfl <;> decide +kernel)
  refine ⟨rfl, ⟨rfl, rfl, rfl⟩, ?_, ?_, rfl⟩
  · intro f hf
    cases hf
    exact ⟨name, by rw [← hr] at hw; exact hw⟩
  · intro u hu
    have hlang : u.language = some "C++".toList := hu.language
    have hver : u.version = none := hu.version
    have htime : u.timestamp = none := hu.timestamp
    have hname : u.filename = some name := by
      obtain ⟨n, k1, k2⟩ := hu.filename
      rw [k2]
      rw [← hr] at hw
      rw [WithoutDots.functional k1 hw.1]
    have hu' : u = { language := some "C++".toList, filename := some name } := by
      rw [hu.rest, hlang, hver, htime, hname]
    subst hu'
    refine ⟨createdUnit name, created_run name hn, rfl, ?_⟩
    rcases hn with rfl | rfl <;> decide +kernel

/-- The handlers of the instances. -/
def createdHandlers : Handlers Int :=
  clientHandlers {} (CreateReq.cmd {} []) (fun _ => .other) (fun _ => none) [] (fun _ => .nil) { run := fun _ _ _ => .ub }

/-- An instance of `C72_command`: two files. -/
example : ∃ e, create_srcml {} {} createdEnv sampleNumbers 0 (fun _ => true) createdHandlers {} .fd [createdInput "a.cpp".toList, createdInput "b.cpp".toList] = .val e ∧
    e.exited = false ∧ e.messages = [] ∧ e.files = [] ∧ e.cut = false := by
  have hn : ∀ p ∈ [(createdInput "a.cpp".toList, createdMade "a.cpp".toList), (createdInput "b.cpp".toList, createdMade "b.cpp".toList)],
      (LocalFile p.1 ∧ p.1.resource ≠ "_".toList) ∧ (∀ w : Work Int, FileWork {} srcml_archive_create.registeredLanguages p.1 w → Parses createdEnv w p.2) ∧ p.2.Carried srcml_archive_create ∧
        p.2.ua = srcml_archive_create := by
    intro p hp
    simp only [List.mem_cons, List.not_mem_nil, or_false] at hp
    rcases hp with rfl | rfl
    · exact ⟨⟨(created_input _ (.inl rfl)).1, by decide +kernel⟩, created_parses _ (.inl rfl), created_made _ (.inl rfl), rfl⟩
    · exact ⟨⟨(created_input _ (.inr rfl)).1, by decide +kernel⟩, created_parses _ (.inr rfl), created_made _ (.inr rfl), rfl⟩
  obtain ⟨e, h1, h2, h3, h4, h5, _⟩ := C72_command {} {} createdEnv sampleNumbers 0 (fun _ => true) [] (fun _ => .other) (fun _ => none) [] (fun _ => .nil) { run := fun _ _ _ => .ub } {} .fd
    srcml_archive_create [(createdInput "a.cpp".toList, createdMade "a.cpp".toList), (createdInput "b.cpp".toList, createdMade "b.cpp".toList)] ⟨rfl, rfl, rfl, rfl⟩ (by decide)
    created_archive (by simp) (by rintro ⟨i, h, _⟩; simp at h) (fun p hp => (hn p hp).1) (fun p hp => (hn p hp).2.1) created_carried (fun p hp => (hn p hp).2.2.1) (fun p hp => (hn p hp).2.2.2)
  exact ⟨e, h1, h2, h3, h4, h5⟩

/-! ### Findings -/

/-- The library of the instances, where the second file cannot be read. -/
def missingEnv : ParseEnv Int := { createdEnv with parseFile := fun u f => if f = "./b.cpp".toList then .val (.ioError, {}) else createdEnv.parseFile u f }

/-- One file that cannot be read: the archive is not closed, but freed after the descriptor was closed. On the standard output all that libxml2 had not yet written is lost, also the units of the other files;
in a file the end is not the same as that of an archive that was closed (no newlines before the last end tag). -/
theorem C72_finding_not_closed :
    (∃ e, create_srcml {} {} missingEnv sampleNumbers 0 (fun _ => true) createdHandlers {} .fd [createdInput "a.cpp".toList, createdInput "b.cpp".toList] = .val e ∧ e.messages ≠ [] ∧ e.cut = true) ∧
    (∃ e, create_srcml {} {} missingEnv sampleNumbers 0 (fun _ => true) createdHandlers {} (.file true) [createdInput "a.cpp".toList, createdInput "b.cpp".toList] = .val e ∧ e.cut = false ∧
      "</unit></unit>\n".toList <:+ e.output) ∧
    (∃ e, create_srcml {} {} createdEnv sampleNumbers 0 (fun _ => true) createdHandlers {} (.file true) [createdInput "a.cpp".toList, createdInput "b.cpp".toList] = .val e ∧
      "</unit>\n\n</unit>\n".toList <:+ e.output) := by
  refine ⟨?_, ?_, ?_⟩
  · obtain ⟨e, h1, h2⟩ := Run.sat_iff (x := create_srcml {} {} missingEnv sampleNumbers 0 (fun _ => true) createdHandlers {} .fd [createdInput "a.cpp".toList, createdInput "b.cpp".toList])
      (p := fun e => decide (e.messages ≠ [] ∧ e.cut = true)) (by decide +kernel)
    exact ⟨e, h1, of_decide_eq_true h2⟩
  · obtain ⟨e, h1, h2⟩ := Run.sat_iff (x := create_srcml {} {} missingEnv sampleNumbers 0 (fun _ => true) createdHandlers {} (.file true) [createdInput "a.cpp".toList, createdInput "b.cpp".toList])
      (p := fun e => decide (e.cut = false ∧ "</unit></unit>\n".toList <:+ e.output)) (by decide +kernel)
    exact ⟨e, h1, of_decide_eq_true h2⟩
  · obtain ⟨e, h1, h2⟩ := Run.sat_iff (x := create_srcml {} {} createdEnv sampleNumbers 0 (fun _ => true) createdHandlers {} (.file true) [createdInput "a.cpp".toList, createdInput "b.cpp".toList])
      (p := fun e => decide ("</unit>\n\n</unit>\n".toList <:+ e.output)) (by decide +kernel)
    exact ⟨e, h1, of_decide_eq_true h2⟩

/-- Nothing is written for a single file that cannot be read: not even an empty document. -/
theorem C72_finding_nothing : ∃ e, create_srcml {} {} missingEnv sampleNumbers 0 (fun _ => true) createdHandlers {} (.file true) [createdInput "b.cpp".toList] = .val e ∧ e.output = [] ∧ e.exited = false := by
  obtain ⟨e, h1, h2⟩ := Run.sat_iff (x := create_srcml {} {} missingEnv sampleNumbers 0 (fun _ => true) createdHandlers {} (.file true) [createdInput "b.cpp".toList])
    (p := fun e => decide (e.output = [] ∧ e.exited = false)) (by decide +kernel)
  exact ⟨e, h1, of_decide_eq_true h2⟩

/-- A language alone, without an equals sign, is accepted as an extension: `--register-ext C` makes `.C` the language C, which was C++ before. -/
theorem C72_finding_no_equals : (∃ a, createArchive { languageExt := ["C".toList] } [createdInput "a.cpp".toList] = .val (some a) ∧
      srcml_archive_check_extension a.registeredLanguages (some "a.C".toList) = some "C".toList) ∧
    srcml_archive_check_extension srcml_archive_create.registeredLanguages (some "a.C".toList) = some "C++".toList := by
  refine ⟨?_, by decide +kernel⟩
  obtain ⟨r, h1, h2⟩ := Run.sat_iff (x := createArchive { languageExt := ["C".toList] } [createdInput "a.cpp".toList])
    (p := fun r => match r with
      | none => false
      | some a => decide (srcml_archive_check_extension a.registeredLanguages (some "a.C".toList) = some "C".toList)) (by decide +kernel)
  cases r with
  | none => cases h2
  | some a => exact ⟨a, h1, of_decide_eq_true h2⟩

/-- The url of a source archive with an absolute path is not absolute; and the name of a hidden file loses its dot. -/
theorem C72_finding_url : urlOfInput "file:///a/x.tar".toList = .val "a/x.tar".toList ∧ urlOfInput "file://../.x.tar".toList = .val "x.tar".toList := by decide +kernel

/-- Without an equals sign a parameter has its own name as the value. -/
theorem C72_finding_param : xsltParam "n".toList = ("n".toList, "\"n\"".toList) := by decide +kernel

/-- A text without a language and without a name: the name that is not there is used. -/
theorem C72_finding_text {D : Type} (opts : CmdOptions) (req : CmdRequest) (stat : Str → FileKind) (arch : Str → Option ArchIn) (cwd : Str) (tree : Str → FsTree) (other : Handlers D) (a : Archive) (i : InputSrc)
    (hs : i.state ≠ .srcml) (hp : i.protocol = "text".toList) (h1 : req.attLanguage = none) (h2 : req.attFilename = none) :
    dispatchInput (clientHandlers opts req stat arch cwd tree other) a i = .ub := by
  have hh : handlerOf i = .text := by
    unfold handlerOf
    rw [if_neg hs, if_pos hp]
  unfold dispatchInput
  rw [hh]
  simp only [reduceCtorEq, or_self, false_and, if_false]
  have hx : (clientHandlers opts req stat arch cwd tree other).run .text a i = (textRequests opts req a.registeredLanguages i.resource).bind (fun (rs, more) =>
      .val { requests := rs.map (fun q => { req := q }), handled := rs.length, full := more }) := rfl
  rw [hx]
  unfold textRequests
  cases src_input_text i.resource with
  | ub => rfl
  | val p => simp [Run.bind, h1, h2]

end Srcml
