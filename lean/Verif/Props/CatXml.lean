import Verif.Spec.CatXml
import Verif.Props.ArchiveText
import Verif.Props.Consume
/-
C95: the output of `srcml --cat`.
-/
set_option linter.unusedSimpArgs false
namespace Srcml
open Spec

/-- An archive that is open for writing and to which only text was written. -/
structure OnlyText (a : Archive) (th : ThreadState) (x : Str) (s : ArchiveIO) : Prop where
  settings : s.settings = a
  thread : s.thread = th
  mode : s.mode = .write
  buffer : s.buffer = .valid
  kept : s.kept = x
  translator : s.translator = none
  attached : s.attached = false
  memory : s.memory = false

theorem text_added {a : Archive} {th : ThreadState} {x : Str} {s : ArchiveIO} (h : OnlyText a th x s) (y : Str) :
    ∃ s', s.writeString (some y) = .val (.ok, s') ∧ OnlyText a th (x ++ y) s' ∧ s'.rawwrites = true := by
  refine ⟨{ s with rawwrites := true, kept := s.kept ++ y }, ?_, ⟨h.settings, h.thread, h.mode, h.buffer, by rw [h.kept], h.translator, h.attached, h.memory⟩, rfl⟩
  simp [ArchiveIO.writeString, h.buffer, h.attached]

theorem text_closed {a : Archive} {th : ThreadState} {x : Str} {s : ArchiveIO} (h : OnlyText a th x s) (hr : s.rawwrites = true) :
    ∃ s', s.close = .val s' ∧ s'.kept = x ∧ s'.mode = .invalid := by
  refine ⟨{ s with buffer := .null, mode := .invalid }, ?_, h.kept, rfl⟩
  simp [ArchiveIO.close, ArchiveIO.closeTranslator, hr, h.translator, h.buffer, h.memory]

theorem raw_added {a : Archive} {th : ThreadState} {x : Str} {s : ArchiveIO} (h : OnlyText a th x s) (y : Str) :
    ∃ s', writeRaw s (some y) = .val (.ok, s') ∧ OnlyText a th (x ++ withNewline y) s' ∧ s'.rawwrites = true := by
  by_cases hy : y = []
  · obtain ⟨s', h1, h2, h3⟩ := text_added h y
    refine ⟨s', ?_, ?_, h3⟩
    · simp only [writeRaw]
      rw [if_pos hy, h1]
    · unfold withNewline
      rw [if_pos (Or.inl hy)]
      exact h2
  · obtain ⟨s1, h1, h2, h3⟩ := text_added h y
    cases hl : y.getLast? with
    | none => exact absurd (List.getLast?_eq_none_iff.mp hl) hy
    | some c =>
      by_cases hc : c = '\n'
      · refine ⟨s1, ?_, ?_, h3⟩
        · simp only [writeRaw]
          rw [if_neg hy]
          simp only [writeLine, h1, Run.bind, hl, hc, ne_eq, not_true_eq_false, if_false]
        · unfold withNewline
          rw [if_pos (Or.inr (by rw [hl, hc]))]
          exact h2
      · obtain ⟨s2, k1, k2, k3⟩ := text_added h2 ['\n']
        refine ⟨s2, ?_, ?_, k3⟩
        · simp only [writeRaw]
          rw [if_neg hy]
          simp only [writeLine, h1, Run.bind, hl, hc, ne_eq, not_false_eq_true, if_true, k1]
        · unfold withNewline
          rw [if_neg (by rw [hl]; simp [hy, hc]), ← List.append_assoc]
          exact k2

theorem cat_document {D : Type} (env : ParseEnv D) {a : Archive} {th : ThreadState} {x : Str} {s : ArchiveIO} (h : OnlyText a th x s) (ua : Option Archive) (u c : UnitData) (st : Status)
    (o : UnitObj) (doc : Str) (hc : srcml_unit_clone (some u) = some c) (hp : env.parseMemory c [] = .val (st, o)) (hd : SoloDocument a th (ua.getD a) o.data doc) :
    catDocument env s ua u = .val (some doc) := by
  obtain ⟨d, d1, d2⟩ := hd
  unfold catDocument
  rw [hc]
  simp only [hp, Run.bind, h.settings, h.thread]
  rw [← d2]
  simp only [ArchiveIO.calls, ArchiveIO.call] at d1
  have e : soloOf a = { cloneOf a with options := ((cloneOf a).options &&& ~~~OPTION_ARCHIVE) &&& ~~~OPTION_HASH } := rfl
  rw [e] at d1
  generalize hw : ArchiveIO.writeUnit _ _ _ _ = w at d1 ⊢
  cases w with
  | ub => exact absurd d1 (by simp)
  | val p =>
    obtain ⟨r, m⟩ := p
    simp only at d1 ⊢
    generalize hm : m.close = m' at d1 ⊢
    cases m' with
    | ub => exact absurd d1 (by simp)
    | val m' =>
      simp only [Run.val.injEq] at d1 ⊢
      rw [d1]

theorem cat_rest {D : Type} (env : ParseEnv D) {a : Archive} {th : ThreadState} : ∀ (us : List (Option Archive × UnitObj)) (xs : List Str) (x : Str) (s : ArchiveIO), OnlyText a th x s →
    us.map (fun p => p.2.getInner.1) = xs.map some → ∃ s', catUnits env false s us = .val (false, 0, s') ∧ OnlyText a th (x ++ xs.flatMap withNewline) s'
  | [], xs, x, s, h, hx => by
    cases xs with
    | cons y ys => simp at hx
    | nil => exact ⟨s, rfl, by simpa using h⟩
  | (ua, o) :: us, xs, x, s, h, hx => by
    cases xs with
    | nil => simp at hx
    | cons y ys =>
      simp only [List.map_cons, List.cons.injEq] at hx
      obtain ⟨s1, h1, h2, _⟩ := raw_added h y
      obtain ⟨s2, k1, k2⟩ := cat_rest env us ys _ s1 h2 hx.2
      refine ⟨s2, ?_, ?_⟩
      · simp [catUnits, catUnit, Run.bind, hx.1, h1, k1]
      · simpa using k2

/-- C95: what `srcml --cat` writes for any number of units, at least one: the document that the first unit without its contents would be, cut by 51 characters, then `>`, then the inner texts of all the units in order, each
with a newline at the end, then `</unit>`; nothing else, and no message. `c`: the clone of the first unit, `o'`: what the library makes of it and of an empty text. -/
theorem C95_output {D : Type} (env : ParseEnv D) (a : Archive) (th : ThreadState) (ua : Option Archive) (o : UnitObj) (us : List (Option Archive × UnitObj)) (xs : List Str)
    (hx : ((ua, o) :: us).map (fun p => p.2.getInner.1) = xs.map some)
    (c : UnitData) (st : Status) (o' : UnitObj) (doc : Str) (hc : srcml_unit_clone (some o.data) = some c) (hp : env.parseMemory c [] = .val (st, o')) (hd : SoloDocument a th (ua.getD a) o'.data doc)
    (hlen : 51 ≤ doc.length) :
    ∃ s, catOutput env a th true ((ua, o) :: us) = .val (0, s) ∧ Concatenated doc xs s.kept ∧ s.mode = .invalid := by
  cases xs with
  | nil => simp at hx
  | cons y ys =>
    simp only [List.map_cons, List.cons.injEq] at hx
    have h0 : OnlyText a th [] (({ settings := a, thread := th } : ArchiveIO).openWrite true (.other true)).2 := ⟨rfl, rfl, rfl, rfl, rfl, rfl, rfl, rfl⟩
    have hdoc := cat_document env h0 ua o.data c st o' doc hc hp hd
    obtain ⟨s1, h1, g1, _⟩ := text_added h0 (doc.take (doc.length - 51))
    obtain ⟨s2, h2, g2, _⟩ := text_added g1 ['>']
    obtain ⟨s3, h3, g3, _⟩ := raw_added g2 y
    obtain ⟨s4, h4, g4⟩ := cat_rest env us ys _ s3 g3 hx.2
    obtain ⟨s5, h5, g5, r5⟩ := text_added g4 "</unit>\n".toList
    have hh : catHead ((some doc).getD []) = some (doc.take (doc.length - 51)) := by
      simp only [Option.getD_some, catHead]
      rw [if_neg (by omega)]
    obtain ⟨s6, h6, k6, m6⟩ := text_closed g5 r5
    refine ⟨s6, ?_, ⟨doc.take (doc.length - 51), doc.drop (doc.length - 51), (List.take_append_drop _ _).symm, by simp; omega, ?_⟩, m6⟩
    · simp only [catOutput, catUnits, catUnit, Run.bind, hdoc, hh, h1, h2, hx.1, h3, h4, h5, h6, if_true]
      rfl
    · rw [k6]
      simp

/-- C95: the document from which the start tag is taken, for an output archive and a unit that XML can carry: prolog and an empty element with the attributes of the unit. -/
theorem C95_document (a : Archive) (th : ThreadState) (ua : Archive) (u : UnitData) (hbody : u.readBody = true) (hcontent : unitContent ua u = .val none)
    (hpre : CleanPrefixes (jobOut (soloOf a) ua u 0).namespaces) (hval : CleanMeta (unitMetaOf (soloOf a) ua u)) :
    SoloDocument a th ua u (prologText (rootOut (soloOf a)) ++ ('<' :: (jobOut (soloOf a) ua u 0).unitName ++
      attrsText ((jobOut (soloOf a) ua u 0).tagAttrs (unitMetaOf (soloOf a) ua u)) ++ "/>\n".toList)) := by
  have hA : isoption (soloOf a).options OPTION_ARCHIVE = false := by
    show decide (a.options &&& ~~~OPTION_ARCHIVE &&& ~~~OPTION_HASH &&& OPTION_ARCHIVE ≠ 0) = false
    have h0 : a.options &&& ~~~OPTION_ARCHIVE &&& ~~~OPTION_HASH &&& OPTION_ARCHIVE = 0 := by
      unfold OPTION_ARCHIVE OPTION_HASH
      apply BitVec.eq_of_getLsbD_eq
      intro i hi
      simp only [BitVec.getLsbD_and, BitVec.getLsbD_not, BitVec.getLsbD_zero]
      cases a.options.getLsbD i <;> cases (BitVec.getLsbD (1#64 <<< 0) i) <;> grind
    simp [h0]
  obtain ⟨s, h1, h2, _⟩ := solitary_written (th := th) (a := soloOf a) (j := { ua := ua, u := u, content := none }) hA ⟨hbody, hcontent, hpre, hval⟩
  refine ⟨s, h1, ?_⟩
  rw [h2]
  simp [solitaryText, unitText, tagText]

/-- The events of a unit: its contents and the newline that is added. -/
def lineEvents (x : Str) (evs : List Ev) : List Ev := if x = [] ∨ x.getLast? = some '\n' then evs else evs ++ [.ch '\n']

theorem line_readsAs {x : Str} {evs : List Ev} (h : ReadsAs x evs) : ReadsAs (withNewline x) (lineEvents x evs) := by
  unfold withNewline lineEvents
  split
  · exact h
  · exact h.append ReadsAs.newline

theorem lines_readsAs : ∀ l : List (Str × List Ev), (∀ p ∈ l, ReadsAs p.1 p.2) → ReadsAs ((l.map (·.1)).flatMap withNewline) (l.flatMap (fun p => lineEvents p.1 p.2))
  | [], _ => ReadsAs.nil
  | p :: l, h => by
    simp only [List.map_cons, List.flatMap_cons]
    exact (line_readsAs (h p (by simp))).append (lines_readsAs l (fun q hq => h q (by simp [hq])))

/-- C95, the part that holds: the output is one document, an element `unit` with the contents of all units in order, when the cut is between two attributes of the start tag: `front` are those that are left, `back` those that are cut off,
with the end of the tag 51 characters. That the contents are those of the units, whatever the start tag is, is `C95_output`; for other lengths see `C95_finding_cut`. `parts`: the inner texts and what they read as. -/
theorem C95_reads_partial (o : Out) (hpro : CleanProlog o) (front back : List (Str × Str)) (hv : ∀ p ∈ front, ValidName p.1 ∧ ValidValue p.2) (hn : (front.map (·.1)).Nodup)
    (hcut : (attrsText back).length + 3 = 51) (parts : List (Str × List Ev)) (hparts : ∀ p ∈ parts, ReadsAs p.1 p.2) (out : Str)
    (h : Concatenated (prologText o ++ ('<' :: "unit".toList ++ attrsText (front ++ back) ++ "/>\n".toList)) (parts.map (·.1)) out) :
    readXml out = some (.op "unit".toList front :: parts.flatMap (fun p => lineEvents p.1 p.2) ++ [.cl "unit".toList]) := by
  obtain ⟨head, tail, e1, e2, rfl⟩ := h
  have hhead : head = prologText o ++ ('<' :: "unit".toList ++ attrsText front) := by
    rw [attrsText_append] at e1
    have e3 : (prologText o ++ ('<' :: "unit".toList ++ attrsText front)) ++ (attrsText back ++ "/>\n".toList) = head ++ tail := by
      rw [← e1]; simp
    exact (List.append_inj_left' e3 (by rw [e2]; simp; simpa using hcut)).symm
  have hname : ValidName "unit".toList := by constructor <;> decide +kernel
  obtain ⟨p, f1, f2⟩ := run_startTag ({} : RState) "unit".toList front rfl hname hv
  have f3 := run_closeOpen ({ pos := p } : RState) "unit".toList front f2 hn (fun _ => rfl)
  have f4 := (lines_readsAs parts hparts) ⟨.content, ["unit".toList], true, [.op "unit".toList front]⟩ rfl (by simp) rfl
  have f5 := run_endTag ⟨.content, ["unit".toList], true, [.op "unit".toList front] ++ parts.flatMap (fun p => lineEvents p.1 p.2)⟩ "unit".toList [] rfl hname rfl
  have et : head ++ ['>'] ++ (parts.map (·.1)).flatMap withNewline ++ "</unit>\n".toList =
      prologText o ++ (('<' :: "unit".toList ++ attrsText front) ++ (['>'] ++ ((parts.map (·.1)).flatMap withNewline ++ (('<' :: '/' :: "unit".toList ++ ['>']) ++ ['\n'])))) := by
    rw [hhead]; simp
  unfold readXml
  rw [et, run_append_some (run_prolog hpro), run_append_some f1, run_append_some f3]
  simp only [List.nil_append] at f4 f5 ⊢
  rw [run_append_some f4, run_append_some f5]
  simp [RState.run, RState.step, RState.char, xmlChar]

/-- C95, from the units to the document that is read: `o'`, what the library makes of a clone of the first unit and an empty text, is an empty unit that XML can carry, the srcML namespace has no prefix, and the start tag that it
is written with has the attributes `front` and then `back`, where `back` and the end of the tag are 51 characters. Then the output of the command is one element `unit` with the attributes `front`, which holds the contents of all
the units, in order. -/
theorem C95_whole_partial {D : Type} (env : ParseEnv D) (a : Archive) (th : ThreadState) (ua : Option Archive) (o : UnitObj) (us : List (Option Archive × UnitObj)) (parts : List (Str × List Ev))
    (hx : ((ua, o) :: us).map (fun p => p.2.getInner.1) = parts.map (fun p => some p.1)) (hparts : ∀ p ∈ parts, ReadsAs p.1 p.2)
    (c : UnitData) (st : Status) (o' : UnitObj) (hc : srcml_unit_clone (some o.data) = some c) (hp : env.parseMemory c [] = .val (st, o'))
    (hbody : o'.data.readBody = true) (hcontent : unitContent (ua.getD a) o'.data = .val none) (hpro : CleanProlog (rootOut (soloOf a)))
    (hpre : CleanPrefixes (jobOut (soloOf a) (ua.getD a) o'.data 0).namespaces) (hval : CleanMeta (unitMetaOf (soloOf a) (ua.getD a) o'.data))
    (hname : (jobOut (soloOf a) (ua.getD a) o'.data 0).unitName = "unit".toList) (front back : List (Str × Str))
    (hattrs : (jobOut (soloOf a) (ua.getD a) o'.data 0).tagAttrs (unitMetaOf (soloOf a) (ua.getD a) o'.data) = front ++ back) (hcut : (attrsText back).length + 3 = 51) :
    ∃ s, catOutput env a th true ((ua, o) :: us) = .val (0, s) ∧ s.mode = .invalid ∧
      readXml s.kept = some (.op "unit".toList front :: parts.flatMap (fun p => lineEvents p.1 p.2) ++ [.cl "unit".toList]) := by
  have hdoc := C95_document a th (ua.getD a) o'.data hbody hcontent hpre hval
  have hall := tagAttrs_valid hpre hval
  have hnd := tagAttrs_nodup hpre hval
  rw [hattrs] at hall hnd
  rw [hname, hattrs] at hdoc
  obtain ⟨s, h1, h2, h3⟩ := C95_output env a th ua o us (parts.map (·.1)) (by rw [hx]; simp) c st o' _ hc hp hdoc (by
    rw [attrsText_append]; simp only [List.length_append, List.length_cons]; simp; omega)
  refine ⟨s, h1, h3, C95_reads_partial (rootOut (soloOf a)) hpro front back (fun p hp => hall p (by simp [hp])) ?_ hcut parts hparts _ h2⟩
  rw [List.map_append] at hnd
  exact (List.nodup_append.mp hnd).1

/-- C95: without any unit the output is the end tag alone. -/
theorem C95_finding_no_units {D : Type} (env : ParseEnv D) (a : Archive) (th : ThreadState) : ∃ s, catOutput env a th true [] = .val (0, s) ∧ s.kept = "</unit>\n".toList ∧ readXml s.kept = none := by
  have h0 : OnlyText a th [] (({ settings := a, thread := th } : ArchiveIO).openWrite true (.other true)).2 := ⟨rfl, rfl, rfl, rfl, rfl, rfl, rfl, rfl⟩
  obtain ⟨s5, h5, g5, r5⟩ := text_added h0 "</unit>\n".toList
  obtain ⟨s6, h6, k6, _⟩ := text_closed g5 r5
  refine ⟨s6, ?_, by rw [k6]; rfl, by rw [k6]; decide +kernel⟩
  simp only [catOutput, catUnits, Run.bind, h5, h6]

/-! #### Instances and findings -/

/-- A library that makes a directive of every file and nothing of an empty text. -/
def catEnv (a : Archive) : ParseEnv Int where
  parseFile u _ := ({ data := { u with derivedLanguage := LANGUAGE_CXX } } : UnitObj).parseTokens sampleSax a {} none sampleToks
  parseMemory u s := ({ data := { u with derivedLanguage := LANGUAGE_CXX } } : UnitObj).parseTokens sampleSax a {} none (if s = [] then [] else sampleToks)
  apply _ := .val none

/-- The unit of a file in C++. -/
def catSample (a : Archive) (name : Str) : UnitObj :=
  match (catEnv a).parseFile { language := some "C++".toList, filename := some name } name with
  | .val (_, u) => u
  | .ub => {}

/-- The output for files in C++ with these names. -/
def catOf (a : Archive) (names : List Str) : Option Str :=
  match catOutput (catEnv a) a {} true (names.map (fun n => (none, catSample a n))) with
  | .val (_, s) => some s.kept
  | .ub => none

/-- What the library makes of the first unit and an empty text. -/
def catEmptied (a : Archive) (name : Str) : UnitObj :=
  match (srcml_unit_clone (some (catSample a name).data)).map (fun c => (catEnv a).parseMemory c []) with
  | some (.val (_, u)) => u
  | _ => {}

theorem cat_solo {a : Archive} {th : ThreadState} {ua : Archive} {u : UnitData} {doc : Str}
    (h : (match ({ settings := soloOf a, thread := th } : ArchiveIO).calls [.openWrite true .memory, .writeUnit ua (some u) none, .close] with
      | .val s => s.delivered
      | .ub => none) = some doc) : SoloDocument a th ua u doc := by
  cases hc : ({ settings := soloOf a, thread := th } : ArchiveIO).calls [.openWrite true .memory, .writeUnit ua (some u) none, .close] with
  | ub => rw [hc] at h; exact absurd h (by simp)
  | val s => rw [hc] at h; exact ⟨s, hc, h⟩

theorem sample_reads : ReadsAs "<cpp:directive>#a</cpp:directive>".toList [.op "cpp:directive".toList [], .ch '#', .ch 'a', .cl "cpp:directive".toList] := by
  intro r hp hs hr
  have hname : ValidName "cpp:directive".toList := by constructor <;> decide +kernel
  obtain ⟨p, f1, f2⟩ := run_startTag r "cpp:directive".toList [] hp hname (by simp)
  have f3 := run_closeOpen { r with pos := p } "cpp:directive".toList [] f2 (by decide) (fun h => absurd h hs)
  have f4 : RState.run ⟨.content, "cpp:directive".toList :: r.stack, true, r.evs ++ [.op "cpp:directive".toList []]⟩ "#a".toList =
      some ⟨.content, "cpp:directive".toList :: r.stack, true, r.evs ++ [.op "cpp:directive".toList []] ++ [.ch '#'] ++ [.ch 'a']⟩ := by
    simp [RState.run, RState.step, RState.char, xmlChar]
  have f5 := run_endTag ⟨.content, "cpp:directive".toList :: r.stack, true, r.evs ++ [.op "cpp:directive".toList []] ++ [.ch '#'] ++ [.ch 'a']⟩ "cpp:directive".toList r.stack rfl hname rfl
  have e : "<cpp:directive>#a</cpp:directive>".toList = ('<' :: "cpp:directive".toList ++ attrsText []) ++ (['>'] ++ ("#a".toList ++ ('<' :: '/' :: "cpp:directive".toList ++ ['>']))) := by decide +kernel
  rw [e, run_append_some f1, run_append_some f3, run_append_some f4, f5]
  obtain ⟨pos, st, ro, evs⟩ := r
  simp only at hp hr
  subst hp; subst hr
  simp

/-- The hypotheses of `C95_output` and `C95_reads_partial` are met by two files in C++ of which the first is `a.hh`. -/
example : ∃ s, catOutput (catEnv srcml_archive_create) srcml_archive_create {} true [(none, catSample srcml_archive_create "a.hh".toList), (none, catSample srcml_archive_create "main.cpp".toList)] = .val (0, s) ∧
    readXml s.kept = some (.op "unit".toList [("xmlns".toList, "http://www.srcML.org/srcML/src".toList), ("xmlns:cpp".toList, "http://www.srcML.org/srcML/cpp".toList)] ::
      [("<cpp:directive>#a</cpp:directive>".toList, [.op "cpp:directive".toList [], .ch '#', .ch 'a', .cl "cpp:directive".toList]),
       ("<cpp:directive>#a</cpp:directive>".toList, [.op "cpp:directive".toList [], .ch '#', .ch 'a', .cl "cpp:directive".toList])].flatMap (fun p => lineEvents p.1 p.2) ++ [.cl "unit".toList]) := by
  obtain ⟨s, h1, h2, _⟩ := C95_output (catEnv srcml_archive_create) srcml_archive_create {} none (catSample srcml_archive_create "a.hh".toList) [(none, catSample srcml_archive_create "main.cpp".toList)]
    ["<cpp:directive>#a</cpp:directive>".toList, "<cpp:directive>#a</cpp:directive>".toList] (by decide +kernel)
    ((srcml_unit_clone (some (catSample srcml_archive_create "a.hh".toList).data)).getD {}) .ok (catEmptied srcml_archive_create "a.hh".toList)
    (prologText (rootOut srcml_archive_create) ++ ('<' :: "unit".toList ++ attrsText ([("xmlns".toList, "http://www.srcML.org/srcML/src".toList), ("xmlns:cpp".toList, "http://www.srcML.org/srcML/cpp".toList)] ++
      [("revision".toList, "1.0.0".toList), ("language".toList, "C++".toList), ("filename".toList, "a.hh".toList)]) ++ "/>\n".toList))
    rfl (by decide +kernel) (cat_solo (by decide +kernel)) (by decide +kernel)
  refine ⟨s, h1, C95_reads_partial (rootOut srcml_archive_create) ⟨by decide +kernel, by intro t d h; cases h⟩ _ _ ?_ (by decide +kernel) (by decide +kernel) _ ?_ _ h2⟩
  · intro p hp
    simp only [List.mem_cons, List.not_mem_nil, or_false] at hp
    rcases hp with rfl | rfl <;> exact ⟨by constructor <;> decide +kernel, by decide +kernel⟩
  · intro p hp
    simp only [List.mem_cons, List.not_mem_nil, or_false] at hp
    rcases hp with rfl | rfl <;> exact sample_reads

/-- The hypotheses of `C95_whole_partial` are met by the same files. -/
example : ∃ s, catOutput (catEnv srcml_archive_create) srcml_archive_create {} true [(none, catSample srcml_archive_create "a.hh".toList), (none, catSample srcml_archive_create "main.cpp".toList)] = .val (0, s) ∧
    s.mode = .invalid ∧ (readXml s.kept).isSome := by
  obtain ⟨s, h1, h2, h3⟩ := C95_whole_partial (catEnv srcml_archive_create) srcml_archive_create {} none (catSample srcml_archive_create "a.hh".toList) [(none, catSample srcml_archive_create "main.cpp".toList)]
    [("<cpp:directive>#a</cpp:directive>".toList, [.op "cpp:directive".toList [], .ch '#', .ch 'a', .cl "cpp:directive".toList]),
     ("<cpp:directive>#a</cpp:directive>".toList, [.op "cpp:directive".toList [], .ch '#', .ch 'a', .cl "cpp:directive".toList])] (by decide +kernel) (by
      intro p hp
      simp only [List.mem_cons, List.not_mem_nil, or_false] at hp
      rcases hp with rfl | rfl <;> exact sample_reads)
    ((srcml_unit_clone (some (catSample srcml_archive_create "a.hh".toList).data)).getD {}) .ok (catEmptied srcml_archive_create "a.hh".toList)
    rfl (by decide +kernel) (by decide +kernel) (by decide +kernel) ⟨by decide +kernel, by intro t d h; cases h⟩ (by
      have h1 : (jobOut (soloOf srcml_archive_create) srcml_archive_create (catEmptied srcml_archive_create "a.hh".toList).data 0).namespaces.map (·.prefix_) = defaultNamespaces.map (·.prefix_) := by decide +kernel
      have h2 : (jobOut (soloOf srcml_archive_create) srcml_archive_create (catEmptied srcml_archive_create "a.hh".toList).data 0).namespaces.map (·.uri) = defaultNamespaces.map (·.uri) := by decide +kernel
      exact CleanPrefixes.congr (a := defaultNamespaces) (by constructor <;> decide +kernel) h1 h2) (by
      have hm : unitMetaOf (soloOf srcml_archive_create) srcml_archive_create (catEmptied srcml_archive_create "a.hh".toList).data =
          { language := some "C++".toList, revision := some "1.0.0".toList, filename := some "a.hh".toList } := by decide +kernel
      show CleanMeta (unitMetaOf (soloOf srcml_archive_create) srcml_archive_create (catEmptied srcml_archive_create "a.hh".toList).data)
      rw [hm]
      refine ⟨?_, by simp [attrPairs], by simp [attrPairs], by simp [attrPairs]⟩
      intro v hv
      simp only [List.mem_cons, List.not_mem_nil, or_false, Option.some.injEq, reduceCtorEq, false_or] at hv
      rcases hv with rfl | rfl | rfl <;> decide) (by decide +kernel)
    [("xmlns".toList, "http://www.srcML.org/srcML/src".toList), ("xmlns:cpp".toList, "http://www.srcML.org/srcML/cpp".toList)]
    [("revision".toList, "1.0.0".toList), ("language".toList, "C++".toList), ("filename".toList, "a.hh".toList)] (by decide +kernel) (by decide +kernel)
  exact ⟨s, h1, h2, by rw [h3]; rfl⟩

/-- With a name of four characters the cut is between two attributes: the output is a document. Its start tag has no attributes left but the namespaces: the language and the name are lost. -/
theorem C95_finding_attributes_lost : (catOf srcml_archive_create ["a.hh".toList, "main.cpp".toList]).bind readXml =
    some (.op "unit".toList [("xmlns".toList, "http://www.srcML.org/srcML/src".toList), ("xmlns:cpp".toList, "http://www.srcML.org/srcML/cpp".toList)] ::
      [.op "cpp:directive".toList [], .ch '#', .ch 'a', .cl "cpp:directive".toList, .ch '\n', .op "cpp:directive".toList [], .ch '#', .ch 'a', .cl "cpp:directive".toList, .ch '\n'] ++ [.cl "unit".toList]) := by decide +kernel

/-- With a name of another length the cut is inside an attribute, and the output is not a document: `<unit … rev>` for `main.cpp`. -/
theorem C95_finding_cut : catOf srcml_archive_create ["main.cpp".toList] = some ("<?xml version=\"1.0\" encoding=\"UTF-8\" standalone=\"yes\"?>\n<unit xmlns=\"http://www.srcML.org/srcML/src\" xmlns:cpp=\"http://www.srcML.org/srcML/cpp\" rev><cpp:directive>#a</cpp:directive>\n</unit>\n".toList) ∧
    (catOf srcml_archive_create ["main.cpp".toList]).bind readXml = none ∧ (catOf srcml_archive_create ["a.h".toList]).bind readXml = none := by decide +kernel

/-- With a prefix for the srcML namespace the start tag has it and the end tag has not: the output is not a document, also when the cut is between two attributes. -/
theorem C95_finding_prefix : ∃ A, SetCall.run srcml_archive_create (.registerNamespace (some "s".toList) (some "http://www.srcML.org/srcML/src".toList)) = .val (.ok, A) ∧
    catOf A ["a.hh".toList] = some ("<?xml version=\"1.0\" encoding=\"UTF-8\" standalone=\"yes\"?>\n<s:unit xmlns:s=\"http://www.srcML.org/srcML/src\" xmlns:cpp=\"http://www.srcML.org/srcML/cpp\"><cpp:directive>#a</cpp:directive>\n</unit>\n".toList) ∧
    (catOf A ["a.hh".toList]).bind readXml = none := by
  refine ⟨_, rfl, by decide +kernel, by decide +kernel⟩

end Srcml
