import Verif.Props.SourceFiles
import Verif.Props.Consume
import Verif.Spec.Convenience
/-
C75: the convenience function `srcml(input, output)`.
-/
set_option linter.unusedSimpArgs false
namespace Srcml
open Spec CharBuffer

/-! ### The names -/

theorem xml_ends {name : Str} : XmlName name ↔ ∃ c1 c2 c3 c4 c5 rest, name.reverse = c1 :: c2 :: c3 :: c4 :: c5 :: rest ∧ c1.toLower = 'l' ∧ c2.toLower = 'm' ∧
    ((c3.toLower = 'x' ∧ c4 = '.') ∨ (c3.toLower = 'c' ∧ c4.toLower = 'r' ∧ c5.toLower = 's' ∧ rest.head? = some '.')) := by
  constructor
  · rintro (⟨base, e, hb, rfl, he⟩ | ⟨base, e, rfl, he⟩)
    · simp only [List.map_eq_cons_iff, List.map_eq_nil_iff] at he
      obtain ⟨x1, _, rfl, h1, x2, _, rfl, h2, x3, _, rfl, h3, rfl⟩ := he
      · cases hr : base.reverse with
        | nil => exact absurd (List.reverse_eq_nil_iff.1 hr) hb
        | cons c5 rest => exact ⟨x3, x2, x1, '.', c5, rest, by simp [hr], h3, h2, .inl ⟨h1, rfl⟩⟩
    · simp only [List.map_eq_cons_iff, List.map_eq_nil_iff] at he
      obtain ⟨x1, _, rfl, h1, x2, _, rfl, h2, x3, _, rfl, h3, x4, _, rfl, h4, x5, _, rfl, h5, rfl⟩ := he
      · exact ⟨x5, x4, x3, x2, x1, '.' :: base.reverse, by simp, h5, h4, .inr ⟨h3, h2, h1, rfl⟩⟩
  · rintro ⟨c1, c2, c3, c4, c5, rest, hr, h1, h2, (⟨h3, h4⟩ | ⟨h3, h4, h5, h6⟩)⟩
    · refine .inl ⟨(c5 :: rest).reverse, [c3, c2, c1], by simp, ?_, by simp [h1, h2, h3]⟩
      have := congrArg List.reverse hr
      rw [List.reverse_reverse] at this
      rw [this, h4]; simp
    · cases rest with
      | nil => cases h6
      | cons c6 rest =>
        simp only [List.head?_cons, Option.some.injEq] at h6
        refine .inr ⟨rest.reverse, [c5, c4, c3, c2, c1], ?_, by simp [h1, h2, h3, h4, h5]⟩
        have := congrArg List.reverse hr
        rw [List.reverse_reverse] at this
        rw [this, h6]; simp

theorem lower_point (c : Char) : c.toLower = '.' ↔ c = '.' := by
  constructor
  · intro h
    unfold Char.toLower at h
    split at h
    · rename_i hc
      have := congrArg Char.val h
      simp only [] at this
      have h3 : c.val + ('a'.val - 'A'.val) = '.'.val := this
      have h1 : 'A'.val ≤ c.val := hc.1
      have h2 : c.val ≤ 'Z'.val := hc.2
      exfalso
      revert h1 h2 h3
      generalize c.val = v
      intro h3 h1 h2
      have e : v = '.'.val - ('a'.val - 'A'.val) := by rw [← h3]; simp
      rw [e] at h1
      exact absurd h1 (by decide)
    · exact h
  · rintro rfl; rfl

/-- The test of the name; it looks in front of a name that is `srcml`. -/
theorem xmlName_iff (name : Str) (h : name.map Char.toLower ≠ ['s', 'r', 'c', 'm', 'l']) : ∃ b, xmlName name = .val b ∧ (b = true ↔ XmlName name) := by
  rw [xml_ends]
  unfold xmlName
  split
  · rename_i c1 c2 c3 c4 c5 rest hr
    by_cases h12 : c1.toLower = 'l' ∧ c2.toLower = 'm'
    · rw [if_pos h12]
      by_cases h34 : c3.toLower = 'x' ∧ c4 = '.'
      · rw [if_pos h34]
        exact ⟨true, rfl, by simp only [true_iff]; exact ⟨c1, c2, c3, c4, c5, rest, hr, h12.1, h12.2, .inl h34⟩⟩
      · rw [if_neg h34]
        by_cases h345 : c3.toLower = 'c' ∧ c4.toLower = 'r' ∧ c5.toLower = 's'
        · rw [if_pos h345]
          cases rest with
          | nil =>
            exfalso; apply h
            have := congrArg List.reverse hr
            rw [List.reverse_reverse] at this
            rw [this]
            simp [h12.1, h12.2, h345.1, h345.2.1, h345.2.2]
          | cons c6 rest =>
            refine ⟨_, rfl, ?_⟩
            rw [decide_eq_true_iff, lower_point]
            constructor
            · rintro rfl
              exact ⟨c1, c2, c3, c4, c5, _, hr, h12.1, h12.2, .inr ⟨h345.1, h345.2.1, h345.2.2, rfl⟩⟩
            · rintro ⟨d1, d2, d3, d4, d5, rest', hr', _, _, hx⟩
              rw [hr] at hr'
              simp only [List.cons.injEq] at hr'
              obtain ⟨rfl, rfl, rfl, rfl, rfl, rfl⟩ := hr'
              rcases hx with hx | hx
              · exact absurd hx h34
              · simpa using hx.2.2.2
        · rw [if_neg h345]
          refine ⟨false, rfl, ?_⟩
          simp only [Bool.false_eq_true, false_iff]
          rintro ⟨d1, d2, d3, d4, d5, rest', hr', _, _, hx⟩
          rw [hr] at hr'
          simp only [List.cons.injEq] at hr'
          obtain ⟨rfl, rfl, rfl, rfl, rfl, rfl⟩ := hr'
          rcases hx with hx | hx
          · exact h34 hx
          · exact h345 ⟨hx.1, hx.2.1, hx.2.2.1⟩
    · rw [if_neg h12]
      refine ⟨false, rfl, ?_⟩
      simp only [Bool.false_eq_true, false_iff]
      rintro ⟨d1, d2, d3, d4, d5, rest', hr', k1, k2, hx⟩
      rw [hr] at hr'
      simp only [List.cons.injEq] at hr'
      obtain ⟨rfl, rfl, rfl, rfl, rfl, rfl⟩ := hr'
      exact h12 ⟨k1, k2⟩
  · rename_i hn
    refine ⟨false, rfl, ?_⟩
    simp only [Bool.false_eq_true, false_iff]
    rintro ⟨d1, d2, d3, d4, d5, rest', hr', _⟩
    exact hn _ _ _ _ _ _ hr'

/-! ### The settings -/

theorem conv_step {g g' : Conv} {c : ConvSet} {st : Status} (h : c.run g = .val (st, g')) : (∃ k : SetCall, k.run g.archive = .val (st, g'.archive)) ∨ g'.archive = g.archive := by
  have ha : ∀ k : SetCall, g.setArchive k = .val (st, g') → ∃ k : SetCall, k.run g.archive = .val (st, g'.archive) := by
    intro k hk
    unfold Conv.setArchive at hk
    cases hr : k.run g.archive with
    | ub => rw [hr] at hk; cases hk
    | val p =>
      rw [hr] at hk
      simp only [Run.bind, Run.val.injEq, Prod.mk.injEq] at hk
      exact ⟨k, by rw [hr, ← hk.1, ← hk.2]⟩
  have hu : ∀ k : UnitSet, g.setUnit k = .val (st, g') → g'.archive = g.archive := by
    intro k hk
    unfold Conv.setUnit at hk
    simp only [Run.val.injEq, Prod.mk.injEq] at hk
    rw [← hk.2]
  cases c <;> simp only [ConvSet.run] at h <;> first | exact .inl (ha _ h) | exact .inr (hu _ h)

theorem conv_setUp : ∀ (cs : List ConvSet) {g : Conv}, convAfter cs = .val g → SetUpOk g.archive
  | [], g, h => by simp only [convAfter, Run.val.injEq] at h; subst h; exact setUp_static
  | c :: cs, g, h => by
    simp only [convAfter] at h
    cases h1 : convAfter cs with
    | ub => rw [h1] at h; cases h
    | val g1 =>
      rw [h1] at h
      simp only [Run.bind] at h
      cases h2 : c.run g1 with
      | ub => rw [h2] at h; cases h
      | val p =>
        rw [h2] at h
        simp only [Run.val.injEq] at h
        subst h
        rcases conv_step (st := p.1) (g' := p.2) h2 with ⟨k, hk⟩ | hk
        · exact setUp_step (conv_setUp cs h1) hk
        · rw [hk]; exact conv_setUp cs h1

theorem solitary_setUp {g : Conv} (h : SetUpOk g.archive) : SetUpOk (solitarySettings g) := ⟨h.uris, h.flags, h.revision, h.attributes, h.registered⟩

theorem solitary_option (g : Conv) : isoption (solitarySettings g).options OPTION_ARCHIVE = false := by
  unfold isoption solitarySettings
  apply decide_eq_false; apply Classical.not_not.2
  show (g.archive.options &&& ~~~OPTION_ARCHIVE) &&& OPTION_ARCHIVE = 0
  rw [BitVec.and_assoc]
  have : ~~~OPTION_ARCHIVE &&& OPTION_ARCHIVE = 0 := by decide
  rw [this]; simp

theorem newUnit_eq (g : Conv) (a : Archive) (input : Str) (h1 : a.language = g.archive.language) (h2 : a.version = g.archive.version) : g.newUnit a input = inputUnit g input := by
  unfold Conv.newUnit inputUnit
  rw [h1, h2]
  cases hf : g.unit.filename with
  | none => rfl
  | some f => rfl

theorem convOpened_eq (lib : ConvLib) (th : ThreadState) (g : Conv) (output : Str) :
    convOpened lib th g output = .val ((newIO (solitarySettings g) th).openWrite true (.other (lib.writable output))).2 := rfl

/-! ### C75 -/

/-- The settings with another error message. -/
def Spec.withMessage (g : Conv) (message : Str) : Conv := { g with archive := { g.archive with errorString := message } }

/-- The name is `srcml`, in any case of the letters: the function reads the byte in front of it. -/
def Spec.BareSrcml (name : Str) : Prop := name.map Char.toLower = ['s', 'r', 'c', 'm', 'l']

/-- **C75.** A null argument, and an input that has neither an extension of source code nor one of XML while the language is not `xml`, are refused: nothing is written, and only the message changes. -/
theorem C75_refused (lib : ConvLib) (th : ThreadState) (g : Conv) :
    (∀ input output, input = none ∨ output = none →
      srcml lib th g input output = .val { status := .invalidArgument, state := withMessage g "No input file provided".toList, output := none }) ∧
    (∀ input output, ¬ SourceName g input → ¬ SrcmlName g input → ¬ BareSrcml input → ∃ message,
      srcml lib th g (some input) (some output) = .val { status := .invalidInput, state := withMessage g message, output := none } ∧
      (withMessage g message).errorString = message ∧
      (g.archive.language = none → message = "No language provided.".toList) ∧
      (∀ l, g.archive.language = some l → message = "Language '".toList ++ l ++ "' is not supported.".toList)) := by
  constructor
  · rintro input output (rfl | rfl)
    · rfl
    · cases input <;> rfl
  · intro input output h1 h2 h3
    obtain ⟨b, hb, hx⟩ := xmlName_iff input h3
    have h4 : ¬ (b || decide (g.archive.language = some "xml".toList)) = true := by
      intro h
      rw [Bool.or_eq_true, decide_eq_true_iff] at h
      exact h2 ⟨h1, h.imp hx.1 id⟩
    have h5 : ¬ (srcml_archive_check_extension g.archive.registeredLanguages (some input)).isSome = true := by
      intro h; apply h1; intro h'; rw [h'] at h; cases h
    unfold srcml
    dsimp only
    rw [if_neg h5, hb]
    simp only [Run.bind]
    rw [if_neg h4]
    refine ⟨_, rfl, rfl, ?_, ?_⟩
    · intro h; rw [h]
    · intro l h; rw [h]

/-- **C75.** Whatever the call does, it changes none of the settings, and the message only when it refuses. -/
theorem C75_settings_kept (lib : ConvLib) (th : ThreadState) (g : Conv) (input output : Option Str) (r : ConvResult) (h : srcml lib th g input output = .val r) :
    withMessage r.state g.errorString = g ∧ (r.state = g ∨ r.output = none ∧ (r.status = .invalidArgument ∨ r.status = .invalidInput)) := by
  have hg : withMessage g g.errorString = g := rfl
  have hrefuse : ∀ st m, (st = .invalidArgument ∨ st = .invalidInput) → g.refuse st m = .val r →
      withMessage r.state g.errorString = g ∧ (r.state = g ∨ r.output = none ∧ (r.status = .invalidArgument ∨ r.status = .invalidInput)) := by
    intro st m hst h
    cases h
    exact ⟨rfl, .inr ⟨rfl, hst⟩⟩
  have hsame : r.state = g → withMessage r.state g.errorString = g ∧ (r.state = g ∨ r.output = none ∧ (r.status = .invalidArgument ∨ r.status = .invalidInput)) := by
    intro h; rw [h]; exact ⟨hg, .inl rfl⟩
  have hend : ∀ o st s, convEnd lib g o st s = .val r → r.state = g := by
    intro o st s h
    unfold convEnd at h
    cases hs : s.close with
    | ub => rw [hs] at h; cases h
    | val s' => rw [hs] at h; cases h; rfl
  cases input with
  | none => exact hrefuse _ _ (.inl rfl) h
  | some input =>
  cases output with
  | none => exact hrefuse _ _ (.inl rfl) h
  | some output =>
  unfold srcml at h
  dsimp only at h
  split at h
  · apply hsame
    unfold convSource at h
    rw [convOpened_eq] at h
    obtain ⟨s, _, h⟩ := conv_bind h
    obtain ⟨p, _, h⟩ := conv_bind h
    unfold convWrite at h
    split at h
    · obtain ⟨q, _, h⟩ := conv_bind h
      exact hend _ _ _ h
    · exact hend _ _ _ h
  · cases hx : xmlName input with
    | ub => rw [hx] at h; cases h
    | val b =>
      rw [hx] at h
      simp only [Run.bind] at h
      split at h
      · apply hsame
        unfold convBack at h
        split at h
        · split at h
          · cases h; rfl
          · obtain ⟨q, _, h⟩ := conv_bind h
            cases h; rfl
        · cases h; rfl
      · exact hrefuse _ _ (.inr rfl) h

/-- One unit written to a file: the file holds what would be handed out for a buffer in memory. -/
theorem solo_to_file {a : Archive} {th : ThreadState} {v : UnitData} {s : ArchiveIO} {doc : Str}
    (h : (newIO a th).calls [.openWrite true .memory, .writeUnit a (some v) none, .close] = .val s) (hd : s.delivered = some doc) (hb : v.readBody = true) :
    ∃ s1 s2, ((newIO a th).openWrite true (.other true)).2.writeUnit a (some v) none = .val (.ok, s1) ∧ s1.close = .val s2 ∧ s2.kept = doc := by
  generalize hs0 : ((newIO a th).openWrite true (.other true)).2 = s0
  have hmem0 : ((newIO a th).openWrite true .memory).2 = inMemory s0 := by rw [← hs0]; rfl
  have hset : s0.memory = false ∧ s0.mode = .write := by rw [← hs0]; exact ⟨rfl, rfl⟩
  simp only [ArchiveIO.calls, ArchiveIO.call, hmem0, writeUnit_inMemory] at h
  cases hw : s0.writeUnit a (some v) none with
  | ub => rw [hw] at h; cases h
  | val p =>
    rw [hw] at h
    simp only [Run.bind] at h
    have hst : p.1 = .ok := by
      have := hw
      unfold ArchiveIO.writeUnit at this
      dsimp only at this
      rw [if_neg (by rw [hb]; simp)] at this
      simp only [hb, Bool.true_eq_false, if_false, hset.2, ne_eq, not_true_eq_false] at this
      split at this
      · cases this
      · cases this; rfl
    cases hc : (inMemory p.2).close with
    | ub => rw [hc] at h; cases h
    | val m =>
      rw [hc] at h
      simp only [Run.val.injEq] at h
      subst h
      have hk := (writeUnit_settings (r := p.1) (s' := p.2) hw)
      obtain ⟨s2, c1, c2⟩ := close_inMemory p.2 _ (by rw [hk.2.1]; exact hset.1) hc
      refine ⟨p.2, s2, by rw [← hst], c1, ?_⟩
      rw [hd] at c2
      exact (Option.some.inj c2).symm

/-- **C75.** Source code to srcML, after any sequence of the setters: the function returns OK, keeps the settings, and the file that it wrote holds exactly one unit, as every reader sees it: its text is that of the
input, its language the one that was set or else that of the extension, its file name the one that was set or else that of the input, its version and timestamp those that were set. -/
theorem C75_source_partial (lib : ConvLib) (hio : lib.iconv.WellBehaved) (th : ThreadState) (cs : List ConvSet) (g : Conv) (hg : convAfter cs = .val g) (input output : Str)
    (hn : SourceName g input) (hw : lib.writable output = true) (hk : KeepsSource (solitarySettings g)) (x : SourceFile) (hxu : x.unit = { data := inputUnit g input })
    (hxf : x.from_ = .filename (some input)) (hx : x.Ok lib.toParseLib (solitarySettings g) th) :
    ∃ doc, srcml lib th g (some input) (some output) = .val { status := .ok, state := g, output := some doc } ∧
      ∀ us, UnitsRead doc us → ∃ w, us = [w] ∧ x.ReadAs lib.toParseLib (solitarySettings g) w ∧ w.readBody = true ∧ w.eol = EOL_AUTO := by
  obtain ⟨v, k1, s, doc, k2, k3, k4⟩ := solitary_source lib.toParseLib hio (solitarySettings g) th (solitary_setUp (conv_setUp cs hg)) hk (solitary_option g) x hx
  have hb : v.data.readBody = true := by
    obtain ⟨v', n, evs, q1, _, _, q4, _⟩ := source_parsed hio (solitary_setUp (conv_setUp cs hg)) hk hx
    rw [k1] at q1
    cases q1
    exact q4.body
  obtain ⟨s1, s2, e1, e2, e3⟩ := solo_to_file k2 k3 hb
  refine ⟨doc, ?_, ?_⟩
  · have h5 : (srcml_archive_check_extension g.archive.registeredLanguages (some input)).isSome = true := by
      cases hc : srcml_archive_check_extension g.archive.registeredLanguages (some input) with
      | none => exact absurd hc hn
      | some l => rfl
    unfold srcml
    dsimp only
    rw [if_pos h5]
    unfold convSource
    rw [convOpened_eq, hw]
    simp only [Run.bind]
    have hset : ((newIO (solitarySettings g) th).openWrite true (.other true)).2.settings = solitarySettings g := rfl
    rw [hset, newUnit_eq g (solitarySettings g) input rfl rfl, ← hxu, ← hxf, k1]
    dsimp only [convWrite]
    rw [e1]
    simp only [Run.bind]
    unfold convEnd
    rw [e2]
    simp only [Run.bind, hw, if_true, e3]
  · rintro us ⟨fs, wants, h, fin, r, d1, d2, d3, d4, d5, rfl⟩
    obtain ⟨h', f1, _, f2⟩ := k4 fs wants d1
    rw [d2] at f1
    cases f1
    have hl : 0 < r.log.length := List.length_pos_iff.2 d4
    obtain ⟨m1, m2⟩ := d5 0 hl
    have hread := f2 fin r d3 (by
      intro hi
      rw [m1]
      cases wants with
      | nil => cases m2
      | cons b wants => simpa using m2)
    obtain ⟨w, w1, w2⟩ := (hread 0 hl).1 rfl m1
    refine ⟨w, ?_, w2, gets_ready w1⟩
    cases hlog : r.log with
    | nil => exact absurd hlog d4
    | cons y ys =>
      have hy : gets h.log y.2 = some w := by
        have : r.log[0] = y := by simp [hlog]
        rw [← this]; exact w1
      rw [List.filterMap_cons, hy]
      have : ys.filterMap (fun x => gets h.log x.2) = [] := by
        rw [List.filterMap_eq_nil_iff]
        intro z hz
        obtain ⟨i, hi, rfl⟩ := List.getElem_of_mem hz
        have := (hread (i + 1) (by rw [hlog]; simpa using hi)).2 (by omega)
        have hz : r.log[i + 1]'(by rw [hlog]; simpa using hi) = ys[i] := by simp [hlog]
        rw [hz] at this
        rw [this]; rfl
      rw [this]

theorem back_run (lib : ConvLib) (th : ThreadState) (g : Conv) (input output : Str) (hn : SrcmlName g input) (hb : ¬ BareSrcml input) :
    srcml lib th g (some input) (some output) = convBack lib th g input output := by
  obtain ⟨b, hb, hx⟩ := xmlName_iff input hb
  have h5 : ¬ (srcml_archive_check_extension g.archive.registeredLanguages (some input)).isSome = true := by
    intro h; apply hn.1; intro h'; rw [h'] at h; cases h
  unfold srcml
  dsimp only
  rw [if_neg h5, hb]
  simp only [Run.bind]
  rw [if_pos]
  rw [Bool.or_eq_true, decide_eq_true_iff]
  exact hn.2.imp hx.2 id

/-- **C75.** srcML to source code: the text of the first unit is written, whatever the settings are. A file that cannot be opened is reported, before anything is written; of an archive without units nothing is written. -/
theorem C75_back (lib : ConvLib) (th : ThreadState) (g : Conv) (input output : Str) (hn : SrcmlName g input) (hb : ¬ BareSrcml input) :
    (lib.units input = none → srcml lib th g (some input) (some output) = .val { status := .ioError, state := g, output := none }) ∧
    (lib.units input = some [] → srcml lib th g (some input) (some output) = .val { status := .ok, state := g, output := none }) ∧
    (∀ u us, lib.units input = some (u :: us) → u.readBody = true → lib.writable output = false →
      srcml lib th g (some input) (some output) = .val { status := .ioError, state := g, output := none }) ∧
    ∀ u us text, lib.units input = some (u :: us) → u.readBody = true → u.eol = EOL_AUTO → u.src = some text → lib.writable output = true →
      srcml lib th g (some input) (some output) = .val { status := .ok, state := g, output := some text } := by
  rw [back_run lib th g input output hn hb]
  unfold convBack
  refine ⟨?_, ?_, ?_, ?_⟩
  · intro h; rw [h]; rfl
  · intro h; rw [h]; rfl
  · intro u us h h1 h2
    rw [h]
    show Run.bind (srcml_unit_unparse lib.sax _ some (lib.writable output) (.filename (some output)) (some { data := u })) _ = _
    rw [h2, C30_refused lib.sax _ some false (.filename (some output)) (some { data := u }) .ioError (by simp [unparseRefusal, UnparseTo.valid, h1])]
    rfl
  · intro u us text h h1 h2 h3 h4
    rw [h]
    show Run.bind (srcml_unit_unparse lib.sax _ some (lib.writable output) (.filename (some output)) (some { data := u })) _ = _
    obtain ⟨out, o1, o2⟩ := C30_unparse lib.sax { cloneOf g.archive with type := .read } some (.filename (some output)) { data := u } text (by simp [Usable]) (.inl rfl) h1 h3
    rw [h4]
    have : endingOf u.eol = none := by rw [h2]; decide
    dsimp only at o2
    rw [this] at o2
    rw [show ({ data := u } : UnitObj) = { data := u } from rfl]
    erw [o1]
    rw [show out = text from o2]
    rfl

/-- **C75.** There and back, in one program or in two: the text of the input arrives in the second output. -/
theorem C75_round_trip_partial (lib : ConvLib) (hio : lib.iconv.WellBehaved) (th : ThreadState) (cs : List ConvSet) (g : Conv) (hg : convAfter cs = .val g) (input output : Str)
    (hn : SourceName g input) (hw : lib.writable output = true) (hk : KeepsSource (solitarySettings g)) (x : SourceFile) (hxu : x.unit = { data := inputUnit g input })
    (hxf : x.from_ = .filename (some input)) (hx : x.Ok lib.toParseLib (solitarySettings g) th) :
    ∃ doc, srcml lib th g (some input) (some output) = .val { status := .ok, state := g, output := some doc } ∧
      ∀ (lib' : ConvLib) (th' : ThreadState) (g' : Conv) (back : Str) us, lib'.units output = some us → UnitsRead doc us → SrcmlName g' output → ¬ BareSrcml output →
        lib'.writable back = true → srcml lib' th' g' (some output) (some back) = .val { status := .ok, state := g', output := some x.text } := by
  obtain ⟨doc, h1, h2⟩ := C75_source_partial lib hio th cs g hg input output hn hw hk x hxu hxf hx
  refine ⟨doc, h1, ?_⟩
  intro lib' th' g' back us k1 k2 k3 k4 k5
  obtain ⟨w, rfl, w2, w3, w4⟩ := h2 us k2
  exact (C75_back lib' th' g' output back k3 k4).2.2.2 w [] x.text k1 w3 w4 w2.src k5

/-! ### Examples and findings -/

/-- The convenience functions after `srcml_set_language(l)`, or at the start. -/
def sampleState (l : Option Str) : Conv := { archive := { language := l } }

theorem sampleState_after : convAfter [] = .val (sampleState none) ∧ convAfter [.language (some "xml".toList)] = .val (sampleState (some "xml".toList)) := ⟨rfl, rfl⟩

/-- The file `a.c`, parsed by `srcml`. -/
def convFile (l : Option Str) : SourceFile := { sampleFile with unit := { data := inputUnit (sampleState l) "a.c".toList } }

theorem conv_keeps (l : Option Str) (hl : l = none ∨ l = some "xml".toList) : KeepsSource (solitarySettings (sampleState l)) where
  declared := by rcases hl with rfl | rfl <;> decide +kernel
  prefixes := by
    have : mergeNamespaces defaultNamespaces (solitarySettings (sampleState l)).namespaces = defaultNamespaces := by rcases hl with rfl | rfl <;> decide +kernel
    rw [this]
    constructor <;> decide +kernel
  plain := by rcases hl with rfl | rfl <;> decide +kernel
  cpp := by unfold CppPrefix; rcases hl with rfl | rfl <;> decide +kernel
  url := by intro x h; cases h
  version := by intro x h; cases h
  macros := by
    have : (solitarySettings (sampleState l)).userMacroList = [] := rfl
    rw [this]; simp
  encoding := by rcases hl with rfl | rfl <;> decide +kernel
  instruction := rfl
  revision := rfl

theorem conv_parseOk (l : Option Str) (hl : l = none ∨ l = some "xml".toList) :
    ParseOk sampleLib (solitarySettings (sampleState l)) {} { data := inputUnit (sampleState l) "a.c".toList } LANGUAGE_C [] exSource := by
  have hlc : unitLexConf (solitarySettings (sampleState l)) LANGUAGE_C = exLexConf := by
    have h1 : (solitarySettings (sampleState l)).tabstop = 8 := by rcases hl with rfl | rfl <;> decide +kernel
    have h2 : isoption (unitOptions (solitarySettings (sampleState l))) OPTION_LINE = false := by rcases hl with rfl | rfl <;> decide +kernel
    have h3 : (solitarySettings (sampleState l)).userMacroList = [] := by rcases hl with rfl | rfl <;> decide +kernel
    unfold unitLexConf exLexConf
    rw [h1, h2, h3]
  refine ⟨?_, ?_, rfl, sampleSax_reads, ?_, ?_, ?_, ?_⟩
  · have hns : namespacesOf (solitarySettings (sampleState l)) (beforeParse (solitarySettings (sampleState l)) { inputUnit (sampleState l) "a.c".toList with derivedLanguage := LANGUAGE_C } (some [])) = startingNamespaces := by
      rcases hl with rfl | rfl <;> decide +kernel
    refine ⟨by rcases hl with rfl | rfl <;> decide +kernel, ?_, by rw [hns]; exact starting_sound, ?_⟩
    · have : mergeNamespaces defaultNamespaces (namespacesOf (solitarySettings (sampleState l)) (beforeParse (solitarySettings (sampleState l)) { inputUnit (sampleState l) "a.c".toList with derivedLanguage := LANGUAGE_C } (some []))) = defaultNamespaces := by
        rcases hl with rfl | rfl <;> decide +kernel
      rw [this]
      constructor <;> decide +kernel
    · have hm : startMeta (solitarySettings (sampleState l)) (beforeParse (solitarySettings (sampleState l)) { inputUnit (sampleState l) "a.c".toList with derivedLanguage := LANGUAGE_C } (some [])) =
          { revision := some "1.0.0".toList, filename := some "a.c".toList, encoding := some [], language := l } := by
        rcases hl with rfl | rfl <;> decide +kernel
      rw [hm]
      refine ⟨?_, by simp [attrPairs], by simp [attrPairs], by simp [attrPairs]⟩
      intro v hv
      simp only [List.mem_cons, List.not_mem_nil, or_false, Option.some.injEq, reduceCtorEq, false_or] at hv
      rcases hl with rfl | rfl
      · simp only [reduceCtorEq, false_or] at hv
        rcases hv with rfl | rfl | rfl <;> decide
      · simp only [Option.some.injEq] at hv
        rcases hv with rfl | rfl | rfl | rfl <;> decide
  · constructor
    · left; rcases hl with rfl | rfl <;> decide +kernel
    · left; rcases hl with rfl | rfl <;> decide +kernel
  · rw [hlc]; intro p hp; cases hp
  · rw [hlc]; exact .inl (by decide)
  · rw [hlc]; exact exSource_closed
  · rw [hlc]
    have h1 : isoption (unitOptions (solitarySettings (sampleState l))) OPTION_POSITION = false := by rcases hl with rfl | rfl <;> decide +kernel
    have h2 : (isoption (unitOptions (solitarySettings (sampleState l))) OPTION_CPP || usesPreprocessor LANGUAGE_C) = true := by rcases hl with rfl | rfl <;> decide +kernel
    rw [h1, h2]
    exact sampleLib_finishes

theorem convFile_ok (l : Option Str) (hl : l = none ∨ l = some "xml".toList) : (convFile l).Ok sampleLib (solitarySettings (sampleState l)) {} := by
  have hs := sampleFile_ok
  have ht : (convFile l).text = exSource := sampleFile_text
  refine ⟨hs.from_, by unfold LanguageIs; rcases hl with rfl | rfl <;> decide +kernel, .inr ⟨rfl, rfl⟩, hs.known, hs.uses, hs.converts, hs.decodes, hs.yields, hs.mark, hs.delete, ?_, rfl, (by intro p hp; cases hp), rfl⟩
  intro n h1 h2
  cases sample_language h1 h2
  rw [ht]
  exact conv_parseOk l hl

/-- The library of the examples; every file can be written, and there is no srcML. -/
def sampleConvLib : ConvLib := { sampleLib with writable := fun _ => true, units := fun _ => none }

/-- `srcml("a.c", "a.xml")`, and back with a reader of the file that was written. -/
example : ∃ doc, srcml sampleConvLib {} {} (some "a.c".toList) (some "a.xml".toList) = .val { status := .ok, state := {}, output := some doc } ∧
    ∀ us, UnitsRead doc us → srcml { sampleConvLib with units := fun _ => some us } {} {} (some "a.xml".toList) (some "b.c".toList) =
      .val { status := .ok, state := {}, output := some exSource } := by
  obtain ⟨doc, h1, h2⟩ := C75_round_trip_partial sampleConvLib iconvBasic_wellBehaved {} [] {} rfl "a.c".toList "a.xml".toList (by unfold SourceName; decide +kernel) rfl (conv_keeps none (.inl rfl))
    (convFile none) rfl rfl (convFile_ok none (.inl rfl))
  refine ⟨doc, h1, ?_⟩
  intro us hus
  have := h2 { sampleConvLib with units := fun _ => some us } {} {} "b.c".toList us rfl hus
    ⟨by unfold SourceName; decide +kernel, .inl (.inl ⟨['a'], ['x', 'm', 'l'], by decide, rfl, rfl⟩)⟩ (by unfold BareSrcml; decide) rfl
  rw [this]
  have ht : (convFile none).text = exSource := sampleFile_text
  rw [ht]

/-- Finding: the language `xml` makes `srcml` take files without an extension for srcML, but source code that is parsed while it is set is written with the language `xml`, although it was parsed as C. -/
theorem C75_finding_xml_language : ∃ doc, srcml sampleConvLib {} (sampleState (some "xml".toList)) (some "a.c".toList) (some "a.xml".toList) =
      .val { status := .ok, state := sampleState (some "xml".toList), output := some doc } ∧
    ∀ us, UnitsRead doc us → us.map (fun w => (w.src, w.language)) = [(some exSource, some "xml".toList)] := by
  obtain ⟨doc, h1, h2⟩ := C75_source_partial sampleConvLib iconvBasic_wellBehaved {} _ _ sampleState_after.2 "a.c".toList "a.xml".toList (by unfold SourceName; decide +kernel) rfl (conv_keeps _ (.inr rfl))
    (convFile _) rfl rfl (convFile_ok _ (.inr rfl))
  refine ⟨doc, h1, ?_⟩
  intro us hus
  obtain ⟨w, rfl, w2, _⟩ := h2 us hus
  have ht : (convFile (some "xml".toList)).text = exSource := sampleFile_text
  simp only [List.map_cons, List.map_nil, w2.src, w2.language, ht]
  rfl

/-- Finding: a language that was set with `srcml_set_language` does not help for a file whose extension is not known. -/
theorem C75_finding_language_refused (lib : ConvLib) (th : ThreadState) (output : Str) :
    convAfter [.language (some "C".toList)] = .val (sampleState (some "C".toList)) ∧
    srcml lib th (sampleState (some "C".toList)) (some "noext".toList) (some output) =
      .val { status := .invalidInput, state := withMessage (sampleState (some "C".toList)) "Language 'C' is not supported.".toList, output := none } := by
  refine ⟨rfl, ?_⟩
  obtain ⟨m, h1, _, _, h2⟩ := (C75_refused lib th (sampleState (some "C".toList))).2 "noext".toList output (by unfold SourceName; decide +kernel)
    (by
      rintro ⟨_, (h | h)⟩
      · obtain ⟨b, e1, e2⟩ := xmlName_iff "noext".toList (by decide)
        have hf : xmlName "noext".toList = .val false := by decide +kernel
        rw [hf] at e1
        cases e1
        exact absurd (e2.2 h) (by decide)
      · exact absurd h (by decide)) (by unfold BareSrcml; decide)
  rw [h1]
  have := h2 "C".toList rfl
  rw [this]
  rfl

/-- Finding: for a file with the name `srcml` the function reads outside of the name. -/
theorem C75_finding_bare_name (lib : ConvLib) (th : ThreadState) (output : Str) : srcml lib th {} (some "srcml".toList) (some output) = .ub := by
  have h5 : ¬ (srcml_archive_check_extension ({} : Conv).archive.registeredLanguages (some "srcml".toList)).isSome = true := by decide +kernel
  have hx : xmlName "srcml".toList = .ub := by decide +kernel
  unfold srcml
  dsimp only
  rw [if_neg h5, hx]
  rfl

/-- Finding: `srcml_set_eol` has no effect on the source code that `srcml` writes. -/
theorem C75_finding_eol (lib : ConvLib) (th : ThreadState) (u : UnitData) (us : List UnitData) (h : lib.units "a.xml".toList = some (u :: us)) (h1 : u.readBody = true) (h2 : u.eol = EOL_AUTO)
    (h3 : u.src = some "a\n".toList) (h4 : lib.writable "a.c".toList = true) :
    ∃ g, convAfter [.eol 3] = .val g ∧ srcml lib th g (some "a.xml".toList) (some "a.c".toList) = .val { status := .ok, state := g, output := some "a\n".toList } := by
  refine ⟨{ unit := { eol := 3 } }, rfl, ?_⟩
  exact (C75_back lib th { unit := { eol := 3 } } "a.xml".toList "a.c".toList ⟨by unfold SourceName; decide +kernel, .inl (.inl ⟨['a'], ['x', 'm', 'l'], by decide, rfl, rfl⟩)⟩ (by unfold BareSrcml; decide)).2.2.2
    u us _ h h1 h2 h3 h4

/-- Finding: when the input does not exist, the output is overwritten all the same, with an XML declaration and nothing else. -/
theorem C75_finding_missing_input (lib : ConvLib) (h : lib.file "a.c".toList = none) (hw : lib.writable "a.xml".toList = true) :
    srcml lib {} {} (some "a.c".toList) (some "a.xml".toList) =
      .val { status := .ioError, state := {}, output := some "<?xml version=\"1.0\" encoding=\"UTF-8\" standalone=\"yes\"?>\n".toList } := by
  have h5 : (srcml_archive_check_extension ({} : Conv).archive.registeredLanguages (some "a.c".toList)).isSome = true := by decide +kernel
  unfold srcml
  dsimp only
  rw [if_pos h5]
  unfold convSource
  rw [convOpened_eq, hw]
  obtain ⟨hist, hreg⟩ := (solitary_setUp (conv_setUp [] (g := {}) rfl)).registered
  have := (C73_refused lib.toParseLib (solitarySettings {}) {} (.filename (some "a.c".toList)) { data := ({} : Conv).newUnit (solitarySettings {}) "a.c".toList } hist hreg).2.2.1
    (.filename _) ⟨_, rfl, h⟩
  simp only [Run.bind]
  have hset : ((newIO (solitarySettings {}) {}).openWrite true (.other true)).2.settings = solitarySettings {} := rfl
  rw [hset, this]
  dsimp only [convWrite]
  obtain ⟨s, s1, s2⟩ := Run.sat_iff (x := ((newIO (solitarySettings {}) {}).openWrite true (.other true)).2.close)
    (p := fun s => decide (s.kept = "<?xml version=\"1.0\" encoding=\"UTF-8\" standalone=\"yes\"?>\n".toList)) (by decide +kernel)
  have s2 := of_decide_eq_true s2
  unfold convEnd
  rw [s1]
  simp only [Run.bind, hw, if_true, s2]

theorem close_ok (s : ArchiveIO) (hr : s.rawwrites = false) : ∃ s2, s.close = .val s2 := by
  have hx : ∀ x : ArchiveIO, x.rawwrites = false → x.closeTranslator.rawwrites = false := by
    intro x hx
    unfold ArchiveIO.closeTranslator
    split
    · exact hx
    · split <;> exact hx
  unfold ArchiveIO.close
  dsimp only
  rw [if_neg]
  · exact ⟨_, rfl⟩
  · rintro ⟨h, _⟩
    split at h
    · have := hx s.createTranslator hr
      rw [this] at h; cases h
    · rw [hx _ hr] at h; cases h

/-- An archive whose output could not be opened takes the same units. -/
theorem write_nowhere (s s1 : ArchiveIO) (a : Archive) (v : UnitData) (ht : s.translator = none) (hm : s.mode = .write) (hr : s.rawwrites = false) (hb : v.readBody = true)
    (h : s.writeUnit a (some v) none = .val (.ok, s1)) : ∃ s' s2, { s with buffer := .null }.writeUnit a (some v) none = .val (.ok, s') ∧ s'.close = .val s2 := by
  unfold ArchiveIO.writeUnit at h ⊢
  dsimp only at h ⊢
  simp only [hb, Bool.true_eq_false, false_and, if_false, hm, ht, ne_eq, not_true_eq_false, if_true] at h ⊢
  unfold ArchiveIO.addUnit ArchiveIO.createTranslator at h ⊢
  dsimp only at h ⊢
  split at h
  · cases h
  · rename_i s' hs
    split at hs
    · cases hs
    · rename_i t' b hx
      obtain ⟨s2, hc⟩ := close_ok { s with buffer := .null, translator := some t', attached := decide (BufferPtr.null = BufferPtr.valid) } hr
      rw [hm] at hc
      exact ⟨_, s2, rfl, hc⟩

/-- Finding: when the output of a translation to srcML cannot be opened, the function returns OK. -/
theorem C75_finding_unwritable (lib : ConvLib) (hio : lib.iconv.WellBehaved) (th : ThreadState) (cs : List ConvSet) (g : Conv) (hg : convAfter cs = .val g) (input output : Str)
    (hn : SourceName g input) (hw : lib.writable output = false) (hk : KeepsSource (solitarySettings g)) (x : SourceFile) (hxu : x.unit = { data := inputUnit g input })
    (hxf : x.from_ = .filename (some input)) (hx : x.Ok lib.toParseLib (solitarySettings g) th) :
    srcml lib th g (some input) (some output) = .val { status := .ok, state := g, output := none } := by
  obtain ⟨v, k1, s, doc, k2, k3, _⟩ := solitary_source lib.toParseLib hio (solitarySettings g) th (solitary_setUp (conv_setUp cs hg)) hk (solitary_option g) x hx
  have hb : v.data.readBody = true := by
    obtain ⟨v', n, evs, q1, _, _, q4, _⟩ := source_parsed hio (solitary_setUp (conv_setUp cs hg)) hk hx
    rw [k1] at q1
    cases q1
    exact q4.body
  obtain ⟨s1, s2, e1, e2, e3⟩ := solo_to_file k2 k3 hb
  obtain ⟨s', s2', f1, f2⟩ := write_nowhere _ s1 (solitarySettings g) v.data rfl rfl rfl hb e1
  have h5 : (srcml_archive_check_extension g.archive.registeredLanguages (some input)).isSome = true := by
    cases hc : srcml_archive_check_extension g.archive.registeredLanguages (some input) with
    | none => exact absurd hc hn
    | some l => rfl
  unfold srcml
  dsimp only
  rw [if_pos h5]
  unfold convSource
  rw [convOpened_eq, hw]
  simp only [Run.bind]
  have hset : ((newIO (solitarySettings g) th).openWrite true (.other false)).2.settings = solitarySettings g := rfl
  have hopen : ((newIO (solitarySettings g) th).openWrite true (.other false)).2 = { ((newIO (solitarySettings g) th).openWrite true (.other true)).2 with buffer := .null } := rfl
  rw [hset, newUnit_eq g (solitarySettings g) input rfl rfl, ← hxu, ← hxf, k1]
  dsimp only [convWrite]
  rw [hopen, f1]
  simp only [Run.bind]
  unfold convEnd
  rw [f2]
  simp only [Run.bind, hw, Bool.false_eq_true, if_false]

end Srcml
