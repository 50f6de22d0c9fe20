import Verif.Spec.ParserTestUnits
import Verif.Props.SameSource
import Verif.Props.UnitSelect
/-
C90: which units the parser test tests, and what it compares.
-/
set_option linter.unusedSimpArgs false
namespace Srcml
open Spec CharBuffer

/-! ### The units -/

theorem testUnits_one {asked language : Option Str} {unit : Int} (hu : unit ≠ 0) {s : ArchiveIO} {u : UnitData} {us : List UnitData} (h : Holds s (u :: us)) :
    testUnits asked language unit s = (testedUnits asked [u]).map (withLanguage language) := by
  unfold testUnits
  split
  · next hx => rw [h.readUnit.1] at hx; cases hx
  · next v s' hx =>
    rw [h.readUnit.1] at hx
    cases hx
    cases asked with
    | none => simp [testedUnits, hu]
    | some l =>
      by_cases hl : u.language.getD [] = l
      · subst hl; simp [testedUnits, hu]
      · have : ¬ l = u.language.getD [] := fun e => hl e.symm
        simp [testedUnits, hl, this]

theorem testUnits_all {asked language : Option Str} : ∀ {us : List UnitData} {s : ArchiveIO}, Holds s us →
    testUnits asked language 0 s = (testedUnits asked us).map (withLanguage language) := by
  intro us
  induction us with
  | nil =>
    intro s h
    unfold testUnits
    split
    · cases asked <;> rfl
    · next hx => rw [h.readEnd] at hx; cases hx
  | cons u us ih =>
    intro s h
    unfold testUnits
    split
    · next hx => rw [h.readUnit.1] at hx; cases hx
    · next v s' hx =>
      rw [h.readUnit.1] at hx
      cases hx
      rw [ih h.readUnit.2]
      cases asked with
      | none => simp [testedUnits]
      | some l =>
        by_cases hl : u.language.getD [] = l
        · subst hl; simp [testedUnits]
        · have : ¬ l = u.language.getD [] := fun e => hl e.symm
          simp [testedUnits, hl, this]

/-- **C90**, the units that are tested. Of an archive with units `us`: without `--unit` all of them, or with a language on the command line those before the first unit of another language; with `--unit n` only the
`n`-th, if it is of the language that was asked for. If there is no such unit the command ends with a message. The units are in the order of the archive, and unchanged but for the language of the output archive, if it has one. -/
theorem C90_units (asked language : Option Str) (s : ArchiveIO) (us : List UnitData) (h : Holds s us) :
    (us ≠ [] → parserTestInput asked language 0 s = { units := (testedUnits asked us).map (withLanguage language) }) ∧
    (us = [] → parserTestInput asked language 0 s = { errors := 1, exited := true }) ∧
    ∀ n : Nat, 0 < n →
      (∀ u, us[n - 1]? = some u → parserTestInput asked language n s = { units := (testedUnits asked [u]).map (withLanguage language) }) ∧
      (us[n - 1]? = none → parserTestInput asked language n s = { errors := 1, exited := true }) := by
  refine ⟨?_, ?_, ?_⟩
  · intro hne
    cases us with
    | nil => exact absurd rfl hne
    | cons u us =>
      unfold parserTestInput
      rw [show ((0 : Int) - 1).toNat = 0 from rfl]
      unfold ArchiveIO.skipUnits
      dsimp only
      rw [h.readUnit.1, if_neg (by simp), testUnits_all h]
  · rintro rfl
    unfold parserTestInput
    rw [show ((0 : Int) - 1).toNat = 0 from rfl]
    unfold ArchiveIO.skipUnits
    dsimp only
    rw [h.readEnd, if_pos rfl]
  · intro n hn
    have hm : ((n : Int) - 1).toNat = n - 1 := by omega
    have hn0 : (n : Int) ≠ 0 := by omega
    obtain ⟨k1, k2⟩ := h.skipUnits (n := n - 1)
    constructor
    · intro u hu
      obtain ⟨hlt, hget⟩ := List.getElem?_eq_some_iff.mp hu
      obtain ⟨s', e1, e2⟩ := k1 (by omega)
      rw [List.drop_eq_getElem_cons hlt, hget] at e2
      unfold parserTestInput
      rw [hm, e1]
      dsimp only
      rw [e2.readUnit.1, if_neg (by simp), testUnits_one hn0 e2]
    · intro hu
      have hle : us.length ≤ n - 1 := List.getElem?_eq_none_iff.mp hu
      unfold parserTestInput
      rw [hm]
      by_cases hlt : us.length < n - 1
      · rw [k2 hlt]
      · obtain ⟨s', e1, e2⟩ := k1 (by omega)
        rw [List.drop_of_length_le (by omega)] at e2
        rw [e1]
        dsimp only
        rw [e2.readEnd, if_pos rfl]

/-- Units after the first one of another language are not tested, though they are of the language that was asked for, and nothing is said about it. -/
theorem C90_finding_language : testedUnits (some "C".toList) [{ language := some "C".toList }, { language := some "Java".toList }, { language := some "C".toList }] = [{ language := some "C".toList }] := by
  decide +kernel

/-! ### What is compared -/

theorem byte_char (x : UInt8) : (Char.ofNat x.toNat).toNat = x.toNat := by
  have h : ∀ n : Fin 256, (Char.ofNat n.val).toNat = n.val := by decide +kernel
  exact h ⟨x.toNat, x.toNat_lt⟩

theorem textBytes_bytesText (b : Bytes) : textBytes (bytesText b) = b := by
  unfold textBytes bytesText
  rw [List.map_map]
  have : ∀ x : UInt8, UInt8.ofNat (Char.ofNat x.toNat).toNat = x := by
    intro x
    rw [byte_char]
    simp
  simp [Function.comp_def, this]

theorem unifyNewlines_same : ∀ {b : Bytes}, (13 : UInt8) ∉ b → unifyNewlines b = b := by
  intro b
  fun_induction unifyNewlines b with
  | case1 => intro _; rfl
  | case2 rest ih => intro h; simp at h
  | case3 rest h1 ih => intro h; simp at h
  | case4 c rest h1 h2 ih =>
    intro h
    rw [ih (fun k => h (List.mem_cons_of_mem _ k))]

theorem memory_size {b : Bytes} (h : (0 : UInt8) ∉ b) : (memoryResult (bytesText b)).2 = b.length := by
  have hz : Char.ofNat 0 ∉ bytesText b := by
    unfold bytesText
    rw [List.mem_map]
    rintro ⟨x, hx, e⟩
    have h1 : (Char.ofNat x.toNat).toNat = x.toNat := byte_char x
    rw [e] at h1
    have h2 : x.toNat = 0 := h1.symm
    have : x = 0 := UInt8.toNat_inj.mp h2
    exact h (this ▸ hx)
  unfold memoryResult
  dsimp only
  rw [findFirst_none.mpr hz]
  simp [bytesText]

/-- The source of the copy. -/
theorem handed_source {lib : ParseLib} {text : Str} {bytes : Bytes} (h : HandedOver lib text bytes) (a : Archive) (w : UnitData) :
    SourceIs lib a (testCopy w) (.memory (some bytes) bytes.length) "UTF-8".toList text := by
  obtain ⟨conv, hc, hb⟩ := h.utf8
  have ht : bytes.take bytes.length = bytes := List.take_length
  have hr : requestedName (some "UTF-8".toList) = "UTF-8".toList := by decide +kernel
  have := SourceIs.memory (lib := lib) (a := a) (u := testCopy w) bytes bytes.length (some "UTF-8".toList) "UTF-8".toList conv bytes (.inl ⟨_, rfl, rfl⟩)
    (by intro x hx; cases hx; rw [hc]; simp) (.inl ⟨by rw [hr]; decide, hr.symm⟩) hc (by rw [ht]; exact h.nonempty) (by rw [ht]; exact hb) h.nonempty h.plain.2.2
  rw [ht, h.mark, List.drop_zero, unifyNewlines_same h.plain.1, ← h.text] at this
  exact this

/-- **C90**, what is compared. A unit of an archive is tested against what the parser makes of its text now: the contents that a parse of the same text gives in any other unit, of any archive with the same settings of the
markup, whatever the metadata of that unit and from wherever the text comes. So the test passes exactly if the contents of the unit are those. -/
theorem C90_compares (lib : ParseLib) (a : Archive) (th : ThreadState) (body : UnitObj → Option UnitObj) (filename : Str) (url : Option Str) (w : UnitObj) (text l : Str) (bytes : Bytes)
    (hw : TestUnit a w text l) (ht : HandedOver lib text bytes) (hist : List (Str × Str)) (hreg : Registered a.registeredLanguages hist)
    (hok : ∀ n, getLanguageString n = l → n ∈ languageNumbers → ParseOk lib a th { data := testCopy w.data } n "UTF-8".toList text)
    (a0 : Archive) (th0 : ThreadState) (u0 : UnitObj) (from0 : ParseFrom) (hist0 : List (Str × Str)) (hreg0 : Registered a0.registeredLanguages hist0) (enc0 : Str)
    (hl0 : LanguageIs a0 from0 u0.data (some l)) (hs0 : SourceIs lib a0 u0.data from0 enc0 text) (hraw0 : u0.srcmlRaw = none)
    (hok0 : ∀ n, getLanguageString n = l → n ∈ languageNumbers → ParseOk lib a0 th0 u0 n enc0 text)
    (hsame : SameSettings a0 a u0.data w.data) :
    ∃ v0 contents c, srcml_unit_parse lib a0 th0 from0 (some u0) = .val (.ok, some v0) ∧ v0.getInner.1 = some contents ∧ parserTestCase lib a th body filename url w = .val c ∧
      c.filename = filename ∧ c.url = url ∧ c.language = w.data.language ∧ some c.expected = w.getInner.1 ∧ c.actual = contents := by
  have hl : LanguageIs a (.memory (some bytes) bytes.length) (testCopy w.data) (some l) := hw.language
  obtain ⟨v0, v, contents, k1, k2, k3, k4, _⟩ := C89_metadata lib a0 a th0 th u0 { data := testCopy w.data } from0 (.memory (some bytes) bytes.length) hist0 hist hreg0 hreg l enc0 "UTF-8".toList text hl0 hl hs0
    (handed_source ht a w.data) ⟨hsame.tabstop, hsame.macros, hsame.options, hsame.prefixes⟩ hraw0 rfl hok0 hok
  obtain ⟨out, h1, h2⟩ := C30_unparse lib.sax a body (.memory true true) { w with data := { w.data with encoding := some "UTF-8".toList } } text (by simp [Usable]) hw.mode hw.body hw.src
  have he : endingOf EOL_AUTO = none := rfl
  have h2 : out = text := by
    have e : ({ w with data := { w.data with encoding := some "UTF-8".toList } } : UnitObj).data.eol = EOL_AUTO := hw.eol
    rw [e, he] at h2
    exact h2
  subst h2
  have hin : ∃ x : Str, w.getInner.1 = some x := by
    unfold UnitObj.getInner
    rw [if_neg (by rw [hw.body]; simp)]
    dsimp only
    split
    · exact ⟨_, rfl⟩
    · split <;> exact ⟨_, rfl⟩
  obtain ⟨x, hx⟩ := hin
  have hx2 : ({ w with data := { w.data with encoding := some "UTF-8".toList } } : UnitObj).getInner.1 = some x := by
    rw [← hx]
    unfold UnitObj.getInner
    dsimp only
    split
    · rfl
    · split
      · rfl
      · split <;> rfl
  refine ⟨v0, contents, { filename := filename, url := url, language := w.data.language, expected := x, actual := contents }, k1, k3, ?_, rfl, rfl, rfl, hx.symm, rfl⟩
  have hb : textBytes out = bytes := by rw [ht.text, textBytes_bytesText]
  have hz : (memoryResult out).2 = bytes.length := by rw [ht.text]; exact memory_size ht.plain.2.1
  unfold parserTestCase
  dsimp only [UnitSet.run]
  rw [h1]
  dsimp only [Run.bind, Option.map_some, Option.getD_some]
  rw [hb, hz]
  have hcopy : (UnitSet.run ((srcml_unit_clone (some { w.data with encoding := some "UTF-8".toList })).getD {}) (.language w.data.language)).2 = testCopy w.data := rfl
  dsimp only [UnitSet.run] at hcopy
  rw [hcopy, k2]
  dsimp only [Option.getD_some]
  rw [k4, hx2]
  rfl

/-! ### The example -/

/-- An archive that was opened for reading. -/
def readArchive : Archive := { srcml_archive_create with type := .read }

/-- What a parse of the source makes is put into a unit of the archive as its contents. -/
def testedUnit (contents : Str) : UnitObj :=
  { data := { language := some "C".toList, filename := some "a.c".toList, readBody := true, src := some exSource, srcml := "<unit>".toList ++ contents ++ "</unit>".toList,
              contentBegin := 6, contentEnd := 6 + contents.length + 1 } }

theorem testedUnit_inner (contents : Str) : (testedUnit contents).getInner.1 = some contents := by
  unfold UnitObj.getInner testedUnit
  dsimp only
  rw [if_neg (by simp)]
  cases contents with
  | nil => rfl
  | cons c cs =>
    rw [if_neg (by simp; omega)]
    have : (((6 + (c :: cs).length + 1 : Nat) : Int) - ((6 : Nat) : Int) - 1).toNat = (c :: cs).length := by omega
    dsimp only
    simp only [Int.natCast_add] at this ⊢
    simp
    have h2 : (6 + ((cs.length : Int) + 1) + 1 - 6).toNat - 1 = cs.length + 1 := by omega
    rw [h2]
    simp [List.take_append]

theorem tested_language (contents : Str) : languageSpec (testedUnit contents).data.language readArchive.language none = some "C".toList := by
  have : (testedUnit contents).data.language = some "C".toList := rfl
  rw [this]
  decide +kernel

theorem tested_parseOk (contents : Str) : ParseOk sampleLib readArchive {} { data := testCopy (testedUnit contents).data } LANGUAGE_C "UTF-8".toList exSource := by
  have hlc : unitLexConf readArchive LANGUAGE_C = exLexConf := by
    have h1 : readArchive.tabstop = 8 := by decide +kernel
    have h2 : isoption (unitOptions readArchive) OPTION_LINE = false := by decide +kernel
    have h3 : readArchive.userMacroList = [] := by decide +kernel
    unfold unitLexConf exLexConf
    rw [h1, h2, h3]
  have hcopy : testCopy (testedUnit contents).data = { filename := some "a.c".toList, language := some "C".toList, encoding := some "UTF-8".toList } := rfl
  rw [hcopy]
  refine ⟨?_, ?_, rfl, sampleSax_reads, ?_, ?_, ?_, ?_⟩
  · have hns : namespacesOf readArchive (beforeParse readArchive { filename := some "a.c".toList, language := some "C".toList, encoding := some "UTF-8".toList, derivedLanguage := LANGUAGE_C } (some "UTF-8".toList)) = startingNamespaces := by
      decide +kernel
    refine ⟨by decide +kernel, ?_, by rw [hns]; exact starting_sound, ?_⟩
    · have : mergeNamespaces defaultNamespaces (namespacesOf readArchive (beforeParse readArchive { filename := some "a.c".toList, language := some "C".toList, encoding := some "UTF-8".toList, derivedLanguage := LANGUAGE_C } (some "UTF-8".toList))) = defaultNamespaces := by
        decide +kernel
      rw [this]
      constructor <;> decide +kernel
    · have hm : startMeta readArchive (beforeParse readArchive { filename := some "a.c".toList, language := some "C".toList, encoding := some "UTF-8".toList, derivedLanguage := LANGUAGE_C } (some "UTF-8".toList)) =
          { language := some "C".toList, revision := some "1.0.0".toList, filename := some "a.c".toList, encoding := some "UTF-8".toList } := by
        decide +kernel
      rw [hm]
      refine ⟨?_, by simp [attrPairs], by simp [attrPairs], by simp [attrPairs]⟩
      intro v hv
      simp only [List.mem_cons, List.not_mem_nil, or_false, Option.some.injEq, reduceCtorEq, false_or] at hv
      rcases hv with rfl | rfl | rfl | rfl <;> decide
  · constructor
    · left; decide +kernel
    · left; decide +kernel
  · rw [hlc]; intro p hp; cases hp
  · rw [hlc]; exact .inl (by decide)
  · rw [hlc]; exact exSource_closed
  · rw [hlc]
    have h1 : isoption (unitOptions readArchive) OPTION_POSITION = false := by decide +kernel
    have h2 : (isoption (unitOptions readArchive) OPTION_CPP || usesPreprocessor LANGUAGE_C) = true := by decide +kernel
    rw [h1, h2]
    exact sampleLib_finishes

/-- The contents that a parse of the file of C73 gives are what the test of the unit with that text, in an archive, is compared with: the unit that has them passes. -/
example : ∃ contents c, parserTestCase sampleLib readArchive {} some "a.c".toList none (testedUnit contents) = .val c ∧ c.expected = contents ∧ c.actual = contents ∧
    (∀ other, other ≠ contents → ∃ c, parserTestCase sampleLib readArchive {} some "a.c".toList none (testedUnit other) = .val c ∧ c.expected ≠ c.actual) := by
  have e2 : bytesText (unifyNewlines (exBytes.drop (bomLength (exBytes.take exBytes.length)))) = exSource := by decide +kernel
  have hb : ((iconvBasic.convert "ISO-8859-1".toList).bind (fun conv => blockText (iconvBasic.trivialp "ISO-8859-1".toList) conv [] exBytes)) =
    some exBytes := by decide +kernel
  have hu : ((iconvBasic.convert "UTF-8".toList).bind (fun conv => blockText (iconvBasic.trivialp "UTF-8".toList) conv [] exBytes)) = some exBytes := by decide +kernel
  cases hc : iconvBasic.convert "ISO-8859-1".toList with
  | none => rw [hc] at hb; cases hb
  | some conv =>
  cases hcu : iconvBasic.convert "UTF-8".toList with
  | none => rw [hcu] at hu; cases hu
  | some convu =>
  rw [hc] at hb
  rw [hcu] at hu
  have ho : blockText (iconvBasic.trivialp "ISO-8859-1".toList) conv [] exBytes = some exBytes := hb
  have hou : blockText (iconvBasic.trivialp "UTF-8".toList) convu [] exBytes = some exBytes := hu
  have ht : exBytes.take exBytes.length = exBytes := List.take_length
  have hs := SourceIs.memory (lib := sampleLib) (a := srcml_archive_create) (u := { filename := some "a.c".toList, language := some "C".toList }) exBytes exBytes.length none "ISO-8859-1".toList conv exBytes
    (.inr ⟨rfl, by decide +kernel⟩) (by intro _ h; cases h) (by rw [ht]; exact detect_encoding (requestedName none) exBytes) hc (by decide) (by rw [ht]; exact ho) (by decide) (by decide)
  rw [e2] at hs
  have hand : HandedOver sampleLib exSource exBytes :=
    ⟨by decide +kernel, by decide, ⟨convu, hcu, hou⟩, by decide +kernel, by decide, by decide, by decide⟩
  have key := fun contents => C90_compares sampleLib readArchive {} some "a.c".toList none (testedUnit contents) exSource "C".toList exBytes
    ⟨.inl rfl, rfl, rfl, rfl, tested_language contents⟩ hand [] (.inl rfl) (by intro n h1 h2; cases sample_language h1 h2; exact tested_parseOk contents)
    srcml_archive_create {} { data := { filename := some "a.c".toList, language := some "C".toList } } (.memory (some exBytes) exBytes.length) [] (.inl rfl) _ (by unfold LanguageIs; decide +kernel) hs rfl
    (by intro n h1 h2; cases sample_language h1 h2; exact sample_parseOk' _ (.inr rfl) _ (.inl rfl)) ⟨rfl, rfl, fun _ _ => rfl, fun _ _ => rfl⟩
  obtain ⟨v0, contents, c0, p1, p2, _⟩ := key []
  have key2 : ∀ t, ∃ c, parserTestCase sampleLib readArchive {} some "a.c".toList none (testedUnit t) = .val c ∧ c.expected = t ∧ c.actual = contents := by
    intro t
    obtain ⟨v, cs, c, q1, q2, q3, _, _, _, q4, q5⟩ := key t
    rw [p1] at q1
    cases q1
    rw [p2] at q2
    cases q2
    rw [testedUnit_inner] at q4
    exact ⟨c, q3, Option.some.inj q4, q5⟩
  obtain ⟨c, r1, r2, r3⟩ := key2 contents
  refine ⟨contents, c, r1, r2, r3, ?_⟩
  intro other ho
  obtain ⟨c', s1, s2, s3⟩ := key2 other
  exact ⟨c', s1, by rw [s2, s3]; exact ho⟩

end Srcml
