import Verif.Spec.SameSource
import Verif.Proofs.SameInside
/-
C89: the markup of a source does not depend on the metadata of the unit, nor on where the source comes from.
-/
set_option linter.unusedSimpArgs false
namespace Srcml
open Spec CharBuffer

/-- The uri of a prefix. -/
def uriOf : Prefixes → Str
  | .SRC => SRC_NS_URI | .CPP => CPP_NS_URI | .ERR => ERROR_NS_URI | .POS => POSITION_NS_URI | .OMP => OPENMP_NS_URI

theorem uriOf_standard (p : Prefixes) : uriOf p ∈ standardUris := by cases p <;> decide +kernel

theorem prefixOf_at {ns : List Namespace} (h : TableOk ns) (p : Prefixes) : prefixAt ns (uriOf p) = some (prefixOf ns p) := by
  have hs : standardUris[p.index]? = some (uriOf p) := by cases p <;> rfl
  have hi : p.index < 5 := by cases p <;> decide
  have h2 : (ns.map (·.uri))[p.index]? = some (uriOf p) := by
    rw [← hs, ← h.std, List.getElem?_take, if_pos hi]
  rw [List.getElem?_map] at h2
  cases hn : ns[p.index]? with
  | none => rw [hn] at h2; cases h2
  | some n =>
    rw [hn] at h2
    have hu : n.uri = uriOf p := by simpa using h2
    have := findUri_of_mem h.nodup (List.mem_of_getElem? hn)
    unfold prefixAt prefixOf
    rw [← hu, this, hn]
    rfl

theorem unitOptions_option (a : Archive) {f : Opts} (h : ~~~OPTION_ARCHIVE &&& f = f) : isoption (unitOptions a) f = isoption a.options f := by
  unfold isoption unitOptions
  rw [BitVec.and_assoc, h]

theorem language_injective {n m : Nat} (hn : n ∈ languageNumbers) (hm : m ∈ languageNumbers) (h : getLanguageString n = getLanguageString m) : n = m := by
  have : ∀ n ∈ languageNumbers, ∀ m ∈ languageNumbers, getLanguageString n = getLanguageString m → n = m := by decide +kernel
  exact this n hn m hm h

theorem source_drains {lib : ParseLib} {a : Archive} {u : UnitData} {from_ : ParseFrom} {enc text : Str} (h : SourceIs lib a u from_ enc text) :
    UsableSource from_ ∧ ¬ NoSuchFile lib from_ ∧ ∃ asked got b', Asks a u asked ∧ (∀ x, asked = some x → lib.iconv.convert x ≠ none) ∧
      Drains lib.iconv (from_.input lib asked (hashWanted a u)) got b' ∧ (127 : UInt8) ∉ got ∧ bytesText got = text ∧
      (from_.input lib asked (hashWanted a u)).encoding = enc := by
  cases h with
  | memory buffer size asked _ conv decoded ha hk hu hc hb ho hne hdel =>
    have hin : (ParseFrom.memory (some buffer) size).input lib asked (hashWanted a u) = ofMemory lib.iconv asked (hashWanted a u) (buffer.take size) := rfl
    obtain ⟨b', hd, _⟩ := memory_drain lib.iconv asked (hashWanted a u) (buffer.take size) decoded enc conv hu hc hb ho hne
    refine ⟨.buffer _ _, (by rintro ⟨_, h, _⟩; cases h), asked, _, b', ha, hk, by rw [hin]; exact hd, ?_, rfl, ?_⟩
    · intro h
      rcases unifyNewlines_mem h with h | h
      · exact hdel (List.mem_of_mem_drop h)
      · cases h
    · rw [hin]; exact usesEncoding_unique (C03_encoding_memory _ _ _ _ hb) hu
  | reads _ reads asked enc conv c d cs ds hr ha hk hu hc hd hy hskip hdel =>
    have hin : from_.input lib asked (hashWanted a u) = ofReads asked (hashWanted a u) reads := by
      cases hr with
      | filename n r h => show ofReads _ _ ((lib.file n).getD []) = _; rw [h]; rfl
      | _ => rfl
    obtain ⟨b', hdr, _⟩ := reads_drain lib.iconv asked (hashWanted a u) c d cs ds reads [] [] enc conv hu hc hd hy .nothing hskip
    refine ⟨?_, ?_, asked, _, b', ha, hk, by rw [hin]; exact hdr, ?_, rfl, by rw [hin]; exact base_encoding asked (hashWanted a u)⟩
    · cases hr with
      | filename n r h => exact .filename n
      | FILE => exact .FILE _
      | fd n => exact .fd n _
      | io => exact .io _
    · rintro ⟨n, rfl, hn⟩
      cases hr with
      | filename _ _ h => rw [hn] at h; cases h
    · intro h
      rcases unifyNewlines_mem h with h | h
      · exact hdel (List.mem_of_mem_drop h)
      · cases h
  | nothing _ asked hr ha hk =>
    obtain ⟨e1, e2⟩ := C01_empty_source lib.iconv asked (hashWanted a u) [] (by simp)
    rcases hr with hr | ⟨b, rfl⟩
    · have hin : from_.input lib asked (hashWanted a u) = ofReads asked (hashWanted a u) [] := by
        cases hr with
        | filename n r h => show ofReads _ _ ((lib.file n).getD []) = _; rw [h]; rfl
        | _ => rfl
      obtain ⟨b', hd⟩ := e1
      refine ⟨?_, ?_, asked, [], b', ha, hk, by rw [hin]; exact hd, by simp, rfl, by rw [hin]; exact base_encoding asked (hashWanted a u)⟩
      · cases hr with
        | filename n r h => exact .filename n
        | FILE => exact .FILE _
        | fd n => exact .fd n _
        | io => exact .io _
      · rintro ⟨n, rfl, hn⟩
        cases hr with
        | filename _ _ h => rw [hn] at h; cases h
    · have hin : (ParseFrom.memory b 0).input lib asked (hashWanted a u) = ofMemory lib.iconv asked (hashWanted a u) [] := rfl
      obtain ⟨b', hd⟩ := e2
      refine ⟨?_, (by rintro ⟨m, hm, h2⟩; cases hm), asked, [], b', ha, hk, by rw [hin]; exact hd, by simp, rfl, by rw [hin]; exact base_encoding asked (hashWanted a u)⟩
      cases b with
      | none => exact .empty
      | some b => exact .buffer b 0

/-- A call that parses, as far as the tokens. -/
theorem source_parse {lib : ParseLib} {a : Archive} {th : ThreadState} {u : UnitObj} {from_ : ParseFrom} {enc text : Str} {hist : List (Str × Str)}
    (hreg : Registered a.registeredLanguages hist) {l : Str} (hl : LanguageIs a from_ u.data (some l)) (h : SourceIs lib a u.data from_ enc text)
    (hok : ∀ n, getLanguageString n = l → n ∈ languageNumbers → ParseOk lib a th u n enc text) :
    ∃ v n hash, srcml_unit_parse lib a th from_ (some u) = .val (.ok, some v) ∧ getLanguageString n = l ∧ n ∈ languageNumbers ∧ v.data.src = some text ∧
      ({ u with data := { u.data with derivedLanguage := n } } : UnitObj).parseTokens lib.sax a th (some enc) (lib.tokens a n text) hash = .val (.ok, v) := by
  obtain ⟨hu, hf, asked, got, b', ha, hk, hd, hdel, rfl, hen⟩ := source_drains h
  obtain ⟨v, n, evs, k1, k2, k3, _⟩ := parse_core lib a th from_ u hist hreg hu hf l hl asked ha hk got b' hd hdel (by rw [hen]; exact hok)
  have ho : ¬ from_.opens lib = false := fun h => hf ((opens_iff hu).mp h)
  obtain ⟨m, hm, hml⟩ := (language_some hreg).mp hl
  have hnum : m ∈ languageNumbers := by rw [parseLanguage_registered hreg] at hm; exact languageNumber hm
  refine ⟨v, m, b'.hashOnClose lib.sha1, k1, hml, hnum, k3.src, ?_⟩
  have hae : askedEncoding a { u.data with derivedLanguage := m } = asked := (asked_iff _ _ _).mpr ha
  have henc : ¬ lib.encodingOk asked = false := by
    cases asked with
    | none => simp [ParseLib.encodingOk]
    | some x =>
      have := hk x rfl
      cases hx : lib.iconv.convert x with
      | none => exact absurd hx this
      | some c => simp [ParseLib.encodingOk, hx]
  have hw : hashWanted a { u.data with derivedLanguage := m } = hashWanted a u.data := rfl
  unfold srcml_unit_parse at k1
  simp only [(valid_iff _).mpr hu, if_false, reduceCtorEq] at k1
  rw [if_neg ho] at k1
  unfold UnitObj.parseInternal at k1
  rw [hm] at k1
  dsimp only at k1
  rw [hae, if_neg henc, hw, drain_eq hd] at k1
  dsimp only [Run.bind] at k1
  rw [hen] at k1
  generalize hx : ({ u with data := { u.data with derivedLanguage := m } } : UnitObj).parseTokens lib.sax a th (some enc) (lib.tokens a m (bytesText got)) (b'.hashOnClose lib.sha1) = r at k1
  cases r with
  | ub => cases k1
  | val r => obtain ⟨s, w⟩ := r; cases k1; rfl

theorem same_option {a1 a2 : Archive} {u1 u2 : UnitData} (h : SameSettings a1 a2 u1 u2) {f : Opts} (hf : f ∈ markupOptions) (h2 : ~~~OPTION_ARCHIVE &&& f = f) :
    isoption (unitOptions a2) f = isoption (unitOptions a1) f := by
  rw [unitOptions_option a2 h2, unitOptions_option a1 h2, h.options f hf]

theorem same_prefixes {a1 a2 : Archive} {u1 u2 : UnitData} (h : SameSettings a1 a2 u1 u2) {n : Nat} {x y : Option Str}
    (w1 : WriteOk a1 (beforeParse a1 { u1 with derivedLanguage := n } x)) (w2 : WriteOk a2 (beforeParse a2 { u2 with derivedLanguage := n } y)) (p : Prefixes) :
    prefixOf (mergeNamespaces defaultNamespaces (namespacesOf a2 (beforeParse a2 { u2 with derivedLanguage := n } y))) p =
      prefixOf (mergeNamespaces defaultNamespaces (namespacesOf a1 (beforeParse a1 { u1 with derivedLanguage := n } x))) p := by
  have g1 := prefixOf_at (merge_ok default_tableOk w1.flags) p
  have g2 := prefixOf_at (merge_ok default_tableOk w2.flags) p
  have n1 : namespacesOf a1 (beforeParse a1 { u1 with derivedLanguage := n } x) = namespacesOf a1 u1 := rfl
  have n2 : namespacesOf a2 (beforeParse a2 { u2 with derivedLanguage := n } y) = namespacesOf a2 u2 := rfl
  rw [n1] at g1 ⊢
  rw [n2] at g2 ⊢
  have := h.prefixes _ (uriOf_standard p)
  rw [g1, g2] at this
  exact Option.some.inj this

/-- **C89.** The markup of a source depends only on its text, the language, and the settings of the markup: whatever else differs between two units and their archives - file name, version, timestamp, hash,
url, attributes, encoding, other options, the thread, and whether the source comes from memory or in pieces from a file - the contents of the two units after parsing are the same, character by character. -/
theorem C89_metadata (lib : ParseLib) (a1 a2 : Archive) (th1 th2 : ThreadState) (u1 u2 : UnitObj) (from1 from2 : ParseFrom) (hist1 hist2 : List (Str × Str))
    (hreg1 : Registered a1.registeredLanguages hist1) (hreg2 : Registered a2.registeredLanguages hist2) (l enc1 enc2 text : Str)
    (hl1 : LanguageIs a1 from1 u1.data (some l)) (hl2 : LanguageIs a2 from2 u2.data (some l))
    (hs1 : SourceIs lib a1 u1.data from1 enc1 text) (hs2 : SourceIs lib a2 u2.data from2 enc2 text) (hsame : SameSettings a1 a2 u1.data u2.data)
    (hraw1 : u1.srcmlRaw = none) (hraw2 : u2.srcmlRaw = none)
    (hok1 : ∀ n, getLanguageString n = l → n ∈ languageNumbers → ParseOk lib a1 th1 u1 n enc1 text)
    (hok2 : ∀ n, getLanguageString n = l → n ∈ languageNumbers → ParseOk lib a2 th2 u2 n enc2 text) :
    ∃ v1 v2 contents, srcml_unit_parse lib a1 th1 from1 (some u1) = .val (.ok, some v1) ∧ srcml_unit_parse lib a2 th2 from2 (some u2) = .val (.ok, some v2) ∧
      v1.getInner.1 = some contents ∧ v2.getInner.1 = some contents ∧ v1.data.src = some text ∧ v2.data.src = some text := by
  obtain ⟨v1, n1, x1, p1, q1, r1, s1, t1⟩ := source_parse hreg1 hl1 hs1 hok1
  obtain ⟨v2, n2, x2, p2, q2, r2, s2, t2⟩ := source_parse hreg2 hl2 hs2 hok2
  have hn : n2 = n1 := language_injective r2 r1 (q2.trans q1.symm)
  subst hn
  have k1 := hok1 n2 q1 r1
  have k2 := hok2 n2 q2 r2
  have e1 : isoption (unitOptions a2) OPTION_POSITION = isoption (unitOptions a1) OPTION_POSITION := same_option hsame (by simp only [markupOptions, List.mem_cons, true_or, or_true]) (by decide +kernel)
  have e2 : isoption (unitOptions a2) OPTION_CPP = isoption (unitOptions a1) OPTION_CPP := same_option hsame (by simp only [markupOptions, List.mem_cons, true_or, or_true]) (by decide +kernel)
  have e3 : isoption (unitOptions a2) OPTION_LINE = isoption (unitOptions a1) OPTION_LINE := same_option hsame (by simp only [markupOptions, List.mem_cons, true_or, or_true]) (by decide +kernel)
  have htok : lib.tokens a2 n2 text = lib.tokens a1 n2 text := by
    unfold ParseLib.tokens unitLexConf
    rw [hsame.tabstop, hsame.macros, e1, e2, e3]
  rw [htok] at t2
  have hpre := same_prefixes hsame (n := n2) (x := some enc1) (y := some enc2) k1.metadata k2.metadata
  have hs := (OSame.start k1.metadata k2.metadata hpre e1 k1.thread k2.thread).consume (lib.tokens a1 n2 text)
  obtain ⟨r, hr1, hr2⟩ := hs.w.out
  have i1 := parseTokens_inner (u := { u1 with data := { u1.data with derivedLanguage := n2 } }) (encoding := some enc1) k1.metadata hraw1 hr1 t1
  have i2 := parseTokens_inner (u := { u2 with data := { u2.data with derivedLanguage := n2 } }) (encoding := some enc2) k2.metadata hraw2 hr2 t2
  exact ⟨v1, v2, r.drop 1, p1, p2, i1, i2, s1, s2⟩

/-- The file of C73 by its name, into a unit with a file name only; and its bytes from memory, into a unit that has the language as well. -/
example : ∃ v1 v2 contents,
    srcml_unit_parse sampleLib srcml_archive_create {} (.filename (some "a.c".toList)) (some { data := { filename := some "a.c".toList } }) = .val (.ok, some v1) ∧
    srcml_unit_parse sampleLib srcml_archive_create {} (.memory (some exBytes) exBytes.length) (some { data := { filename := some "a.c".toList, language := some "C".toList } }) = .val (.ok, some v2) ∧
    v1.getInner.1 = some contents ∧ v2.getInner.1 = some contents ∧ v1.data.src = some exSource := by
  have e : bytesText (unifyNewlines (([exBytes] : List Bytes).flatten.drop (bomLength exBytes))) = exSource := by decide +kernel
  have e2 : bytesText (unifyNewlines (exBytes.drop (bomLength (exBytes.take exBytes.length)))) = exSource := by decide +kernel
  have hb : ((iconvBasic.convert "ISO-8859-1".toList).bind (fun conv => blockText (iconvBasic.trivialp "ISO-8859-1".toList) conv [] exBytes)) =
    some exBytes := by decide +kernel
  cases hc : iconvBasic.convert "ISO-8859-1".toList with
  | none => rw [hc] at hb; cases hb
  | some conv =>
  rw [hc] at hb
  have ho : blockText (iconvBasic.trivialp "ISO-8859-1".toList) conv [] exBytes = some exBytes := hb
  have hs1 := SourceIs.reads (lib := sampleLib) (a := srcml_archive_create) (u := { filename := some "a.c".toList }) (.filename (some "a.c".toList)) [some exBytes] none "ISO-8859-1".toList conv exBytes exBytes [] []
    (.filename _ _ (by decide +kernel)) (.inr ⟨rfl, by decide +kernel⟩) (by intro _ h; cases h) (detect_encoding (requestedName none) exBytes) hc
    (.cons (by decide) (by decide) ho .nil) (.whole (by decide) (by decide) .done) (by decide +kernel) (by decide)
  have ht : exBytes.take exBytes.length = exBytes := List.take_length
  have hs2 := SourceIs.memory (lib := sampleLib) (a := srcml_archive_create) (u := { filename := some "a.c".toList, language := some "C".toList }) exBytes exBytes.length none "ISO-8859-1".toList conv exBytes
    (.inr ⟨rfl, by decide +kernel⟩) (by intro _ h; cases h) (by rw [ht]; exact detect_encoding (requestedName none) exBytes) hc (by decide) (by rw [ht]; exact ho) (by decide) (by decide)
  rw [e] at hs1
  rw [e2] at hs2
  obtain ⟨v1, v2, contents, h1, h2, h3, h4, h5, _⟩ := C89_metadata sampleLib srcml_archive_create srcml_archive_create {} {} { data := { filename := some "a.c".toList } }
    { data := { filename := some "a.c".toList, language := some "C".toList } } _ _ [] [] (.inl rfl) (.inl rfl) "C".toList _ _ exSource (by unfold LanguageIs; decide +kernel) (by unfold LanguageIs; decide +kernel)
    hs1 hs2 ⟨rfl, rfl, fun _ _ => rfl, fun _ _ => rfl⟩ rfl rfl
    (by intro n h1 h2; cases sample_language h1 h2; exact sample_parseOk' none (.inl rfl) _ (.inr (by decide +kernel)))
    (by intro n h1 h2; cases sample_language h1 h2; exact sample_parseOk' _ (.inr rfl) _ (.inl rfl))
  exact ⟨v1, v2, contents, h1, h2, h3, h4, h5⟩

end Srcml
