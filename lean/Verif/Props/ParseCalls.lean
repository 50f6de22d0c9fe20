import Verif.Props.Language
import Verif.Proofs.ParsedWrite
import Verif.Spec.ParseCalls
import Verif.Proofs.RunSat
/-
C73: parsing source code into a unit with `srcml_unit_parse_filename`, `_memory`, `_FILE`, `_fd` and `_io`.
-/
set_option linter.unusedSimpArgs false
namespace Srcml
open Spec CharBuffer

theorem valid_iff (from_ : ParseFrom) : from_.valid = true ↔ UsableSource from_ := by
  constructor
  · intro h
    cases from_ with
    | filename name => cases name with
      | none => cases h
      | some n => exact .filename n
    | memory buffer size => cases buffer with
      | some b => exact .buffer b size
      | none =>
        have : size = 0 := by
          simpa [ParseFrom.valid] using h
        subst this; exact .empty
    | FILE f => cases f with
      | none => cases h
      | some f => exact .FILE f
    | fd n r =>
      have hn : 0 ≤ n := by simpa [ParseFrom.valid] using h
      obtain ⟨m, rfl⟩ := Int.eq_ofNat_of_zero_le hn
      exact .fd m r
    | io c r =>
      cases c with
      | false => cases h
      | true => cases r with
        | none => cases h
        | some r => exact .io r
  · intro h
    cases h with
    | fd n r => simp [ParseFrom.valid]
    | buffer b n => simp [ParseFrom.valid]
    | _ => rfl

theorem opens_iff {lib : ParseLib} {from_ : ParseFrom} (h : UsableSource from_) : from_.opens lib = false ↔ NoSuchFile lib from_ := by
  constructor
  · intro h2
    cases h with
    | filename n =>
      refine ⟨n, rfl, ?_⟩
      have : (lib.file n).isSome = false := h2
      cases hf : lib.file n with
      | none => rfl
      | some r => rw [hf] at this; cases this
    | _ => cases h2
  · rintro ⟨n, rfl, hn⟩
    show (lib.file n).isSome = false
    rw [hn]; rfl

theorem name_eq (from_ : ParseFrom) : from_.name = givenName from_ := by cases from_ <;> rfl

theorem asked_iff (a : Archive) (u : UnitData) (e : Option Str) : askedEncoding a u = e ↔ Asks a u e := by
  unfold askedEncoding Asks
  cases hu : u.encoding with
  | none =>
    constructor
    · intro h; exact .inr ⟨rfl, by simpa using h.symm⟩
    · rintro (⟨_, h, _⟩ | ⟨_, h⟩)
      · cases h
      · simp [h]
  | some x =>
    constructor
    · intro h; exact .inl ⟨x, rfl, by simpa using h.symm⟩
    · rintro (⟨y, h, h2⟩ | ⟨h, _⟩)
      · cases h; simp [h2]
      · cases h

/-- The language of the parse by its name: that of the unit, of the archive, or of the extension of the file (C06-C09). -/
def Spec.LanguageIs (a : Archive) (from_ : ParseFrom) (u : UnitData) (l : Option Str) : Prop :=
  languageSpec u.language a.language ((givenName from_).bind fun f => srcml_archive_check_extension a.registeredLanguages (some f)) = l

theorem spec_registered {r : Registry} {hist : List (Str × Str)} (h : Registered r hist) {g : Option Str} :
    (g.bind fun f => srcml_archive_check_extension r (some f)) = g.bind fun f => srcml_archive_check_extension (runRegistrations hist) (some f) := by
  cases g with
  | none => rfl
  | some f => exact C06_registered h (some f)

theorem language_none {a : Archive} {from_ : ParseFrom} {u : UnitData} {hist : List (Str × Str)} (hreg : Registered a.registeredLanguages hist) :
    LanguageIs a from_ u none ↔ parseLanguage u.language a.language a.registeredLanguages from_.name = none := by
  unfold LanguageIs
  rw [parseLanguage_registered hreg, spec_registered hreg, ← C09_parse_language_partial, name_eq]
  simp

theorem language_some {a : Archive} {from_ : ParseFrom} {u : UnitData} {hist : List (Str × Str)} (hreg : Registered a.registeredLanguages hist) {l : Str} :
    LanguageIs a from_ u (some l) ↔ ∃ n, parseLanguage u.language a.language a.registeredLanguages from_.name = some n ∧ getLanguageString n = l := by
  unfold LanguageIs
  rw [parseLanguage_registered hreg, spec_registered hreg, ← C09_parse_language_partial, name_eq]
  simp [Option.map_eq_some_iff]

/-- **C73.** The calls that are refused, and how. A null unit and arguments that name no source are invalid arguments; a file that cannot be opened is an I/O error; then it is an error that
the language is not known, and after that an encoding that `iconv` does not know. Nothing of the unit that a user can ask for is changed. -/
theorem C73_refused (lib : ParseLib) (a : Archive) (th : ThreadState) (from_ : ParseFrom) (u : UnitObj) (hist : List (Str × Str)) (hreg : Registered a.registeredLanguages hist) :
    srcml_unit_parse lib a th from_ none = .val (.invalidArgument, none) ∧
    (¬ UsableSource from_ → srcml_unit_parse lib a th from_ (some u) = .val (.invalidArgument, some u)) ∧
    (UsableSource from_ → NoSuchFile lib from_ → srcml_unit_parse lib a th from_ (some u) = .val (.ioError, some u)) ∧
    (UsableSource from_ → ¬ NoSuchFile lib from_ → LanguageIs a from_ u.data none → srcml_unit_parse lib a th from_ (some u) = .val (.unsetLanguage, some u)) ∧
    (UsableSource from_ → ¬ NoSuchFile lib from_ → ∀ l e, LanguageIs a from_ u.data (some l) → Asks a u.data (some e) → lib.iconv.convert e = none →
      ∃ d, srcml_unit_parse lib a th from_ (some u) = .val (.invalidArgument, some { u with data := { u.data with derivedLanguage := d } })) := by
  refine ⟨rfl, ?_, ?_, ?_, ?_⟩
  · intro h
    have hv : from_.valid = false := by
      cases hv : from_.valid with
      | false => rfl
      | true => exact absurd ((valid_iff _).mp hv) h
    unfold srcml_unit_parse
    simp only [hv, if_true]
  · intro h1 h2
    unfold srcml_unit_parse
    simp only [(valid_iff _).mpr h1, (opens_iff h1).mpr h2, if_true, if_false, reduceCtorEq]
  · intro h1 h2 h3
    have ho : ¬ from_.opens lib = false := fun h => h2 ((opens_iff h1).mp h)
    unfold srcml_unit_parse
    simp only [(valid_iff _).mpr h1, if_false, reduceCtorEq]
    rw [if_neg ho]
    unfold UnitObj.parseInternal
    rw [(language_none hreg).mp h3]
    rfl
  · intro h1 h2 l e h3 h4 h5
    have ho : ¬ from_.opens lib = false := fun h => h2 ((opens_iff h1).mp h)
    obtain ⟨n, hn, _⟩ := (language_some hreg).mp h3
    refine ⟨n, ?_⟩
    unfold srcml_unit_parse
    simp only [(valid_iff _).mpr h1, if_false, reduceCtorEq]
    rw [if_neg ho]
    unfold UnitObj.parseInternal
    rw [hn]
    simp only []
    have he : askedEncoding a { u.data with derivedLanguage := n } = some e := (asked_iff _ _ _).mpr h4
    rw [he]
    have : lib.encodingOk (some e) = false := by
      unfold ParseLib.encodingOk; simp [h5]
    rw [if_pos this]
    rfl

/-- The parser ends for the source, and has behaved as Model/Parser.lean says: the tokens that it returned are those before the end of the file. -/
def Spec.Finishes (lib : ParseLib) (lc : LexConf) (position cpp : Bool) (text : Str) : Prop :=
  ∃ s p, Exec (sourceConf lc position cpp text) true .driver (PState.init (sourceConf lc position cpp text)) s ∧ s.st = [] ∧ s.tb = [p] ∧ isEof p.tok = true ∧
    returned s = lib.parser lc position cpp text ++ [p.tok]

/-- The conditions of C73 on the unit and the source other than the reading of it. `number` is the language, `encoding` the encoding that the input reports, `text` the text of the source. -/
structure Spec.ParseOk (lib : ParseLib) (a : Archive) (th : ThreadState) (u : UnitObj) (number : Nat) (encoding : Str) (text : Str) : Prop where
  metadata : WriteOk a (beforeParse a { u.data with derivedLanguage := number } (some encoding))
  thread : (unitOut a (beforeParse a { u.data with derivedLanguage := number } (some encoding)) th).ThreadAgrees
  fresh : u.data.src = none
  reads : Reads lib.sax
  macros : NoCommentMacro (unitLexConf a number)
  raw : NoRawControl (unitLexConf a number) text
  comments : NoOpenComment (unitLexConf a number) text
  finishes : Finishes lib (unitLexConf a number) (isoption (unitOptions a) OPTION_POSITION) (isoption (unitOptions a) OPTION_CPP || usesPreprocessor number) text

/-- The unit `v` is what the parse of `text` makes of the unit `u`: its text is that of the source, its srcML is a well-formed document with the unit as its root, whose contents stand for that text
and contain no unit, and the metadata are as before; the namespaces are the standard ones and those of the unit, or of the archive if the unit had none. -/
structure Spec.ParsedUnit (a : Archive) (number : Nat) (u v : UnitData) (text : Str) (evs : List Ev) : Prop where
  src : v.src = some text
  loc : v.loc = (textLines text).length
  document : ∃ name attrs, readXml v.srcml = some (.op name attrs :: evs ++ [.cl name])
  contents : sourceOf evs = text
  escapes : EscapesOk evs
  plain : PlainNames evs
  made : Made v evs
  same : MetaKept { u with derivedLanguage := number } v
  url : v.url = a.url
  body : v.readBody = true
  namespaces : ∃ ns, v.namespaces = some ns ∧ ns.map (·.prefix_) = (mergeNamespaces defaultNamespaces (namespacesOf a u)).map (·.prefix_) ∧
    ns.map (·.uri) = (mergeNamespaces defaultNamespaces (namespacesOf a u)).map (·.uri)
  hash : ∀ h, v.hash = some h → u.hash = some h ∨ ValidValue h
  language : number ∈ languageNumbers

theorem languageNumber {a b : Option Str} {hist : List (Str × Str)} {name : Option Str} {n : Nat}
    (h : parseLanguage a b (runRegistrations hist) name = some n) : n ∈ languageNumbers := by
  obtain ⟨l, hl, rfl⟩ := parseLanguage_number a b hist name n h
  rcases hl with rfl | rfl | rfl | rfl | rfl <;> decide

theorem parse_core (lib : ParseLib) (a : Archive) (th : ThreadState) (from_ : ParseFrom) (u : UnitObj) (hist : List (Str × Str)) (hreg : Registered a.registeredLanguages hist)
    (hu : UsableSource from_) (hf : ¬ NoSuchFile lib from_) (l : Str) (hl : LanguageIs a from_ u.data (some l)) (e : Option Str) (he : Asks a u.data e)
    (hc : ∀ x, e = some x → lib.iconv.convert x ≠ none) (got : Bytes) (b' : CharBuffer)
    (hd : Drains lib.iconv (from_.input lib e (hashWanted a u.data)) got b') (hdel : (127 : UInt8) ∉ got)
    (hok : ∀ n, getLanguageString n = l → n ∈ languageNumbers → ParseOk lib a th u n (from_.input lib e (hashWanted a u.data)).encoding (bytesText got)) :
    ∃ v n evs, srcml_unit_parse lib a th from_ (some u) = .val (.ok, some v) ∧ getLanguageString n = l ∧ ParsedUnit a n u.data v.data (bytesText got) evs ∧
      v.data.hash = (b'.hashOnClose lib.sha1).or u.data.hash ∧ v.data.encoding = some (from_.input lib e (hashWanted a u.data)).encoding := by
  have ho : ¬ from_.opens lib = false := fun h => hf ((opens_iff hu).mp h)
  obtain ⟨n, hn, hnl⟩ := (language_some hreg).mp hl
  have hnum : n ∈ languageNumbers := by rw [parseLanguage_registered hreg] at hn; exact languageNumber hn
  have ok := hok n hnl hnum
  obtain ⟨s, p, x1, x2, x3, x4, x5⟩ := ok.finishes
  have hbytes := bytesText_plain (drains_no_return hd) hdel
  obtain ⟨ts, t1, t2, t3, t4⟩ := source_tokens (unitLexConf a n) _ _ (bytesText got) hnum ok.macros hbytes ok.raw ok.comments x1 x2 x3 x4
  have hts : ts = lib.tokens a n (bytesText got) := by
    rw [t1] at x5
    exact List.append_cancel_right x5
  subst hts
  have hae : askedEncoding a { u.data with derivedLanguage := n } = e := (asked_iff _ _ _).mpr he
  have hw : hashWanted a { u.data with derivedLanguage := n } = hashWanted a u.data := rfl
  have henc : ¬ lib.encodingOk e = false := by
    cases e with
    | none => simp [ParseLib.encodingOk]
    | some x =>
      have := hc x rfl
      cases hx : lib.iconv.convert x with
      | none => exact absurd hx this
      | some c => simp [ParseLib.encodingOk, hx]
  generalize hb : from_.input lib e (hashWanted a u.data) = b at *
  have hpre := ok.metadata.clean
  obtain ⟨evs, hev⟩ := C12_balanced (unitOut a (beforeParse a { u.data with derivedLanguage := n } (some b.encoding)) th).env _ t2 []
  have hh : ∀ h, b'.hashOnClose lib.sha1 = some h → ValidValue h := by
    intro h hx
    unfold CharBuffer.hashOnClose at hx
    split at hx
    · cases hx; exact hexAscii_valid _
    · cases hx
  obtain ⟨v, inner, f1, f2, f3, _, _, f6, f7⟩ := parsed_parts lib.sax a th { u with data := { u.data with derivedLanguage := n } } (some b.encoding)
    (lib.tokens a n (bytesText got)) evs (bytesText got) ok.metadata ok.thread t4 hev t3 ok.reads ok.fresh (b'.hashOnClose lib.sha1) hh
  obtain ⟨g1, g2, g3, g4, g5⟩ := parseTokens_data f1
  have hcol : ∀ p, ':' ∉ (unitOut a (beforeParse a { u.data with derivedLanguage := n } (some b.encoding)) th).env.pre p :=
    fun p => hpre.prefixOf_colon p
  obtain ⟨k1, k2⟩ := token_events_source _ hcol _ _ t3 _ _ _ hev
  have k3 := token_events_plain _ hcol _ _ _ _ (by simp) hev
  refine ⟨v, n, evs, ?_, hnl, ⟨f6, f7, ⟨_, _, f3⟩, k1, k2, k3, ?_, g1, g3, g5, parseTokens_namespaces (u := { u with data := { u.data with derivedLanguage := n } }) ok.metadata f1, ?_, hnum⟩, g2, g4⟩
  · unfold srcml_unit_parse
    simp only [(valid_iff _).mpr hu, if_false, reduceCtorEq]
    rw [if_neg ho]
    unfold UnitObj.parseInternal
    rw [hn]
    dsimp only
    rw [hae, if_neg henc, hw, hb, drain_eq hd]
    dsimp only [Run.bind]
    rw [f1]
  rotate_left
  · intro h hx
    rw [g2] at hx
    cases hz : b'.hashOnClose lib.sha1 with
    | none => rw [hz] at hx; exact .inl hx
    | some y => rw [hz] at hx; cases hx; exact .inr (hh _ hz)
  · exact .parsed lib.sax a th { u with data := { u.data with derivedLanguage := n } } v (some b.encoding) _ evs (bytesText got) ok.metadata ok.thread t4 hev t3 ok.reads ok.fresh _ hh f1

theorem hash_after {lib : ParseLib} {a : Archive} {u : UnitData} {source : Bytes} {made : Option Str}
    (h1 : hashWanted a u = true → ∃ h, made = some h ∧ unhex h = some (lib.sha1 source)) (h2 : hashWanted a u = false → made = none) :
    HashAfter lib a u.hash (made.or u.hash) source := by
  unfold hashWanted at h1 h2
  refine ⟨?_, ?_, ?_⟩
  · intro h hu
    rw [h2 (by rw [hu]; rfl), hu]; rfl
  · intro hu ho
    obtain ⟨h, k1, k2⟩ := h1 (by rw [hu, ho]; rfl)
    exact ⟨h, by rw [k1]; rfl, k2⟩
  · intro hu ho
    rw [h2 (by rw [hu, ho]; rfl), hu]; rfl

/-- **C73**, for a source in memory. The call succeeds; the text of the unit is the decoded source without its byte order mark and with unified newlines; its srcML is a well-formed document that
stands for exactly that text; the encoding is the one used; the hash is that of the bytes of the source; the other metadata are as they were. What is missing is what is missing in `C16_source_partial`. -/
theorem C73_memory_partial (lib : ParseLib) (a : Archive) (th : ThreadState) (u : UnitObj) (hist : List (Str × Str)) (hreg : Registered a.registeredLanguages hist)
    (buffer : Bytes) (size : Nat) (l : Str) (hl : LanguageIs a (.memory (some buffer) size) u.data (some l)) (asked : Option Str) (he : Asks a u.data asked)
    (hk : ∀ x, asked = some x → lib.iconv.convert x ≠ none) (enc : Str) (conv : Bytes → Bytes → IconvResult) (decoded : Bytes)
    (henc : UsesEncoding (requestedName asked) (buffer.take size) enc) (hc : lib.iconv.convert enc = some conv) (hb : buffer.take size ≠ [])
    (ho : blockText (lib.iconv.trivialp enc) conv [] (buffer.take size) = some decoded) (hne : decoded ≠ []) (hdel : (127 : UInt8) ∉ decoded)
    (hok : ∀ n, getLanguageString n = l → n ∈ languageNumbers →
      ParseOk lib a th u n enc (bytesText (unifyNewlines (decoded.drop (bomLength (buffer.take size)))))) :
    ∃ v n evs, srcml_unit_parse lib a th (.memory (some buffer) size) (some u) = .val (.ok, some v) ∧ getLanguageString n = l ∧
      ParsedUnit a n u.data v.data (bytesText (unifyNewlines (decoded.drop (bomLength (buffer.take size))))) evs ∧
      HashAfter lib a u.data.hash v.data.hash (buffer.take size) ∧ v.data.encoding = some enc := by
  have hdel' : (127 : UInt8) ∉ unifyNewlines (decoded.drop (bomLength (buffer.take size))) := by
    intro h
    rcases unifyNewlines_mem h with h | h
    · exact hdel (List.mem_of_mem_drop h)
    · cases h
  have hin : (ParseFrom.memory (some buffer) size).input lib asked (hashWanted a u.data) = ofMemory lib.iconv asked (hashWanted a u.data) (buffer.take size) := rfl
  have hen : (ofMemory lib.iconv asked (hashWanted a u.data) (buffer.take size)).encoding = enc :=
    usesEncoding_unique (C03_encoding_memory _ _ _ _ hb) henc
  obtain ⟨b', hd, _⟩ := memory_drain lib.iconv asked (hashWanted a u.data) (buffer.take size) decoded enc conv henc hc hb ho hne
  obtain ⟨v, n, evs, k1, k2, k3, k4, k5⟩ := parse_core lib a th (.memory (some buffer) size) u hist hreg (.buffer _ _) (by rintro ⟨_, h, _⟩; cases h) l hl asked he hk _ b'
    (by rw [hin]; exact hd) hdel' (by rw [hin, hen]; exact hok)
  refine ⟨v, n, evs, k1, k2, k3, ?_, by rw [k5, hin, hen]⟩
  rw [k4]
  refine hash_after ?_ ?_
  · intro hw
    rw [memory_hash (sha1 := lib.sha1) hd, hw]
    exact ⟨_, rfl, unhex_hexAscii _⟩
  · intro hw
    rw [memory_hash (sha1 := lib.sha1) hd, hw]; rfl

/-- **C73**, for a file, a `FILE`, a descriptor and a callback: whatever the pieces in which the source comes. The encoding that the unit reports is the one that was asked for
(a finding of C03: it is empty if none was). -/
theorem C73_reads_partial (lib : ParseLib) (a : Archive) (th : ThreadState) (u : UnitObj) (hist : List (Str × Str)) (hreg : Registered a.registeredLanguages hist)
    (hio : lib.iconv.WellBehaved) (from_ : ParseFrom) (reads : List ReadResult) (hr : ReadFrom lib from_ reads) (l : Str) (hl : LanguageIs a from_ u.data (some l))
    (asked : Option Str) (he : Asks a u.data asked)
    (hk : ∀ x, asked = some x → lib.iconv.convert x ≠ none) (enc : Str) (conv : Bytes → Bytes → IconvResult) (c d : Bytes) (cs ds : List Bytes)
    (henc : UsesEncoding (requestedName asked) c enc) (hc : lib.iconv.convert enc = some conv)
    (hd : Decodes (blockText (lib.iconv.trivialp enc) conv) [] (c :: cs) (d :: ds)) (hy : Yields reads (c :: cs) [])
    (hskip : bomLength c < d.length) (hdel : (127 : UInt8) ∉ (d :: ds).flatten)
    (hok : ∀ n, getLanguageString n = l → n ∈ languageNumbers →
      ParseOk lib a th u n (requestedName asked) (bytesText (unifyNewlines ((d :: ds).flatten.drop (bomLength c))))) :
    ∃ v n evs, srcml_unit_parse lib a th from_ (some u) = .val (.ok, some v) ∧ getLanguageString n = l ∧
      ParsedUnit a n u.data v.data (bytesText (unifyNewlines ((d :: ds).flatten.drop (bomLength c)))) evs ∧
      HashAfter lib a u.data.hash v.data.hash (reads.filterMap id).flatten ∧ v.data.encoding = some (requestedName asked) := by
  have hdel' : (127 : UInt8) ∉ unifyNewlines ((d :: ds).flatten.drop (bomLength c)) := by
    intro h
    rcases unifyNewlines_mem h with h | h
    · exact hdel (List.mem_of_mem_drop h)
    · cases h
  have hin : from_.input lib asked (hashWanted a u.data) = ofReads asked (hashWanted a u.data) reads := by
    cases hr with
    | filename n r h => show ofReads _ _ ((lib.file n).getD []) = _; rw [h]; rfl
    | _ => rfl
  have hu : UsableSource from_ := by
    cases hr with
    | filename n r h => exact .filename n
    | FILE => exact .FILE _
    | fd n => exact .fd n _
    | io => exact .io _
  have hf : ¬ NoSuchFile lib from_ := by
    rintro ⟨n, rfl, hn⟩
    cases hr with
    | filename _ _ h => rw [hn] at h; cases h
  have hen : (ofReads asked (hashWanted a u.data) reads).encoding = requestedName asked := base_encoding asked (hashWanted a u.data)
  obtain ⟨b', hdr, hfin⟩ := reads_drain lib.iconv asked (hashWanted a u.data) c d cs ds reads [] [] enc conv henc hc hd hy .nothing hskip
  obtain ⟨v, n, evs, k1, k2, k3, k4, k5⟩ := parse_core lib a th from_ u hist hreg hu hf l hl asked he hk _ b' (by rw [hin]; exact hdr) hdel' (by rw [hin, hen]; exact hok)
  refine ⟨v, n, evs, k1, k2, k3, ?_, by rw [k5, hin, hen]⟩
  rw [k4]
  refine hash_after ?_ ?_
  · intro hw
    rw [hw] at hdr
    exact C02_hash_of_unit lib.sha1 lib.iconv hio asked c d cs ds reads enc conv henc hc hd hy hskip _ b' hdr
  · intro hw
    exact C02_no_hash _ _ (hfin.2.2.2.2.trans hw)

/-- C73, for an empty source: the text of the unit is empty. -/
theorem C73_empty_partial (lib : ParseLib) (a : Archive) (th : ThreadState) (u : UnitObj) (hist : List (Str × Str)) (hreg : Registered a.registeredLanguages hist)
    (from_ : ParseFrom) (hr : ReadFrom lib from_ [] ∨ (∃ b, from_ = .memory b 0)) (l : Str) (hl : LanguageIs a from_ u.data (some l)) (asked : Option Str) (he : Asks a u.data asked)
    (hk : ∀ x, asked = some x → lib.iconv.convert x ≠ none)
    (hok : ∀ n, getLanguageString n = l → n ∈ languageNumbers → ParseOk lib a th u n (requestedName asked) []) :
    ∃ v n evs, srcml_unit_parse lib a th from_ (some u) = .val (.ok, some v) ∧ getLanguageString n = l ∧ ParsedUnit a n u.data v.data [] evs ∧
      v.data.encoding = some (requestedName asked) := by
  have hin : (∃ b', Drains lib.iconv (from_.input lib asked (hashWanted a u.data)) [] b') ∧
      (from_.input lib asked (hashWanted a u.data)).encoding = requestedName asked ∧ UsableSource from_ ∧ ¬ NoSuchFile lib from_ := by
    obtain ⟨e1, e2⟩ := C01_empty_source lib.iconv asked (hashWanted a u.data) [] (by simp)
    rcases hr with hr | ⟨b, rfl⟩
    · cases hr with
      | filename n r h =>
        have : (ParseFrom.filename (some n)).input lib asked (hashWanted a u.data) = ofReads asked (hashWanted a u.data) [] := by
          show ofReads _ _ ((lib.file n).getD []) = _; rw [h]; rfl
        rw [this]
        exact ⟨e1, base_encoding asked (hashWanted a u.data), .filename n, by rintro ⟨m, hm, h2⟩; cases hm; rw [h] at h2; cases h2⟩
      | FILE => exact ⟨e1, base_encoding asked (hashWanted a u.data), .FILE _, by rintro ⟨m, hm, h2⟩; cases hm⟩
      | fd n => exact ⟨e1, base_encoding asked (hashWanted a u.data), .fd n _, by rintro ⟨m, hm, h2⟩; cases hm⟩
      | io => exact ⟨e1, base_encoding asked (hashWanted a u.data), .io _, by rintro ⟨m, hm, h2⟩; cases hm⟩
    · have : (ParseFrom.memory b 0).input lib asked (hashWanted a u.data) = ofMemory lib.iconv asked (hashWanted a u.data) [] := rfl
      rw [this]
      refine ⟨e2, base_encoding asked (hashWanted a u.data), ?_, by rintro ⟨m, hm, h2⟩; cases hm⟩
      cases b with
      | none => exact .empty
      | some b => exact .buffer b 0
  obtain ⟨⟨b', hd⟩, hen, hu, hf⟩ := hin
  obtain ⟨v, n, evs, k1, k2, k3, k4, k5⟩ := parse_core lib a th from_ u hist hreg hu hf l hl asked he hk [] b' hd (by simp) (by rw [hen]; exact hok)
  exact ⟨v, n, evs, k1, k2, k3, by rw [k5, hen]⟩


/-! ### An example -/

/-- A file system with one file, and a parser that parses the source of the example. -/
def sampleLib : ParseLib where
  iconv := iconvBasic
  sha1 := fun b => b
  file := fun n => if n = "a.c".toList then some [some exBytes] else none
  sax := sampleSax
  parser := fun lc position cpp text =>
    match Script.drive (sourceConf lc position cpp text) true exSourceScript (PState.init (sourceConf lc position cpp text)) with
    | some s => (returned s).dropLast
    | none => []

theorem sampleLib_finishes : Finishes sampleLib exLexConf false true exSource := by
  have h : (Script.drive (sourceConf exLexConf false true exSource) true exSourceScript (PState.init (sourceConf exLexConf false true exSource))).map
      (fun s => (s.st.length, s.tb.map (fun p => isEof p.tok))) = some (0, [true]) := by
    unfold sourceConf; rw [lex_eq]; decide +kernel
  cases hs : Script.drive (sourceConf exLexConf false true exSource) true exSourceScript (PState.init (sourceConf exLexConf false true exSource)) with
  | none => rw [hs] at h; cases h
  | some s =>
    rw [hs] at h
    simp only [Option.map_some, Option.some.injEq, Prod.mk.injEq] at h
    have hx := Script.drive_sound _ true exSourceScript _ s hs
    obtain ⟨h1, h2⟩ := h
    cases htb : s.tb with
    | nil => rw [htb] at h2; cases h2
    | cons p r =>
      rw [htb] at h2
      simp only [List.map_cons, List.cons.injEq, List.map_eq_nil_iff] at h2
      have h3 : s.tb = [p] := by rw [htb, h2.2]
      obtain ⟨ts, t1, _⟩ := source_tokens exLexConf false true exSource (by decide) (by intro p hp; cases hp) (by decide) (.inl (by decide)) exSource_closed
        hx (List.length_eq_zero_iff.1 h1) h3 h2.1
      refine ⟨s, p, hx, List.length_eq_zero_iff.1 h1, h3, h2.1, ?_⟩
      show returned s = (match Script.drive (sourceConf exLexConf false true exSource) true exSourceScript (PState.init (sourceConf exLexConf false true exSource)) with
        | some s => (returned s).dropLast
        | none => []) ++ [p.tok]
      rw [hs]
      dsimp only
      rw [t1, List.dropLast_concat]

/-- The language of the example. -/
theorem sample_language {n : Nat} (h : getLanguageString n = "C".toList) (hn : n ∈ languageNumbers) : n = LANGUAGE_C := by
  have : ∀ n ∈ languageNumbers, getLanguageString n = "C".toList → n = LANGUAGE_C := by decide +kernel
  exact this n hn h

theorem sample_parseOk' (l : Option Str) (hl : l = none ∨ l = some "C".toList) (e : Str) (he : e = "ISO-8859-1".toList ∨ e = []) :
    ParseOk sampleLib srcml_archive_create {} { data := { filename := some "a.c".toList, language := l } } LANGUAGE_C e exSource := by
  have hlc : unitLexConf srcml_archive_create LANGUAGE_C = exLexConf := by
    have h1 : srcml_archive_create.tabstop = 8 := by decide +kernel
    have h2 : isoption (unitOptions srcml_archive_create) OPTION_LINE = false := by decide +kernel
    have h3 : srcml_archive_create.userMacroList = [] := by decide +kernel
    unfold unitLexConf exLexConf
    rw [h1, h2, h3]
  refine ⟨?_, ?_, rfl, sampleSax_reads, ?_, ?_, ?_, ?_⟩
  · have hns : namespacesOf srcml_archive_create (beforeParse srcml_archive_create { filename := some "a.c".toList, language := l, derivedLanguage := LANGUAGE_C } (some e)) = startingNamespaces := by
      rcases hl with rfl | rfl <;> rcases he with rfl | rfl <;> decide +kernel
    refine ⟨by rcases hl with rfl | rfl <;> rcases he with rfl | rfl <;> decide +kernel, ?_, by rw [hns]; exact starting_sound, ?_⟩
    · have : mergeNamespaces defaultNamespaces (namespacesOf srcml_archive_create (beforeParse srcml_archive_create { filename := some "a.c".toList, language := l, derivedLanguage := LANGUAGE_C } (some e))) = defaultNamespaces := by
        rcases hl with rfl | rfl <;> rcases he with rfl | rfl <;> decide +kernel
      rw [this]
      constructor <;> decide +kernel
    · have hm : startMeta srcml_archive_create (beforeParse srcml_archive_create { filename := some "a.c".toList, language := l, derivedLanguage := LANGUAGE_C } (some e)) =
          { language := l, revision := some "1.0.0".toList, filename := some "a.c".toList, encoding := some e } := by
        rcases hl with rfl | rfl <;> rcases he with rfl | rfl <;> decide +kernel
      rw [hm]
      refine ⟨?_, by simp [attrPairs], by simp [attrPairs], by simp [attrPairs]⟩
      intro v hv
      simp only [List.mem_cons, List.not_mem_nil, or_false, Option.some.injEq, reduceCtorEq, false_or] at hv
      rcases hv with rfl | rfl | rfl | rfl
      · decide
      · rcases hl with hl | hl <;> cases hl; decide
      · decide
      · rcases he with rfl | rfl <;> decide
  · constructor
    · left; rcases hl with rfl | rfl <;> rcases he with rfl | rfl <;> decide +kernel
    · left; rcases hl with rfl | rfl <;> rcases he with rfl | rfl <;> decide +kernel
  · rw [hlc]; intro p hp; cases hp
  · rw [hlc]; exact .inl (by decide)
  · rw [hlc]; exact exSource_closed
  · rw [hlc]
    have h1 : isoption (unitOptions srcml_archive_create) OPTION_POSITION = false := by decide +kernel
    have h2 : (isoption (unitOptions srcml_archive_create) OPTION_CPP || usesPreprocessor LANGUAGE_C) = true := by decide +kernel
    rw [h1, h2]
    exact sampleLib_finishes

theorem sample_parseOk (e : Str) (he : e = "ISO-8859-1".toList ∨ e = []) :
    ParseOk sampleLib srcml_archive_create {} { data := { filename := some "a.c".toList } } LANGUAGE_C e exSource := sample_parseOk' none (.inl rfl) e he

/-- The file is parsed by its name, as C because of its extension. -/
example : ∃ v, srcml_unit_parse sampleLib srcml_archive_create {} (.filename (some "a.c".toList)) (some { data := { filename := some "a.c".toList } }) = .val (.ok, some v) ∧
    v.data.src = some exSource := by
  have e : bytesText (unifyNewlines (([exBytes] : List Bytes).flatten.drop (bomLength exBytes))) = exSource := by decide +kernel
  have hb : ((iconvBasic.convert "ISO-8859-1".toList).bind (fun conv => blockText (iconvBasic.trivialp "ISO-8859-1".toList) conv [] exBytes)) =
    some exBytes := by decide +kernel
  cases hc : iconvBasic.convert "ISO-8859-1".toList with
  | none => rw [hc] at hb; cases hb
  | some conv =>
  rw [hc] at hb
  have ho : blockText (iconvBasic.trivialp "ISO-8859-1".toList) conv [] exBytes = some exBytes := hb
  obtain ⟨v, n, evs, h1, _, h3, _⟩ := C73_reads_partial sampleLib srcml_archive_create {} { data := { filename := some "a.c".toList } } [] (.inl rfl) iconvBasic_wellBehaved
    (.filename (some "a.c".toList)) [some exBytes] (.filename _ _ (by decide +kernel)) "C".toList (by unfold LanguageIs; decide +kernel) none (.inr ⟨rfl, by decide +kernel⟩)
    (by intro _ h; cases h) "ISO-8859-1".toList conv exBytes exBytes [] [] (detect_encoding (requestedName none) exBytes) hc
    (.cons (by decide) (by decide) ho .nil) (.whole (by decide) (by decide) .done) (by decide +kernel) (by decide)
    (by intro n h1 h2; cases sample_language h1 h2; rw [e]; exact sample_parseOk _ (.inr (by decide +kernel)))
  rw [e] at h3
  exact ⟨v, h1, h3.src⟩


/-- The same library, with a parser that makes a directive of any source. -/
def directiveLib : ParseLib := { sampleLib with parser := fun _ _ _ _ => sampleToks }

/-- The call for `#a` in memory, and what the drained input leaves to do. -/
theorem directive_parse (u : UnitObj) (hn : u.data.language = some "C".toList) (he : u.data.encoding = none) (a : Archive) (ha : a.srcEncoding = none)
    (ho : u.data.hash ≠ none) :
    srcml_unit_parse directiveLib a {} (.memory (some [35, 97]) 2) (some u) =
      (({ u with data := { u.data with derivedLanguage := LANGUAGE_C } } : UnitObj).parseTokens sampleSax a {} (some "ISO-8859-1".toList) sampleToks none).bind
        (fun r => .val (r.1, some r.2)) := by
  have hb : ((iconvBasic.convert "ISO-8859-1".toList).bind (fun conv => blockText (iconvBasic.trivialp "ISO-8859-1".toList) conv [] [35, 97])) =
    some [35, 97] := by decide +kernel
  cases hc : iconvBasic.convert "ISO-8859-1".toList with
  | none => rw [hc] at hb; cases hb
  | some conv =>
  rw [hc] at hb
  have hb : blockText (iconvBasic.trivialp "ISO-8859-1".toList) conv [] [35, 97] = some [35, 97] := hb
  obtain ⟨b', hd, hf⟩ := memory_drain iconvBasic none false [35, 97] [35, 97] "ISO-8859-1".toList conv (detect_encoding (requestedName none) [35, 97]) hc (by decide) hb (by decide)
  have hen : (ofMemory iconvBasic none false [35, 97]).encoding = "ISO-8859-1".toList := by decide +kernel
  have hw : ∀ n, hashWanted a { u.data with derivedLanguage := n } = false := by
    intro n
    unfold hashWanted
    cases hh : u.data.hash with
    | none => exact absurd hh ho
    | some h => rfl
  have hl : parseLanguage u.data.language a.language a.registeredLanguages (ParseFrom.memory (some [35, 97]) 2).name = some LANGUAGE_C := by
    rw [hn]; unfold parseLanguage
    have h1 : explicitLanguage (some "C".toList) a.language = LANGUAGE_C := by
      show srcml_check_language (some "C".toList) = LANGUAGE_C
      decide +kernel
    dsimp only [ParseFrom.name]
    rw [h1]; rfl
  have hask : ∀ n, askedEncoding a { u.data with derivedLanguage := n } = none := by
    intro n; unfold askedEncoding; rw [ha]; show u.data.encoding.or none = none; rw [he]; rfl
  unfold srcml_unit_parse
  dsimp only
  rw [if_neg (by decide), if_neg (by decide)]
  unfold UnitObj.parseInternal
  rw [hl]
  dsimp only
  rw [hask, hw, if_neg (by decide +kernel)]
  have hi : (ParseFrom.memory (some [35, 97]) 2).input directiveLib none false = ofMemory iconvBasic none false [35, 97] := rfl
  rw [hi, hen]
  have hx := drain_eq hd
  rw [show directiveLib.iconv = iconvBasic from rfl, hx]
  have hh : b'.hashOnClose directiveLib.sha1 = none := by
    have := memory_hash (sha1 := directiveLib.sha1) hd
    rw [this]; rfl
  dsimp only [Run.bind]
  rw [hh]
  rfl

/-- C73 (finding): a unit that has been parsed and is parsed again, from another source, keeps the text and the hash of the first: its srcML is that of the second source. -/
theorem C73_finding_second_parse : ∃ v, srcml_unit_parse directiveLib srcml_archive_create {} (.memory (some [35, 97]) 2)
    (some { data := { language := some "C".toList, hash := some "0a".toList, src := some "int i;".toList } }) = .val (.ok, some v) ∧ v.data.src = some "int i;".toList ∧ v.data.hash = some "0a".toList ∧
    extractEvents "escape".toList (sampleSax v.data.srcml) = .val "#a".toList := by
  rw [directive_parse _ rfl rfl _ (by decide +kernel) (by simp)]
  obtain ⟨r, h1, h2⟩ := Run.sat_iff (x := (({ data := { language := some "C".toList, hash := some "0a".toList, src := some "int i;".toList, derivedLanguage := LANGUAGE_C } } : UnitObj).parseTokens
    sampleSax srcml_archive_create {} (some "ISO-8859-1".toList) sampleToks none))
    (p := fun r => decide (r.1 = .ok ∧ r.2.data.src = some "int i;".toList ∧ r.2.data.hash = some "0a".toList ∧ extractEvents "escape".toList (sampleSax r.2.data.srcml) = .val "#a".toList)) (by decide +kernel)
  have h2 := of_decide_eq_true h2
  refine ⟨r.2, ?_, h2.2⟩
  show Run.bind (UnitObj.parseTokens sampleSax srcml_archive_create {} _ _ _ _) _ = _
  rw [h1, ← h2.1]; rfl


/-- C73 (finding): a unit whose language was found by the extension of the file has no language in its own srcML, and `srcml_unit_get_language` gives none either, although it is written to an
archive with its language (C27). -/
theorem C73_finding_no_language : ∃ v, srcml_unit_parse directiveLib srcml_archive_create {} (.filename (some "a.c".toList)) (some { data := { hash := some "0a".toList } }) = .val (.ok, some v) ∧
    v.data.language = none ∧ v.data.derivedLanguage = LANGUAGE_C ∧
    ∃ attrs rest, readXml v.data.srcml = some (.op "unit".toList attrs :: rest) ∧ "language".toList ∉ attrs.map (·.1) := by
  have hb : ((iconvBasic.convert "ISO-8859-1".toList).bind (fun conv => blockText (iconvBasic.trivialp "ISO-8859-1".toList) conv [] exBytes)) =
    some exBytes := by decide +kernel
  cases hc : iconvBasic.convert "ISO-8859-1".toList with
  | none => rw [hc] at hb; cases hb
  | some conv =>
  rw [hc] at hb
  have ho : blockText (iconvBasic.trivialp "ISO-8859-1".toList) conv [] exBytes = some exBytes := hb
  obtain ⟨b', hd, hf⟩ := reads_drain iconvBasic none false exBytes exBytes [] [] [some exBytes] [] [] "ISO-8859-1".toList conv (detect_encoding (requestedName none) exBytes) hc
    (.cons (by decide) (by decide) ho .nil) (.whole (by decide) (by decide) .done) .nothing (by decide +kernel)
  have hx := drain_eq hd
  have hh : b'.hashOnClose directiveLib.sha1 = none := C02_no_hash _ _ hf.2.2.2.2
  have hw : hashWanted srcml_archive_create { hash := some "0a".toList, derivedLanguage := LANGUAGE_C } = false := rfl
  have hl : parseLanguage none srcml_archive_create.language srcml_archive_create.registeredLanguages (some "a.c".toList) = some LANGUAGE_C := by decide +kernel
  obtain ⟨r, h1, h2⟩ := Run.sat_iff (x := (({ data := { hash := some "0a".toList, derivedLanguage := LANGUAGE_C } } : UnitObj).parseTokens
    sampleSax srcml_archive_create {} (some []) sampleToks none))
    (p := fun r => decide (r.1 = .ok ∧ r.2.data.language = none ∧ r.2.data.derivedLanguage = LANGUAGE_C) &&
      (match readXml r.2.data.srcml with
       | some (.op n attrs :: _) => decide (n = "unit".toList ∧ "language".toList ∉ attrs.map (·.1))
       | _ => false)) (by decide +kernel)
  simp only [Bool.and_eq_true, decide_eq_true_eq] at h2
  obtain ⟨h2, h3⟩ := h2
  refine ⟨r.2, ?_, h2.2.1, h2.2.2, ?_⟩
  · unfold srcml_unit_parse
    dsimp only
    rw [if_neg (by decide), if_neg (by decide +kernel)]
    unfold UnitObj.parseInternal
    dsimp only [ParseFrom.name]
    rw [hl]
    dsimp only
    have hask : askedEncoding srcml_archive_create { hash := some "0a".toList, derivedLanguage := LANGUAGE_C } = none := by decide +kernel
    rw [hask, if_neg (by decide +kernel), hw]
    have hi : (ParseFrom.filename (some "a.c".toList)).input directiveLib none false = ofReads none false [some exBytes] := by
      show ofReads _ _ ((sampleLib.file "a.c".toList).getD []) = _
      have : sampleLib.file "a.c".toList = some [some exBytes] := by decide +kernel
      rw [this]; rfl
    rw [hi, show directiveLib.iconv = iconvBasic from rfl, hx]
    have hen : (ofReads none false [some exBytes]).encoding = [] := by decide +kernel
    have ht : ∀ text, directiveLib.tokens srcml_archive_create LANGUAGE_C text = sampleToks := fun _ => rfl
    dsimp only [Run.bind]
    rw [hh, hen, ht, show directiveLib.sax = sampleSax from rfl, h1, ← h2.1]
  · split at h3
    · rename_i n attrs rest he
      simp only [decide_eq_true_eq] at h3
      exact ⟨attrs, rest, by rw [he, h3.1], h3.2⟩
    · cases h3

end Srcml
