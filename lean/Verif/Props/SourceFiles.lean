import Verif.Proofs.SetUp
import Verif.Props.UnitApi
/-
C74: source files through srcML and back. A user parses files into units, writes the units to an archive, and reads the archive: from parsing (C73) over writing (C27) to reading (C25, C26).
-/
set_option linter.unusedSimpArgs false
namespace Srcml
open Spec CharBuffer

/-- Settings of an archive with which source code survives: namespaces are declared, with legal prefixes that differ and one for cpp; the uris, the url, the version and the macros have only
characters of XML, and the uris none that is escaped; the name of the XML encoding does not end the declaration; no srcdiff revision is selected. -/
structure Spec.KeepsSource (a : Archive) : Prop where
  declared : isoption a.options OPTION_NAMESPACE_DECL = true
  prefixes : CleanPrefixes (mergeNamespaces defaultNamespaces a.namespaces)
  plain : ∀ n ∈ a.namespaces, n.uri.flatMap attrEscapeChar = n.uri
  cpp : CppPrefix a
  url : ∀ x, a.url = some x → ValidValue x
  version : ∀ x, a.version = some x → ValidValue x
  macros : ∀ x ∈ a.userMacroList, ValidValue x
  encoding : '?' ∉ a.encoding.getD "UTF-8".toList ∧ '>' ∉ a.encoding.getD "UTF-8".toList
  instruction : a.processingInstruction = none
  revision : a.revisionNumber = none

/-- A source that is read piece by piece into a unit: the unit before, the source, the results of the reads, the encoding that is asked for and the one used, the first piece and the others
before and after they are decoded, and the language. -/
structure Spec.SourceFile where
  unit : UnitObj
  from_ : ParseFrom
  reads : List ReadResult
  asked : Option Str
  enc : Str
  conv : Bytes → Bytes → IconvResult
  first : Bytes
  decoded : Bytes
  more : List Bytes
  moreDecoded : List Bytes
  language : Str

/-- The text of the source: decoded, without the byte order mark, with unified newlines. -/
def Spec.SourceFile.text (x : SourceFile) : Str := bytesText (unifyNewlines ((x.decoded :: x.moreDecoded).flatten.drop (bomLength x.first)))

/-- The conditions of C73 on the source, and a unit that has no namespaces of its own. -/
structure Spec.SourceFile.Ok (lib : ParseLib) (a : Archive) (th : ThreadState) (x : SourceFile) : Prop where
  from_ : ReadFrom lib x.from_ x.reads
  language : LanguageIs a x.from_ x.unit.data (some x.language)
  asked : Asks a x.unit.data x.asked
  known : ∀ e, x.asked = some e → lib.iconv.convert e ≠ none
  uses : UsesEncoding (requestedName x.asked) x.first x.enc
  converts : lib.iconv.convert x.enc = some x.conv
  decodes : Decodes (blockText (lib.iconv.trivialp x.enc) x.conv) [] (x.first :: x.more) (x.decoded :: x.moreDecoded)
  yields : Yields x.reads (x.first :: x.more) []
  mark : bomLength x.first < x.decoded.length
  delete : (127 : UInt8) ∉ (x.decoded :: x.moreDecoded).flatten
  parses : ∀ n, getLanguageString n = x.language → n ∈ languageNumbers → ParseOk lib a th x.unit n (requestedName x.asked) x.text
  namespaces : x.unit.data.namespaces = none
  names : ∀ p ∈ attrPairs x.unit.data.attributes, ':' ∉ p.1
  pairs : x.unit.data.attributes.length % 2 = 0

/-- The unit `w` was read for the source `x`: it has the text of the source, the language in which it was parsed, the hash of the bytes of the source, and the metadata of the unit into which it was parsed; and to whatever the
user unparses it, the text of the source is written. -/
structure Spec.SourceFile.ReadAs (lib : ParseLib) (a : Archive) (x : SourceFile) (w : UnitData) : Prop where
  src : w.src = some x.text
  language : w.language = some (x.unit.data.language.getD x.language)
  hash : HashAfter lib a x.unit.data.hash w.hash (x.reads.filterMap id).flatten
  filename : w.filename = x.unit.data.filename
  version : w.version = x.unit.data.version
  timestamp : w.timestamp = x.unit.data.timestamp
  attributes : isoption a.options OPTION_STORE_ENCODING = false → w.attributes = x.unit.data.attributes
  unparsed : ∀ sax (b : Archive) body to, Usable to → b.type = .read ∨ b.type = .rw →
    srcml_unit_unparse sax b body true to (some { data := w }) = .val (.ok, some { data := w }, some x.text)

theorem updates_eol : ∀ (as : List (Str × Str)) (u : UnitData), (unit_update_attributes u as).eol = u.eol
  | [], _ => rfl
  | p :: as, u => by
    have h := updates_eol as (updateAttribute u p)
    have h2 : (updateAttribute u p).eol = u.eol := by
      unfold updateAttribute
      repeat' split
      all_goals rfl
    exact h.trans h2

/-- A unit that was read has its body, and no line ending was selected for it. -/
theorem gets_ready {log : List Upper} {x : Option (Option Nat × Option Nat)} {w : UnitData} (h : gets log x = some w) : w.readBody = true ∧ w.eol = EOL_AUTO := by
  unfold gets at h
  split at h
  · split at h
    · cases h
      exact ⟨rfl, updates_eol _ _⟩
    · cases h
  · cases h

theorem Spec.KeepsSource.prolog {a : Archive} (h : KeepsSource a) : PlainProlog (rootOut a) where
  encoding := h.encoding.1
  pi := by
    intro t d e
    have : (rootOut a).processingInstruction = a.processingInstruction := rfl
    rw [this, h.instruction] at e; cases e
  declaration := h.encoding.2
  target := by
    intro t d e
    have : (rootOut a).processingInstruction = a.processingInstruction := rfl
    rw [this, h.instruction] at e; cases e

theorem root_meta_clean {a : Archive} (hs : SetUpOk a) (h : KeepsSource a) : CleanMeta (rootMeta a) where
  values := by
    intro v hv
    simp only [rootMeta, List.mem_cons, List.not_mem_nil, or_false, reduceCtorEq, false_or] at hv
    rcases hv with hv | hv | hv
    · rw [hs.revision] at hv; cases hv; decide +kernel
    · exact h.url v hv.symm
    · exact h.version v hv.symm
  userNames := by intro x hx; simp only [rootMeta, hs.attributes] at hx; cases hx
  userNodup := by simp only [rootMeta, hs.attributes]; exact List.nodup_nil
  userValues := by intro x hx; simp only [rootMeta, hs.attributes] at hx; cases hx

theorem prefix_cpp {a : Archive} (hs : SetUpOk a) (hcpp : CppPrefix a) : prefixAt (mergeNamespaces defaultNamespaces a.namespaces) CPP_NS_URI ≠ some [] := by
  intro hx
  cases hc : prefixAt a.namespaces CPP_NS_URI with
  | none =>
    rw [prefixAt_merge_not hc] at hx
    revert hx; decide +kernel
  | some p =>
    rw [prefixAt_merge hs.uris hc (.inr (.inr rfl))] at hx
    rw [hx] at hc
    exact hcpp hc

theorem tagNs_uris {o : Out} {x : Str} (h : x ∈ o.tagNs.map (·.2)) : x ∈ o.namespaces.map (·.uri) := by
  obtain ⟨p, hp, rfl⟩ := List.mem_map.1 h
  unfold Out.tagNs at hp
  split at hp
  · obtain ⟨n, h1, rfl⟩ := List.mem_map.1 hp
    have h1 := (List.mem_filter.1 h1).1
    have hu : (markByOptions o.marked.namespaces o.marked.options).map (·.uri) = o.namespaces.map (·.uri) := by
      rw [markByOptions_uris]; exact markUsed_uris _ _
    rw [← hu]
    exact List.mem_map_of_mem h1
  · cases hp

theorem Spec.KeepsSource.carried {a : Archive} (hs : SetUpOk a) (h : KeepsSource a) : CarriedArchive a where
  prefixes := h.prefixes
  values := root_meta_clean hs h
  macros := h.macros
  prolog := h.prolog.toCleanProlog
  prolog' := h.prolog
  uris := by
    intro p hp
    have h1 : p.2 ∈ declaredUris ((rootOut a).tagAttrs (rootMeta a)) := List.mem_map_of_mem hp
    rw [declaredUris_tagAttrs h.prefixes (root_meta_clean hs h)] at h1
    have h2 := tagNs_uris h1
    have h2 : p.2 ∈ (mergeNamespaces defaultNamespaces a.namespaces).map (·.uri) := h2
    rw [mem_merge_uris] at h2
    rcases h2 with h2 | h2
    · have : ∀ u ∈ defaultNamespaces.map (·.uri), u.flatMap attrEscapeChar = u := by decide +kernel
      exact this _ h2
    · obtain ⟨n, h3, h4⟩ := List.mem_map.1 h2
      rw [← h4]; exact h.plain n h3
  cpp := by
    have hD : (defaultNamespaces.map (·.uri)).Nodup := by rw [default_uris]; exact standardUris_nodup
    exact tag_no_cpp (root_meta_clean hs h) (prefix_cpp hs h.cpp) (merge_nodup hD _)

/-- One source: parsed, and ready to be written. -/
theorem source_parsed {lib : ParseLib} {a : Archive} {th : ThreadState} {x : SourceFile} (hio : lib.iconv.WellBehaved) (hs : SetUpOk a) (hk : KeepsSource a) (hx : x.Ok lib a th) :
    ∃ v n evs, srcml_unit_parse lib a th x.from_ (some x.unit) = .val (.ok, some v) ∧ getLanguageString n = x.language ∧ n ∈ languageNumbers ∧
      ParsedUnit a n x.unit.data v.data x.text evs ∧ HashAfter lib a x.unit.data.hash v.data.hash (x.reads.filterMap id).flatten ∧
      ∀ d, (MadeUnit.mk a v.data evs).Fits a d ∧ ("xmlns".toList, CPP_NS_URI) ∉ (jobOut a a v.data d).tagAttrs (unitMetaOf a a v.data) := by
  obtain ⟨hist, hreg⟩ := hs.registered
  obtain ⟨v, n, evs, h1, h2, h3, h4, h5⟩ := C73_reads_partial lib a th x.unit hist hreg hio x.from_ x.reads hx.from_ x.language hx.language x.asked hx.asked hx.known
    x.enc x.conv x.first x.decoded x.more x.moreDecoded hx.uses hx.converts hx.decodes hx.yields hx.mark hx.delete hx.parses
  have hn : n ∈ languageNumbers := h3.language
  exact ⟨v, n, evs, h1, h2, hn, h3, h4, parsed_fits hs hk.revision hk.cpp hn hx.namespaces (hx.parses n h2 hn).metadata h3 h5⟩

theorem sources_parsed {lib : ParseLib} {a : Archive} {th : ThreadState} (hio : lib.iconv.WellBehaved) (hs : SetUpOk a) (hk : KeepsSource a) :
    ∀ xs : List SourceFile, (∀ x ∈ xs, x.Ok lib a th) → ∃ ps : List (UnitObj × Nat × List Ev), ps.length = xs.length ∧
      ∀ i (hi : i < xs.length) (hi' : i < ps.length), srcml_unit_parse lib a th xs[i].from_ (some xs[i].unit) = .val (.ok, some ps[i].1) ∧
        getLanguageString ps[i].2.1 = xs[i].language ∧ ParsedUnit a ps[i].2.1 xs[i].unit.data ps[i].1.data xs[i].text ps[i].2.2 ∧
        HashAfter lib a xs[i].unit.data.hash ps[i].1.data.hash (xs[i].reads.filterMap id).flatten ∧
        ∀ d, (MadeUnit.mk a ps[i].1.data ps[i].2.2).Fits a d ∧ ("xmlns".toList, CPP_NS_URI) ∉ (jobOut a a ps[i].1.data d).tagAttrs (unitMetaOf a a ps[i].1.data)
  | [], _ => ⟨[], rfl, by intro i hi; exact absurd hi (by simp)⟩
  | x :: xs, h => by
    obtain ⟨ps, h1, h2⟩ := sources_parsed hio hs hk xs (fun y hy => h y (by simp [hy]))
    obtain ⟨v, n, evs, k1, k2, _, k4, k5, k6⟩ := source_parsed hio hs hk (h x (by simp))
    refine ⟨(v, n, evs) :: ps, by simp [h1], ?_⟩
    intro i hi hi'
    cases i with
    | zero => exact ⟨k1, k2, k4, k5, k6⟩
    | succ i => exact h2 i (by simpa using hi) (by simpa using hi')

/-- What was read is what was parsed. -/
theorem source_read {lib : ParseLib} {a : Archive} {x : SourceFile} {v : UnitObj} {n : Nat} {evs : List Ev} {w : UnitData} (hlang : getLanguageString n = x.language)
    (hp : ParsedUnit a n x.unit.data v.data x.text evs) (hh : HashAfter lib a x.unit.data.hash v.data.hash (x.reads.filterMap id).flatten)
    (h1 : w.src = some (sourceOf evs)) (h2 : w.language = some (v.data.language.getD (getLanguageString v.data.derivedLanguage))) (h3 : w.filename = v.data.filename)
    (h4 : w.version = v.data.version) (h5 : w.timestamp = v.data.timestamp) (h6 : w.hash = v.data.hash)
    (h7 : isoption a.options OPTION_STORE_ENCODING = false → w.attributes = v.data.attributes) (h8 : w.readBody = true ∧ w.eol = EOL_AUTO) : x.ReadAs lib a w where
  src := by rw [h1, hp.contents]
  language := by rw [h2, show v.data.language = x.unit.data.language from hp.same.language, show v.data.derivedLanguage = n from hp.same.derivedLanguage, hlang]
  hash := by rw [h6]; exact hh
  filename := h3.trans hp.same.filename
  version := h4.trans hp.same.version
  timestamp := h5.trans hp.same.timestamp
  attributes := fun h => (h7 h).trans hp.same.attributes
  unparsed := by
    intro sax b body to hto hb
    obtain ⟨out, o1, o2⟩ := C30_unparse sax b body to { data := w } x.text hto hb h8.1 (by rw [h1, hp.contents])
    rw [o1]
    rw [show ({ data := w } : UnitObj).data.eol = EOL_AUTO from h8.2] at o2
    have : endingOf EOL_AUTO = none := by decide
    rw [this] at o2
    rw [show out = x.text from o2]

/-- **C74.** Source files, each parsed into a unit of an archive and written to it: all the calls succeed, and from the text of the archive, in every interleaving of the two threads of the
reader and whatever the pieces in which the text is delivered, the user reads one unit for each file, in that order and no other; its text is exactly that of the file (after decoding, without
byte order mark, with unified newlines), and it has the language of the parse, the hash of the file, and the metadata that the unit had. What is missing is what is missing in `C73_reads_partial`. -/
theorem C74_archive_partial (lib : ParseLib) (hio : lib.iconv.WellBehaved) (a : Archive) (th : ThreadState) (cs : List SetCall) (hset : runCalls srcml_archive_create cs = .val a)
    (hk : KeepsSource a) (hA : isoption a.options OPTION_ARCHIVE = true) (xs : List SourceFile) (hne : xs ≠ []) (hxs : ∀ x ∈ xs, x.Ok lib a th) :
    ∃ vs : List UnitObj, vs.length = xs.length ∧ (∀ i (hi : i < xs.length) (hi' : i < vs.length), srcml_unit_parse lib a th xs[i].from_ (some xs[i].unit) = .val (.ok, some vs[i])) ∧
    ∃ s doc, (newIO a th).calls (.openWrite true .memory :: vs.map (fun v => .writeUnit a (some v.data) none) ++ [.close]) = .val s ∧ s.delivered = some doc ∧
      ∀ fs wants, Delivers doc fs → ∃ h : Sax2, ({ wants := wants } : Sax2).feeds fs = .val h ∧ AnyCalls h.log ∧
        ∀ (fin : Finish) (r : Reader), Reach { todo := h.log.filterMap saxCall, finish := fin } Reader.Step r →
          (∀ i (hi : i < r.log.length), (wants[i]?).getD false = decide ((r.log[i]).1 = .read)) →
          ∀ i (hi : i < r.log.length),
            (∀ hn : i < xs.length, (r.log[i]).1 = .read → ∃ w, gets h.log (r.log[i]).2 = some w ∧ xs[i].ReadAs lib a w) ∧
            (xs.length ≤ i → (r.log[i]).2 = none) := by
  have hs := setUp_calls cs setUp_create hset
  obtain ⟨ps, hl, hp⟩ := sources_parsed hio hs hk xs hxs
  refine ⟨ps.map (·.1), by simp [hl], ?_, ?_⟩
  · intro i hi hi'
    rw [List.getElem_map]
    exact (hp i hi (by simpa using hi')).1
  have hm : ∀ m ∈ ps.map (fun p => MadeUnit.mk a p.1.data p.2.2), m.Carried a := by
    intro m hm
    obtain ⟨p, h1, rfl⟩ := List.mem_map.1 hm
    obtain ⟨i, hi, rfl⟩ := List.getElem_of_mem h1
    obtain ⟨_, _, k3, _, k5⟩ := hp i (by omega) hi
    have hx := hxs xs[i] (List.getElem_mem (by omega))
    have hat : ps[i].1.data.attributes = xs[i].unit.data.attributes := k3.same.attributes
    exact ⟨(k5 1).1, k3.escapes, (k5 1).2, by show ∀ p ∈ attrPairs ps[i].1.data.attributes, _; rw [hat]; exact hx.names,
      by show ps[i].1.data.attributes.length % 2 = 0; rw [hat]; exact hx.pairs⟩
  obtain ⟨s, doc, g1, g2, g3⟩ := C25_made_units a th (ps.map (fun p => MadeUnit.mk a p.1.data p.2.2)) hA
    (by intro h; apply hne; rw [← List.length_eq_zero_iff, ← hl]; simpa using congrArg List.length h) (hk.carried hs) hm
  refine ⟨s, doc, ?_, g2, ?_⟩
  · rw [← g1, List.map_map, List.map_map]
    rfl
  intro fs wants hd
  obtain ⟨h, e1, e0, e2⟩ := g3 fs wants hd
  refine ⟨h, e1, e0, ?_⟩
  intro fin r hr hw i hi
  obtain ⟨q1, q2⟩ := e2 fin r hr hw i hi
  refine ⟨?_, fun hn => q2 (by simpa [hl] using hn)⟩
  intro hn hread
  have hi' : i < ps.length := by omega
  obtain ⟨w, w1, w2⟩ := q1 (by simpa using hi') hread
  rw [List.getElem_map] at w2
  obtain ⟨_, k2, k3, k4, _⟩ := hp i hn hi'
  exact ⟨w, w1, source_read k2 k3 k4 w2.src w2.language w2.filename w2.version w2.timestamp w2.hash w2.attributes (gets_ready w1)⟩

/-- One file, parsed and written as a document of its own. -/
theorem solitary_source (lib : ParseLib) (hio : lib.iconv.WellBehaved) (a : Archive) (th : ThreadState) (hs : SetUpOk a)
    (hk : KeepsSource a) (hA : isoption a.options OPTION_ARCHIVE = false) (x : SourceFile) (hx : x.Ok lib a th) :
    ∃ v, srcml_unit_parse lib a th x.from_ (some x.unit) = .val (.ok, some v) ∧
    ∃ s doc, (newIO a th).calls [.openWrite true .memory, .writeUnit a (some v.data) none, .close] = .val s ∧ s.delivered = some doc ∧
      ∀ fs wants, Delivers doc fs → ∃ h : Sax2, ({ wants := wants } : Sax2).feeds fs = .val h ∧ AnyCalls h.log ∧
        ∀ (fin : Finish) (r : Reader), Reach { todo := h.log.filterMap saxCall, finish := fin } Reader.Step r →
          (∀ hi : 0 < r.log.length, wants.headD false = decide ((r.log[0]).1 = .read)) →
          ∀ i (hi : i < r.log.length),
            (i = 0 → (r.log[i]).1 = .read → ∃ w, gets h.log (r.log[i]).2 = some w ∧ x.ReadAs lib a w) ∧
            (0 < i → (r.log[i]).2 = none) := by
  obtain ⟨v, n, evs, k1, k2, _, k4, k5, k6⟩ := source_parsed hio hs hk hx
  have hat : v.data.attributes = x.unit.data.attributes := k4.same.attributes
  have hm : (MadeUnit.mk a v.data evs).CarriedSolo a :=
    { toFits := (k6 0).1, prolog := hk.prolog, instruction := hk.instruction, escapes := k4.escapes, cpp := (k6 0).2, plain := k4.plain,
      names := by show ∀ p ∈ attrPairs v.data.attributes, _; rw [hat]; exact hx.names,
      pairs := by show v.data.attributes.length % 2 = 0; rw [hat]; exact hx.pairs }
  obtain ⟨s, doc, g1, g2, g3⟩ := C25_solitary_made_unit a th _ hA hm
  refine ⟨v, k1, s, doc, g1, g2, ?_⟩
  intro fs wants hd
  obtain ⟨h, e1, e0, e2⟩ := g3 fs wants hd
  refine ⟨h, e1, e0, ?_⟩
  intro fin r hr hw i hi
  obtain ⟨q1, q2⟩ := e2 fin r hr hw i hi
  refine ⟨?_, q2⟩
  intro h0 hread
  obtain ⟨w, w1, w2⟩ := q1 h0 hread
  exact ⟨w, w1, source_read k2 k4 k5 w2.src w2.language w2.filename w2.version w2.timestamp w2.hash w2.attributes (gets_ready w1)⟩

/-- **C74** for a solitary unit: one file, parsed and written as a document of its own. -/
theorem C74_solitary_partial (lib : ParseLib) (hio : lib.iconv.WellBehaved) (a : Archive) (th : ThreadState) (cs : List SetCall) (hset : runCalls srcml_archive_create cs = .val a)
    (hk : KeepsSource a) (hA : isoption a.options OPTION_ARCHIVE = false) (x : SourceFile) (hx : x.Ok lib a th) :
    ∃ v, srcml_unit_parse lib a th x.from_ (some x.unit) = .val (.ok, some v) ∧
    ∃ s doc, (newIO a th).calls [.openWrite true .memory, .writeUnit a (some v.data) none, .close] = .val s ∧ s.delivered = some doc ∧
      ∀ fs wants, Delivers doc fs → ∃ h : Sax2, ({ wants := wants } : Sax2).feeds fs = .val h ∧ AnyCalls h.log ∧
        ∀ (fin : Finish) (r : Reader), Reach { todo := h.log.filterMap saxCall, finish := fin } Reader.Step r →
          (∀ hi : 0 < r.log.length, wants.headD false = decide ((r.log[0]).1 = .read)) →
          ∀ i (hi : i < r.log.length),
            (i = 0 → (r.log[i]).1 = .read → ∃ w, gets h.log (r.log[i]).2 = some w ∧ x.ReadAs lib a w) ∧
            (0 < i → (r.log[i]).2 = none) :=
  solitary_source lib hio a th (setUp_calls cs setUp_create hset) hk hA x hx

/-! ### An example -/

/-- A new archive keeps source code. -/
theorem create_keeps : KeepsSource srcml_archive_create where
  declared := by decide +kernel
  prefixes := by
    have : mergeNamespaces defaultNamespaces srcml_archive_create.namespaces = defaultNamespaces := by decide +kernel
    rw [this]
    constructor <;> decide +kernel
  plain := by decide +kernel
  cpp := by unfold CppPrefix; decide +kernel
  url := by intro x h; cases h
  version := by intro x h; cases h
  macros := by
    have : srcml_archive_create.userMacroList = [] := rfl
    rw [this]; simp
  encoding := by decide +kernel
  instruction := rfl
  revision := rfl

/-- The conversion from ISO-8859-1. -/
def sampleConv : Bytes → Bytes → IconvResult := (iconvBasic.convert "ISO-8859-1".toList).getD (fun _ _ => .fail 0)

/-- The file `a.c`. -/
def sampleFile : SourceFile where
  unit := { data := { filename := some "a.c".toList } }
  from_ := .filename (some "a.c".toList)
  reads := [some exBytes]
  asked := none
  enc := "ISO-8859-1".toList
  conv := sampleConv
  first := exBytes
  decoded := exBytes
  more := []
  moreDecoded := []
  language := "C".toList

theorem sampleFile_text : sampleFile.text = exSource := by decide +kernel

theorem sampleFile_ok : sampleFile.Ok sampleLib srcml_archive_create {} := by
  have hconv : iconvBasic.convert "ISO-8859-1".toList = some sampleConv := by
    unfold sampleConv
    cases hc : iconvBasic.convert "ISO-8859-1".toList with
    | none =>
      have : (iconvBasic.convert "ISO-8859-1".toList).isSome = true := by decide +kernel
      rw [hc] at this; cases this
    | some c => rfl
  have ho : blockText (iconvBasic.trivialp "ISO-8859-1".toList) sampleConv [] exBytes = some exBytes := by decide +kernel
  refine ⟨.filename _ _ (by decide +kernel), by unfold LanguageIs; decide +kernel, .inr ⟨rfl, by decide +kernel⟩, by (intro _ h; cases h), detect_encoding (requestedName none) exBytes, hconv,
    .cons (by decide) (by decide) ho .nil, .whole (by decide) (by decide) .done, by decide +kernel, by decide, ?_, rfl, by decide, by decide⟩
  intro n h1 h2
  cases sample_language h1 h2
  rw [sampleFile_text]
  exact sample_parseOk _ (.inr (by decide +kernel))

/-- The file twice in an archive. -/
example : ∃ vs : List UnitObj, vs.length = 2 ∧
    ∃ s doc, (newIO srcml_archive_create {}).calls (.openWrite true .memory :: vs.map (fun v => .writeUnit srcml_archive_create (some v.data) none) ++ [.close]) = .val s ∧ s.delivered = some doc := by
  obtain ⟨vs, h1, _, s, doc, h3, h4, _⟩ := C74_archive_partial sampleLib iconvBasic_wellBehaved srcml_archive_create {} [] rfl create_keeps (by decide +kernel)
    [sampleFile, sampleFile] (by simp) (by intro x hx; simp only [List.mem_cons, List.not_mem_nil, or_false, or_self] at hx; subst hx; exact sampleFile_ok)
  exact ⟨vs, h1, s, doc, h3, h4⟩

end Srcml
