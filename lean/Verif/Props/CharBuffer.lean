import Verif.Model.UnitText
import Verif.Proofs.CharBuffer
/-
C01 - C05: reading source code.

`CharBuffer.ofReads` is the input of `srcml_unit_parse_filename/FILE/fd/io`: a list of results of the
read callback. `CharBuffer.ofMemory` is the input of `srcml_unit_parse_memory`. `Drains b cs b'` says
that the lexer, calling `getChar` until the end of file, receives exactly the characters `cs`.
-/
set_option linter.unusedSimpArgs false
namespace Srcml
open Spec CharBuffer

/-- Full account of a source delivered by reads: if the first blocks decode (to `outs`) and what
comes then ends the text (end of file, read error, or a block that does not decode), the lexer
receives the concatenation of the decoded blocks without the byte order mark and with unified
newlines. -/
theorem reads_drain (io : Iconv) (enc : Option Str) (hn : Bool) (c o : Bytes)
    (cs os : List Bytes) (reads tail after : List ReadResult) (e : Str) (conv : Bytes → Bytes → IconvResult)
    (he : UsesEncoding (requestedName enc) c e) (hc : io.convert e = some conv)
    (hd : Decodes (blockText (io.trivialp e) conv) [] (c :: cs) (o :: os))
    (hy : Yields reads (c :: cs) tail)
    (hs : Stops (blockText (io.trivialp e) conv) (c :: cs).flatten tail after)
    (hskip : bomLength c < o.length) :
    ∃ b', Drains io (ofReads enc hn reads)
        (unifyNewlines ((o :: os).flatten.drop (bomLength c))) b' ∧
      Fin e after 0 0 hn (unifyNewlines ((o :: os).flatten.drop (bomLength c))) b' := by
  have he' : e = (detectEncoding (requestedName enc) c).2 :=
    usesEncoding_unique he (detect_encoding _ _)
  have hsk : (detectEncoding (requestedName enc) c).1 = bomLength c := detect_skip _ _
  have hf : Fresh io e after (ofReads enc hn reads)
      ((o :: os).flatten.drop (bomLength c)) := by
    refine ⟨conv, c, cs, o, os, tail, rfl, rfl, rfl, rfl, hy, ?_, hc, hd, hs, ?_, ?_⟩
    · have := base_encoding enc hn
      simp only [ofReads, this]; exact he'
    · have := base_encoding enc hn
      simp only [ofReads, this, hsk]; exact hskip
    · have := base_encoding enc hn
      simp only [ofReads, this, hsk, List.flatten_cons]
      rw [List.drop_append_of_le_length (by omega)]
  obtain ⟨b', h1, h2⟩ := Good.drains _ (ofReads enc hn reads) _
    (Nat.le_refl _) (Or.inl hf)
  have : (ofReads enc hn reads).lastcr = false := rfl
  rw [this, unifyAfter_false] at h1 h2
  exact ⟨b', h1, h2⟩

theorem memory_drain (io : Iconv) (enc : Option Str) (hn : Bool) (buffer o : Bytes)
    (e : Str) (conv : Bytes → Bytes → IconvResult)
    (he : UsesEncoding (requestedName enc) buffer e) (hc : io.convert e = some conv)
    (hb : buffer ≠ []) (ho : blockText (io.trivialp e) conv [] buffer = some o) (hne : o ≠ []) :
    ∃ b', Drains io (ofMemory io enc hn buffer) (unifyNewlines (o.drop (bomLength buffer))) b' ∧
      Fin e [] 0 0 hn (unifyNewlines (o.drop (bomLength buffer))) b' := by
  have he' : e = (detectEncoding (requestedName enc) buffer).2 :=
    usesEncoding_unique he (detect_encoding _ _)
  have hsk : (detectEncoding (requestedName enc) buffer).1 = bomLength buffer := detect_skip _ _
  obtain ⟨h1, h2, h3, h4, h5, h6⟩ := ofMemory_inv (hn := hn) hb he' hc ho hne
  rw [hsk] at h1
  obtain ⟨b', k1, k2⟩ := Good.drains (io := io) _ _ _ (Nat.le_refl _) (Or.inr h1)
  rw [h2, unifyAfter_false] at k1 k2
  rw [h3, h4, h5] at k2
  exact ⟨b', k1, k2⟩

/-! ### C01 newline normalisation -/

/-- C01: whatever the cut into blocks, what the lexer receives is the decoded text (after a byte
order mark) with CR LF and CR replaced by LF, and nothing else; there is no undefined behaviour. -/
theorem C01_newlines_reads (io : Iconv) (enc : Option Str) (hn : Bool) (c o : Bytes)
    (cs os : List Bytes) (reads tail after : List ReadResult) (e : Str) (conv : Bytes → Bytes → IconvResult)
    (he : UsesEncoding (requestedName enc) c e) (hc : io.convert e = some conv)
    (hd : Decodes (blockText (io.trivialp e) conv) [] (c :: cs) (o :: os))
    (hy : Yields reads (c :: cs) tail)
    (hs : Stops (blockText (io.trivialp e) conv) (c :: cs).flatten tail after)
    (hskip : bomLength c < o.length) (got : Bytes) (b' : CharBuffer)
    (h : Drains io (ofReads enc hn reads) got b') :
    got = unifyNewlines ((o :: os).flatten.drop (bomLength c)) := by
  obtain ⟨b1, h1, -⟩ := reads_drain io enc hn c o cs os reads tail after e conv he hc hd hy hs hskip
  exact (Drains.unique h h1).1

/-- C01, existence: reading such a source does reach its end. -/
theorem C01_reading_ends (io : Iconv) (enc : Option Str) (hn : Bool) (c o : Bytes)
    (cs os : List Bytes) (reads tail after : List ReadResult) (e : Str) (conv : Bytes → Bytes → IconvResult)
    (he : UsesEncoding (requestedName enc) c e) (hc : io.convert e = some conv)
    (hd : Decodes (blockText (io.trivialp e) conv) [] (c :: cs) (o :: os))
    (hy : Yields reads (c :: cs) tail)
    (hs : Stops (blockText (io.trivialp e) conv) (c :: cs).flatten tail after)
    (hskip : bomLength c < o.length) :
    ∃ got b', Drains io (ofReads enc hn reads) got b' := by
  obtain ⟨b1, h1, -⟩ := reads_drain io enc hn c o cs os reads tail after e conv he hc hd hy hs hskip
  exact ⟨_, _, h1⟩

/-- C01 for a source in memory. -/
theorem C01_newlines_memory (io : Iconv) (enc : Option Str) (hn : Bool) (buffer o : Bytes)
    (e : Str) (conv : Bytes → Bytes → IconvResult)
    (he : UsesEncoding (requestedName enc) buffer e) (hc : io.convert e = some conv)
    (hb : buffer ≠ []) (ho : blockText (io.trivialp e) conv [] buffer = some o) (hne : o ≠ []) :
    (∃ b', Drains io (ofMemory io enc hn buffer) (unifyNewlines (o.drop (bomLength buffer))) b') ∧
    ∀ got b', Drains io (ofMemory io enc hn buffer) got b' →
      got = unifyNewlines (o.drop (bomLength buffer)) := by
  obtain ⟨b1, h1, -⟩ := memory_drain io enc hn buffer o e conv he hc hb ho hne
  exact ⟨⟨b1, h1⟩, fun got b' h => (Drains.unique h h1).1⟩

/-- C01 for the empty source: no character at all. -/
theorem C01_empty_source (io : Iconv) (enc : Option Str) (hn : Bool) (tail : List ReadResult)
    (ht : ∀ r, tail.head? = some r → r = none ∨ r = some []) :
    (∃ b', Drains io (ofReads enc hn tail) [] b') ∧ (∃ b', Drains io (ofMemory io enc hn []) [] b') := by
  constructor
  · have : ∃ b', (ofReads enc hn tail).getChar io = .val (none, b') := by
      simp only [getChar, fetch, ofReads, CharBuffer.base, true_or, if_true, readChars]
      cases tail with
      | nil => exact ⟨_, rfl⟩
      | cons r rs =>
        rcases ht r rfl with rfl | rfl
        · exact ⟨_, rfl⟩
        · exact ⟨_, rfl⟩
    obtain ⟨b', h⟩ := this
    exact ⟨b', .eof h⟩
  · exact ⟨_, .eof rfl⟩

/-- The CR LF of "a\r\n" cut by a block boundary is one newline. -/
example : ∃ b', Drains iconvBasic (ofReads none true [some [97, 13], some [10, 13, 98]])
    [97, 10, 10, 98] b' := by
  obtain ⟨b', h, -⟩ := reads_drain iconvBasic none true [97, 13] [97, 13] [[10, 13, 98]] [[10, 13, 98]]
    [some [97, 13], some [10, 13, 98]] [] [] "ISO-8859-1".toList _
    (Or.inr ⟨rfl, .other _ (by decide)⟩) rfl
    (.cons (by decide) (by decide) (by decide) (.cons (by decide) (by decide) (by decide) .nil))
    (.whole (by decide) (by decide) (.whole (by decide) (by decide) .done)) .nothing (by decide)
  exact ⟨b', by simpa [unifyNewlines, bomLength, List.cons_prefix_cons] using h⟩

/-! ### C02 hash -/

/-- glibc's converters used here leave no more bytes than they were given. -/
theorem iconvBasic_wellBehaved : iconvBasic.WellBehaved := by
  have left_le : ∀ fuel bs, utf8Left fuel bs ≤ bs.length := by
    intro fuel
    induction fuel with
    | zero => intro bs; simp [utf8Left]
    | succ n ih =>
      intro bs
      unfold utf8Left
      split
      · simp
      · split
        · exact Nat.le_refl _
        · refine Nat.le_trans (ih _) ?_
          simp
  intro e conv h blk left hc hf
  simp only [iconvBasic] at hc
  split at hc
  · simp at hc; subst hc; simp at hf
  · split at hc
    · simp at hc; subst hc
      simp only at hf
      split at hf
      · simp at hf
      · simp at hf; rw [← hf]; exact left_le _ _
    · simp at hc

/-- C02: at every moment, whatever calls were made (also past the end of the text and after
conversion errors), the digested bytes are exactly the bytes delivered by the reads made so far:
followed by those of the reads still to come they are the whole source. -/
theorem C02_hash_reads (io : Iconv) (hio : io.WellBehaved) (enc : Option Str)
    (reads : List ReadResult) (b' : CharBuffer) (h : Calls io (ofReads enc true reads) b') :
    b'.hashed ++ (b'.source.filterMap id).flatten = (reads.filterMap id).flatten := by
  have := Calls.hashed hio (b := ofReads enc true reads)
    ⟨Nat.zero_le _, by intro conv h; simp [ofReads, CharBuffer.base] at h⟩ rfl h
  have h2 := this.2.2
  simpa [ofReads, CharBuffer.base, pendingBytes] using h2

/-- C02: when the whole source decodes, the hash stored at the end is the digest of the whole
source, independent of the blocks. -/
theorem C02_hash_of_unit (sha1 : Bytes → Bytes) (io : Iconv) (hio : io.WellBehaved)
    (enc : Option Str) (c o : Bytes) (cs os : List Bytes) (reads : List ReadResult) (e : Str)
    (conv : Bytes → Bytes → IconvResult)
    (he : UsesEncoding (requestedName enc) c e) (hc : io.convert e = some conv)
    (hd : Decodes (blockText (io.trivialp e) conv) [] (c :: cs) (o :: os))
    (hy : Yields reads (c :: cs) [])
    (hskip : bomLength c < o.length) (got : Bytes) (b' : CharBuffer)
    (h : Drains io (ofReads enc true reads) got b') :
    ∃ hash, b'.hashOnClose sha1 = some hash ∧
      unhex hash = some (sha1 (reads.filterMap id).flatten) := by
  obtain ⟨b1, h1, h2⟩ := reads_drain io enc true c o cs os reads [] [] e conv he hc hd hy .nothing hskip
  obtain ⟨-, rfl⟩ := Drains.unique h h1
  have h3 := C02_hash_reads io hio enc _ b' h.calls
  rw [h2.2.1] at h3
  simp only [List.filterMap_nil, List.flatten_nil, List.append_nil] at h3
  refine ⟨_, ?_, unhex_hexAscii _⟩
  simp [hashOnClose, h2.2.2.2.2, h3]

/-- The reads used as an example are digested completely. -/
example : ∃ hash, (∃ b' got, Drains iconvBasic (ofReads none true [some [97, 13], some [10, 13, 98]]) got b' ∧
    b'.hashOnClose id = some hash) ∧ unhex hash = some [97, 13, 10, 13, 98] := by
  obtain ⟨b', h, -⟩ := reads_drain iconvBasic none true [97, 13] [97, 13] [[10, 13, 98]] [[10, 13, 98]]
    [some [97, 13], some [10, 13, 98]] [] [] "ISO-8859-1".toList _
    (Or.inr ⟨rfl, .other _ (by decide)⟩) rfl
    (.cons (by decide) (by decide) (by decide) (.cons (by decide) (by decide) (by decide) .nil))
    (.whole (by decide) (by decide) (.whole (by decide) (by decide) .done)) .nothing (by decide)
  obtain ⟨hash, h1, h2⟩ := C02_hash_of_unit id iconvBasic iconvBasic_wellBehaved none [97, 13] [97, 13]
    [[10, 13, 98]] [[10, 13, 98]] _ "ISO-8859-1".toList _
    (Or.inr ⟨rfl, .other _ (by decide)⟩) rfl
    (.cons (by decide) (by decide) (by decide) (.cons (by decide) (by decide) (by decide) .nil))
    (.whole (by decide) (by decide) (.whole (by decide) (by decide) .done)) (by decide) _ b' h
  exact ⟨hash, ⟨b', _, h, h1⟩, h2⟩

/-- C02 for a source in memory: the digest of the buffer, whatever calls follow. -/
theorem C02_hash_memory (io : Iconv) (enc : Option Str) (buffer : Bytes) :
    (ofMemory io enc true buffer).hashed = buffer := by
  unfold ofMemory
  simp only [readChars]
  split
  · rename_i h
    have hb : buffer = [] := by
      have hp : (CharBuffer.base enc true).pos = 0 := rfl
      rw [hp] at h
      rcases h with h | h
      · simpa using h
      · simpa using h
    subst hb
    rfl
  · have := (process_hashed io { CharBuffer.base enc true with raw := buffer, insize := buffer.length }).1
    simpa [CharBuffer.base] using this

/-- C02: a digest is written as two hexadecimal digits per byte, from which it can be read back. -/
theorem C02_hash_text (sha1 : Bytes → Bytes) (b : CharBuffer) (hn : b.hashneeded = true) :
    ∃ hash, b.hashOnClose sha1 = some hash ∧ hash.length = 2 * (sha1 b.hashed).length ∧
      unhex hash = some (sha1 b.hashed) :=
  ⟨hexAscii (sha1 b.hashed), by simp [hashOnClose, hn], hexAscii_length _, unhex_hexAscii _⟩

/-- C02: without the option no hash is produced. -/
theorem C02_no_hash (sha1 : Bytes → Bytes) (b : CharBuffer) (hn : b.hashneeded = false) :
    b.hashOnClose sha1 = none := by simp [hashOnClose, hn]

/-! ### C03 encoding -/

/-- C03: the encoding used for a source is the requested one, else the one given by the byte order
mark of the first block, else ISO-8859-1. -/
theorem C03_encoding_reads (io : Iconv) (enc : Option Str) (hn : Bool) (c o : Bytes)
    (cs os : List Bytes) (reads tail after : List ReadResult) (e : Str) (conv : Bytes → Bytes → IconvResult)
    (he : UsesEncoding (requestedName enc) c e) (hc : io.convert e = some conv)
    (hd : Decodes (blockText (io.trivialp e) conv) [] (c :: cs) (o :: os))
    (hy : Yields reads (c :: cs) tail)
    (hs : Stops (blockText (io.trivialp e) conv) (c :: cs).flatten tail after)
    (hskip : bomLength c < o.length) (got : Bytes) (b' : CharBuffer)
    (h : Drains io (ofReads enc hn reads) got b') : b'.encoding = e := by
  obtain ⟨b1, h1, h2⟩ := reads_drain io enc hn c o cs os reads tail after e conv he hc hd hy hs hskip
  obtain ⟨-, rfl⟩ := Drains.unique h h1
  exact h2.1

/-- C03 for memory: already the constructor determines the encoding, so the unit reports it. -/
theorem C03_encoding_memory (io : Iconv) (enc : Option Str) (hn : Bool) (buffer : Bytes)
    (hb : buffer ≠ []) :
    UsesEncoding (requestedName enc) buffer (ofMemory io enc hn buffer).encoding := by
  have hlen : buffer.length ≠ 0 := by simpa using hb
  have key : (ofMemory io enc hn buffer).encoding = (detectEncoding (requestedName enc) buffer).2 := by
    have hbase := base_encoding enc hn
    have hp : (CharBuffer.base enc hn).pos = 0 := rfl
    have hfr : (CharBuffer.base enc hn).firstRead = true := rfl
    unfold ofMemory
    simp only [readChars]
    rw [if_neg (by rw [hp]; omega)]
    have cook_enc : ∀ b : CharBuffer, b.cook.2.encoding = b.encoding := by
      intro b
      unfold cook
      split
      · rfl
      · split
        · rfl
        · split <;> rfl
    simp only [process, setup, hfr, if_true, hbase]
    cases hc : io.convert (detectEncoding (requestedName enc) buffer).2 with
    | none => rfl
    | some conv => simp only [cook_enc]
  rw [key]
  exact detect_encoding _ _

/-- C03: the specification of the encoding is total and unambiguous. -/
theorem C03_encoding_decided_partial (req : Str) (s : Bytes) : ∃ e, UsesEncoding req s e ∧
    ∀ e', UsesEncoding req s e' → e' = e :=
  ⟨_, detect_encoding req s, fun _ h => usesEncoding_unique h (detect_encoding req s)⟩

/-- C03 (finding): the byte order mark of UTF-32 little endian is taken for UTF-16. -/
theorem C03_finding_utf32le (rest : Bytes) (e : Str)
    (h : UsesEncoding [] (0xFF :: 0xFE :: 0x00 :: 0x00 :: rest) e) : e = "UTF-16".toList :=
  usesEncoding_unique h (Or.inr ⟨rfl, .utf16le _⟩)

/-- C03 (finding): for a source that is not in memory the encoding is only determined by the first
`getChar`, after `srcml_unit_parse_internal` has copied it to the unit (srcml_unit.cpp:525): with no
requested encoding the unit reports an empty encoding. -/
theorem C03_finding_reported_before_detection (hn : Bool) (reads : List ReadResult) :
    (ofReads none hn reads).encoding = [] := rfl

/-- C03 (finding): three bytes of the *decoded* text are skipped for a UTF-8 byte order mark even
when the requested encoding is ISO-8859-1; the text then starts inside a character. -/
theorem C03_finding_bom_latin1 :
    ∃ b', Drains iconvBasic (ofMemory iconvBasic (some "ISO-8859-1".toList) false [0xEF, 0xBB, 0xBF, 97])
      [0xBB, 0xC2, 0xBF, 97] b' := by
  obtain ⟨b', h, -⟩ := memory_drain iconvBasic (some "ISO-8859-1".toList) false [0xEF, 0xBB, 0xBF, 97]
    [0xC3, 0xAF, 0xC2, 0xBB, 0xC2, 0xBF, 97] "ISO-8859-1".toList _
    (Or.inl ⟨by decide, by decide⟩) rfl (by decide) (by decide) (by decide)
  exact ⟨b', by simpa [unifyNewlines, bomLength, List.cons_prefix_cons] using h⟩

/-- C03 (finding): a file that consists of nothing but a UTF-8 byte order mark makes the first
`getChar` read past the end of the converted text. -/
theorem C03_finding_bom_only : (ofReads none false [some [0xEF, 0xBB, 0xBF]]).getChar iconvBasic = .ub := rfl

/-! ### C04 no text is lost by decoding -/

private theorem yields_flatten {reads : List ReadResult} {cs : List Bytes} {tail : List ReadResult}
    (hy : Yields reads cs tail) :
    (reads.filterMap id).flatten = cs.flatten ++ (tail.filterMap id).flatten ∧ ∀ x ∈ cs, x ≠ [] := by
  induction hy with
  | done => simp
  | whole hc _ _ ih =>
    refine ⟨?_, ?_⟩
    · simp [ih.1]
    · intro x hx
      rcases List.mem_cons.mp hx with rfl | hx
      · exact hc
      · exact ih.2 x hx
  | @part c rest cs tail hl _ ih =>
    refine ⟨?_, ?_⟩
    · have h := ih.1
      simp only [List.filterMap_cons, id, List.flatten_cons] at h ⊢
      rw [List.append_assoc, ← h, ← List.append_assoc, List.take_append_drop]
    · intro x hx
      rcases List.mem_cons.mp hx with rfl | hx
      · intro h
        have := congrArg List.length h
        simp only [List.length_take, List.length_nil] at this
        have : 0 < SRCBUFSIZE := by decide
        omega
      · exact ih.2 x hx

/-- C04 for ISO-8859-1 (the default): however the source arrives, the text is the decoding of the
whole source. -/
theorem C04_latin1_blocks_partial (hn : Bool) (reads : List ReadResult) (c : Bytes) (cs : List Bytes)
    (hy : Yields reads (c :: cs) [])
    (hno : DetectedEncoding c "ISO-8859-1".toList) (got : Bytes) (b' : CharBuffer)
    (h : Drains iconvBasic (ofReads none hn reads) got b') :
    got = unifyNewlines ((reads.filterMap id).flatten.flatMap latin1ToUtf8) := by
  obtain ⟨hflat, hne⟩ := yields_flatten hy
  have hbom : bomLength c = 0 := by
    unfold bomLength
    rw [if_neg]
    intro hp
    cases hno with
    | other _ hh => exact hh _ (by simp) hp
  have hd := latin1_decodes _ rfl [] (c :: cs) hne
  have holen : 0 < (c.flatMap latin1ToUtf8).length := by
    have := hne c (by simp)
    cases c with
    | nil => exact absurd rfl this
    | cons x xs =>
      have := List.length_pos_iff.mpr (latin1_ne_nil x)
      simp only [List.flatMap_cons, List.length_append]; omega
  have := C01_newlines_reads iconvBasic none hn c (c.flatMap latin1ToUtf8) cs
    (cs.map fun c : Bytes => c.flatMap latin1ToUtf8) reads [] [] "ISO-8859-1".toList _
    (Or.inr ⟨rfl, hno⟩) rfl hd hy .nothing (by rw [hbom]; exact holen) got b' h
  rw [this, hbom, List.drop_zero, hflat]
  congr 1
  simp only [List.filterMap_nil, List.flatten_nil, List.append_nil]
  have : ∀ l : List Bytes, (l.map fun c => c.flatMap latin1ToUtf8).flatten = l.flatten.flatMap latin1ToUtf8 := by
    intro l
    induction l with
    | nil => rfl
    | cons x xs ih => simp [List.flatMap_append, ih]
  exact this (c :: cs)

/-- C04 in general: if blocks decode, the text is the concatenation of their decodings. For a source
in memory there is one block, so nothing depends on block boundaries. -/
theorem C04_memory_whole_partial (io : Iconv) (enc : Option Str) (hn : Bool) (buffer o : Bytes)
    (e : Str) (conv : Bytes → Bytes → IconvResult)
    (he : UsesEncoding (requestedName enc) buffer e) (hc : io.convert e = some conv)
    (hb : buffer ≠ []) (ho : blockText (io.trivialp e) conv [] buffer = some o) (hne : o ≠ [])
    (got : Bytes) (b' : CharBuffer) (h : Drains io (ofMemory io enc hn buffer) got b') :
    got = unifyNewlines (o.drop (bomLength buffer)) :=
  (C01_newlines_memory io enc hn buffer o e conv he hc hb ho hne).2 got b' h

/-- C04 (finding): when the end of a block cuts a multi-byte character, `iconv` fails for the block
and the text ends *before that block*: its complete characters and everything after it are lost. -/
theorem C04_finding_block_lost (io : Iconv) (enc : Option Str) (hn : Bool) (c o : Bytes)
    (cs os : List Bytes) (bad : Bytes) (reads tail after : List ReadResult) (e : Str)
    (conv : Bytes → Bytes → IconvResult)
    (he : UsesEncoding (requestedName enc) c e) (hc : io.convert e = some conv)
    (hd : Decodes (blockText (io.trivialp e) conv) [] (c :: cs) (o :: os))
    (hy : Yields reads (c :: cs) tail) (hy2 : Yields tail [bad] after)
    (hbad : blockText (io.trivialp e) conv (c :: cs).flatten bad = none)
    (hskip : bomLength c < o.length) (got : Bytes) (b' : CharBuffer)
    (h : Drains io (ofReads enc hn reads) got b') :
    got = unifyNewlines ((o :: os).flatten.drop (bomLength c)) :=
  C01_newlines_reads io enc hn c o cs os reads tail after e conv he hc hd hy (.bad hy2 hbad) hskip
    got b' h

private theorem utf8Left_ascii (n fuel : Nat) (rest : Bytes) (h : n ≤ fuel) :
    utf8Left fuel (List.replicate n 97 ++ rest) = utf8Left (fuel - n) rest := by
  induction n generalizing fuel with
  | zero => simp
  | succ n ih =>
    cases fuel with
    | zero => omega
    | succ f =>
      rw [List.replicate_succ, List.cons_append]
      simp only [utf8Left]
      have : utf8Len (97 :: (List.replicate n 97 ++ rest)) = 1 := by simp [utf8Len]
      rw [this]
      simp only [Nat.one_ne_zero, if_false, List.drop_succ_cons, List.drop_zero]
      rw [ih f (by omega)]
      congr 1
      omega

private theorem take_left {α} (l r : List α) (n : Nat) (h : l.length = n) : (l ++ r).take n = l := by
  subst h; simp

private theorem drop_left {α} (l r : List α) (n : Nat) (h : l.length = n) : (l ++ r).drop n = r := by
  subst h; simp

/-- C04 (finding), for UTF-8 files: a file of ASCII letters with a two-byte character across byte
2048 (1024 is the block size). Of the file, whatever follows, only the first 1024 bytes are delivered:
the 1023 letters before the character and everything after it are lost, and no error is reported. -/
theorem C04_finding_utf8_file (rest : Bytes) (got : Bytes) (b' : CharBuffer)
    (h : Drains iconvBasic (ofReads (some "UTF-8".toList) false
      [some (List.replicate SRCBUFSIZE 97 ++ ((List.replicate (SRCBUFSIZE - 1) 97 ++ [0xC3]) ++
        (0xA9 :: rest)))]) got b') :
    got = unifyNewlines (List.replicate SRCBUFSIZE 97) := by
  have hS : ∃ m, SRCBUFSIZE = m + 1 := ⟨1023, rfl⟩
  generalize hSv : SRCBUFSIZE = S at h hS ⊢
  obtain ⟨m, rfl⟩ := hS
  simp only [Nat.add_sub_cancel] at h
  have hok : utf8Left (m + 1) (List.replicate (m + 1) 97) = 0 := by
    have := utf8Left_ascii (m + 1) (m + 1) [] (Nat.le_refl _)
    rw [List.append_nil] at this
    rw [this, Nat.sub_self]; rfl
  have hbad : utf8Left (m + 1) (List.replicate m 97 ++ [0xC3]) = 1 := by
    rw [utf8Left_ascii m (m + 1) [0xC3] (by omega)]
    have : m + 1 - m = 1 := by omega
    rw [this]; decide
  have hbom : bomLength (List.replicate (m + 1) 97) = 0 := by
    unfold bomLength
    rw [if_neg]
    rw [List.replicate_succ, List.cons_prefix_cons]
    rintro ⟨h, -⟩
    exact absurd h (by decide)
  have hy1 : Yields [some (List.replicate (m + 1) 97 ++ ((List.replicate m 97 ++ [0xC3]) ++ (0xA9 :: rest)))]
      [List.replicate (m + 1) 97] [some ((List.replicate m 97 ++ [0xC3]) ++ (0xA9 :: rest))] := by
    have hp := @Yields.part (List.replicate (m + 1) 97 ++ ((List.replicate m 97 ++ [0xC3]) ++ (0xA9 :: rest)))
      [] [] [some ((List.replicate m 97 ++ [0xC3]) ++ (0xA9 :: rest))]
      (by rw [hSv]; simp [List.length_append]; omega)
    rw [hSv, drop_left _ _ _ (by simp), take_left _ _ _ (by simp)] at hp
    exact hp .done
  have hy2 : Yields [some ((List.replicate m 97 ++ [0xC3]) ++ (0xA9 :: rest))]
      [List.replicate m 97 ++ [0xC3]] [some (0xA9 :: rest)] := by
    have hp := @Yields.part ((List.replicate m 97 ++ [0xC3]) ++ (0xA9 :: rest))
      [] [] [some (0xA9 :: rest)]
      (by rw [hSv]; simp [List.length_append])
    rw [hSv, drop_left _ _ _ (by simp), take_left _ _ _ (by simp)] at hp
    exact hp .done
  have := C04_finding_block_lost iconvBasic (some "UTF-8".toList) false (List.replicate (m + 1) 97)
    (List.replicate (m + 1) 97) [] [] (List.replicate m 97 ++ [0xC3]) _ _ _ "UTF-8".toList
    (fun _ block =>
        if utf8Left block.length block = 0 then .ok block else .fail (utf8Left block.length block))
    (Or.inl ⟨by decide, by decide⟩) rfl
    (.cons (by rw [List.replicate_succ]; simp) (by rw [List.replicate_succ]; simp)
      (by simp only [blockText, iconvBasic, Bool.false_eq_true, if_false, List.length_replicate, hok, if_true]) .nil)
    hy1 hy2
    (by
      simp only [blockText, iconvBasic, Bool.false_eq_true, if_false, List.length_append,
        List.length_replicate, List.length_singleton, hbad, Nat.one_ne_zero])
    (by rw [hbom, List.length_replicate]; omega) got b' h
  rw [this, hbom]
  simp

/-! ### C05 line count -/

private theorem lineCount_eq (text : Bytes) : lineCount text =
    (match text.getLast? with
     | none => text.count LF
     | some c => if c != LF then text.count LF + 1 else text.count LF) := by
  unfold lineCount
  cases h : text.getLast? with
  | none => simp [LF]
  | some c =>
    by_cases hc : c = 10
    · subst hc; simp [LF]
    · have h1 : (c != LF) = true := by simpa [LF] using hc
      simp only [h1, if_true]
      rfl

/-- C05: the line count recorded when a unit is parsed or written. -/
theorem C05_written (src : Bytes) : writtenLoc src = lineCount src := by
  rw [lineCount_eq]; unfold writtenLoc
  cases src.getLast? <;> rfl

private theorem foldl_event (events : List TextEvent) (r : ReaderText)
    (hesc : TextEvent.escape LF ∉ events) (hr : r.loc = r.unitsrc.count LF) :
    (events.foldl ReaderText.event r).loc = (events.foldl ReaderText.event r).unitsrc.count LF ∧
    (events.foldl ReaderText.event r).unitsrc = events.foldl (fun s ev => match ev with
      | .chars t => s ++ t
      | .escape v => s ++ [v]
      | .other => s) r.unitsrc := by
  induction events generalizing r with
  | nil => exact ⟨hr, rfl⟩
  | cons ev evs ih =>
    simp only [List.foldl_cons]
    have hm : TextEvent.escape LF ∉ evs := fun h => hesc (by simp [h])
    cases ev with
    | chars t => exact ih _ hm (by simp [ReaderText.event, hr, List.count_append])
    | escape v =>
      have hv : v ≠ LF := by intro h; subst h; exact hesc (by simp)
      exact ih _ hm (by simp [ReaderText.event, hr, List.count_append, List.count_singleton, hv])
    | other => exact ih _ hm hr

/-- C05: however the character events are cut, the unit read back has the text of the unit and the
line count of that text, the same as the one recorded on writing. (A line feed is never written as
an escape element.) -/
theorem C05_read_back (events : List TextEvent) (hesc : TextEvent.escape LF ∉ events) :
    readBody events = (extractSrc events, lineCount (extractSrc events)) ∧
    (readBody events).2 = writtenLoc (extractSrc events) := by
  obtain ⟨h1, h2⟩ := foldl_event events {} hesc rfl
  have h3 : readBody events = (extractSrc events, lineCount (extractSrc events)) := by
    unfold readBody ReaderText.endUnit
    rw [lineCount_eq]
    simp only [h1]
    rw [h2]
    rfl
  exact ⟨h3, by rw [h3, C05_written]⟩

example : readBody [.chars [97, 10], .other, .escape 12, .chars [], .chars [10, 98]] =
    ([97, 10, 12, 10, 98], 3) := by decide

/-- C05: the count kept while parsing (`getLOC`) is the line count of the characters delivered, for
every nonempty text. -/
theorem C05_parsed_partial (io : Iconv) (enc : Option Str) (hn : Bool) (c o : Bytes)
    (cs os : List Bytes) (reads tail after : List ReadResult) (e : Str) (conv : Bytes → Bytes → IconvResult)
    (he : UsesEncoding (requestedName enc) c e) (hc : io.convert e = some conv)
    (hd : Decodes (blockText (io.trivialp e) conv) [] (c :: cs) (o :: os))
    (hy : Yields reads (c :: cs) tail)
    (hs : Stops (blockText (io.trivialp e) conv) (c :: cs).flatten tail after)
    (hskip : bomLength c < o.length) (got : Bytes) (b' : CharBuffer)
    (h : Drains io (ofReads enc hn reads) got b') (hne : got ≠ []) :
    b'.getLOC = lineCount got := by
  obtain ⟨b1, h1, h2⟩ := reads_drain io enc hn c o cs os reads tail after e conv he hc hd hy hs hskip
  obtain ⟨rfl, rfl⟩ := Drains.unique h h1
  rw [lineCount_eq]
  simp only [getLOC, h2.2.2.1, h2.2.2.2.1, Nat.zero_add]
  generalize unifyNewlines (List.drop (bomLength c) (o :: os).flatten) = g at hne
  rw [List.getLastD_eq_getLast?]
  obtain ⟨x, hx⟩ : ∃ x, g.getLast? = some x := by
    cases hg : g.getLast? with
    | none => simp at hg; exact absurd hg hne
    | some x => exact ⟨x, rfl⟩
  simp only [hx, Option.getD_some]
  by_cases hl : x = LF
  · simp [hl]
  · simp [hl]

/-- C05 (finding): for an empty source `getLOC` is 1, not 0. -/
theorem C05_finding_empty (enc : Option Str) (hn : Bool) : (ofReads enc hn []).getLOC = 1 := by
  rfl

/-- C05: a text without CR has the same line count before and after newline unification, and a text
with CR LF line ends has one line per pair. -/
theorem C05_unify_lines (t : Bytes) (h : (13 : UInt8) ∉ t) : lineCount (unifyNewlines t) = lineCount t := by
  have : unifyNewlines t = t := by
    induction t with
    | nil => rfl
    | cons c cs ih =>
      have hc : c ≠ 13 := by intro e; subst e; simp at h
      rw [unify_other c cs hc, ih (by intro e; exact h (by simp [e]))]
  rw [this]

end Srcml
