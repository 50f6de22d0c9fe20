import Verif.Props.Lexer
import Verif.Props.CharBuffer
import Verif.Model.UnitParse
/-
C16: from the bytes of a source to the bytes of the text extracted.
-/
namespace Srcml

open Spec CharBuffer


theorem bytesText_mem {b : Bytes} {ch : Char} (h : ch ∈ bytesText b) : ∃ x ∈ b, ch.toNat = x.toNat := by
  obtain ⟨x, h1, rfl⟩ := List.mem_map.1 h
  refine ⟨x, h1, ?_⟩
  have : x.toNat < 256 := UInt8.toNat_lt x
  have key : ∀ n, n < 256 → (Char.ofNat n).toNat = n := by decide +kernel
  exact key _ this

/-- No carriage return is left. -/
theorem unifyNewlines_no_return (b : Bytes) : (13 : UInt8) ∉ unifyNewlines b := by
  fun_induction unifyNewlines b with
  | case1 => simp
  | case2 rest ih => simpa using ih
  | case3 rest _ ih => simpa using ih
  | case4 c rest h1 h2 ih =>
    intro h
    rcases List.mem_cons.1 h with h | h
    · exact h2 h.symm
    · exact ih h

theorem unifyNewlines_mem {b : Bytes} {x : UInt8} (h : x ∈ unifyNewlines b) : x ∈ b ∨ x = 10 := by
  fun_induction unifyNewlines b with
  | case1 => cases h
  | case2 rest ih =>
    rcases List.mem_cons.1 h with h | h
    · exact .inr h
    · exact (ih h).imp (fun h => by simp [h]) id
  | case3 rest _ ih =>
    rcases List.mem_cons.1 h with h | h
    · exact .inr h
    · exact (ih h).imp (fun h => by simp [h]) id
  | case4 c rest h1 h2 ih =>
    rcases List.mem_cons.1 h with h | h
    · exact .inl (by simp [h])
    · exact (ih h).imp (fun h => by simp [h]) id

/-- C16, for a source in memory, in any encoding that `iconv` can read: whatever bytes `got` the lexer is given for it, parsing, writing and extracting gives back the
decoded text with unified newlines. (DEL in the text is a finding of C61; the other hypotheses are those of `C16_source_partial`.) -/
theorem C16_memory_partial (io : Iconv) (enc : Option Str) (hn : Bool) (buffer decoded : Bytes)
    (e : Str) (conv : Bytes → Bytes → IconvResult) (he : UsesEncoding (requestedName enc) buffer e) (hc : io.convert e = some conv)
    (hb : buffer ≠ []) (ho : blockText (io.trivialp e) conv [] buffer = some decoded) (hne : decoded ≠ [])
    (hdel : (127 : UInt8) ∉ decoded) (got : Bytes) (b' : CharBuffer) (hgot : Drains io (ofMemory io enc hn buffer) got b')
    (lc : LexConf) (position cpp : Bool) (hlang : lc.language ∈ languageNumbers) (hmac : NoCommentMacro lc)
    (hraw : NoRawControl lc (bytesText got)) (hopen : NoOpenComment lc (bytesText got))
    {s : PState} (h : Exec (sourceConf lc position cpp (bytesText got)) true .driver (PState.init (sourceConf lc position cpp (bytesText got))) s)
    (hst : s.st = []) {p : PTok} (htb : s.tb = [p]) (hp : isEof p.tok = true) (o : Out) (m : UnitMeta) (hw : o.w = {})
    (hpre : CleanPrefixes o.namespaces) (hm : CleanMeta m) (ht : o.ThreadAgrees) :
    ∃ ts evs, returned s = ts ++ [p.tok] ∧ readXml (o.unitDocument m ts) = some evs ∧
      extractEvents o.env.escapeName evs = .val (bytesText (unifyNewlines (decoded.drop (bomLength buffer)))) := by
  have hg := (C01_newlines_memory io enc hn buffer decoded e conv he hc hb ho hne).2 got b' hgot
  have hbytes : ∀ ch ∈ bytesText got, ch.toNat < 256 ∧ ch.toNat ≠ 13 ∧ ch.toNat ≠ 127 := by
    intro ch hch
    obtain ⟨x, hx, e⟩ := bytesText_mem hch
    have h1 : x.toNat < 256 := UInt8.toNat_lt x
    rw [hg] at hx
    refine ⟨by omega, ?_, ?_⟩
    · intro h13
      have : x = 13 := UInt8.toNat_inj.1 (by rw [← e, h13]; rfl)
      subst this
      exact unifyNewlines_no_return _ hx
    · intro h127
      have : x = 127 := UInt8.toNat_inj.1 (by rw [← e, h127]; rfl)
      subst this
      rcases unifyNewlines_mem hx with h | h
      · exact hdel (List.mem_of_mem_drop h)
      · exact absurd h (by decide)
  rw [← hg]
  exact C16_source_partial lc position cpp (bytesText got) hlang hmac hbytes hraw hopen h hst htb hp o m hw hpre hm ht

/-- C16, for a source that is read block by block. -/
theorem C16_reads_partial (io : Iconv) (enc : Option Str) (hn : Bool) (c d : Bytes)
    (cs ds : List Bytes) (reads tail after : List ReadResult) (e : Str) (conv : Bytes → Bytes → IconvResult)
    (he : UsesEncoding (requestedName enc) c e) (hc : io.convert e = some conv)
    (hd : Decodes (blockText (io.trivialp e) conv) [] (c :: cs) (d :: ds))
    (hy : Yields reads (c :: cs) tail) (hs : Stops (blockText (io.trivialp e) conv) (c :: cs).flatten tail after)
    (hskip : bomLength c < d.length) (hdel : (127 : UInt8) ∉ (d :: ds).flatten) (got : Bytes) (b' : CharBuffer)
    (hgot : Drains io (ofReads enc hn reads) got b')
    (lc : LexConf) (position cpp : Bool) (hlang : lc.language ∈ languageNumbers) (hmac : NoCommentMacro lc)
    (hraw : NoRawControl lc (bytesText got)) (hopen : NoOpenComment lc (bytesText got))
    {s : PState} (h : Exec (sourceConf lc position cpp (bytesText got)) true .driver (PState.init (sourceConf lc position cpp (bytesText got))) s)
    (hst : s.st = []) {p : PTok} (htb : s.tb = [p]) (hp : isEof p.tok = true) (o : Out) (m : UnitMeta) (hw : o.w = {})
    (hpre : CleanPrefixes o.namespaces) (hm : CleanMeta m) (ht : o.ThreadAgrees) :
    ∃ ts evs, returned s = ts ++ [p.tok] ∧ readXml (o.unitDocument m ts) = some evs ∧
      extractEvents o.env.escapeName evs = .val (bytesText (unifyNewlines ((d :: ds).flatten.drop (bomLength c)))) := by
  have hg := C01_newlines_reads io enc hn c d cs ds reads tail after e conv he hc hd hy hs hskip got b' hgot
  have hbytes : ∀ ch ∈ bytesText got, ch.toNat < 256 ∧ ch.toNat ≠ 13 ∧ ch.toNat ≠ 127 := by
    intro ch hch
    obtain ⟨x, hx, e⟩ := bytesText_mem hch
    have h1 : x.toNat < 256 := UInt8.toNat_lt x
    rw [hg] at hx
    refine ⟨by omega, ?_, ?_⟩
    · intro h13
      have : x = 13 := UInt8.toNat_inj.1 (by rw [← e, h13]; rfl)
      subst this
      exact unifyNewlines_no_return _ hx
    · intro h127
      have : x = 127 := UInt8.toNat_inj.1 (by rw [← e, h127]; rfl)
      subst this
      rcases unifyNewlines_mem hx with h | h
      · exact hdel (List.mem_of_mem_drop h)
      · exact absurd h (by decide)
  rw [← hg]
  exact C16_source_partial lc position cpp (bytesText got) hlang hmac hbytes hraw hopen h hst htb hp o m hw hpre hm ht

/-- The bytes of `exSource`. -/
def exBytes : Bytes := [120, 47, 42, 97, 42, 47, 1, 59]

/-- The hypotheses are met for the source of the example of `C16_source_partial`, in the default encoding. -/
example : ∃ conv b', UsesEncoding (requestedName none) exBytes "ISO-8859-1".toList ∧ iconvBasic.convert "ISO-8859-1".toList = some conv ∧
    blockText (iconvBasic.trivialp "ISO-8859-1".toList) conv [] exBytes = some exBytes ∧ (127 : UInt8) ∉ exBytes ∧
    Drains iconvBasic (ofMemory iconvBasic none false exBytes) exBytes b' ∧ bytesText exBytes = exSource := by
  have he : UsesEncoding (requestedName none) exBytes "ISO-8859-1".toList := detect_encoding (requestedName none) exBytes
  have hb : ((iconvBasic.convert "ISO-8859-1".toList).bind (fun conv => blockText (iconvBasic.trivialp "ISO-8859-1".toList) conv [] exBytes)) =
    some exBytes := by decide +kernel
  cases hc : iconvBasic.convert "ISO-8859-1".toList with
  | none => rw [hc] at hb; cases hb
  | some conv =>
  rw [hc] at hb
  have ho : blockText (iconvBasic.trivialp "ISO-8859-1".toList) conv [] exBytes = some exBytes := hb
  obtain ⟨⟨b', h⟩, _⟩ := C01_newlines_memory iconvBasic none false exBytes exBytes "ISO-8859-1".toList conv he hc (by decide) ho (by decide)
  have e : unifyNewlines (exBytes.drop (bomLength exBytes)) = exBytes := by decide +kernel
  rw [e] at h
  exact ⟨conv, b', he, rfl, ho, by decide, h, by decide +kernel⟩

end Srcml
