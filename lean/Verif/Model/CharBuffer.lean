import Verif.Model.Basic
/-
Reading source code: `UTF8CharBuffer`, src/parser/UTF8CharBuffer.{hpp,cpp}.
-/
namespace Srcml

/-- A byte of source or of UTF-8 text. The buffers of src/parser/UTF8CharBuffer.cpp:294-409. -/
abbrev Bytes := List UInt8

/-- Line feed. Used in src/parser/UTF8CharBuffer.cpp:294-443. -/
def LF : UInt8 := 10
/-- Carriage return. Used in src/parser/UTF8CharBuffer.cpp:294-443. -/
def CR : UInt8 := 13

/-- Outcome of one `iconv()` call on a whole block. `iconv` returns (size_t)-1 for an invalid *or
incomplete* sequence; the number of unconverted bytes is left in `inbytesleft`. src/parser/UTF8CharBuffer.cpp:393. -/
inductive IconvResult where
  | ok (out : Bytes)
  | fail (inbytesleft : Nat)
  deriving DecidableEq, Repr

/-- The iconv library: `convert enc` is `none` if `iconv_open("UTF-8", enc)` fails with EINVAL,
otherwise the conversion of a block to UTF-8 given the bytes converted before (this covers
stateful encodings). `trivialp` is what `iconvctl(ICONV_TRIVIALP)` reports (constantly false with
glibc, where `_LIBICONV_VERSION` is not defined; UTF8CharBuffer.cpp:368-373). -/
structure Iconv where
  convert : Str → Option (Bytes → Bytes → IconvResult)
  trivialp : Str → Bool

/-- `toupper` of the C locale. Used in src/parser/UTF8CharBuffer.cpp:94. -/
def toUpperC (c : Char) : Char :=
  if 'a' ≤ c ∧ c ≤ 'z' then Char.ofNat (c.toNat - 32) else c

/-- `encodingAliases`, UTF8CharBuffer.cpp:85-89. -/
def encodingAliases : List (Str × Str) :=
  [("UTF16".toList, "UTF-16".toList), ("UCS2".toList, "UCS-2".toList), ("UCS4".toList, "UCS-4".toList)]

/-- `normalizeEncodingName`, UTF8CharBuffer.cpp:91-101. -/
def normalizeEncodingName (name : Str) : Str :=
  let str := name.map toUpperC
  match encodingAliases.find? (fun p => p.1 = str) with
  | none => str
  | some p => p.2

/-- What the source has ready for one read: `none` is -1 (error), `some []` is 0 (end of file),
`some bytes` are the bytes available; a read returns at most as many as were asked for and leaves the
others for the next read. A regular file is one `some` entry, a pipe or a callback several. After the
listed entries every read returns 0. src/parser/UTF8CharBuffer.cpp:294-330. -/
abbrev ReadResult := Option Bytes

/-- `UTF8CharBuffer::SRCBUFSIZE`, UTF8CharBuffer.hpp:109. -/
def SRCBUFSIZE : Nat := 1024

/-- The members of `UTF8CharBuffer`, UTF8CharBuffer.hpp:129-187. -/
structure CharBuffer where
  pos : Nat := 0
  insize : Nat := 0
  lastcr : Bool := false
  hashneeded : Bool := false
  loc : Nat := 0
  lastchar : UInt8 := 0
  /-- the bytes given to SHA1_Update so far, in place of the SHA1 context -/
  hashed : Bytes := []
  raw : Bytes := []
  inbytesleft : Nat := 0
  cooked : Bytes := []
  encoding : Str := []
  /-- `ic`: the opened converter with the bytes it converted successfully so far -/
  ic : Option (Bytes → Bytes → IconvResult) := none
  converted : Bytes := []
  trivial : Bool := false
  firstRead : Bool := true
  /-- the results that the read callback is going to return -/
  source : List ReadResult := []

/-- The private constructor, UTF8CharBuffer.cpp:112-128. -/
def CharBuffer.base (encoding : Option Str) (hashneeded : Bool) : CharBuffer :=
  { encoding := match encoding with
      | some e => normalizeEncodingName e
      | none => []
    hashneeded := hashneeded }

/-- The constructors for a file name, a FILE, a descriptor and callbacks differ only in the read
callback they install, UTF8CharBuffer.cpp:138-159, 198-261. -/
def CharBuffer.ofReads (encoding : Option Str) (hashneeded : Bool) (reads : List ReadResult) :
    CharBuffer :=
  { CharBuffer.base encoding hashneeded with source := reads }

/-- Byte `i` of the block, 0 when missing, UTF8CharBuffer.cpp:311-313. -/
def byteAt (raw : Bytes) (i : Nat) : UInt8 := raw.getD i 0

/-- UTF-8 byte order mark, UTF8CharBuffer.cpp:316 (`data.i` on a little endian machine: `d[0]` is
the lowest byte). -/
def hasUtf8Bom (raw : Bytes) : Bool :=
  byteAt raw 0 == 0xEF && byteAt raw 1 == 0xBB && byteAt raw 2 == 0xBF

/-- UTF-16 byte order marks, UTF8CharBuffer.cpp:332. -/
def hasUtf16Bom (raw : Bytes) : Bool :=
  (byteAt raw 0 == 0xFE && byteAt raw 1 == 0xFF) || (byteAt raw 0 == 0xFF && byteAt raw 1 == 0xFE)

/-- UTF-32 byte order marks as the code has them, UTF8CharBuffer.cpp:345. -/
def hasUtf32Bom (raw : Bytes) : Bool :=
  (byteAt raw 0 == 0 && byteAt raw 1 == 0 && byteAt raw 2 == 0xFE && byteAt raw 3 == 0xFF) ||
  (byteAt raw 0 == 0 && byteAt raw 1 == 0 && byteAt raw 2 == 0xFF && byteAt raw 3 == 0xFE)

/-- The choice of the encoding from the requested one and the first block, and the number of bytes
to skip, UTF8CharBuffer.cpp:304-357. The warnings on stderr are left out. -/
def detectEncoding (encoding : Str) (raw : Bytes) : Nat × Str :=
  let skip := if hasUtf8Bom raw then 3 else 0
  let e := if hasUtf8Bom raw ∧ encoding = [] then "UTF-8".toList else encoding
  let e := if hasUtf16Bom raw ∧ e = [] then "UTF-16".toList else e
  let e := if hasUtf32Bom raw ∧ e = [] then "UTF-32".toList else e
  let e := if e = [] then "ISO-8859-1".toList else e
  (skip, e)

/-- Conversion of `raw` to `cooked`, UTF8CharBuffer.cpp:377-409. -/
def CharBuffer.cook (b : CharBuffer) : Nat × CharBuffer :=
  if b.trivial then (b.raw.length, b)
  else
    match b.ic with
    | none => (0, b)
    | some conv =>
      match conv b.converted b.raw with
      | .fail left => (0, { b with inbytesleft := left })
      | .ok out =>
        (out.length, { b with inbytesleft := 0, cooked := out, converted := b.converted ++ b.raw })

/-- Setup of the encoding on the first block, UTF8CharBuffer.cpp:303-375; `none` when the
conversion is not supported (the early `return 0`). -/
def CharBuffer.setup (io : Iconv) (b : CharBuffer) : Option CharBuffer :=
  if b.firstRead then
    let (skip, e) := detectEncoding b.encoding b.raw
    match io.convert e with
    | none => none
    | some conv =>
      some { b with pos := skip, encoding := e, ic := some conv, trivial := io.trivialp e,
                    firstRead := false }
  else some { b with pos := 0, firstRead := false }

/-- The part of `readChars` after the read, UTF8CharBuffer.cpp:294-409: hash, set up, convert. -/
def CharBuffer.process (io : Iconv) (b : CharBuffer) : Nat × CharBuffer :=
  let b := { b with hashed := if b.hashneeded then b.hashed ++ b.raw.drop b.inbytesleft else b.hashed }
  match b.setup io with
  | none =>
    -- the encoding has been determined, `pos` set, and `firstRead` is still true
    let (skip, e) := detectEncoding b.encoding b.raw
    (0, { b with pos := skip, encoding := e })
  | some b => b.cook

/-- `readChars`, UTF8CharBuffer.cpp:268-410, returning the number of characters available. -/
def CharBuffer.readChars (io : Iconv) (b : CharBuffer) : Nat × CharBuffer :=
  if b.insize = 0 ∨ b.pos ≥ b.insize then
    -- `raw.resize(SRCBUFSIZE)` pads with zeros
    let room := b.raw.take SRCBUFSIZE ++ List.replicate (SRCBUFSIZE - b.raw.length) 0
    match b.source with
    | [] => (0, { b with raw := room })
    | none :: rest => (0, { b with raw := room, source := rest })
    | some [] :: rest => (0, { b with raw := room, source := rest })
    | some chunk :: rest =>
      -- `SRCBUFSIZE - inbytesleft` bytes are asked for, line 279
      let got := chunk.take (SRCBUFSIZE - b.inbytesleft)
      let left := chunk.drop (SRCBUFSIZE - b.inbytesleft)
      let source := if left = [] then rest else some left :: rest
      if got = [] then (0, { b with raw := room, source := source })
      else CharBuffer.process io { b with raw := room.take b.inbytesleft ++ got, source := source }
  else b.process io

/-- The memory constructor, UTF8CharBuffer.cpp:170-188: the buffer is the only block and is
processed at once. -/
def CharBuffer.ofMemory (io : Iconv) (encoding : Option Str) (hashneeded : Bool) (buffer : Bytes) :
    CharBuffer :=
  let b := { CharBuffer.base encoding hashneeded with raw := buffer, insize := buffer.length }
  let (n, b) := b.readChars io
  { b with insize := n }

/-- Fetching the next byte, UTF8CharBuffer.cpp:430-443: `none` is end of file, reading past the end
of the buffer is undefined behaviour. -/
def CharBuffer.fetch (io : Iconv) (b : CharBuffer) : Run (Option UInt8 × CharBuffer) :=
  let b := if b.insize = 0 ∨ b.pos ≥ b.insize then
      let (n, b') := b.readChars io
      { b' with insize := n }
    else b
  if b.insize = 0 then .val (none, b)
  else
    match (if b.trivial then b.raw else b.cooked)[b.pos]? with
    | none => .ub
    | some c => .val (some c, { b with pos := b.pos + 1 })

/-- Delivering a byte, UTF8CharBuffer.cpp:452-464. -/
def CharBuffer.deliver (c : UInt8) (b : CharBuffer) : UInt8 × CharBuffer :=
  let lastcr := c == CR
  let c := if c == CR then LF else c
  (c, { b with lastcr := lastcr, lastchar := c, loc := if c == LF then b.loc + 1 else b.loc })

/-- `getChar`, UTF8CharBuffer.cpp:425-465. The recursive call (line 450) is made with
`lastcr = false`, so it does not recurse again: it is unrolled once. -/
def CharBuffer.getChar (io : Iconv) (b : CharBuffer) : Run (Option UInt8 × CharBuffer) :=
  match b.fetch io with
  | .ub => .ub
  | .val (none, b) => .val (none, b)
  | .val (some c, b) =>
    if b.lastcr && c == LF then
      match CharBuffer.fetch io { b with lastcr := false } with
      | .ub => .ub
      | .val (none, b) => .val (none, b)
      | .val (some c, b) => let (c, b) := b.deliver c; .val (some c, b)
    else let (c, b) := b.deliver c; .val (some c, b)

/-- All characters up to the end of file, as the lexer reads them: repeated `getChar`. src/parser/UTF8CharBuffer.cpp:411-450. -/
inductive CharBuffer.Drains (io : Iconv) : CharBuffer → Bytes → CharBuffer → Prop where
  | eof {b b'} : b.getChar io = .val (none, b') → Drains io b [] b'
  | more {b b' c cs b''} : b.getChar io = .val (some c, b') → Drains io b' cs b'' →
      Drains io b (c :: cs) b''

/-- `getLOC`, UTF8CharBuffer.hpp:125. -/
def CharBuffer.getLOC (b : CharBuffer) : Nat := if b.lastchar == LF then b.loc else b.loc + 1

/-- `hexchar`, src/parser/sha1utilities.hpp:48. -/
def hexchar : Str := "0123456789abcdef".toList

/-- `HEXCHARASCII`, src/parser/sha1utilities.hpp:46-66: two digits per byte, high half first. -/
def hexAscii (md : Bytes) : Str :=
  md.flatMap fun b => [hexchar.getD (b.toNat / 16) '0', hexchar.getD (b.toNat % 16) '0']

/-- The destructor's hash, UTF8CharBuffer.cpp:485-508; `sha1` is OpenSSL's function. -/
def CharBuffer.hashOnClose (sha1 : Bytes → Bytes) (b : CharBuffer) : Option Str :=
  if b.hashneeded then some (hexAscii (sha1 b.hashed)) else none

/-! Converters used in theorems and examples. -/

/-- ISO-8859-1 to UTF-8 for one byte. What the call in src/parser/UTF8CharBuffer.cpp:393 does. -/
def latin1ToUtf8 (b : UInt8) : Bytes :=
  if b < 0x80 then [b] else [(0xC0 : UInt8) ||| (b >>> 6), (0x80 : UInt8) ||| (b &&& 0x3F)]

/-- A UTF-8 continuation byte. For src/parser/UTF8CharBuffer.cpp:393. -/
def isCont (b : UInt8) : Bool := 0x80 ≤ b && b ≤ 0xBF

/-- Length of the first valid UTF-8 sequence (RFC 3629), 0 if there is none. For src/parser/UTF8CharBuffer.cpp:393. -/
def utf8Len : Bytes → Nat
  | [] => 0
  | b0 :: rest =>
    if b0 < 0x80 then 1
    else if 0xC2 ≤ b0 && b0 ≤ 0xDF then
      match rest with
      | b1 :: _ => if isCont b1 then 2 else 0
      | _ => 0
    else if 0xE0 ≤ b0 && b0 ≤ 0xEF then
      match rest with
      | b1 :: b2 :: _ =>
        if isCont b1 && isCont b2 && (b0 != 0xE0 || 0xA0 ≤ b1) && (b0 != 0xED || b1 ≤ 0x9F) then 3 else 0
      | _ => 0
    else if 0xF0 ≤ b0 && b0 ≤ 0xF4 then
      match rest with
      | b1 :: b2 :: b3 :: _ =>
        if isCont b1 && isCont b2 && isCont b3 && (b0 != 0xF0 || 0x90 ≤ b1) && (b0 != 0xF4 || b1 ≤ 0x8F)
        then 4 else 0
      | _ => 0
    else 0

/-- Number of bytes left unconverted by a UTF-8 to UTF-8 conversion (fuel: the length). For src/parser/UTF8CharBuffer.cpp:393-402. -/
def utf8Left : Nat → Bytes → Nat
  | 0, bs => bs.length
  | fuel + 1, bs =>
    match bs with
    | [] => 0
    | _ => if utf8Len bs = 0 then bs.length else utf8Left fuel (bs.drop (utf8Len bs))

/-- glibc's iconv for the two encodings that need no state. For src/parser/UTF8CharBuffer.cpp:393. -/
def iconvBasic : Iconv where
  convert e :=
    if e = "ISO-8859-1".toList then some fun _ block => .ok (block.flatMap latin1ToUtf8)
    else if e = "UTF-8".toList then
      some fun _ block =>
        if utf8Left block.length block = 0 then .ok block else .fail (utf8Left block.length block)
    else none
  trivialp _ := false

end Srcml
