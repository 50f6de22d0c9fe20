import Verif.Model.Basic
/- Specification of reading source text. Uses only lists of bytes. -/
namespace Srcml.Spec

/-- CR LF and CR become LF; everything else is unchanged. -/
def unifyNewlines : List UInt8 → List UInt8
  | [] => []
  | 13 :: 10 :: rest => 10 :: unifyNewlines rest
  | 13 :: rest => 10 :: unifyNewlines rest
  | c :: rest => c :: unifyNewlines rest

/-- Number of lines: terminated ones, plus one for a nonempty unterminated rest. -/
def lineCount (text : List UInt8) : Nat :=
  text.count 10 + (match text.getLast? with
    | some 10 => 0
    | some _ => 1
    | none => 0)

/-- The encoding when none is requested, by the first bytes of the source. -/
inductive DetectedEncoding : List UInt8 → Str → Prop where
  | utf8 (rest) : DetectedEncoding (0xEF :: 0xBB :: 0xBF :: rest) "UTF-8".toList
  | utf16be (rest) : DetectedEncoding (0xFE :: 0xFF :: rest) "UTF-16".toList
  | utf16le (rest) : DetectedEncoding (0xFF :: 0xFE :: rest) "UTF-16".toList
  | utf32be (rest) : DetectedEncoding (0x00 :: 0x00 :: 0xFE :: 0xFF :: rest) "UTF-32".toList
  | utf32odd (rest) : DetectedEncoding (0x00 :: 0x00 :: 0xFF :: 0xFE :: rest) "UTF-32".toList
  | other (s) : (∀ p ∈ [[0xEF, 0xBB, 0xBF], [0xFE, 0xFF], [0xFF, 0xFE], [0, 0, 0xFE, 0xFF],
      [0, 0, 0xFF, 0xFE]], ¬ p <+: s) → DetectedEncoding s "ISO-8859-1".toList

/-- Length of a UTF-8 byte order mark at the start of the source. -/
def bomLength (s : List UInt8) : Nat := if [0xEF, 0xBB, 0xBF] <+: s then 3 else 0

/-- The encoding used for a source: the requested one unless it is empty or absent (`[]`), else the
detected one. -/
def UsesEncoding (requested : Str) (s : List UInt8) (e : Str) : Prop :=
  (requested ≠ [] ∧ e = requested) ∨ (requested = [] ∧ DetectedEncoding s e)

/-- `b` is the hexadecimal value of the digit `c`. -/
def hexValue (c : Char) : Option Nat :=
  if '0' ≤ c ∧ c ≤ '9' then some (c.toNat - '0'.toNat)
  else if 'a' ≤ c ∧ c ≤ 'f' then some (c.toNat - 'a'.toNat + 10)
  else none

/-- Reading a string of hexadecimal digit pairs. -/
def unhex : Str → Option (List UInt8)
  | [] => some []
  | [_] => none
  | h :: l :: rest => do
    let h ← hexValue h
    let l ← hexValue l
    let r ← unhex rest
    pure (UInt8.ofNat (h * 16 + l) :: r)

end Srcml.Spec
