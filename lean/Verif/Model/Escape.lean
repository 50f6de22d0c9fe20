import Verif.Model.Output
import Verif.Spec.Xml
/-
Control characters: how they are written as `escape` elements, and how source text is taken out of srcML.
-/
namespace Srcml

/-- Digit of a hexadecimal number, as `printf("%x")` writes it (C library). For the call in src/parser/TextLexer.g:215-222. -/
def hexDigit (n : Nat) : Char := if n < 10 then Char.ofNat (48 + n) else Char.ofNat (87 + n)

/-- Hexadecimal digits of a number (C library). For the call in src/parser/TextLexer.g:215-222. -/
def hexDigits (n : Nat) : Str :=
  if n < 16 then [hexDigit n] else hexDigits (n / 16) ++ [hexDigit (n % 16)]
termination_by n

/-- `snprintf(outar, 22, "0x%02x", n)`, src/parser/StreamMLParser.hpp:347-349, for a non-negative `n` (the
characters of a CONTROL_CHAR token are below 32, src/parser/TextLexer.g:215-222). -/
def controlText (n : Nat) : Str := '0' :: 'x' :: if n < 16 then '0' :: hexDigits n else hexDigits n

/-- Value of a digit in any base up to 16 (C library). For src/libsrcml/unit_utilities.cpp:167. -/
def digitValue (c : Char) : Option Nat :=
  if 48 ≤ c.toNat ∧ c.toNat ≤ 57 then some (c.toNat - 48)
  else if 97 ≤ c.toNat ∧ c.toNat ≤ 102 then some (c.toNat - 87)
  else if 65 ≤ c.toNat ∧ c.toNat ≤ 70 then some (c.toNat - 55)
  else none

/-- The digits at the start of a string in a base, as a number added to what was read (C library). For src/libsrcml/unit_utilities.cpp:167. -/
def readDigits (base acc : Nat) : Str → Nat
  | [] => acc
  | c :: cs =>
    match digitValue c with
    | some d => if d < base then readDigits base (base * acc + d) cs else acc
    | none => acc

/-- White space of the C locale. For src/libsrcml/unit_utilities.cpp:167. -/
def isSpaceC (c : Char) : Bool := c == ' ' || (9 ≤ c.toNat && c.toNat ≤ 13)

/-- The number of a string after white space and sign, base 0: 0x for hexadecimal (if a digit follows), 0
for octal, decimal otherwise (C library). For src/libsrcml/unit_utilities.cpp:167. -/
def readNumber : Str → Nat
  | '0' :: x :: d :: rest =>
    if (x = 'x' ∨ x = 'X') ∧ (digitValue d).isSome then readDigits 16 0 (d :: rest)
    else readDigits 8 0 (x :: d :: rest)
  | '0' :: rest => readDigits 8 0 rest
  | s => readDigits 10 0 s

/-- `strtol(s, NULL, 0)` (C library); it saturates at the limits of 64 bits.
Used in src/libsrcml/unit_utilities.cpp:167 and src/libsrcml/sax2_srcsax_handler.cpp:646. -/
def strtol0 (s : Str) : Int :=
  match s.dropWhile isSpaceC with
  | '-' :: rest => max (-(2 ^ 63)) (-(readNumber rest : Int))
  | '+' :: rest => min (2 ^ 63 - 1) (readNumber rest : Int)
  | s' => min (2 ^ 63 - 1) (readNumber s' : Int)

/-- `char value = (int)strtol(...)`, src/libsrcml/unit_utilities.cpp:167: the low byte. -/
def lowByte (n : Int) : Char := Char.ofNat (n % 256).toNat

/-- `extract_src` without a revision, src/libsrcml/unit_utilities.cpp:129-200, on the events of the
document: the text, and for each `escape` element of the src namespace (`escapeName` is its name with
prefix in the document) the character whose code is in its first attribute. An `escape` element without
attributes is a null pointer access. -/
def extractEvents (escapeName : Str) : List Spec.Ev → Run Str
  | [] => .val []
  | .ch c :: es =>
    match extractEvents escapeName es with
    | .val s => .val (c :: s)
    | .ub => .ub
  | .op name attrs :: es =>
    if name = escapeName then
      match attrs, extractEvents escapeName es with
      | (_, v) :: _, .val s => .val (lowByte (strtol0 v) :: s)
      | _, _ => .ub
    else extractEvents escapeName es
  | .cl _ :: es => extractEvents escapeName es

end Srcml
