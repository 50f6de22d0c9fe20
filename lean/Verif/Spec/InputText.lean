import Verif.Model.Basic
/-
What the `--text` argument means, independently of the code: a text is a sequence of items.
-/
namespace Srcml.Spec

/-- The value of a hexadecimal (or octal) digit: its place in the row of digits. -/
def digitVal (c : Char) : Nat := "0123456789abcdef".toList.idxOf c.toLower
/-- A number in a base, most significant digit first. -/
def baseValue (base : Nat) : Str → Nat
  | [] => 0
  | d :: ds => digitVal d * base ^ ds.length + baseValue base ds
def IsHex (c : Char) : Prop := c ∈ "0123456789abcdefABCDEF".toList
def IsOct (c : Char) : Prop := c ∈ "01234567".toList
instance (c : Char) : Decidable (IsHex c) := inferInstanceAs (Decidable (_ ∈ _))
instance (c : Char) : Decidable (IsOct c) := inferInstanceAs (Decidable (_ ∈ _))

/-- The escapes of one letter, with the codes of the characters they stand for. -/
def letters : List (Char × Nat) :=
  [('n', 10), ('t', 9), ('f', 12), ('a', 7), ('b', 8), ('e', 27), ('r', 13), ('v', 11)]

/-- The pieces of a text argument. -/
inductive Item where
  | plain (c : Char)
  | letter (c : Char) (code : Nat)
  | hex (digits : Str)
  | octal (digits : Str)
  | zeroOctal (digits : Str)
  | other (c : Char)
  deriving DecidableEq, Repr

/-- How an item is written. -/
def Item.text : Item → Str
  | .plain c => [c]
  | .letter c _ => ['\\', c]
  | .hex ds => '\\' :: 'x' :: ds
  | .octal ds => '\\' :: ds
  | .zeroOctal ds => '\\' :: '0' :: ds
  | .other c => ['\\', c]

/-- A code that separates units is zero; other numbers are one byte. -/
def byte (n : Nat) : Option Str := if n = 0 then none else some [Char.ofNat (n % 256)]

/-- What an item stands for; `none` is the separator of units. An escape that is not documented stands for itself. -/
def Item.value : Item → Option Str
  | .plain c => some [c]
  | .letter _ code => some [Char.ofNat code]
  | .hex ds => byte (baseValue 16 ds)
  | .octal ds => byte (baseValue 8 ds)
  | .zeroOctal ds => byte (baseValue 8 ds)
  | .other c => some ['\\', c]

/-- An item followed by the text `rest` is read as that item: digits are taken as long as there are any (at most two
hexadecimal, three octal). -/
def Item.Ok (i : Item) (rest : Str) : Prop :=
  match i with
  | .plain c => c ≠ '\\' ∧ c ≠ Char.ofNat 0
  | .letter c code => (c, code) ∈ letters
  | .hex ds => (∀ d ∈ ds, IsHex d) ∧ ds ≠ [] ∧ ds.length ≤ 2 ∧ (ds.length = 2 ∨ ∀ d, rest.head? = some d → ¬ IsHex d)
  | .octal ds => (∀ d ∈ ds, IsOct d) ∧ ds.length ≤ 3 ∧ (∃ d r, ds = d :: r ∧ d ≠ '0') ∧
      (ds.length = 3 ∨ ∀ d, rest.head? = some d → ¬ IsOct d)
  | .zeroOctal ds => (∀ d ∈ ds, IsOct d) ∧ ds.length ≤ 3 ∧
      (ds.length = 3 ∨ ∀ d, rest.head? = some d → ¬ IsOct d)
  | .other c => (∀ p ∈ letters, p.1 ≠ c) ∧ ¬ IsOct c ∧ c ≠ Char.ofNat 0 ∧
      (c = 'x' → ∀ d, rest.head? = some d → ¬ IsHex d)

/-- The text of a sequence of items. -/
def itemsText (is : List Item) : Str := is.flatMap Item.text

/-- A sequence of items, followed by the text `rest`, that is read as these items. -/
def ItemsOk : List Item → Str → Prop
  | [], _ => True
  | i :: is, rest => i.Ok (itemsText is ++ rest) ∧ ItemsOk is rest

/-- The units: the items joined, cut at the separators. -/
def units : List Item → List Str
  | [] => [[]]
  | i :: is =>
    match i.value with
    | none => [] :: units is
    | some s => match units is with
      | [] => [s]
      | u :: us => (s ++ u) :: us

/-- The number of separators. -/
def separators (is : List Item) : Nat := (is.filter (fun i => i.value = none)).length

end Srcml.Spec
