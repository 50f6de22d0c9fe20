/-
Common vocabulary of the model: C++ strings as lists of characters, null pointers as `none`,
the status codes of the public API, and the handful of `std::string` members that the
modelled code uses.
-/
namespace Srcml

/-- A `std::string` / `const char*` value, as the list of its characters. As in the members of src/libsrcml/srcml_types.hpp:108-249. -/
abbrev Str := List Char

/-- The status codes, src/libsrcml/srcml.h:71-87. -/
inductive Status where
  | ok | error | invalidArgument | invalidInput | invalidIoOperation | ioError
  | uninitializedUnit | unsetLanguage | noTransformation
  deriving DecidableEq, Repr

/-- Numeric values of the status codes, src/libsrcml/srcml.h:71-87. -/
def Status.code : Status → Nat
  | .ok => 0 | .error => 1 | .invalidArgument => 2 | .invalidInput => 3
  | .invalidIoOperation => 4 | .ioError => 5 | .uninitializedUnit => 6
  | .unsetLanguage => 7 | .noTransformation => 8

/-- The outcome of running C++ code: a value, or undefined behaviour (out-of-bounds access,
null dereference, ...). Undefined behaviour is never a legal result in the properties.
For all the modelled code, e.g. src/libsrcml/srcml_transform.cpp:808-818. -/
inductive Run (α : Type) where
  | val (a : α)
  | ub
  deriving DecidableEq, Repr

/-- Sequencing of outcomes: undefined behaviour is final. For all the modelled code, e.g. src/libsrcml/srcml_transform.cpp:808-818. -/
def Run.bind {α β : Type} : Run α → (α → Run β) → Run β
  | .val a, f => f a
  | .ub, _ => .ub

instance : Monad Run where
  pure := Run.val
  bind := Run.bind

/-- `std::string::find(c)` / `strchr` (offset of the first occurrence; `none` for `npos`).
Standard library; used in src/libsrcml/unit_utilities.cpp:200 and src/libsrcml/srcml_unit.cpp:386. -/
def findFirst (c : Char) : Str → Option Nat
  | [] => none
  | x :: xs => if x = c then some 0 else (findFirst c xs).map (· + 1)

/-- `std::string::rfind(c)` / `find_last_of(c)` (offset of the last occurrence).
Standard library; used in src/libsrcml/srcml_transform.cpp:620-755 and src/client/src_archive.cpp:69-106. -/
def findLast (c : Char) : Str → Option Nat
  | [] => none
  | x :: xs =>
    match findLast c xs with
    | some n => some (n + 1)
    | none => if x = c then some 0 else none

/-- `std::string::find(needle)`: offset of the first occurrence of a substring.
Standard library; used in src/libsrcml/srcml_unit.cpp:394 and src/libsrcml/sax2_srcsax_handler.cpp:476. -/
def findSub (needle : Str) : Str → Option Nat
  | [] => if needle = [] then some 0 else none
  | x :: xs => if needle.isPrefixOf (x :: xs) then some 0 else (findSub needle xs).map (· + 1)

end Srcml
