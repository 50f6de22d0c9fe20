import Verif.Model.UnitWriter
/-
The settings of a unit (setters, getters, `srcml_unit_clone`) and unparsing.
-/
namespace Srcml

/-! ### Settings -/

/-- The setters of a unit, src/libsrcml/srcml_unit.cpp:48-175; `none` is a null pointer. -/
inductive UnitSet where
  | encoding (v : Option Str)
  | language (v : Option Str)
  | filename (v : Option Str)
  | version (v : Option Str)
  | timestamp (v : Option Str)
  | hash (v : Option Str)
  | eol (n : Nat)
  deriving DecidableEq, Repr

/-- `SOURCE_OUTPUT_EOL_AUTO`, src/libsrcml/srcml.h:122. -/
def EOL_AUTO : Nat := 0
/-- `SOURCE_OUTPUT_EOL_LF`, src/libsrcml/srcml.h:126. -/
def EOL_LF : Nat := 1
/-- `SOURCE_OUTPUT_EOL_CR`, src/libsrcml/srcml.h:128. -/
def EOL_CR : Nat := 2
/-- `SOURCE_OUTPUT_EOL_CRLF`, src/libsrcml/srcml.h:130. -/
def EOL_CRLF : Nat := 3

/-- The setters on a non-null unit: `srcml_unit_set_src_encoding`, src/libsrcml/srcml_unit.cpp:48-56, `_language`
68-76, `_filename` 88-96, `_version` 108-116, `_timestamp` 128-136, `_hash` 148-156, `_eol` 168-175. -/
def UnitSet.run (u : UnitData) : UnitSet → Status × UnitData
  | .encoding v => (.ok, { u with encoding := v })
  | .language v => (.ok, { u with language := v })
  | .filename v => (.ok, { u with filename := v })
  | .version v => (.ok, { u with version := v })
  | .timestamp v => (.ok, { u with timestamp := v })
  | .hash v => (.ok, { u with hash := v })
  | .eol n => if n > EOL_CRLF then (.invalidArgument, u) else (.ok, { u with eol := n })

/-- The setters with the null check of the unit, src/libsrcml/srcml_unit.cpp:50, 70, 90, 110, 130, 150, 170. -/
def UnitSet.runPtr (u : Option UnitData) (c : UnitSet) : Status × Option UnitData :=
  match u with
  | none => (.invalidArgument, none)
  | some u => ((c.run u).1, some (c.run u).2)

/-- A history of setter calls: the statuses and the unit at the end. src/libsrcml/srcml_unit.cpp:48-178. -/
def runSets (u : UnitData) : List UnitSet → List Status × UnitData
  | [] => ([], u)
  | c :: cs => ((c.run u).1 :: (runSets (c.run u).2 cs).1, (runSets (c.run u).2 cs).2)

/-- `srcml_unit_get_src_encoding`, src/libsrcml/srcml_unit.cpp:192-198. -/
def srcml_unit_get_src_encoding (u : Option UnitData) : Option Str := u.bind (·.encoding)
/-- `srcml_unit_get_revision`, src/libsrcml/srcml_unit.cpp:208-214. -/
def srcml_unit_get_revision (u : Option UnitData) : Option Str := u.bind (·.revision)
/-- `srcml_unit_get_language`, src/libsrcml/srcml_unit.cpp:224-230. -/
def srcml_unit_get_language (u : Option UnitData) : Option Str := u.bind (·.language)
/-- `srcml_unit_get_filename`, src/libsrcml/srcml_unit.cpp:240-246. -/
def srcml_unit_get_filename (u : Option UnitData) : Option Str := u.bind (·.filename)
/-- `srcml_unit_get_version`, src/libsrcml/srcml_unit.cpp:256-262. -/
def srcml_unit_get_version (u : Option UnitData) : Option Str := u.bind (·.version)
/-- `srcml_unit_get_timestamp`, src/libsrcml/srcml_unit.cpp:272-278. -/
def srcml_unit_get_timestamp (u : Option UnitData) : Option Str := u.bind (·.timestamp)
/-- `srcml_unit_get_hash`, src/libsrcml/srcml_unit.cpp:288-294. -/
def srcml_unit_get_hash (u : Option UnitData) : Option Str := u.bind (·.hash)
/-- `srcml_unit_get_loc`, src/libsrcml/srcml_unit.cpp:304-310. -/
def srcml_unit_get_loc (u : Option UnitData) : Int := (u.map (·.loc)).getD (-1)
/-- `srcml_unit_get_eol`, src/libsrcml/srcml_unit.cpp:320-326. -/
def srcml_unit_get_eol (u : Option UnitData) : Nat := (u.map (·.eol)).getD 0

/-- `srcml_unit_create` on a non-null archive, src/libsrcml/srcml_unit.cpp:1160-1175, and the initial values of the
members, src/libsrcml/srcml_types.hpp:178-249. -/
def srcml_unit_create : UnitData := {}

/-- `srcml_unit_clone`, src/libsrcml/srcml_unit.cpp:1183-1205. -/
def srcml_unit_clone (u : Option UnitData) : Option UnitData :=
  u.map (fun u => { srcml_unit_create with
    filename := u.filename, hash := u.hash, timestamp := u.timestamp, version := u.version, url := u.url
    language := u.language, revision := u.revision, encoding := u.encoding, attributes := u.attributes
    eol := u.eol, derivedLanguage := u.derivedLanguage, namespaces := u.namespaces })

/-! ### Unparsing -/

/-- The conversion loop of `srcml_unit_unparse_internal`, src/libsrcml/srcml_unit.cpp:707-726. -/
def convertEol (eol : Nat) : Str → Str
  | [] => []
  | c :: cs =>
    (if c ≠ '\n' then [c]
     else if eol = EOL_LF then ['\n']
     else if eol = EOL_CR then ['\r']
     else if eol = EOL_CRLF then ['\r', '\n']
     else [c]) ++ convertEol eol cs

/-- `srcml_unit_unparse_internal`, src/libsrcml/srcml_unit.cpp:667-731. `opened` says whether the output buffer could
be created; `body` is the reader's `read_body` (`none` is an exception). The result has the text handed to the output
buffer (`none` if nothing was written); its conversion to the encoding of the unit is libxml2's and not modelled, nor
are texts whose length does not fit an `int`. -/
def unparseInternal (sax : Sax) (a : Archive) (body : UnitObj → Option UnitObj) (opened : Bool) (u : Option UnitObj) :
    Run (Status × Option UnitObj × Option Str) :=
  match u with
  | none => .val (.invalidArgument, none, none)
  | some u =>
    if a.type ≠ .read ∧ a.type ≠ .rw then .val (.invalidIoOperation, some u, none)
    else if u.data.readBody = false ∧ u.data.readHeader = false then .val (.uninitializedUnit, some u, none)
    else if opened = false then .val (.ioError, some u, none)
    else
      match (if u.data.readBody then some u else body u) with
      | none => .val (.ioError, some u, none)
      | some u =>
        match textOf sax (u.data.namespaces.getD []) u.data.src u.data.srcml with
        | .ub => .ub
        | .val src =>
          .val (.ok, some { u with data := { u.data with src := some src } },
            some (if u.data.eol = EOL_AUTO then src else convertEol u.data.eol src))

/-- The destination arguments of the unparse functions. src/libsrcml/srcml_unit.cpp:740-859. -/
inductive UnparseTo where
  | filename (name : Option Str)
  | memory (buffer size : Bool)
  | FILE (file : Bool)
  | fd (n : Int)
  | io (context write : Bool)
  deriving DecidableEq, Repr

/-- The checks of the arguments other than the unit, src/libsrcml/srcml_unit.cpp:747, 771, 806, 828, 852; a `Bool` says
that the pointer is not null. -/
def UnparseTo.valid : UnparseTo → Bool
  | .filename name => name.isSome
  | .memory buffer size => buffer && size
  | .FILE file => file
  | .fd n => decide (0 ≤ n)
  | .io context write => context && write

/-- The unparse functions, src/libsrcml/srcml_unit.cpp:745-753, 769-792, 804-812, 826-834, 850-859. -/
def srcml_unit_unparse (sax : Sax) (a : Archive) (body : UnitObj → Option UnitObj) (opened : Bool) (to : UnparseTo)
    (u : Option UnitObj) : Run (Status × Option UnitObj × Option Str) :=
  if u = none ∨ to.valid = false then .val (.invalidArgument, u, none)
  else unparseInternal sax a body opened u

/-- The buffer and the size that `srcml_unit_unparse_memory` reports for a text, src/libsrcml/srcml_unit.cpp:784-787:
the length up to the first NUL. -/
def memoryResult (text : Str) : Str × Nat :=
  (text, (findFirst (Char.ofNat 0) text).getD text.length)

end Srcml
