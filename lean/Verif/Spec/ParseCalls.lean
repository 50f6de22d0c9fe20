import Verif.Model.UnitParse
import Verif.Spec.CharBuffer
/-
What C73 says about a call that parses source code into a unit, in terms of the arguments.
-/
namespace Srcml.Spec

/-- The arguments name a source: no null pointer where there has to be something, and no negative descriptor. A null pointer is allowed for a buffer of size 0. -/
inductive UsableSource : ParseFrom → Prop where
  | filename (name : Str) : UsableSource (.filename (some name))
  | buffer (bytes : Bytes) (size : Nat) : UsableSource (.memory (some bytes) size)
  | empty : UsableSource (.memory none 0)
  | FILE (reads : List ReadResult) : UsableSource (.FILE (some reads))
  | fd (n : Nat) (reads : List ReadResult) : UsableSource (.fd n reads)
  | io (reads : List ReadResult) : UsableSource (.io true (some reads))

/-- The source is a file that cannot be opened. -/
def NoSuchFile (lib : ParseLib) (from_ : ParseFrom) : Prop := ∃ name, from_ = .filename (some name) ∧ lib.file name = none

/-- The name of the source, which only a file has. -/
def givenName : ParseFrom → Option Str
  | .filename name => name
  | _ => none

/-- The encoding that is asked for: that of the unit; if it has none, that of the archive. -/
def Asks (a : Archive) (u : UnitData) (e : Option Str) : Prop :=
  (∃ x, u.encoding = some x ∧ e = some x) ∨ (u.encoding = none ∧ e = a.srcEncoding)

/-- A source that is read piece by piece, and what the reads give. -/
inductive ReadFrom (lib : ParseLib) : ParseFrom → List ReadResult → Prop where
  | filename (name : Str) (reads : List ReadResult) : lib.file name = some reads → ReadFrom lib (.filename (some name)) reads
  | FILE (reads : List ReadResult) : ReadFrom lib (.FILE (some reads)) reads
  | fd (n : Nat) (reads : List ReadResult) : ReadFrom lib (.fd n reads) reads
  | io (reads : List ReadResult) : ReadFrom lib (.io true (some reads)) reads

/-- The hash of a unit after a parse: one that was there stays; else it is the hash of the bytes of the source, in hexadecimal, if that is asked for. -/
def HashAfter (lib : ParseLib) (a : Archive) (before after : Option Str) (source : Bytes) : Prop :=
  (∀ h, before = some h → after = some h) ∧
  (before = none → isoption a.options OPTION_HASH = true → ∃ h, after = some h ∧ unhex h = some (lib.sha1 source)) ∧
  (before = none → isoption a.options OPTION_HASH = false → after = none)

/-- The metadata that neither writing nor parsing changes. -/
structure MetaKept (u v : UnitData) : Prop where
  revision : v.revision = u.revision
  language : v.language = u.language
  filename : v.filename = u.filename
  version : v.version = u.version
  timestamp : v.timestamp = u.timestamp
  attributes : v.attributes = u.attributes
  eol : v.eol = u.eol
  derivedLanguage : v.derivedLanguage = u.derivedLanguage
  readHeader : v.readHeader = u.readHeader

end Srcml.Spec
