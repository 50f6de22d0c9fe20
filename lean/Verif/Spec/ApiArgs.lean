import Verif.Model.ApiArgs
/-
Specification of complete arguments: every pointer that is needed is there, descriptors are not negative, buffers are not empty.
-/
namespace Srcml.Spec
open Srcml

/-- Targets of `srcml_archive_write_open_*` with all arguments. The close callback may be missing. -/
inductive CompleteTarget : OpenTo → Prop
  | filename (name : Str) : CompleteTarget (.filename (some name))
  | memory : CompleteTarget (.memory true true)
  | FILE : CompleteTarget (.FILE true)
  | fd (n : Nat) : CompleteTarget (.fd n)
  | io (close : Bool) : CompleteTarget (.io true true close)

/-- Sources of `srcml_archive_read_open_*` and of programs and schemas, with all arguments. -/
inductive CompleteSource : OpenFrom → Prop
  | filename (name : Str) : CompleteSource (.filename (some name))
  | memory (buffer : Bytes) (size : Nat) : CompleteSource (.memory (some buffer) (size + 1))
  | FILE : CompleteSource (.FILE true)
  | fd (n : Nat) : CompleteSource (.fd n)
  | io (close : Bool) : CompleteSource (.io true true close)

/-- Calls on the transformations of an archive with all arguments. -/
inductive CompleteTransform : TCall → Prop
  | xpath (x : Str) : CompleteTransform (.xpath (some x))
  | xpathAttribute (x p u n v : Str) : CompleteTransform (.xpathAttribute (some x) (some p) (some u) (some n) (some v))
  | xpathElement (x p u e : Str) : CompleteTransform (.xpathElement (some x) (some p) (some u) (some e))
  | doc (xslt : Bool) (d : Str) : CompleteTransform (.doc xslt (some d))
  | param (quoted : Bool) (n v : Str) : CompleteTransform (.param quoted (some n) (some v))
  | clear : CompleteTransform .clear

/-- Calls that write a unit piece by piece with all arguments: prefixes, the uris of elements and attributes and the value of an attribute may be missing. -/
inductive CompleteWrite : WriteCall → Prop
  | startUnit : CompleteWrite .startUnit
  | endUnit : CompleteWrite .endUnit
  | startElement (pre uri : Option Str) (name : Str) : CompleteWrite (.startElement pre (some name) uri)
  | endElement : CompleteWrite .endElement
  | namespace (pre : Option Str) (uri : Str) : CompleteWrite (.namespace pre (some uri))
  | attribute (pre uri content : Option Str) (name : Str) : CompleteWrite (.attribute pre (some name) uri content)
  | string (content : Str) : CompleteWrite (.string (some content))

end Srcml.Spec
