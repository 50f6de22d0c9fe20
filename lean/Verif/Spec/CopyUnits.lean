import Verif.Model.UnitApi
import Verif.Model.SrcSax
/-
What it means that a unit was copied (C79).
-/
namespace Srcml.Spec

/-- The namespaces of srcML with the prefixes that they usually have, without the one of srcML itself. -/
def usualPrefixes : List (Str × Str) :=
  [(CPP_NS_URI, "cpp".toList), (ERROR_NS_URI, "err".toList), (POSITION_NS_URI, "pos".toList), (OPENMP_NS_URI, "omp".toList)]

/-- No namespace of srcML, but that of srcML itself, has another prefix than it usually has. -/
def UsualPrefixes (ns : List Namespace) : Prop := ∀ n ∈ ns, ∀ p ∈ usualPrefixes, n.uri = p.1 → n.prefix_ = p.2

/-- The unit `w` is the unit `v`, except for the url and the revision: the inner text, character by character, the source text, and all metadata. -/
structure SameUnitData (v w : UnitData) : Prop where
  inner : (UnitObj.getInner { data := w }).1 = (UnitObj.getInner { data := v }).1
  src : w.src = v.src
  language : w.language = v.language
  filename : w.filename = v.filename
  version : w.version = v.version
  timestamp : w.timestamp = v.timestamp
  hash : w.hash = v.hash

end Srcml.Spec
