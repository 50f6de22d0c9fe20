import Verif.Model.Transform
/-
What the units made of the results of a transformation must be, in terms of the node and of the transformed unit.
-/
namespace Srcml.Spec

/-- The srcML of a result: the node as it is written in a document. -/
inductive NodeText : NodeView → Str → Prop
  | comment (c : Str) : NodeText (.comment c) (['<', '!', '-', '-'] ++ c ++ ['-', '-', '>'])
  | text (c : Str) : NodeText (.text c) c
  | attribute (n v : Str) : NodeText (.attribute n (some v)) (n ++ ['=', '"'] ++ v ++ ['"'])
  | element (d : Str) (cpp omp : Bool) : NodeText (.element d cpp omp) d

/-- The namespaces that occur in a result. -/
def uses : NodeView → Bool × Bool
  | .element _ cpp omp => (cpp, omp)
  | _ => (false, false)

/-- The entry for an optional namespace: marked as used exactly if it is used, otherwise as it was; added if it was
missing and is used. -/
def OptionalNs (pre uri : Str) (used : Bool) (before after : Option Namespace) : Prop :=
  match before, after with
  | none, none => used = false
  | none, some n => used = true ∧ n.prefix_ = pre ∧ n.uri = uri ∧ n.flags.testBit 2 = true
  | some _, none => False
  | some m, some n => n.prefix_ = m.prefix_ ∧ n.uri = m.uri ∧ n.flags.testBit 2 = used ∧
      ∀ i, i ≠ 2 → n.flags.testBit i = m.flags.testBit i

/-- The namespaces of a result: those of the unit, where a unit without any has the srcML namespace only; those of the
preprocessor and of OpenMP are used exactly if they occur in the result. -/
structure ResultNs (unit : Option (List Namespace)) (v : NodeView) (l : List Namespace) : Prop where
  others : ∀ uri, uri ≠ CPP_NS_URI → uri ≠ OPENMP_NS_URI →
    l.find? (·.uri = uri) = (unit.getD [⟨[], SRC_NS_URI, 17⟩]).find? (·.uri = uri)
  cpp : OptionalNs "cpp".toList CPP_NS_URI (uses v).1
    ((unit.getD [⟨[], SRC_NS_URI, 17⟩]).find? (·.uri = CPP_NS_URI)) (l.find? (·.uri = CPP_NS_URI))
  omp : OptionalNs "omp".toList OPENMP_NS_URI (uses v).2
    ((unit.getD [⟨[], SRC_NS_URI, 17⟩]).find? (·.uri = OPENMP_NS_URI)) (l.find? (·.uri = OPENMP_NS_URI))

end Srcml.Spec
