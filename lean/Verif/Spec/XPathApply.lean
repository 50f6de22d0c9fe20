import Verif.Model.XPathApply
/-
Documents as trees, and what marking the results of a query means for them.
-/
namespace Srcml.Spec

/-- The nodes of a list of siblings, by address: the first node, its children, the further siblings. -/
inductive Forest where
  | nil
  | cons (id : Nat) (kids rest : Forest)
  deriving DecidableEq, Repr

/-- The addresses in document order. -/
def Forest.ids : Forest → List Nat
  | .nil => []
  | .cons i kids rest => i :: (kids.ids ++ rest.ids)

/-- A list of siblings without the addresses: what a document says. -/
inductive DomDoc where
  | nil
  | cons (label : DomLabel) (kids rest : DomDoc)
  deriving DecidableEq, Repr

/-- In memory there are these siblings: their parent is `parent`, in front of the first of them is `prev`, `first` points to the first and `last` to the last of
them (to what is in front, when there are none). -/
inductive Siblings (d : Dom) : (parent prev first last : Option Nat) → Forest → Prop where
  | nil (parent prev : Option Nat) : Siblings d parent prev none prev .nil
  | cons (parent prev last : Option Nat) (i : Nat) (kids rest : Forest) :
      (d.node i).parent = parent → (d.node i).prev = prev →
      Siblings d (some i) none (d.node i).children (d.node i).last kids →
      Siblings d parent (some i) (d.node i).next last rest →
      Siblings d parent prev (some i) last (.cons i kids rest)

/-- A document in memory: the unit at `root`, with the nodes below; every node is there once. -/
structure InMemory (d : Dom) (root : Nat) (below : Forest) : Prop where
  kids : Siblings d (some root) none (d.node root).children (d.node root).last below
  once : (root :: below.ids).Nodup
  old : ∀ i ∈ root :: below.ids, i < d.fresh

/-- The document of these siblings. -/
def Forest.doc (label : Nat → DomLabel) : Forest → DomDoc
  | .nil => .nil
  | .cons i kids rest => .cons (label i) (kids.doc label) (rest.doc label)

/-- The document with an element around each of some nodes. -/
def Forest.wrapped (label : Nat → DomLabel) (e : DomLabel) (found : List Nat) : Forest → DomDoc
  | .nil => .nil
  | .cons i kids rest =>
    if i ∈ found then .cons e (.cons (label i) (kids.wrapped label e found) .nil) (rest.wrapped label e found)
    else .cons (label i) (kids.wrapped label e found) (rest.wrapped label e found)

/-- What can be read from memory: from a pointer to a node on, along `children` and `next` (at most `n` steps deep). This is how a document is written. -/
def readDom (d : Dom) : Nat → Option Nat → DomDoc
  | _, none => .nil
  | 0, _ => .nil
  | n + 1, some i => .cons (d.node i).label (readDom d n (d.node i).children) (readDom d n (d.node i).next)

/-- What marking with an attribute makes of a node: an element gets it, after its other attributes. -/
def marked (a : DomAttr) (l : DomLabel) : DomLabel := if l.kind = .element then { l with attrs := l.attrs ++ [a] } else l

end Srcml.Spec
