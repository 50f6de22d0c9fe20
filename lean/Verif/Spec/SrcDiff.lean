import Verif.Model.Basic
/-
srcDiff documents: text, tags, and regions that say in which revision a part is.
-/
namespace Srcml.Spec

/-- The elements of the difference markup: deleted (only in the original), inserted (only in the modified), and the
two that belong to both. -/
inductive Region where
  | delete | insert | common | ws
  deriving DecidableEq, Repr

/-- Name of the element. -/
def Region.name : Region → Str
  | .delete => "delete".toList | .insert => "insert".toList | .common => "common".toList | .ws => "ws".toList

/-- A piece of a document with difference markup; `region k attrs body rest` is an element of the markup with its start
tag's attributes as written, followed by the rest. -/
inductive Diff where
  | nil
  | text (s : Str) (rest : Diff)
  | tag (t : Str) (rest : Diff)
  | region (k : Region) (attrs : Str) (body rest : Diff)
  deriving DecidableEq, Repr

/-- The start tag of a region, after `<`. -/
def Region.start (k : Region) (attrs : Str) : Str := "diff:".toList ++ k.name ++ attrs

/-- The end tag of a region, after `<`. -/
def Region.stop (k : Region) : Str := "/diff:".toList ++ k.name

/-- How it is written. -/
def Diff.render : Diff → Str
  | .nil => []
  | .text s rest => s ++ rest.render
  | .tag t rest => '<' :: t ++ '>' :: rest.render
  | .region k attrs body rest =>
    '<' :: k.start attrs ++ '>' :: body.render ++ '<' :: k.stop ++ '>' :: rest.render

/-- Well formed: no markup in texts, tags end at their first `>`, and the only difference markup are the regions. -/
def Diff.Ok : Diff → Prop
  | .nil => True
  | .text s rest => '<' ∉ s ∧ rest.Ok
  | .tag t rest => '>' ∉ t ∧ ¬ "diff:".toList <+: t ∧ ¬ "/diff:".toList <+: t ∧ rest.Ok
  | .region _ attrs body rest => '>' ∉ attrs ∧ body.Ok ∧ rest.Ok

/-- Does what is directly in such a region belong to the revision (0 original, 1 modified)? -/
def Region.inRevision (r : Nat) : Region → Bool
  | .delete => r == 0
  | .insert => r == 1
  | .common | .ws => true

/-- One piece after the other. -/
def Diff.append : Diff → Diff → Diff
  | .nil, d => d
  | .text s rest, d => .text s (append rest d)
  | .tag t rest, d => .tag t (append rest d)
  | .region k a body rest, d => .region k a body (append rest d)

/-- The parts that belong to a revision, without the markup; the innermost region decides. -/
def Diff.revise (r : Nat) : Bool → Diff → Diff
  | _, .nil => .nil
  | b, .text s rest => if b then .text s (revise r b rest) else revise r b rest
  | b, .tag t rest => if b then .tag t (revise r b rest) else revise r b rest
  | b, .region k _ body rest =>
    (revise r (k.inRevision r) body).append (revise r b rest)

/-- No difference markup. -/
def Diff.Plain : Diff → Prop
  | .nil => True
  | .text _ rest => rest.Plain
  | .tag _ rest => rest.Plain
  | .region .. => False

/-- The last thing is a tag. -/
def Diff.EndsWithTag : Diff → Prop
  | .nil => True
  | .text _ .nil => False
  | .text _ rest => rest.EndsWithTag
  | .tag _ rest => rest.EndsWithTag
  | .region _ _ _ rest => rest.EndsWithTag

end Srcml.Spec
