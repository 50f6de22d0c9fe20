import Verif.Model.MovingBuffer
/-
What the handler takes from the document (C88).
-/
namespace Srcml.Spec

/-- The document from a place to another. -/
def slice (doc : Str) (a b : Nat) : Str := (doc.drop a).take (b - a)

/-- The same without a buffer: where libxml2 is in the document, from where on the handler has not taken it yet, and what it has put together. `gone` is the length of what is not in the buffer any more. -/
structure TextTaking where
  cur : Nat
  from_ : Nat
  out : Str
  gone : Nat

/-- libxml2 reads on; the handler takes all that is left, or skips it, or leaves it. -/
inductive TextTaking.Step (doc : Str) : TextTaking → TextTaking → Prop where
  | drop {r} (n : Nat) : r.gone ≤ n → n ≤ r.cur → Step doc r { r with gone := n }
  | read {r} (n : Nat) : r.cur + n ≤ doc.length → Step doc r { r with cur := r.cur + n }
  | take {r} : r.gone ≤ r.from_ → r.from_ ≤ r.cur → Step doc r { r with out := r.out ++ slice doc r.from_ r.cur, from_ := r.cur }
  | skip {r} (k : Nat) : r.cur + k ≤ doc.length → Step doc r { r with from_ := r.cur + k }
  | leave {r} : Step doc r r

end Srcml.Spec
