import Verif.Spec.SrcSax
import Verif.Model.SharedNames
/-
Documents that are read in one process (C94).
-/
namespace Srcml.Spec

/-- The pieces of one of the documents. -/
def piecesOf (k : Nat) (es : List DocEvent) : List Feed := es.filterMap (fun e => match e with | .piece j f => if j = k then some f else none | .start _ => none)

/-- The document that was started last. -/
def lastStarted (es : List DocEvent) : Option Nat := (es.filterMap (fun e => match e with | .start j => some j | .piece _ _ => none)).getLast?

/-- While the document is read no other one is started: at every piece of it, it is the one that was started last. -/
def Undisturbed (k : Nat) (es : List DocEvent) : Prop := ∀ pre f post, es = pre ++ .piece k f :: post → lastStarted pre = some k

/-- One document after the other. -/
def inTurn (ds : List (Nat × List Feed)) : List DocEvent := ds.flatMap (fun d => .start d.1 :: d.2.map (DocEvent.piece d.1))

end Srcml.Spec
