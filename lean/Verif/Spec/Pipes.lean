import Verif.Model.Pipes
/-
What the steps of the command make together (C87).
-/
namespace Srcml.Spec

/-- Whatever the pieces in which a thread gets the text `x`, it reads all of it, writes just the text `y`, closes its output and ends; it does so in at most `n` turns. -/
inductive Makes {σ : Type} (act : σ → PipeAct σ) : σ → Str → Str → Nat → Prop where
  | finish {s n} : act s = .finish → Makes act s [] [] n
  | write {s w t x y n} : act s = .write w t → Makes act t x y n → Makes act s x (w ++ y) (n + 1)
  | read {s m k x y n} : act s = .read m k → 0 < m → (∀ c d, c ≠ [] → c.length ≤ m → x = c ++ d → Makes act (k (some c)) d y n) → (x = [] → Makes act (k none) [] y n) → Makes act s x y (n + 1)

/-- The threads make the text `z` out of the text `x`: each reads what the one before it writes. -/
inductive Chain {σ : Type} (act : σ → PipeAct σ) : Str → List σ → Str → Prop where
  | nil {z} : Chain act z [] z
  | cons {x s y ss z n} : Makes act s x y n → Chain act y ss z → Chain act x (s :: ss) z

/-- All threads have ended: the command joins them. -/
def AllEnded {σ : Type} (ss : List (PipeStage σ)) : Prop := ∀ s ∈ ss, s.ended = true

/-- What the destination has got. -/
def destination {σ : Type} (ss : List (PipeStage σ)) : Str := (ss.getLast?.map (·.pipe)).getD []

/-- Nothing can happen any more. -/
def Blocked {σ : Type} (act : σ → PipeAct σ) (cap : Nat) (ss : List (PipeStage σ)) : Prop := ∀ ss', ¬ PipeStep act cap [] true ss [] ss'

/-- What libarchive writes for a text does not depend on the pieces in which it gets it, and it never writes nothing at all of a piece: `code z x` is what it writes for `x` from the state `z` on, with the trailer. -/
structure Compresses {ζ : Type} (C : Compressor ζ) (code : ζ → Str → Str) : Prop where
  none : ∀ z, code z [] = C.trailer z
  some : ∀ z c d, c ≠ [] → (C.data z c).2.2 ≠ 0 ∧ code z (c ++ d) = (C.data z c).2.1 ++ code (C.data z c).1 d

end Srcml.Spec
