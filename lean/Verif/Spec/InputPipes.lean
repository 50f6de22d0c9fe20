import Verif.Spec.Pipes
import Verif.Model.InputPipes
/-
What the threads of an input make together with the steps of the command (C91).
-/
namespace Srcml.Spec

/-- Whatever the pieces in which libarchive gets the packed text `x`, it reads all of it, and what it gives is the text `y`; it does so in at most `n` turns. -/
inductive Unpacks {δ : Type} (D : Decoder δ) : δ → Str → Str → Nat → Prop where
  | stop {d n} : D.next d = .stop → Unpacks D d [] [] n
  | block {d t e x y n} : D.next d = .block t e → Unpacks D e x y n → Unpacks D d x (t ++ y) (n + 1)
  | more {d k x y n} : D.next d = .more k → (∀ c r, c ≠ [] → c.length ≤ 16384 → x = c ++ r → Unpacks D (k (some c)) r y n) → (x = [] → Unpacks D (k none) [] y n) → Unpacks D d x y (n + 1)

/-- Whatever the pieces in which the thread gets the text `x`, it asks for at most `k` characters of it in all, and then ends by itself. -/
inductive Takes {σ : Type} (act : σ → PipeAct σ) : σ → Str → Nat → Prop where
  | finish {s x k} : act s = .finish → Takes act s x k
  | leave {s x k} : act s = .leave → Takes act s x k
  | write {s w t x k} : act s = .write w t → Takes act t x k → Takes act s x k
  | read {s m f x k} : act s = .read m f → 0 < m → m ≤ k → (∀ c r, c ≠ [] → c.length ≤ m → x = c ++ r → Takes act (f (some c)) r (k - c.length)) → (x = [] → Takes act (f none) [] k) → Takes act s x k

/-- A thread has something to write to a pipe that is read by a thread that has ended. If the end that is read is still open, it waits for ever when there is no room; if it was closed, the system ends the whole process. -/
def Broken {σ : Type} (ss : List (PipeStage σ)) : Prop := ∃ before s t after, ss = before ++ s :: t :: after ∧ s.ended = false ∧ s.pending ≠ [] ∧ t.ended = true

/-- What the threads of the input give: the document `doc`. -/
def Gives {δ : Type} (D : Decoder δ) (address : Option (List Str)) (packed : Bool) (text doc : Str) : Prop :=
  let got := (address.map List.flatten).getD text
  if packed then ∃ n, Unpacks D D.start got doc n else got = doc

end Srcml.Spec
