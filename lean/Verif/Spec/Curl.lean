import Verif.Model.Curl
/-
What opening an address means (C84).
-/
namespace Srcml.Spec

/-- The document is there, all of it. -/
def Served (d : Download) : Prop := d.code = 200 ∧ d.complete = true

/-- There is nothing at the address: no document, or an answer that is none. -/
def NotServed (d : Download) : Prop := (d.code ≠ 200 ∧ d.blocks ≠ []) ∨ (d.blocks = [] ∧ d.complete = false)

/-- A step in which the main thread is not overtaken: a download does not report before the main thread waits for it, and it has ended when the next one starts. -/
def Timely (s t : CurlWait) : Prop :=
  s.Step t ∧ (s.main = .before → t.threads = s.threads) ∧ (s.main = .outside → t.main = .before → ∀ x ∈ s.threads, x = [])

/-- Nothing can be done any more. -/
def Stuck (s : CurlWait) : Prop := ∀ t, ¬ s.Step t

end Srcml.Spec
