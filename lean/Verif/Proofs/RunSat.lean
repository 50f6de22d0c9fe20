import Verif.Model.Basic
/-
Tests of results that are decided by computation.
-/
namespace Srcml

theorem conv_bind {A B : Type} {x : Run A} {f : A → Run B} {r : B} (h : x.bind f = .val r) : ∃ y, x = .val y ∧ f y = .val r := by
  cases x with
  | ub => cases h
  | val y => exact ⟨y, rfl, h⟩

/-- A test of a result. -/
def Run.sat {α : Type} (x : Run α) (p : α → Bool) : Bool :=
  match x with
  | .val a => p a
  | .ub => false

theorem Run.sat_iff {α : Type} {x : Run α} {p : α → Bool} (h : x.sat p = true) : ∃ a, x = .val a ∧ p a = true := by
  cases x with
  | ub => cases h
  | val a => exact ⟨a, rfl, h⟩

end Srcml
