import Verif.Model.Escape
import Verif.Proofs.UnitTag
/-
Codes of control characters, and source text taken out of the events of a unit.
-/
set_option linter.unusedSimpArgs false
namespace Srcml
open Spec

theorem digitValue_hexDigit (n : Nat) (h : n < 16) : digitValue (hexDigit n) = some n := by
  have : ∀ k, k < 16 → digitValue (hexDigit k) = some k := by decide
  exact this n h

theorem readDigits_append (acc : Nat) (a b : Str)
    (ha : ∀ c ∈ a, ∃ d, digitValue c = some d ∧ d < 16) :
    readDigits 16 acc (a ++ b) = readDigits 16 (readDigits 16 acc a) b := by
  induction a generalizing acc with
  | nil => rfl
  | cons c cs ih =>
    obtain ⟨d, h1, h2⟩ := ha c (by simp)
    simp only [List.cons_append, readDigits, h1, h2, if_true]
    exact ih _ (fun x hx => ha x (by simp [hx]))

theorem hexDigits_digits (n : Nat) : ∀ c ∈ hexDigits n, ∃ d, digitValue c = some d ∧ d < 16 := by
  induction n using Nat.strongRecOn with
  | ind n ih =>
    rw [hexDigits]
    split
    · rename_i h
      intro c hc
      simp only [List.mem_singleton] at hc
      subst hc; exact ⟨n, digitValue_hexDigit n h, h⟩
    · intro c hc
      simp only [List.mem_append, List.mem_singleton] at hc
      rcases hc with hc | rfl
      · exact ih (n / 16) (by omega) c hc
      · exact ⟨n % 16, digitValue_hexDigit _ (by omega), by omega⟩

theorem readDigits_hexDigits (n acc : Nat) (h : acc = 0) : readDigits 16 acc (hexDigits n) = n := by
  subst h
  induction n using Nat.strongRecOn with
  | ind n ih =>
    rw [hexDigits]
    split
    · rename_i h
      simp [readDigits, digitValue_hexDigit n h, h]
    · rw [readDigits_append _ _ _ (hexDigits_digits _), ih (n / 16) (by omega)]
      have : n % 16 < 16 := by omega
      simp only [readDigits, digitValue_hexDigit (n % 16) this, this, if_true]
      omega

theorem hexDigits_ne (n : Nat) : hexDigits n ≠ [] := by
  rw [hexDigits]; split <;> simp

theorem readNumber_control (n : Nat) : readNumber (controlText n) = n := by
  unfold controlText
  split
  · rename_i h
    have hd : hexDigits n = [hexDigit n] := by rw [hexDigits, if_pos h]
    rw [hd]
    have h0 : digitValue '0' = some 0 := by decide
    simp only [readNumber, h0, true_or, Option.isSome_some, and_self, if_true, readDigits,
      digitValue_hexDigit n h, h]
    simp
  · cases hh : hexDigits n with
    | nil => exact absurd hh (hexDigits_ne n)
    | cons d ds =>
      have hmem : d ∈ hexDigits n := by rw [hh]; simp
      obtain ⟨v, hv, _⟩ := hexDigits_digits n d hmem
      simp only [readNumber, hv, true_or, Option.isSome_some, and_self, if_true]
      rw [← hh]; exact readDigits_hexDigits n 0 rfl

theorem strtol_control (n : Nat) (h : n < 2 ^ 63) : strtol0 (controlText n) = n := by
  have hr := readNumber_control n
  have hd : (controlText n).dropWhile isSpaceC = controlText n := by
    unfold controlText
    rw [List.dropWhile_cons]
    simp [show isSpaceC '0' = false from by decide]
  unfold strtol0
  rw [hd]
  have hc : ∃ r, controlText n = '0' :: r := ⟨_, rfl⟩
  obtain ⟨r, hc⟩ := hc
  rw [hc] at hr ⊢
  show min (2 ^ 63 - 1) (readNumber ('0' :: r) : Int) = _
  rw [hr]
  omega

/-- The name of the `escape` element in a document. -/
def Spec.Env.escapeName (env : Env) : Str := if env.pre .SRC = [] then "escape".toList else env.pre .SRC ++ ":escape".toList

theorem elementName_local (env : Env) (hv : ∀ p, ':' ∉ env.pre p) (e f : Element) (he : ':' ∉ e.name) (hf : ':' ∉ f.name)
    (h : elementName env e = elementName env f) : e.name = f.name := by
  unfold elementName at h
  have tw : ∀ (p r : Str), ':' ∉ p → (p ++ ':' :: r).dropWhile (· ≠ ':') = ':' :: r := by
    intro p r hp
    induction p with
    | nil => simp
    | cons c cs ih =>
      simp only [List.mem_cons, not_or] at hp
      simp only [List.cons_append, List.dropWhile_cons]
      rw [if_pos (by simpa using fun e => hp.1 e.symm), ih hp.2]
  have tn : ∀ (p : Str), ':' ∉ p → p.dropWhile (· ≠ ':') = [] := by
    intro p hp
    induction p with
    | nil => simp
    | cons c cs ih =>
      simp only [List.mem_cons, not_or] at hp
      simp only [List.dropWhile_cons]
      rw [if_pos (by simpa using fun e => hp.1 e.symm), ih hp.2]
  have h' := congrArg (List.dropWhile (· ≠ ':')) h
  by_cases h1 : env.pre e.pre = [] <;> by_cases h2 : env.pre f.pre = []
  · simpa [h1, h2] using h
  · rw [if_pos h1, if_neg h2, tn _ he, tw _ _ (hv _)] at h'; simp at h'
  · rw [if_neg h1, if_pos h2, tn _ hf, tw _ _ (hv _)] at h'; simp at h'
  · rw [if_neg h1, if_neg h2, tw _ _ (hv _), tw _ _ (hv _)] at h'; simpa using h'

/-- Rows of the table: no colon in a name, and `escape` is the name of control characters only. -/
theorem table_names : processTable.all (fun r => decide (':' ∉ r.2.name) &&
    (decide (r.2.name ≠ "escape".toList) || decide (r.1 = chars! "CONTROL_CHAR"))) = true := by decide +kernel

theorem elementOf_names {t : TokType} {e : Element} (h : elementOf t = some e) :
    ':' ∉ e.name ∧ (e.name = "escape".toList → t = chars! "CONTROL_CHAR") := by
  unfold elementOf at h
  simp only [Option.map_eq_some_iff] at h
  obtain ⟨x, hx, rfl⟩ := h
  have h1 := List.all_eq_true.mp table_names x (List.mem_of_find?_eq_some hx)
  have h2 := List.find?_some hx
  simp only [decide_eq_true_eq] at h2
  simp only [Bool.and_eq_true, Bool.or_eq_true, decide_eq_true_eq] at h1
  refine ⟨h1.1, fun he => ?_⟩
  rcases h1.2 with h | h
  · exact absurd he h
  · rw [← h2]; exact h

theorem elementOf_control : elementOf (chars! "CONTROL_CHAR") =
    some ⟨"escape".toList, .SRC, some "char".toList, none, none, none⟩ := by decide +kernel

end Srcml
