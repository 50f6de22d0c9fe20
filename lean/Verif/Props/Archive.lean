import Verif.Model.Archive
import Verif.Spec.Archive
import Verif.Proofs.Strings
set_option linter.unusedSimpArgs false
/-
C19 - C23: options, namespaces, macros, clone. Also the set-up part of C33.
-/
namespace Srcml
open Spec

/-! ### Bits -/

theorem publicPart_bit (o : Opts) (i : Nat) : (publicPart o).getLsbD i = (decide (i < 7) && o.getLsbD i) := by
  unfold publicPart
  rw [BitVec.getLsbD, BitVec.toNat_umod]
  have : (1#64 <<< 7).toNat = 2 ^ 7 := by decide
  rw [this, Nat.testBit_mod_two_pow]
  rfl

theorem or_bit (x y : Opts) (i : Nat) : (x ||| y).getLsbD i = (x.getLsbD i || y.getLsbD i) :=
  BitVec.getLsbD_or

theorem and_not_bit (x y : Opts) (i : Nat) (h : i < 64) :
    (x &&& ~~~y).getLsbD i = (x.getLsbD i && !y.getLsbD i) := by
  rw [BitVec.getLsbD_and, BitVec.getLsbD_not]; simp only [h, decide_true, Bool.true_and]

theorem pow_bit (k i : Nat) (hk : k < 64) : (1#64 <<< k).getLsbD i = decide (i = k) := by
  rw [Bool.eq_iff_iff]
  by_cases hi : i < 64
  · simp [hi]; omega
  · simp [hi]; omega

theorem markCppDeclared_bit (o a : Opts) (i : Nat) (h : i ≠ 13) :
    (markCppDeclared o a).getLsbD i = o.getLsbD i := by
  unfold markCppDeclared
  split
  · rw [or_bit, OPTION_CPP_DECLARED, pow_bit _ _ (by decide)]; simp only [h, decide_false, Bool.or_false]
  · rfl

theorem lowBit_cases (i : Nat) (h : i < 7) :
    i = 0 ∨ i = 1 ∨ i = 2 ∨ i = 3 ∨ i = 4 ∨ i = 5 ∨ i = 6 := by omega

theorem const_bits_low (i : Nat) (h : i < 7) :
    OPTION_CPP_DECLARED.getLsbD i = false ∧ OPTION_ARCHIVE.getLsbD i = false ∧
    OPTION_HASH.getLsbD i = false ∧ OPTION_DEBUG.getLsbD i = false ∧
    OPTION_CPP.getLsbD i = decide (i = 3) ∧ OPTION_POSITION.getLsbD i = decide (i = 2) ∧
    OPTION_DEFAULT_INTERNAL.getLsbD i = false := by
  rcases lowBit_cases i h with rfl | rfl | rfl | rfl | rfl | rfl | rfl <;> decide

theorem uris_distinct : ERROR_NS_URI ≠ CPP_NS_URI ∧ POSITION_NS_URI ≠ CPP_NS_URI ∧
    POSITION_NS_URI ≠ ERROR_NS_URI := by decide

/-- One call and one public bit. -/
theorem optionBit_step (a a' : Archive) (c : SetCall) (st : Status) (i : Nat) (hi : i < 7)
    (h : c.run a = .val (st, a')) :
    a'.options.getLsbD i = optionAfter i (a.options.getLsbD i) c := by
  obtain ⟨h1, h2, h3, h4, h5, h6, -⟩ := const_bits_low i hi
  have hi64 : i < 64 := by omega
  cases c with
  | setOptions o =>
    simp only [SetCall.run, Run.val.injEq, Prod.mk.injEq] at h
    obtain ⟨-, rfl⟩ := h
    simp only [setOptionsWord, publicPart_bit, optionAfter, hi, decide_true, Bool.true_and]
  | enableOption o =>
    simp only [SetCall.run, Run.val.injEq, Prod.mk.injEq] at h
    obtain ⟨-, rfl⟩ := h
    have := markCppDeclared_bit a.options o i (by omega)
    simp only [enableOptionWord, or_bit, publicPart_bit, optionAfter, hi, this, decide_true, Bool.true_and]
  | disableOption o =>
    simp only [SetCall.run, Run.val.injEq, Prod.mk.injEq] at h
    obtain ⟨-, rfl⟩ := h
    simp only [disableOptionWord, and_not_bit _ _ _ hi64, publicPart_bit, optionAfter, hi, decide_true,
      Bool.true_and]
  | registerNamespace p u =>
    cases p <;> cases u <;> simp only [SetCall.run, Run.val.injEq, Prod.mk.injEq] at h <;>
      obtain ⟨-, rfl⟩ := h
    · rfl
    · rfl
    · rfl
    · rename_i p u
      obtain ⟨d1, d2, d3⟩ := uris_distinct
      simp only [optionAfter, registerNsOptions]
      have e1 : "http://www.srcML.org/srcML/cpp".toList = CPP_NS_URI := rfl
      have e2 : "http://www.srcML.org/srcML/position".toList = POSITION_NS_URI := rfl
      rw [e1, e2]
      by_cases hc : u = CPP_NS_URI
      · have hp : ¬ u = POSITION_NS_URI := fun h => d2 (by rw [← hc, h])
        rw [if_pos hc, or_bit, or_bit, h1, h5]
        simp only [hc, hp, and_true, and_false, decide_false, Bool.or_false]
        rw [decide_eq_false (p := i = 2 ∧ CPP_NS_URI = POSITION_NS_URI) (fun h => d2 h.2.symm)]
        simp only [Bool.or_false]
      · rw [if_neg hc]
        by_cases he : u = ERROR_NS_URI
        · have hp : ¬ u = POSITION_NS_URI := fun h => d3 (by rw [← he, h])
          rw [if_pos he, or_bit, h4]
          simp only [hc, hp, and_false, decide_false, Bool.or_false]
        · rw [if_neg he]
          by_cases hp : u = POSITION_NS_URI
          · rw [if_pos hp, or_bit, h6]
            simp only [hc, hp, and_true, and_false, decide_false, Bool.or_false]
            rw [decide_eq_false (p := i = 3 ∧ POSITION_NS_URI = CPP_NS_URI) (fun h => d2 h.2)]
            simp only [Bool.or_false]
          · rw [if_neg hp]
            simp only [hc, hp, and_false, decide_false, Bool.or_false]
  | setProcessingInstruction t d =>
    cases t <;> cases d <;> simp only [SetCall.run, reduceCtorEq, Run.val.injEq, Prod.mk.injEq] at h
    obtain ⟨-, rfl⟩ := h; rfl
  | registerMacro t d =>
    cases t <;> cases d <;> simp only [SetCall.run, reduceCtorEq, Run.val.injEq, Prod.mk.injEq] at h <;>
      obtain ⟨-, rfl⟩ := h <;> rfl
  | setSrcdiffRevision n =>
    simp only [SetCall.run] at h
    split at h <;> simp only [Run.val.injEq, Prod.mk.injEq] at h <;> obtain ⟨-, rfl⟩ := h <;> rfl
  | registerExtension e l =>
    simp only [SetCall.run, Run.val.injEq, Prod.mk.injEq] at h
    obtain ⟨-, rfl⟩ := h; rfl
  | _ =>
    simp only [SetCall.run, Run.val.injEq, Prod.mk.injEq] at h
    obtain ⟨-, rfl⟩ := h
    simp only [optionAfter, or_bit, and_not_bit _ _ _ hi64, h2, h3, Bool.or_false, Bool.not_false, Bool.and_true]

/-! ### C19 -/

/-- C19: after any history of set-up calls on an archive, each public option is reported exactly as
the documented effects of the calls say, starting from what was reported before. -/
theorem C19_options_history (calls : List SetCall) (a a' : Archive) (h : runCalls a calls = .val a')
    (i : Nat) (hi : i < 7) :
    (srcml_archive_get_options a').getLsbD i =
      calls.foldl (optionAfter i) ((srcml_archive_get_options a).getLsbD i) := by
  simp only [srcml_archive_get_options, publicPart_bit, hi, decide_true, Bool.true_and]
  induction calls generalizing a with
  | nil => simp only [runCalls, Run.val.injEq] at h; subst h; rfl
  | cons c cs ih =>
    simp only [runCalls] at h
    split at h
    · rename_i st a1 h1
      rw [ih a1 h, optionBit_step a a1 c st i hi h1]; rfl
    · simp at h

/-- C19: the reported options never contain an internal bit. -/
theorem C19_public_only (a : Archive) (i : Nat) (hi : 7 ≤ i) :
    (srcml_archive_get_options a).getLsbD i = false := by
  simp [srcml_archive_get_options, publicPart_bit]; omega

/-- C19: a new archive reports no option. -/
theorem C19_initial : srcml_archive_get_options srcml_archive_create = 0#64 := by decide

/-- C19: setting replaces the whole public set: what is reported is the public part of the argument,
whatever was set before. -/
theorem C19_set (a a' : Archive) (o : Opts) (st : Status)
    (h : (SetCall.setOptions o).run a = .val (st, a')) :
    st = .ok ∧ ∀ i, (srcml_archive_get_options a').getLsbD i = (decide (i < 7) && o.getLsbD i) := by
  simp only [SetCall.run, Run.val.injEq, Prod.mk.injEq] at h
  obtain ⟨rfl, rfl⟩ := h
  refine ⟨rfl, fun i => ?_⟩
  by_cases hi : i < 7 <;> simp [srcml_archive_get_options, setOptionsWord, publicPart_bit, hi]

example : ∃ a', runCalls srcml_archive_create
    [.enableOption OPTION_POSITION, .enableOption OPTION_CPP, .disableOption OPTION_POSITION] = .val a' ∧
    srcml_archive_get_options a' = OPTION_CPP := ⟨_, rfl, by decide⟩

/-! ### C20 -/

/-- The public reading of the two internal settings. -/
def isSolitary (a : Archive) : Bool := decide (a.options &&& OPTION_ARCHIVE = 0)

/-- see `isSolitary` -/
def hasHash (a : Archive) : Bool := decide (a.options &&& OPTION_HASH ≠ 0)

theorem and_twoPow_eq_zero (o : Opts) (k : Nat) (hk : k < 64) :
    decide (o &&& (1#64 <<< k) = 0) = !o.getLsbD k := by
  rw [Bool.eq_iff_iff]
  simp only [decide_eq_true_eq, Bool.not_eq_true']
  constructor
  · intro h
    have := congrArg (fun v => v.getLsbD k) h
    simpa [hk] using this
  · intro h
    apply BitVec.eq_of_getLsbD_eq
    intro i hi
    by_cases hik : i = k
    · subst hik; simp [h]
    · simp [hi]
      intro _ h1
      omega

theorem isSolitary_bit (a : Archive) : isSolitary a = !a.options.getLsbD 14 :=
  and_twoPow_eq_zero a.options 14 (by decide)

theorem hasHash_bit (a : Archive) : hasHash a = a.options.getLsbD 15 := by
  have := and_twoPow_eq_zero a.options 15 (by decide)
  unfold hasHash OPTION_HASH
  rw [decide_not, this]
  simp

/-- The bits 14 and 15 under one call other than set_options. -/
theorem internalBit_step (a a' : Archive) (c : SetCall) (st : Status)
    (hno : ∀ o, c ≠ .setOptions o) (h : c.run a = .val (st, a')) :
    isSolitary a' = solitaryAfter (isSolitary a) c ∧ hasHash a' = hashAfter (hasHash a) c := by
  simp only [isSolitary_bit, hasHash_bit]
  cases c with
  | setOptions o => exact absurd rfl (hno o)
  | enableOption o =>
    simp only [SetCall.run, Run.val.injEq, Prod.mk.injEq] at h
    obtain ⟨-, rfl⟩ := h
    have h14 := markCppDeclared_bit a.options o 14 (by omega)
    have h15 := markCppDeclared_bit a.options o 15 (by omega)
    simp only [enableOptionWord, or_bit, publicPart_bit, solitaryAfter, hashAfter, h14, h15]
    simp
  | disableOption o =>
    simp only [SetCall.run, Run.val.injEq, Prod.mk.injEq] at h
    obtain ⟨-, rfl⟩ := h
    simp only [disableOptionWord, and_not_bit _ _ 14 (by decide), and_not_bit _ _ 15 (by decide),
      publicPart_bit, solitaryAfter, hashAfter]
    simp
  | enableSolitary =>
    simp only [SetCall.run, Run.val.injEq, Prod.mk.injEq] at h
    obtain ⟨-, rfl⟩ := h
    simp [solitaryAfter, hashAfter, OPTION_ARCHIVE]
  | disableSolitary =>
    simp only [SetCall.run, Run.val.injEq, Prod.mk.injEq] at h
    obtain ⟨-, rfl⟩ := h
    simp [solitaryAfter, hashAfter, OPTION_ARCHIVE]
  | enableHash =>
    simp only [SetCall.run, Run.val.injEq, Prod.mk.injEq] at h
    obtain ⟨-, rfl⟩ := h
    simp [solitaryAfter, hashAfter, OPTION_HASH]
  | disableHash =>
    simp only [SetCall.run, Run.val.injEq, Prod.mk.injEq] at h
    obtain ⟨-, rfl⟩ := h
    simp [solitaryAfter, hashAfter, OPTION_HASH]
  | registerNamespace p u =>
    cases p <;> cases u <;> simp only [SetCall.run, Run.val.injEq, Prod.mk.injEq] at h <;>
      obtain ⟨-, rfl⟩ := h
    · exact ⟨rfl, rfl⟩
    · exact ⟨rfl, rfl⟩
    · exact ⟨rfl, rfl⟩
    · simp only [solitaryAfter, hashAfter, registerNsOptions]
      split
      · simp [OPTION_CPP, OPTION_CPP_DECLARED]
      · split
        · simp [OPTION_DEBUG]
        · split
          · simp [OPTION_POSITION]
          · simp
  | setProcessingInstruction t d =>
    cases t <;> cases d <;> simp only [SetCall.run, reduceCtorEq, Run.val.injEq, Prod.mk.injEq] at h
    obtain ⟨-, rfl⟩ := h; exact ⟨rfl, rfl⟩
  | registerMacro t d =>
    cases t <;> cases d <;> simp only [SetCall.run, reduceCtorEq, Run.val.injEq, Prod.mk.injEq] at h <;>
      obtain ⟨-, rfl⟩ := h <;> exact ⟨rfl, rfl⟩
  | setSrcdiffRevision n =>
    simp only [SetCall.run] at h
    split at h <;> simp only [Run.val.injEq, Prod.mk.injEq] at h <;> obtain ⟨-, rfl⟩ := h <;> exact ⟨rfl, rfl⟩
  | registerExtension e l =>
    simp only [SetCall.run, Run.val.injEq, Prod.mk.injEq] at h
    obtain ⟨-, rfl⟩ := h; exact ⟨rfl, rfl⟩
  | _ =>
    simp only [SetCall.run, Run.val.injEq, Prod.mk.injEq] at h
    obtain ⟨-, rfl⟩ := h
    simp [solitaryAfter, hashAfter]

/-- C20 (partial): through any history that does not call set_options, the archive is a solitary unit,
and generates hashes, exactly as the last call that is about it says. Missing: set_options, for which
the property is false (`C20_finding_set_options`). -/
theorem C20_internal_settings_partial (calls : List SetCall) (a a' : Archive)
    (hno : ∀ o, SetCall.setOptions o ∉ calls) (h : runCalls a calls = .val a') :
    srcml_archive_is_solitary_unit (some a') = .val (calls.foldl solitaryAfter (isSolitary a)) ∧
    srcml_archive_has_hash (some a') = .val (calls.foldl hashAfter (hasHash a)) := by
  suffices isSolitary a' = calls.foldl solitaryAfter (isSolitary a) ∧
      hasHash a' = calls.foldl hashAfter (hasHash a) by
    rw [← this.1, ← this.2]; exact ⟨rfl, rfl⟩
  induction calls generalizing a with
  | nil => simp only [runCalls, Run.val.injEq] at h; subst h; exact ⟨rfl, rfl⟩
  | cons c cs ih =>
    simp only [runCalls] at h
    split at h
    · rename_i st a1 h1
      obtain ⟨s1, s2⟩ := internalBit_step a a1 c st
        (fun o e => hno o (by rw [e]; exact List.mem_cons_self)) h1
      obtain ⟨i1, i2⟩ := ih a1 (fun o hm => hno o (List.mem_cons_of_mem _ hm)) h
      simp only [List.foldl_cons]
      rw [← s1, ← s2]
      exact ⟨i1, i2⟩
    · simp at h

/-- C20: the initial settings: an archive (not a solitary unit), with hashes. -/
theorem C20_initial : srcml_archive_is_solitary_unit (some srcml_archive_create) = .val false ∧
    srcml_archive_has_hash (some srcml_archive_create) = .val true := by decide

/-- C20 is false for set_options: whatever was chosen before and whatever options are passed, the
archive is afterwards a solitary unit without hashes and no longer declares namespaces. -/
theorem C20_finding_set_options (a a' : Archive) (o : Opts) (st : Status)
    (h : (SetCall.setOptions o).run a = .val (st, a')) :
    srcml_archive_is_solitary_unit (some a') = .val true ∧
    srcml_archive_has_hash (some a') = .val false ∧
    a'.options &&& OPTION_NAMESPACE_DECL = 0 := by
  simp only [SetCall.run, Run.val.injEq, Prod.mk.injEq] at h
  obtain ⟨-, rfl⟩ := h
  refine ⟨?_, ?_, ?_⟩
  · show Run.val (isSolitary _) = _
    rw [isSolitary_bit]; simp only [setOptionsWord, publicPart_bit]; rfl
  · show Run.val (hasHash _) = _
    rw [hasHash_bit]; simp only [setOptionsWord, publicPart_bit]; rfl
  · have := and_twoPow_eq_zero (setOptionsWord a.options o) 8 (by decide)
    simp only [setOptionsWord, publicPart_bit] at this
    exact of_decide_eq_true this

/-- C20, a consequence: enabling the preprocessor option with set_options, unlike enable_option,
forgets that it was requested (the mark that makes the namespace be declared). -/
theorem C20_finding_cpp_declared :
    (∀ a a' st, (SetCall.enableOption OPTION_CPP).run a = .val (st, a') →
      a'.options &&& OPTION_CPP_DECLARED ≠ 0) ∧
    (∀ a a' st, (SetCall.setOptions OPTION_CPP).run a = .val (st, a') →
      a'.options &&& OPTION_CPP_DECLARED = 0) := by
  constructor
  · intro a a' st h
    simp only [SetCall.run, Run.val.injEq, Prod.mk.injEq] at h
    obtain ⟨-, rfl⟩ := h
    have := and_twoPow_eq_zero (enableOptionWord a.options OPTION_CPP) 13 (by decide)
    have hm : (markCppDeclared a.options OPTION_CPP).getLsbD 13 = true := by
      have : OPTION_CPP &&& OPTION_CPP ≠ 0 := by decide
      rw [markCppDeclared, if_pos this, or_bit, OPTION_CPP_DECLARED, pow_bit _ _ (by decide)]
      simp only [decide_true, Bool.or_true]
    rw [enableOptionWord, or_bit, hm] at this
    exact of_decide_eq_false this
  · intro a a' st h
    simp only [SetCall.run, Run.val.injEq, Prod.mk.injEq] at h
    obtain ⟨-, rfl⟩ := h
    simp [setOptionsWord]
    decide

example : ∃ a', runCalls srcml_archive_create [.enableSolitary, .enableOption OPTION_CPP, .disableHash]
    = .val a' ∧ srcml_archive_is_solitary_unit (some a') = .val true := ⟨_, rfl, by decide⟩

end Srcml
