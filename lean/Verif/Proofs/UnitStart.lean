import Verif.Proofs.UnitWriter
import Verif.Props.OutputTags
/-
The text of the start tag of a unit, and the marks taken from it.
-/
set_option linter.unusedSimpArgs false
namespace Srcml
open Spec

/-- Attributes as they are written. -/
def attrsText (as : List (Str × Str)) : Str := as.flatMap (fun p => attrText p.1 p.2)

theorem attrsText_append (a b : List (Str × Str)) : attrsText (a ++ b) = attrsText a ++ attrsText b := by
  simp [attrsText]

theorem writeAttrs_open (as : List (Str × Option Str)) : ∀ (w : Writer) (n : Str) (rest : List (Str × Bool)),
    w.stack = (n, true) :: rest → (∀ a ∈ present as, a.1 ≠ []) →
    writeAttrs w as = { w with out := w.out ++ attrsText (present as) } := by
  induction as with
  | nil => intro w n rest _ _; simp [writeAttrs, present, attrsText]
  | cons a as ih =>
    intro w n rest hs hn
    obtain ⟨a1, a2⟩ := a
    cases a2 with
    | none =>
      have : writeAttrs w ((a1, none) :: as) = writeAttrs w as := rfl
      rw [this, ih w n rest hs (fun x hx => hn x (by simpa [present] using hx))]
      simp [present]
    | some v =>
      have h1 : writeAttrs w ((a1, some v) :: as) = writeAttrs (w.writeAttribute a1 v).1 as := rfl
      have ha : a1 ≠ [] := hn (a1, v) (by simp [present])
      have h2 : (w.writeAttribute a1 v).1 = { w with out := w.out ++ attrText a1 v } := by
        simp [Writer.writeAttribute, hs, ha]
      rw [h1, h2, ih { w with out := w.out ++ attrText a1 v } n rest hs (fun x hx => hn x (by
        simp only [present, List.mem_filterMap, List.filterMap_cons, Option.map_some, List.mem_cons] at hx ⊢
        exact Or.inr hx))]
      simp [present, attrsText]

/-- The start tag of a unit, without its `>`. -/
def tagText (o : Out) (m : UnitMeta) : Str := '<' :: o.unitName ++ attrsText (o.tagAttrs m)

theorem present_some (l : List (Str × Str)) : present (l.map (fun a => (a.1, some a.2))) = l := by
  induction l with
  | nil => rfl
  | cons n ns ih => simp only [present, List.map_cons, List.filterMap_cons, Option.map_some] at ih ⊢; rw [ih]

theorem startUnit_text {o : Out} {m : UnitMeta} (hw : o.w = {}) (hv : ∀ a ∈ o.tagAttrs m, ValidName a.1 ∧ ValidValue a.2) :
    (o.startUnit m false).w = { out := tagText o m, stack := [(o.unitName, true)], nsstack := [] } := by
  rw [startUnit_w]
  have h0 : o.openUnit.w = { out := '<' :: o.unitName, stack := [(o.unitName, true)], nsstack := [] } := by
    simp only [Out.openUnit, hw, Out.unitName]
    simp [Writer.startElement, Writer.closeTag]
  rw [h0]
  rw [writeAttrs_open (o.tagNs.map _) _ o.unitName [] rfl (by
    rw [present_some]; exact fun a ha => (hv a (by simp [Out.tagAttrs, ha])).1.1)]
  rw [writeAttrs_open (unitAttrs o m) _ o.unitName [] rfl (fun a ha => (hv a (by simp [Out.tagAttrs, ha])).1.1)]
  rw [present_some]
  simp [tagText, Out.tagAttrs, attrsText_append]

/-- The first declaration is that of the srcML namespace. -/
theorem tagNs_head {o : Out} (hT : TableOk o.namespaces) (hd : isoption o.options OPTION_NAMESPACE_DECL = true)
    (h0 : o.depth = 0) : ∃ rest, o.tagNs = (xmlnsName (nullIfEmpty (prefixOf o.namespaces .SRC)), SRC_NS_URI) :: rest := by
  unfold Out.tagNs
  rw [if_pos hd]
  have hT1 : TableOk (markByOptions o.marked.namespaces o.marked.options) := markByOptions_ok (markUsed_ok hT .SRC) _
  have hpre : (markByOptions o.marked.namespaces o.marked.options).map (·.prefix_) = o.namespaces.map (·.prefix_) := by
    rw [markByOptions_prefixes]; exact markUsed_prefixes _ _
  have hp := prefixOf_of_prefixes hpre .SRC
  have hdep : o.marked.depth = 0 := h0
  have hdecl : o.marked.declared = (markByOptions o.marked.namespaces o.marked.options).filter (declares o.marked.options 0) := by
    unfold Out.declared; rw [hdep]
  rw [hdecl]
  generalize markByOptions o.marked.namespaces o.marked.options = l at hT1 hp
  cases l with
  | nil => have := hT1.std; simp [standardUris] at this
  | cons n ns =>
    have hu : n.uri = SRC_NS_URI := by
      have := hT1.std
      simp only [List.map_cons, standardUris] at this
      simpa using congrArg List.head? this
    have hf := hT1.flags n (by simp)
    have hdn : declares o.marked.options 0 n = true := by
      have h1 : hasFlag n.flags NS_STANDARD = true := hf.std.mpr (by rw [hu]; simp [standardUris])
      have h2 : hasFlag n.flags NS_REQUIRED = true := hf.req.mpr hu
      simp [declares, h1, h2]
    have hpn : prefixOf o.namespaces .SRC = n.prefix_ := by rw [← hp]; rfl
    refine ⟨(ns.filter (declares o.marked.options 0)).map nsAttr, ?_⟩
    rw [List.filter_cons_of_pos hdn, List.map_cons, hpn, ← hu]
    rfl

/-! ### The marks -/

theorem tagMarks_some (A B C D : Str) :
    tagMarks (A ++ "xmlns".toList ++ B ++ '"' :: C ++ '"' :: D) ≠ none := by
  generalize hS : A ++ "xmlns".toList ++ B ++ '"' :: C ++ '"' :: D = S
  unfold tagMarks
  cases hf : findSub "xmlns".toList S with
  | none =>
    exfalso
    exact findSub_none hf ⟨A, B ++ '"' :: C ++ '"' :: D, by rw [← hS]; simp⟩
  | some pos =>
    have hle : pos ≤ A.length := findSub_least hf A (B ++ '"' :: C ++ '"' :: D) (by rw [← hS]; simp)
    have hX : ∃ X, S.drop (pos + 1) = X ++ '"' :: C ++ '"' :: D := by
      refine ⟨(A ++ "xmlns".toList ++ B).drop (pos + 1), ?_⟩
      rw [← hS]
      rw [show A ++ "xmlns".toList ++ B ++ '"' :: C ++ '"' :: D = (A ++ "xmlns".toList ++ B) ++ ('"' :: C ++ '"' :: D) by simp]
      rw [List.drop_append_of_le_length (by simp; omega)]
      simp
    obtain ⟨X, hX⟩ := hX
    simp only []
    cases h1 : findFirst '"' (S.drop (pos + 1)) with
    | none =>
      exfalso
      exact findFirst_none.mp h1 (by rw [hX]; simp)
    | some q1 =>
      simp only []
      have hq : q1 ≤ X.length := by
        obtain ⟨_, e3⟩ := findFirst_some h1
        apply Nat.le_of_not_lt
        intro hlt
        apply e3
        rw [hX, show X ++ '"' :: C ++ '"' :: D = (X ++ ['"']) ++ (C ++ '"' :: D) by simp,
          List.take_append, List.take_of_length_le (by simp; omega)]
        simp
      cases h2 : findFirst '"' (S.drop (pos + 1 + q1 + 1)) with
      | none =>
        exfalso
        apply findFirst_none.mp h2
        rw [show pos + 1 + q1 + 1 = (pos + 1) + (q1 + 1) by omega, ← List.drop_drop, hX]
        rw [show X ++ '"' :: C ++ '"' :: D = (X ++ '"' :: C) ++ '"' :: D by simp]
        rw [List.drop_append_of_le_length (by simp; omega)]
        simp
      | some q2 => simp

theorem tagMarks_exact (A B C D : Str) (hA : findSub "xmlns".toList (A ++ "xmlns".toList) = some A.length)
    (hB : '"' ∉ B) (hC : '"' ∉ C) :
    tagMarks (A ++ "xmlns".toList ++ B ++ '"' :: C ++ '"' :: D) =
      some (A.length, A.length + 5 + B.length + 1 + C.length + 2) := by
  have hf : ∀ Y, findSub "xmlns".toList (A ++ "xmlns".toList ++ Y) = some A.length := by
    intro Y
    cases hx : findSub "xmlns".toList (A ++ "xmlns".toList ++ Y) with
    | none => exact absurd ⟨A, Y, rfl⟩ (findSub_none hx)
    | some k =>
      obtain ⟨pre, rest, e1, e2⟩ := findSub_some_decomp hx
      have hle : k ≤ A.length := findSub_least hx A Y rfl
      have hge : A.length ≤ k := by
        apply Nat.le_of_not_lt
        intro hlt
        -- an earlier occurrence is also one in A ++ "xmlns"
        have hlen : pre.length + 5 ≤ A.length + 5 := by rw [e2]; omega
        have e3 : (A ++ "xmlns".toList ++ Y).take (A.length + 5) = A ++ "xmlns".toList := by
          rw [List.take_append_of_le_length (by simp)]
          exact List.take_of_length_le (by simp)
        rw [e1] at e3
        have e4 : (pre ++ "xmlns".toList ++ rest).take (A.length + 5) =
            pre ++ "xmlns".toList ++ rest.take (A.length - pre.length) := by
          rw [List.take_append, List.take_of_length_le (by simp; omega)]
          congr 2
          simp
        rw [e4] at e3
        have := findSub_least hA pre _ e3.symm
        omega
      simp; omega
  unfold tagMarks
  rw [show A ++ "xmlns".toList ++ B ++ '"' :: C ++ '"' :: D = A ++ "xmlns".toList ++ (B ++ '"' :: C ++ '"' :: D) by simp, hf]
  simp only []
  have h1 : (A ++ "xmlns".toList ++ (B ++ '"' :: C ++ '"' :: D)).drop (A.length + 1) =
      ("mlns".toList ++ B) ++ '"' :: (C ++ '"' :: D) := by
    rw [← List.drop_drop, List.append_assoc A, List.drop_left]
    simp
  rw [h1, findFirst_append _ _ (by simp [hB])]
  simp only []
  have h2 : (A ++ "xmlns".toList ++ (B ++ '"' :: C ++ '"' :: D)).drop (A.length + 1 + ("mlns".toList ++ B).length + 1) =
      C ++ '"' :: D := by
    rw [show A.length + 1 + ("mlns".toList ++ B).length + 1 = (A.length + 1) + (("mlns".toList ++ B).length + 1) by omega,
      ← List.drop_drop, h1, ← List.drop_drop, List.drop_left]
    simp
  rw [h2, findFirst_append _ _ hC]
  simp
  omega

end Srcml
