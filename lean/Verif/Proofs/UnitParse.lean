import Verif.Proofs.UnitParts
import Verif.Props.OutputTags
/-
Parsing into a unit: what the tokens add to the start tag, and the namespaces after it.
-/
set_option linter.unusedSimpArgs false
namespace Srcml
open Spec

/-! ### Tokens only add to the start tag -/

theorem addPosition_grows (o : Out) (t : Tok) : ∃ r, (o.addPosition t).w.out = o.w.out ++ r := by
  unfold Out.addPosition
  split
  · exact ⟨[], by simp⟩
  · refine ⟨_, rfl⟩

theorem writeOptAttr_grows (w : Writer) (n v : Option Str) : ∃ r, (writeOptAttr w n v).out = w.out ++ r := by
  unfold writeOptAttr
  split
  · exact writeAttribute_grows _ _ _
  · exact ⟨[], by simp⟩

theorem ext_trans {a b c : Str} (h1 : ∃ r, b = a ++ r) (h2 : ∃ r, c = b ++ r) : ∃ r, c = a ++ r := by
  obtain ⟨r1, h1⟩ := h1
  obtain ⟨r2, h2⟩ := h2
  exact ⟨r1 ++ r2, by rw [h2, h1]; simp⟩

theorem startTag_inside {S name : Str} {o : Out} (hg : Grown S name o.w) (t : Tok) (p : Bool) (n pre : Str)
    (hn : n ≠ []) (a1 v1 a2 v2 : Option Str) : ∃ r, (o.startTag t p n pre a1 v1 a2 v2).w.out = S ++ '>' :: r := by
  obtain ⟨r, hr⟩ := hg.closeTag
  have h1 : ∃ r, (o.w.startElement (nullIfEmpty pre) n none).1.out = S ++ '>' :: r := by
    unfold Writer.startElement
    rw [if_neg hn]
    exact ⟨r ++ '<' :: qname (nullIfEmpty pre) n, by simp [hr]⟩
  obtain ⟨r1, h1⟩ := h1
  have h2 := ext_trans (writeOptAttr_grows (o.w.startElement (nullIfEmpty pre) n none).1 a1 v1)
    (writeOptAttr_grows _ a2 v2)
  unfold Out.startTag
  simp only []
  obtain ⟨r2, h2⟩ := h2
  split
  · obtain ⟨r3, h3⟩ := addPosition_grows { o with
      w := writeOptAttr (writeOptAttr (o.w.startElement (nullIfEmpty pre) n none).1 a1 v1) a2 v2,
      openelementcount := o.openelementcount + 1 } t
    rw [h3]
    simp only [h2, h1]
    exact ⟨r1 ++ r2 ++ r3, by simp⟩
  · simp only [h2, h1]
    exact ⟨r1 ++ r2, by simp⟩

/-- In a stream that closes only what it opened, the start tag of the unit only grows. -/
theorem outputToken_grown {S name : Str} {env : Env} {o : Out} {st : List Str} (t : Tok)
    (hg : Grown S name o.w) (hi : st ≠ [] → ∃ r, o.w.out = S ++ '>' :: r)
    {evs' : List Ev} {st' : List Str} (hev : tokenEvents env st [t] = some (evs', st')) :
    Grown S name (o.outputToken t).w ∧ (st' ≠ [] → ∃ r, (o.outputToken t).w.out = S ++ '>' :: r) := by
  unfold tokenEvents at hev
  unfold Out.outputToken
  by_cases hu : t.type = chars! "SUNIT"
  · rw [if_pos hu] at hev ⊢
    simp only [tokenEvents, Option.some.injEq, Prod.mk.injEq] at hev
    obtain ⟨rfl, rfl⟩ := hev
    exact ⟨hg, hi⟩
  rw [if_neg hu] at hev ⊢
  rw [processFind_eq]
  cases he : elementOf t.type with
  | none =>
    obtain ⟨r, hr⟩ := hg.closeTag
    have : ∃ r, (o.processText t.text).w.out = S ++ '>' :: r := ⟨r ++ processedText t.text, by
      simp [Out.processText, Writer.writeRaw, hr]⟩
    exact ⟨Or.inr this, fun _ => this⟩
  | some e =>
    simp only [he] at hev ⊢
    unfold Out.processToken
    by_cases hn : e.name = []
    · rw [if_pos hn] at hev ⊢
      simp only [tokenEvents, Option.some.injEq, Prod.mk.injEq] at hev
      obtain ⟨rfl, rfl⟩ := hev
      exact ⟨hg, hi⟩
    · rw [if_neg hn] at hev ⊢
      simp only []
      have hend : ∀ o' : Out, (∃ r, o'.w.out = S ++ '>' :: r) → ∃ r, o'.endTag.w.out = S ++ '>' :: r := by
        rintro o' ⟨r, hr⟩
        obtain ⟨r', hr'⟩ := endElement_grows o'.w
        exact ⟨r ++ r', by simp [Out.endTag, hr', hr]⟩
      generalize ho : ({ o with namespaces := markUsed o.namespaces e.pre } : Out) = o1
      have hw : o1.initThread.w = o.w := by rw [← ho]; rfl
      have hst : ∀ p pre v1, ∃ r, (o1.initThread.startTag t p e.name pre e.attrName v1 e.attr2Name e.attr2Value).w.out = S ++ '>' :: r :=
        fun p pre v1 => startTag_inside (by rw [hw]; exact hg) t p e.name pre hn _ _ _ _
      cases hc : t.category with
      | start =>
        have h1 : t.isStart = true := by simp [Tok.isStart, hc]
        have h2 : t.isEmpty = false := by simp [Tok.isEmpty, hc]
        simp only [h1, h2, Bool.true_or, if_true, Bool.not_true, Bool.or_self, Bool.false_eq_true, if_false]
        exact ⟨Or.inr (hst _ _ _), fun _ => hst _ _ _⟩
      | empty =>
        have h2 : t.isEmpty = true := by simp [Tok.isEmpty, hc]
        simp only [h2, Bool.or_true, if_true]
        exact ⟨Or.inr (hend _ (hst _ _ _)), fun _ => hend _ (hst _ _ _)⟩
      | _ =>
        have h1 : t.isStart = false := by simp [Tok.isStart, hc]
        have h2 : t.isEmpty = false := by simp [Tok.isEmpty, hc]
        simp only [h1, h2, Bool.or_self, Bool.false_eq_true, if_false, Bool.not_false, Bool.true_or, if_true]
        rw [hc] at hev
        cases st with
        | nil => cases hev
        | cons x xs =>
          have := hend o1.initThread (by rw [hw]; exact hi (by simp))
          exact ⟨Or.inr this, fun _ => this⟩

theorem consume_grown {S name : Str} {env : Env} (ts : List Tok) : ∀ (o : Out) (st : List Str),
    Grown S name o.w → (st ≠ [] → ∃ r, o.w.out = S ++ '>' :: r) →
    ∀ evs' st', tokenEvents env st ts = some (evs', st') → Grown S name (o.consume ts).w := by
  induction ts with
  | nil => intro o st hg _ _ _ _; exact hg
  | cons t ts ih =>
    intro o st hg hi evs' st' hev
    rw [tokenEvents_cons] at hev
    cases h1 : tokenEvents env st [t] with
    | none => simp [h1] at hev
    | some r =>
      obtain ⟨e1, s1⟩ := r
      simp only [h1, Option.bind_some, Option.map_eq_some_iff] at hev
      obtain ⟨⟨e2, s2⟩, h2, h3⟩ := hev
      obtain ⟨g1, g2⟩ := outputToken_grown t hg hi h1
      exact ih (o.outputToken t) s1 g1 g2 _ _ h2

/-! ### The namespaces after parsing -/

theorem merge_uris (other : List Namespace) : ∀ ns : List Namespace, (other.map (·.uri)).Nodup →
    (mergeNamespaces ns other).map (·.uri) = ns.map (·.uri) ++ (other.map (·.uri)).filter (fun u => u ∉ ns.map (·.uri)) := by
  induction other with
  | nil => intro ns _; simp [mergeNamespaces]
  | cons n rest ih =>
    intro ns hn
    simp only [List.map_cons, List.nodup_cons] at hn
    have e : mergeNamespaces ns (n :: rest) = mergeNamespaces (mergeOne ns n) rest := rfl
    rw [e, ih _ hn.2, mergeOne_uris]
    by_cases h : n.uri ∈ ns.map (·.uri)
    · rw [if_pos h, List.map_cons, List.filter_cons_of_neg (by simpa using h)]
    · rw [if_neg h, List.map_cons, List.filter_cons_of_pos (by simpa using h)]
      rw [List.append_assoc, List.singleton_append]
      congr 2
      apply List.filter_congr
      intro u hu
      have : u ≠ n.uri := fun e => hn.1 (e ▸ hu)
      simp [this]

/-- Merging a table of the output into the default table keeps its uris and prefixes. -/
theorem merge_default {ns : List Namespace} (h : TableOk ns) :
    (mergeNamespaces defaultNamespaces ns).map (·.uri) = ns.map (·.uri) ∧
    (mergeNamespaces defaultNamespaces ns).map (·.prefix_) = ns.map (·.prefix_) := by
  have hu : (mergeNamespaces defaultNamespaces ns).map (·.uri) = ns.map (·.uri) := by
    rw [merge_uris ns _ h.nodup, default_uris]
    have hsplit := List.take_append_drop 5 (ns.map (·.uri))
    rw [h.std] at hsplit
    rw [← hsplit, List.filter_append]
    have hnd := h.nodup
    rw [← hsplit, List.nodup_append] at hnd
    have h1 : standardUris.filter (fun u => u ∉ standardUris) = [] := by
      rw [List.filter_eq_nil_iff]
      intro u hu; simpa using hu
    have h2 : (List.drop 5 (ns.map (·.uri))).filter (fun u => u ∉ standardUris) = List.drop 5 (ns.map (·.uri)) := by
      rw [List.filter_eq_self]
      intro u hu
      simp only [decide_eq_true_eq]
      intro hs
      exact hnd.2.2 u hs u hu rfl
    rw [h1, h2]; rfl
  refine ⟨hu, ?_⟩
  have hlen : (mergeNamespaces defaultNamespaces ns).length = ns.length := by
    have := congrArg List.length hu
    simpa using this
  have hndM : ((mergeNamespaces defaultNamespaces ns).map (·.uri)).Nodup := by rw [hu]; exact h.nodup
  apply List.ext_getElem (by simpa using hlen)
  intro i h1 h2
  simp only [List.length_map] at h1 h2
  simp only [List.getElem_map]
  have hui : (mergeNamespaces defaultNamespaces ns)[i].uri = ns[i].uri := by
    have := List.getElem_of_eq hu (i := i) (by simpa using h1)
    simpa using this
  have f1 := findUri_of_mem hndM (List.getElem_mem h1)
  have f2 := findUri_of_mem h.nodup (List.getElem_mem h2)
  rw [hui] at f1
  rw [findUri_merge ns ns[i].uri h.nodup ns[i] f2] at f1
  rcases mergeOne_cases defaultNamespaces ns[i] with ⟨it, hn, e⟩ | ⟨hn, e⟩
  · have e' : mergeOne defaultNamespaces ns[i] = modifyUri defaultNamespaces ns[i].uri
        (fun t => { t with prefix_ := ns[i].prefix_, flags := t.flags ||| ns[i].flags }) := by
      unfold mergeOne
      rw [hn]
      simp
    rw [e', findUri_modifyUri_self _ _ (fun t => { t with prefix_ := ns[i].prefix_, flags := t.flags ||| ns[i].flags }) (fun _ => rfl), hn] at f1
    simp only [Option.map_some, Option.some.injEq] at f1
    rw [← f1]
  · rw [e, findUri_append, hn] at f1
    simp [findUri] at f1
    rw [← f1]

end Srcml
