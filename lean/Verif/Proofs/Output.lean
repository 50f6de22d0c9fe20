import Verif.Proofs.Xml
import Verif.Spec.Output
/-
Output of tokens: the written document reads as the events of the tokens.
-/
set_option linter.unusedSimpArgs false
namespace Srcml
open Spec

theorem digitChar_eq (n : Nat) (h : n < 10) : Char.ofNat (48 + n) = Nat.digitChar n := by
  have : n = 0 ∨ n = 1 ∨ n = 2 ∨ n = 3 ∨ n = 4 ∨ n = 5 ∨ n = 6 ∨ n = 7 ∨ n = 8 ∨ n = 9 := by omega
  rcases this with h | h | h | h | h | h | h | h | h | h <;> subst h <;> rfl

theorem decDigits_eq (n : Nat) : decDigits n = number n := by
  unfold number
  induction n using Nat.strongRecOn with
  | ind n ih =>
    rw [decDigits]
    split
    · rename_i h; rw [Nat.toDigits_of_lt_base h, digitChar_eq n h]
    · rename_i h
      rw [ih (n / 10) (by omega), Nat.toDigits_of_base_le (n := n) (by decide) (by omega), digitChar_eq _ (by omega)]

/-- An attribute name of the table that cannot be taken for a position attribute. -/
def plainAttr (n : Str) : Bool :=
  decide (ValidName n) && n.all (· ≠ ':') && decide (n ≠ "start".toList) && decide (n ≠ "end".toList)

/-- What the proofs need of a row of the table. -/
def rowOk (e : Element) : Bool :=
  e.name.all nameChar &&
  (match e.attrName with | some n => plainAttr n | none => true) &&
  (match e.attr2Name with | some n => plainAttr n | none => true) &&
  (match e.attrValue with | some v => decide (ValidValue v) | none => true) &&
  (match e.attr2Value with | some v => decide (ValidValue v) | none => true) &&
  (match e.attrName, e.attr2Name with | some n, some m => decide (n ≠ m) | _, _ => true) &&
  (e.attr2Name.isSome == e.attr2Value.isSome)

/-- Checked over the whole table. -/
theorem table_ok : processTable.all (fun e => rowOk e.2) = true := by decide +kernel

theorem elementOf_ok {t : TokType} {e : Element} (h : elementOf t = some e) : rowOk e = true := by
  unfold elementOf at h
  simp only [Option.map_eq_some_iff] at h
  obtain ⟨x, hx, rfl⟩ := h
  exact List.all_eq_true.mp table_ok x (List.mem_of_find?_eq_some hx)

theorem processFind_eq (t : TokType) : processFind t = elementOf t := rfl

/-! ### Attributes of an element -/

/-- The settings of the specification are those of the output object, in a thread whose first use of the
position code was with the same settings. -/
structure Good (o : Out) (env : Env) : Prop where
  pre : ∀ p, prefixOf o.namespaces p = env.pre p
  valid : ∀ p, (env.pre p).all nameChar = true
  position : isoption o.options OPTION_POSITION = env.position
  thread1 : o.thread.isposition = none ∨ o.thread.isposition = some env.position
  thread2 : o.thread.posAttrs = none ∨ o.thread.posAttrs = some (posAttrOpenings o.namespaces)

theorem prefixOf_markUsed (ns : List Namespace) (p q : Prefixes) :
    prefixOf (markUsed ns p) q = prefixOf ns q := by
  unfold prefixOf markUsed
  rw [List.getElem?_modify]
  split
  · rename_i h
    cases ns[q.index]? <;> simp
  · simp

theorem posAttrOpenings_markUsed (ns : List Namespace) (p : Prefixes) :
    posAttrOpenings (markUsed ns p) = posAttrOpenings ns := by
  simp only [posAttrOpenings, prefixOf_markUsed]

theorem Good.markUsed {o : Out} {env : Env} (h : Good o env) (p : Prefixes) :
    Good { o with namespaces := markUsed o.namespaces p } env := by
  refine ⟨?_, h.valid, h.position, h.thread1, ?_⟩
  · intro q; simp only [prefixOf_markUsed]; exact h.pre q
  · simp only [posAttrOpenings_markUsed]; exact h.thread2

theorem qname_elementName (env : Env) (e : Element) :
    qname (nullIfEmpty (env.pre e.pre)) e.name = elementName env e := by
  unfold qname nullIfEmpty elementName
  by_cases h : env.pre e.pre = [] <;> simp [h]

theorem valid_elementName {env : Env} {e : Element} (hv : ∀ p, (env.pre p).all nameChar = true)
    (he : e.name ≠ []) (hr : rowOk e = true) : ValidName (elementName env e) := by
  have hn : e.name.all nameChar = true := by
    unfold rowOk at hr
    simp only [Bool.and_eq_true] at hr
    exact hr.1.1.1.1.1.1
  unfold elementName
  split
  · exact ⟨he, hn⟩
  · refine ⟨by simp, ?_⟩
    rw [List.all_append, hv, List.all_cons, hn]; decide

theorem digits_no_escape (n : Nat) : (number n).flatMap attrEscapeChar = number n := by
  have : ∀ c ∈ number n, c.isDigit = true := by
    intro c hc; exact Nat.isDigit_of_mem_toDigits (by decide) (by decide) hc
  generalize number n = l at this
  induction l with
  | nil => rfl
  | cons c cs ih =>
    have hd := this c (by simp)
    rw [List.flatMap_cons, ih (fun x hx => this x (by simp [hx]))]
    have : attrEscapeChar c = [c] := by
      unfold attrEscapeChar
      repeat' (split; (rename_i h; subst h; exact absurd hd (by decide)))
      rfl
    rw [this]; rfl

theorem digits_valid (n : Nat) : ValidValue (number n) := by
  intro c hc
  have hd : c.isDigit = true := Nat.isDigit_of_mem_toDigits (by decide) (by decide) hc
  left
  unfold xmlChar
  simp only [Char.isDigit, Bool.and_eq_true, decide_eq_true_eq] at hd
  have : 48 ≤ c.toNat := by have := hd.1; exact this
  simp only [Bool.or_eq_true, decide_eq_true_eq]
  left; left; omega

theorem posAttr_text (env : Env) (ns : List Namespace) (h : prefixOf ns .POS = env.pre .POS) (a b c d : Nat) :
    (posAttrOpenings ns).1 ++ number a ++ ':' :: number b ++ '"' ::
      (posAttrOpenings ns).2 ++ number c ++ ':' :: number d ++ ['"'] =
    attrText (posName env "start".toList) (number a ++ ':' :: number b) ++
    attrText (posName env "end".toList) (number c ++ ':' :: number d) := by
  have hc : attrEscapeChar ':' = [':'] := rfl
  unfold posAttrOpenings attrText posName
  rw [h]
  by_cases hp : env.pre .POS = []
  · simp [hp, digits_no_escape, hc, List.flatMap_append, List.flatMap_cons]
  · simp [hp, digits_no_escape, hc, List.flatMap_append, List.flatMap_cons]

theorem valid_posName {env : Env} (hv : ∀ p, (env.pre p).all nameChar = true) (n : Str) (hn : ValidName n) :
    ValidName (posName env n) := by
  unfold posName
  split
  · exact hn
  · refine ⟨by simp, ?_⟩
    rw [List.all_append, hv, List.all_cons, hn.2]; decide

theorem posName_ne {env : Env} (a b : Str) (h : a ≠ b) : posName env a ≠ posName env b := by
  unfold posName
  split
  · exact h
  · intro e; exact h (by simpa using e)

theorem plain_ne_posName {env : Env} {n a : Str} (h : plainAttr n = true) (ha : n ≠ a) : n ≠ posName env a := by
  unfold posName
  split
  · exact ha
  · intro e
    unfold plainAttr at h
    simp only [Bool.and_eq_true] at h
    have := h.1.1.2
    rw [e] at this
    simp at this

theorem value_of_text {s : Str} (h : s.all xmlChar = true) : ValidValue s :=
  fun c hc => Or.inl (List.all_eq_true.mp h c hc)

/-- The attributes from the table on the start tag just opened. -/
theorem table_attrs {B : Base} {w : Writer} {evs : List Ev} {n : Str} {rest : List (Str × Bool)}
    (h : Sync B w (evs ++ [.op n []]) ((n, true) :: rest)) (e : Element) (t : Tok)
    (hr : rowOk e = true) (ht : t.text.all xmlChar = true) :
    Sync B (writeOptAttr (writeOptAttr w e.attrName
        (if e.attrName.isSome && e.attrValue.isSome then e.attrValue else some t.text)) e.attr2Name e.attr2Value)
      (evs ++ [.op n (tableAttrs e t.text)]) ((n, true) :: rest) ∧
    ∀ x ∈ (tableAttrs e t.text).map (·.1), plainAttr x = true := by
  suffices hh : ∃ as, Sync B (writeOptAttr (writeOptAttr w e.attrName
        (if e.attrName.isSome && e.attrValue.isSome then e.attrValue else some t.text)) e.attr2Name e.attr2Value)
      (evs ++ [.op n as]) ((n, true) :: rest) ∧ as = tableAttrs e t.text ∧
      ∀ x ∈ as.map (·.1), plainAttr x = true by
    obtain ⟨as, h1, rfl, h2⟩ := hh; exact ⟨h1, h2⟩
  unfold tableAttrs
  unfold rowOk at hr
  simp only [Bool.and_eq_true] at hr
  obtain ⟨⟨⟨⟨⟨⟨_, h1⟩, h2⟩, h3⟩, h4⟩, h5⟩, h6⟩ := hr
  have vn : ∀ x, plainAttr x = true → ValidName x := by
    intro x hx; unfold plainAttr at hx; simp only [Bool.and_eq_true, decide_eq_true_eq] at hx; exact hx.1.1.1
  cases ha : e.attrName with
  | none =>
    simp only [writeOptAttr, List.nil_append]
    cases hb : e.attr2Name with
    | none => exact ⟨_, h, by simp, by simp⟩
    | some m =>
      cases hc : e.attr2Value with
      | none => simp [hb, hc] at h6
      | some v =>
        simp only [hb, hc, decide_eq_true_eq] at h2 h4
        have := h.writeAttribute m v (vn m h2) h4 (by simp)
        exact ⟨_, this.1, rfl, by simpa using h2⟩
  | some a =>
    simp only [ha] at h1 h5
    have key : ∃ v, (if (some a : Option Str).isSome && e.attrValue.isSome then e.attrValue else some t.text) = some v ∧
        v = e.attrValue.getD t.text ∧ ValidValue v := by
      cases hv : e.attrValue with
      | none => exact ⟨t.text, by simp, rfl, value_of_text ht⟩
      | some v => simp only [hv, decide_eq_true_eq] at h3; exact ⟨v, by simp, rfl, h3⟩
    obtain ⟨v, hv1, hv2, hv3⟩ := key
    simp only [hv1, writeOptAttr, ← hv2]
    have hw := h.writeAttribute a v (vn a h1) hv3 (by simp)
    cases hb : e.attr2Name with
    | none => exact ⟨_, hw.1, by simp, by simpa using h1⟩
    | some m =>
      cases hc : e.attr2Value with
      | none => simp [hb, hc] at h6
      | some v' =>
        simp only [hb, hc, decide_eq_true_eq] at h2 h4 h5
        have := hw.1.writeAttribute m v' (vn m h2) h4 (by simpa using fun e => h5 e.symm)
        refine ⟨_, this.1, rfl, ?_⟩
        intro x hx
        simp only [List.nil_append, List.map_append, List.map_cons, List.map_nil, List.mem_append,
          List.mem_singleton] at hx
        rcases hx with rfl | rfl
        · exact h1
        · exact h2

theorem hasRange_eq (t : Tok) : t.hasRange = decide (validRange t) := by
  unfold Tok.hasRange validRange
  by_cases h1 : t.endline < t.line
  · have : ¬ (t.line < t.endline ∨ t.line = t.endline ∧ t.column ≤ t.endcolumn) := by omega
    simp [h1, this]
  · by_cases h2 : t.endline = t.line ∧ t.endcolumn < t.column
    · have : ¬ (t.line < t.endline ∨ t.line = t.endline ∧ t.column ≤ t.endcolumn) := by omega
      simp [h1, h2.1, h2.2, this]
    · have h3 : (t.line < t.endline ∨ t.line = t.endline ∧ t.column ≤ t.endcolumn) := by omega
      have h4 : ¬ (t.endline = t.line ∧ t.endcolumn < t.column) := h2
      simp only [h3, decide_true, Bool.not_eq_true', Bool.or_eq_false_iff, decide_eq_false_iff_not, h1,
        not_false_eq_true, true_and, Bool.and_eq_false_iff]
      by_cases h5 : t.endline = t.line
      · right; omega
      · left; exact h5

theorem bufferWrite_attr {w : Writer} {an v : Str} {n : Str} {rest : List (Str × Bool)}
    (hs : w.stack = (n, true) :: rest) (ha : an ≠ []) :
    w.bufferWrite (attrText an v) = (w.writeAttribute an v).1 := by
  simp [Writer.bufferWrite, Writer.writeAttribute, hs, ha]

/-- The position attributes on an open start tag. -/
theorem addPosition_ok {B : Base} {o : Out} {env : Env} (hg : Good o env) {evs : List Ev} {n : Str}
    {rest : List (Str × Bool)} {as : List (Str × Str)} (t : Tok)
    (h : Sync B o.w (evs ++ [.op n as]) ((n, true) :: rest)) (hp : ∀ x ∈ as.map (·.1), plainAttr x = true) :
    Sync B (o.addPosition t).w (evs ++ [.op n (as ++ positionAttrs env t)]) ((n, true) :: rest) ∧
    Good (o.addPosition t) env := by
  unfold Out.addPosition positionAttrs
  rw [hasRange_eq]
  by_cases hr : validRange t
  · have hps : o.thread.posAttrs.getD (posAttrOpenings o.namespaces) = posAttrOpenings o.namespaces := by
      rcases hg.thread2 with e | e <;> rw [e] <;> rfl
    simp only [hr, decide_true, Bool.true_eq_false, if_false, if_true, hps]
    refine ⟨?_, ⟨hg.pre, hg.valid, hg.position, hg.thread1, Or.inr rfl⟩⟩
    rw [decDigits_eq, decDigits_eq, decDigits_eq, decDigits_eq, posAttr_text env o.namespaces (hg.pre .POS)]
    have hplain : ∀ a, (a = "start".toList ∨ a = "end".toList) → posName env a ∉ as.map (·.1) := by
      intro a ha hm
      have hx := hp _ hm
      have hne : posName env a ≠ a → False := by
        intro hne
        unfold posName at hx hne
        split at hne
        · exact hne rfl
        · rename_i hh
          rw [if_neg hh] at hx
          unfold plainAttr at hx
          simp only [Bool.and_eq_true] at hx
          have := hx.1.1.2
          simp at this
      have he : posName env a = a := Classical.byContradiction hne
      rw [he] at hx
      unfold plainAttr at hx
      simp only [Bool.and_eq_true, decide_eq_true_eq] at hx
      rcases ha with rfl | rfl
      · exact hx.1.2 rfl
      · exact hx.2 rfl
    have vv : ∀ a b, ValidValue (number a ++ ':' :: number b) := by
      intro a b c hc
      simp only [List.mem_append, List.mem_cons] at hc
      rcases hc with hc | rfl | hc
      · exact digits_valid a c hc
      · left; decide
      · exact digits_valid b c hc
    have v1 : ValidName (posName env "start".toList) := valid_posName hg.valid _ (by decide)
    have v2 : ValidName (posName env "end".toList) := valid_posName hg.valid _ (by decide)
    have s1 := h.writeAttribute (posName env "start".toList) (number t.line ++ ':' :: number t.column)
      v1 (vv _ _) (hplain _ (Or.inl rfl))
    have s2 := s1.1.writeAttribute (posName env "end".toList) (number t.endline ++ ':' :: number t.endcolumn)
      v2 (vv _ _) (by
        rw [List.map_append]; simp only [List.mem_append, not_or]
        refine ⟨hplain _ (Or.inr rfl), ?_⟩
        simp only [List.map_cons, List.map_nil, List.mem_singleton]
        exact posName_ne _ _ (by decide))
    have hw : o.w.bufferWrite (attrText (posName env "start".toList) (number t.line ++ ':' :: number t.column) ++
        attrText (posName env "end".toList) (number t.endline ++ ':' :: number t.endcolumn)) =
        (((o.w.writeAttribute (posName env "start".toList) (number t.line ++ ':' :: number t.column)).1).writeAttribute
          (posName env "end".toList) (number t.endline ++ ':' :: number t.endcolumn)).1 := by
      rw [s2.2, s1.2]
      simp [Writer.bufferWrite]
    rw [hw]
    have := s2.1
    rw [List.append_assoc] at this
    exact this
  · simp only [hr, decide_false, if_true, if_false, List.append_nil]
    exact ⟨h, hg⟩

/-- One token: the settings stay, the events are those of the token. -/
theorem outputToken_ok {B : Base} (hB : B.Ok) {o : Out} {env : Env} (hg : Good o env) {evs : List Ev}
    {top : List (Str × Bool)} {st base : List Str} (h : Sync B o.w evs top) (hs : o.w.stack ≠ [])
    (htop : top.map (·.1) = st ++ base) (hbase : base ≠ [] ∨ B.wb ≠ []) (t : Tok) (ht : t.text.all xmlChar = true)
    {evs' : List Ev} {st' : List Str} (hev : tokenEvents env st [t] = some (evs', st')) :
    ∃ top', Sync B (o.outputToken t).w (evs ++ evs') top' ∧ top'.map (·.1) = st' ++ base ∧
      Good (o.outputToken t) env ∧ (o.outputToken t).w.stack ≠ [] := by
  have nonempty : ∀ (w : Writer) e' (top' : List (Str × Bool)) (st'' : List Str), Sync B w e' top' →
      top'.map (·.1) = st'' ++ base → w.stack ≠ [] := by
    intro w e' top' st'' hsy hm
    rw [hsy.stack]
    intro e
    simp only [List.append_eq_nil_iff] at e
    rcases hbase with hb | hb
    · rw [e.1] at hm
      have : st'' ++ base = [] := by simpa using hm.symm
      exact hb (List.append_eq_nil_iff.mp this).2
    · exact hb e.2
  unfold tokenEvents at hev
  unfold Out.outputToken
  by_cases hu : t.type = chars! "SUNIT"
  · rw [if_pos hu] at hev ⊢
    simp only [tokenEvents, Option.some.injEq, Prod.mk.injEq] at hev
    obtain ⟨rfl, rfl⟩ := hev
    exact ⟨top, by simpa using h, htop, hg, hs⟩
  rw [if_neg hu] at hev ⊢
  rw [processFind_eq]
  cases he : elementOf t.type with
  | none =>
    simp only [he, tokenEvents, Option.map_some, Option.some.injEq, Prod.mk.injEq, List.append_nil] at hev ⊢
    obtain ⟨rfl, rfl⟩ := hev
    have := h.writeText hB hs t.text ht
    rw [← processedText_eq t.text (xmlChar_no_nul ht)] at this
    refine ⟨closedTop top, this, by rw [closedTop_names, htop], ?_, nonempty _ _ _ _ this (by rw [closedTop_names, htop])⟩
    exact ⟨hg.pre, hg.valid, hg.position, hg.thread1, hg.thread2⟩
  | some e =>
    have hrow := elementOf_ok he
    simp only [he] at hev ⊢
    have hg1 := hg.markUsed e.pre
    rw [hg.pre e.pre]
    generalize ho1 : { o with namespaces := markUsed o.namespaces e.pre } = o1 at hg1
    have hw1 : o1.w = o.w := by rw [← ho1]
    rw [← hw1] at h hs
    unfold Out.processToken
    by_cases hname : e.name = []
    · rw [if_pos hname] at hev ⊢
      simp only [tokenEvents, Option.some.injEq, Prod.mk.injEq] at hev
      obtain ⟨rfl, rfl⟩ := hev
      exact ⟨top, by simpa using h, htop, hg1, hs⟩
    rw [if_neg hname] at hev ⊢
    have hpos : o1.threadPosition = env.position := by
      unfold Out.threadPosition
      rcases hg1.thread1 with e | e <;> rw [e]
      · exact hg1.position
      · rfl
    generalize ho2 : o1.initThread = o2
    have hg2 : Good o2 env := by
      rw [← ho2, Out.initThread, hpos]; exact ⟨hg1.pre, hg1.valid, hg1.position, Or.inr rfl, hg1.thread2⟩
    have hw2 : o2.w = o1.w := by rw [← ho2]; rfl
    rw [← hw2] at h hs
    rw [hpos]
    have hg3 : ∀ w c, Good { o2 with w := w, openelementcount := c } env := fun w c =>
      ⟨hg2.pre, hg2.valid, hg2.position, hg2.thread1, hg2.thread2⟩
    have hend : ∀ (n : Str) (st0 : List Str), st = n :: st0 → ∃ top', Sync B o2.endTag.w (evs ++ [.cl n]) top' ∧
        top'.map (·.1) = st0 ++ base ∧ Good o2.endTag env ∧ o2.endTag.w.stack ≠ [] := by
      intro n st0 hst
      subst hst
      cases top with
      | nil => simp at htop
      | cons x rest =>
        obtain ⟨m, b⟩ := x
        simp only [List.map_cons, List.cons_append, List.cons.injEq] at htop
        obtain ⟨rfl, htop⟩ := htop
        have hend := h.endElement hB
        exact ⟨rest, hend.1, htop, hg3 _ _, nonempty _ _ _ _ hend.1 htop⟩
    cases hcat : t.category with
    | start =>
      simp only [hcat, tokenEvents, Option.map_some, Option.some.injEq, Prod.mk.injEq] at hev
      obtain ⟨rfl, rfl⟩ := hev
      have h1 : (t.isStart || t.isEmpty) = true := by simp [Tok.isStart, hcat]
      have h2 : (!t.isStart || t.isEmpty) = false := by simp [Tok.isStart, Tok.isEmpty, hcat]
      have h3 : (!t.isEmpty) = true := by simp [Tok.isEmpty, hcat]
      simp only [h1, h2, if_true, Bool.false_eq_true, if_false, Out.startTag, h3, Bool.and_true]
      have hstart := h.startElement hB (nullIfEmpty (env.pre e.pre)) e.name
        (by rw [qname_elementName]; exact valid_elementName hg2.valid hname hrow) hname (Or.inl hs)
      rw [qname_elementName] at hstart
      obtain ⟨hatt, hplain⟩ := table_attrs hstart e t hrow ht
      have hn : ((elementName env e, true) :: closedTop top).map (·.1) = (elementName env e :: st) ++ base := by
        rw [List.map_cons, closedTop_names, htop]; rfl
      by_cases hpb : env.position = true
      · obtain ⟨hp1, hp2⟩ := addPosition_ok (hg3 _ (o2.openelementcount + 1)) t hatt hplain
        rw [if_pos hpb]
        have hattrs : elementAttrs env e t = tableAttrs e t.text ++ positionAttrs env t := by
          simp [elementAttrs, hpb, hcat]
        rw [hattrs]
        exact ⟨_, hp1, hn, hp2, nonempty _ _ _ _ hp1 hn⟩
      · rw [if_neg hpb]
        have hattrs : elementAttrs env e t = tableAttrs e t.text := by
          simp [elementAttrs, hpb]
        rw [hattrs]
        exact ⟨_, hatt, hn, hg3 _ _, nonempty _ _ _ _ hatt hn⟩
    | empty =>
      simp only [hcat, tokenEvents, Option.map_some, Option.some.injEq, Prod.mk.injEq] at hev
      obtain ⟨rfl, rfl⟩ := hev
      have h1 : (t.isStart || t.isEmpty) = true := by simp [Tok.isStart, hcat]
      have h2 : (!t.isStart || t.isEmpty) = true := by simp [Tok.isStart, Tok.isEmpty, hcat]
      have h3 : (!t.isEmpty) = false := by simp [Tok.isEmpty, hcat]
      simp only [h1, h2, if_true, Bool.false_eq_true, if_false, Out.startTag, h3, Bool.and_false]
      have hstart := h.startElement hB (nullIfEmpty (env.pre e.pre)) e.name
        (by rw [qname_elementName]; exact valid_elementName hg2.valid hname hrow) hname (Or.inl hs)
      rw [qname_elementName] at hstart
      obtain ⟨hatt, hplain⟩ := table_attrs hstart e t hrow ht
      have hend' := (hatt.endElement hB).1
      have hattrs : elementAttrs env e t = tableAttrs e t.text := by
        simp [elementAttrs, hcat]
      rw [hattrs]
      refine ⟨closedTop top, ?_, by rw [closedTop_names, htop], hg3 _ _, ?_⟩
      · simpa [Out.endTag] using hend'
      · exact nonempty _ _ _ _ hend' (by rw [closedTop_names, htop])
    | end_ =>
      simp only [hcat] at hev
      have h1 : (t.isStart || t.isEmpty) = false := by simp [Tok.isStart, Tok.isEmpty, hcat]
      have h2 : (!t.isStart || t.isEmpty) = true := by simp [Tok.isStart, Tok.isEmpty, hcat]
      simp only [h1, h2, if_true, Bool.false_eq_true, if_false]
      cases st with
      | nil => simp at hev
      | cons n st =>
        simp only [tokenEvents, Option.map_some, Option.some.injEq, Prod.mk.injEq] at hev
        obtain ⟨rfl, rfl⟩ := hev
        exact hend n st rfl
    | text =>
      simp only [hcat] at hev
      have h1 : (t.isStart || t.isEmpty) = false := by simp [Tok.isStart, Tok.isEmpty, hcat]
      have h2 : (!t.isStart || t.isEmpty) = true := by simp [Tok.isStart, Tok.isEmpty, hcat]
      simp only [h1, h2, if_true, Bool.false_eq_true, if_false]
      cases st with
      | nil => simp at hev
      | cons n st =>
        simp only [tokenEvents, Option.map_some, Option.some.injEq, Prod.mk.injEq] at hev
        obtain ⟨rfl, rfl⟩ := hev
        exact hend n st rfl

/-- The events of a stream, one token at a time. -/
theorem tokenEvents_cons (env : Env) (st : List Str) (t : Tok) (ts : List Tok) :
    tokenEvents env st (t :: ts) = (tokenEvents env st [t]).bind (fun r =>
      (tokenEvents env r.2 ts).map (fun q => (r.1 ++ q.1, q.2))) := by
  conv => lhs; unfold tokenEvents
  conv => rhs; arg 1; unfold tokenEvents
  split
  · cases h : tokenEvents env st ts <;> simp [tokenEvents, h]
  · split
    · simp [tokenEvents]
    · split
      · cases h : tokenEvents env st ts <;> simp [tokenEvents, h]
      · split
        · simp [tokenEvents, Function.comp_def]
        · simp [tokenEvents, Function.comp_def]
        · split <;> simp [tokenEvents, Function.comp_def]

/-- A whole stream of tokens. -/
theorem consume_ok {B : Base} (hB : B.Ok) {env : Env} {base : List Str} (hbase : base ≠ [] ∨ B.wb ≠ [])
    (ts : List Tok) (ht : ∀ t ∈ ts, t.text.all xmlChar = true) :
    ∀ (o : Out) (evs : List Ev) (top : List (Str × Bool)) (st : List Str), Good o env → Sync B o.w evs top →
      o.w.stack ≠ [] → top.map (·.1) = st ++ base →
      ∀ evs' st', tokenEvents env st ts = some (evs', st') →
      ∃ top', Sync B (o.consume ts).w (evs ++ evs') top' ∧ top'.map (·.1) = st' ++ base ∧
        Good (o.consume ts) env ∧ (o.consume ts).w.stack ≠ [] := by
  induction ts with
  | nil =>
    intro o evs top st hg h hs htop evs' st' hev
    simp only [tokenEvents, Option.some.injEq, Prod.mk.injEq] at hev
    obtain ⟨rfl, rfl⟩ := hev
    exact ⟨top, by simpa [Out.consume] using h, htop, hg, hs⟩
  | cons t ts ih =>
    intro o evs top st hg h hs htop evs' st' hev
    rw [tokenEvents_cons] at hev
    cases h1 : tokenEvents env st [t] with
    | none => simp [h1] at hev
    | some r =>
      obtain ⟨e1, s1⟩ := r
      simp only [h1, Option.bind_some, Option.map_eq_some_iff] at hev
      obtain ⟨⟨e2, s2⟩, h2, heq⟩ := hev
      simp only [Prod.mk.injEq] at heq
      obtain ⟨rfl, rfl⟩ := heq
      obtain ⟨top1, hs1, ht1, hg1, hn1⟩ := outputToken_ok hB hg h hs htop hbase t (ht t (by simp)) h1
      have := ih (fun x hx => ht x (by simp [hx])) (o.outputToken t) _ top1 s1 hg1 hs1 hn1 ht1 e2 s2 h2
      rw [List.append_assoc] at this
      exact this

end Srcml
