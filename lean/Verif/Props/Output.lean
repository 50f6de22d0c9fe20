import Verif.Proofs.Escape
/-
C11-C13, C17, C18 and C55: the XML that is written for tokens and for the start tag of a unit.

`Out` is the output object. The document written for a unit is obtained by `startUnit`, one `outputToken`
per token of the parser (`consume`), and the end of the element. `readXml` (Spec/Xml.lean) is an
independent reader.
-/
set_option linter.unusedSimpArgs false
namespace Srcml
open Spec

/-! ### C11: text -/

/-- C11: source text written between the tags of an element is read back unchanged, for every text of
characters that XML can carry. -/
theorem C11_text_reads_back (t : Str) (h : t.all xmlChar = true) :
    readXml ("<a>".toList ++ processedText t ++ "</a>".toList) =
      some ([.op "a".toList []] ++ t.map .ch ++ [.cl "a".toList]) := by
  rw [processedText_eq t (xmlChar_no_nul h)]
  have h1 : ({} : RState).run "<a>".toList = some ⟨.content, ["a".toList], true, [.op "a".toList []]⟩ := by decide
  have h2 := run_srcText ⟨.content, ["a".toList], true, [.op "a".toList []]⟩ t rfl (by simp) h
  unfold readXml
  rw [List.append_assoc, run_append_some h1, run_append_some h2]
  simp [RState.run, RState.step, RState.closeTag, nameChar]

/-- C11: what is written has no character that could start a tag, and `&` only starts one of three
references. -/
theorem C11_no_markup (t : Str) (h : '\x00' ∉ t) :
    (∀ c ∈ processedText t, c ≠ '<' ∧ c ≠ '>') ∧
    ∀ pre rest, processedText t = pre ++ '&' :: rest →
      "lt;".toList.isPrefixOf rest ∨ "gt;".toList.isPrefixOf rest ∨ "amp;".toList.isPrefixOf rest := by
  rw [processedText_eq t h]
  constructor
  · intro c hc
    obtain ⟨d, _, hd⟩ := List.mem_flatMap.mp hc
    unfold srcEscapeChar at hd
    split at hd
    · revert hd; clear hc; revert c; decide
    · split at hd
      · revert hd; clear hc; revert c; decide
      · split at hd
        · revert hd; clear hc; revert c; decide
        · simp only [List.mem_singleton] at hd; subst hd; constructor <;> assumption
  · clear h
    induction t with
    | nil => intro pre rest e; simp at e
    | cons d ds ih =>
      intro pre rest e
      rw [List.flatMap_cons] at e
      have key : ∀ (s : Str) (w : Str), srcEscapeChar d = '&' :: s → '&' ∉ s →
          (∀ y, w.isPrefixOf (s ++ y) = true) →
          (w.isPrefixOf rest = true) ∨ ∃ pre', ds.flatMap srcEscapeChar = pre' ++ '&' :: rest := by
        intro s w hs hn hw
        rw [hs] at e
        cases pre with
        | nil =>
          simp only [List.nil_append, List.cons_append, List.cons.injEq, true_and] at e
          left; rw [← e]; exact hw _
        | cons x xs =>
          simp only [List.cons_append, List.cons.injEq] at e
          rw [List.append_eq_append_iff] at e
          rcases e.2 with ⟨a, e1, e2⟩ | ⟨a, e1, e2⟩
          · right; exact ⟨a, e2⟩
          · cases a with
            | nil => right; exact ⟨[], by simpa using e2.symm⟩
            | cons y ys =>
              simp only [List.cons_append, List.cons.injEq] at e2
              exfalso; apply hn; rw [e1, ← e2.1]; simp
      by_cases h1 : d = '<'
      · subst h1
        rcases key "lt;".toList "lt;".toList rfl (by decide) (fun y => rfl) with h | ⟨p, h⟩
        · exact Or.inl h
        · exact ih p rest h
      · by_cases h2 : d = '>'
        · subst h2
          rcases key "gt;".toList "gt;".toList rfl (by decide) (fun y => rfl) with h | ⟨p, h⟩
          · exact Or.inr (Or.inl h)
          · exact ih p rest h
        · by_cases h3 : d = '&'
          · subst h3
            rcases key "amp;".toList "amp;".toList rfl (by decide) (fun y => rfl) with h | ⟨p, h⟩
            · exact Or.inr (Or.inr h)
            · exact ih p rest h
          · have hd : srcEscapeChar d = [d] := by simp [srcEscapeChar, h1, h2, h3]
            rw [hd] at e
            cases pre with
            | nil =>
              simp only [List.nil_append, List.cons_append, List.cons.injEq] at e
              exact absurd e.1 h3
            | cons x xs =>
              simp only [List.cons_append, List.cons.injEq, List.nil_append] at e
              exact ih xs rest e.2

/-- C11 is false for a text with a NUL character: the search for markup stops there, and a `<` after it is
written as it is. -/
theorem C11_finding_nul : '<' ∈ processedText "a\x00<b>".toList ∧
    processedText "a\x00<b>".toList = "a\x00<b>".toList := by decide

example : readXml ("<a>".toList ++ processedText "if (a < b && c > d)".toList ++ "</a>".toList) =
    some ([.op "a".toList []] ++ "if (a < b && c > d)".toList.map .ch ++ [.cl "a".toList]) :=
  C11_text_reads_back _ (by decide)

/-! ### C12: the document of a unit -/

/-- The settings of an output object. -/
def Out.env (o : Out) : Env := ⟨prefixOf o.namespaces, isoption o.options OPTION_POSITION⟩

/-- The variables of the thread are as a fresh thread, or one that used the same settings, has them. -/
def Out.ThreadAgrees (o : Out) : Prop :=
  (o.thread.isposition = none ∨ o.thread.isposition = some (isoption o.options OPTION_POSITION)) ∧
  (o.thread.posAttrs = none ∨ o.thread.posAttrs = some (posAttrOpenings o.namespaces))

/-- The document written for a unit. -/
def Out.unitDocument (o : Out) (m : UnitMeta) (ts : List Tok) : Str :=
  ((o.startUnit m false).consume ts).w.endElement.1.out

theorem Sync.read {w : Writer} {evs : List Ev} (h : Sync {} w evs []) (hne : evs ≠ []) :
    readXml w.out = some evs := by
  obtain ⟨s, _, hout, _, _, h⟩ := h
  simp only [List.map_nil, List.nil_append] at h hout
  unfold readXml
  rw [hout]
  have h2 : ({} : RState).run s = _ := h.2
  rw [h2]
  simp [hne]

theorem startUnit_good {o : Out} (hp : CleanPrefixes o.namespaces) (ht : o.ThreadAgrees) (m : UnitMeta) :
    Good (o.startUnit m false) o.env := by
  obtain ⟨f1, f2, f3, f4, f5, f6⟩ := startUnit_fields o m false
  refine ⟨fun p => prefixOf_of_prefixes f3 p, fun p => hp.prefixOf p, by rw [f1]; rfl, ?_, ?_⟩
  · rw [f2]; exact ht.1
  · rw [f2]
    have : posAttrOpenings (o.startUnit m false).namespaces = posAttrOpenings o.namespaces := by
      simp only [posAttrOpenings, prefixOf_of_prefixes f3]
    rw [this]; exact ht.2

/-- C12: the document written for a unit reads back as the unit element with its attributes, inside it the
events of the tokens (`tokenEvents`), and nothing else. Holds for every stream of tokens of legal
characters that closes what it opens and no more. -/
theorem C12_unit_document_partial (o : Out) (m : UnitMeta) (ts : List Tok) (evs : List Ev)
    (hw : o.w = {}) (hp : CleanPrefixes o.namespaces) (hm : CleanMeta m) (ht : o.ThreadAgrees)
    (htext : ∀ t ∈ ts, t.text.all xmlChar = true)
    (hev : tokenEvents o.env [] ts = some (evs, [])) :
    readXml (o.unitDocument m ts) = some (.op o.unitName (o.tagAttrs m) :: evs ++ [.cl o.unitName]) := by
  have h0 : Sync {} o.w [] [] := Sync.init {} Base.ok_init _ (by rw [hw]) (by rw [hw]) (by rw [hw])
  have h1 := startUnit_ok Base.ok_init h0 m (Or.inr ⟨rfl, rfl⟩) (unitName_valid hp) (tagAttrs_valid hp hm)
    (tagAttrs_nodup hp hm)
  have hs : (o.startUnit m false).w.stack ≠ [] := by rw [h1.stack]; simp
  obtain ⟨top', h2, htop, _, _⟩ := consume_ok Base.ok_init (base := [o.unitName]) (Or.inl (by simp)) ts htext
    (o.startUnit m false) _ _ [] (startUnit_good hp ht m) h1 hs (by simp [closedTop]) evs [] hev
  match top', htop, h2 with
  | [(n, b)], htop, h2 =>
    have hn : n = o.unitName := by simpa using htop
    subst hn
    have h3 := (h2.endElement Base.ok_init).1
    have := h3.read (by simp)
    simpa [Out.unitDocument] using this

theorem tokenEvents_append (env : Env) (a b : List Tok) (st : List Str) :
    tokenEvents env st (a ++ b) = (tokenEvents env st a).bind (fun r =>
      (tokenEvents env r.2 b).map (fun q => (r.1 ++ q.1, q.2))) := by
  induction a generalizing st with
  | nil => cases h : tokenEvents env st b <;> simp [tokenEvents, h]
  | cons t ts ih =>
    rw [List.cons_append, tokenEvents_cons, tokenEvents_cons env st t ts]
    cases h : tokenEvents env st [t] with
    | none => rfl
    | some r =>
      simp only [Option.bind_some, ih]
      cases h2 : tokenEvents env r.2 ts with
      | none => rfl
      | some q =>
        simp only [Option.bind_some, Option.map_some]
        cases h3 : tokenEvents env q.2 b <;> simp

/-- C12: a balanced stream closes exactly what it opens. -/
theorem C12_balanced (env : Env) (ts : List Tok) (h : Balanced ts) (st : List Str) :
    ∃ evs, tokenEvents env st ts = some (evs, st) := by
  induction h generalizing st with
  | nil => exact ⟨[], rfl⟩
  | text t ts ht _ ih =>
    obtain ⟨evs, he⟩ := ih st
    unfold tokenEvents
    rcases ht with ht | ht
    · split
      · exact ⟨evs, he⟩
      · cases hf : elementOf t.type with
        | none => exact ⟨_, by simp only [he]; rfl⟩
        | some e => rw [hf] at ht; cases ht
    · rw [if_pos ht]; exact ⟨evs, he⟩
  | empty t ts ht _ ih =>
    obtain ⟨evs, he⟩ := ih st
    unfold tokenEvents
    split
    · exact ⟨evs, he⟩
    · cases hf : elementOf t.type with
      | none => exact ⟨_, by simp only [he]; rfl⟩
      | some e =>
        simp only []
        split
        · exact ⟨evs, he⟩
        · rw [ht]; exact ⟨_, by simp only [he]; rfl⟩
  | element s e inner ts hs he hty _ _ ih1 ih2 =>
    obtain ⟨ev2, h2⟩ := ih2 st
    rw [List.cons_append]
    unfold tokenEvents
    have hend : ∀ (x : Str) (st' : List Str) (nm : Element), elementOf e.type = some nm → nm.name ≠ [] →
        e.type ≠ chars! "SUNIT" →
        tokenEvents env (x :: st') [e] = some ([.cl x], st') := by
      intro x st' nm h1 h3 h4
      unfold tokenEvents
      rw [if_neg h4, h1]
      simp only [h3, if_false, he]
      rfl
    split
    · rename_i hsu
      rw [hty] at hsu
      obtain ⟨ev1, h1⟩ := ih1 st
      rw [tokenEvents_append, h1]
      have : tokenEvents env st (e :: ts) = some (ev2, st) := by
        unfold tokenEvents; rw [if_pos hsu]; exact h2
      simp only [Option.bind_some, this]
      exact ⟨_, rfl⟩
    · rename_i hsu
      rw [hty] at hsu
      cases hf : elementOf s.type with
      | none =>
        rw [hty] at hf
        obtain ⟨ev1, h1⟩ := ih1 st
        simp only []
        rw [tokenEvents_append, h1]
        have : tokenEvents env st (e :: ts) = some (e.text.map .ch ++ ev2, st) := by
          unfold tokenEvents; rw [if_neg hsu, hf]; simp only [h2]; rfl
        simp only [Option.bind_some, this]
        exact ⟨_, rfl⟩
      | some nm =>
        rw [hty] at hf
        simp only []
        split
        · rename_i hnm
          obtain ⟨ev1, h1⟩ := ih1 st
          rw [tokenEvents_append, h1]
          have : tokenEvents env st (e :: ts) = some (ev2, st) := by
            unfold tokenEvents; rw [if_neg hsu, hf]; simp only [hnm, if_true]; exact h2
          simp only [Option.bind_some, this]
          exact ⟨_, rfl⟩
        · rename_i hnm
          rw [hs]
          simp only []
          obtain ⟨ev1, h1⟩ := ih1 (elementName env nm :: st)
          rw [tokenEvents_append, h1]
          simp only [Option.bind_some]
          rw [tokenEvents_cons, hend _ st nm hf hnm hsu]
          simp only [Option.bind_some, h2]
          exact ⟨_, rfl⟩

theorem evText_append (a b : List Ev) : evText (a ++ b) = evText a ++ evText b := by
  simp [evText, List.filterMap_append]

theorem evText_chars (s : Str) : evText (s.map .ch) = s := by
  induction s with
  | nil => rfl
  | cons c cs ih => simp only [evText, List.map_cons, List.filterMap_cons] at ih ⊢; rw [ih]

/-- C12: the text of the document is the text of the tokens that are not elements, in order. -/
theorem C12_text (env : Env) (ts : List Tok) (st st' : List Str) (evs : List Ev)
    (h : tokenEvents env st ts = some (evs, st')) : evText evs = tokenText ts := by
  have opd : ∀ n as (es : List Ev), evText (.op n as :: es) = evText es := fun _ _ _ => rfl
  have cld : ∀ n (es : List Ev), evText (.cl n :: es) = evText es := fun _ _ => rfl
  induction ts generalizing st evs with
  | nil => simp only [tokenEvents, Option.some.injEq, Prod.mk.injEq] at h; rw [← h.1]; rfl
  | cons t ts ih =>
    unfold tokenEvents at h
    split at h
    · rename_i hu
      rw [ih st evs h]
      simp [tokenText, hu]
    · rename_i hu
      cases hf : elementOf t.type with
      | none =>
        rw [hf] at h
        simp only [Option.map_eq_some_iff] at h
        obtain ⟨⟨e1, s1⟩, h1, h2⟩ := h
        simp only [Prod.mk.injEq] at h2
        rw [← h2.1, evText_append, evText_chars, ih st e1 (by rw [h1]; rw [h2.2])]
        simp [tokenText, hu, hf]
      | some e =>
        rw [hf] at h
        simp only [] at h
        have hskip : tokenText (t :: ts) = tokenText ts := by simp [tokenText, hf]
        rw [hskip]
        split at h
        · exact ih st evs h
        · cases hc : t.category <;> rw [hc] at h <;> simp only [Option.map_eq_some_iff] at h
          · cases st with
            | nil => cases h
            | cons n st =>
              simp only [Option.map_eq_some_iff] at h
              obtain ⟨⟨e1, s1⟩, h1, h2⟩ := h
              simp only [Prod.mk.injEq] at h2
              rw [← h2.1, cld, ih st e1 (by rw [h1]; rw [h2.2])]
          · obtain ⟨⟨e1, s1⟩, h1, h2⟩ := h
            simp only [Prod.mk.injEq] at h2
            rw [← h2.1, opd, ih _ e1 (by rw [h1]; rw [h2.2])]
          · cases st with
            | nil => cases h
            | cons n st =>
              simp only [Option.map_eq_some_iff] at h
              obtain ⟨⟨e1, s1⟩, h1, h2⟩ := h
              simp only [Prod.mk.injEq] at h2
              rw [← h2.1, cld, ih st e1 (by rw [h1]; rw [h2.2])]
          · obtain ⟨⟨e1, s1⟩, h1, h2⟩ := h
            simp only [Prod.mk.injEq] at h2
            rw [← h2.1, opd, cld, ih st e1 (by rw [h1]; rw [h2.2])]

/-- C12, all together: for every balanced stream of tokens the document is well formed, it is one unit
element, and its text is the text of the tokens. -/
theorem C12_balanced_document (o : Out) (m : UnitMeta) (ts : List Tok) (hb : Balanced ts)
    (hw : o.w = {}) (hp : CleanPrefixes o.namespaces) (hm : CleanMeta m) (ht : o.ThreadAgrees)
    (htext : ∀ t ∈ ts, t.text.all xmlChar = true) :
    ∃ attrs inner, readXml (o.unitDocument m ts) = some (.op o.unitName attrs :: inner ++ [.cl o.unitName]) ∧
      evText inner = tokenText ts := by
  obtain ⟨evs, he⟩ := C12_balanced o.env ts hb []
  exact ⟨_, evs, C12_unit_document_partial o m ts evs hw hp hm ht htext he, C12_text _ _ _ _ _ he⟩

/-- An output object as created for a unit. -/
def sampleOut : Out := ({ options := OPTION_DEFAULT_INTERNAL : Out }).initNamespaces startingNamespaces

/-- The tokens of `a<b;` as the parser may mark them up. -/
def sampleTokens : List Tok :=
  [{ type := chars! "SEXPRESSION_STATEMENT", category := .start }, { type := chars! "SEXPRESSION", category := .start },
   { type := chars! "SNAME", category := .start }, { type := "NAME".toList, text := "a".toList },
   { type := chars! "SNAME", category := .end_ }, { type := "TEMPOPS".toList, text := "<".toList },
   { type := "NAME".toList, text := "b".toList }, { type := chars! "SEXPRESSION", category := .end_ },
   { type := "TERMINATE".toList, text := ";".toList }, { type := chars! "SEXPRESSION_STATEMENT", category := .end_ }]

theorem sample_prefixes : CleanPrefixes sampleOut.namespaces := by
  have : sampleOut.namespaces = defaultNamespaces := by decide +kernel
  rw [this]
  constructor <;> decide +kernel

theorem sample_meta : CleanMeta { language := some "C++".toList, filename := some "a&b.cpp".toList } := by
  refine ⟨?_, by simp [attrPairs], by simp [attrPairs], by simp [attrPairs]⟩
  intro v hv
  simp only [List.mem_cons, List.not_mem_nil, or_false, Option.some.injEq, reduceCtorEq, false_or] at hv
  rcases hv with rfl | rfl <;> decide

example : readXml (sampleOut.unitDocument { language := some "C++".toList, filename := some "a&b.cpp".toList } sampleTokens) =
    some [.op "unit".toList [("xmlns".toList, SRC_NS_URI), ("language".toList, "C++".toList), ("filename".toList, "a&b.cpp".toList)],
      .op "expr_stmt".toList [], .op "expr".toList [], .op "name".toList [], .ch 'a', .cl "name".toList, .ch '<', .ch 'b',
      .cl "expr".toList, .ch ';', .cl "expr_stmt".toList, .cl "unit".toList] := by
  rw [C12_unit_document_partial sampleOut _ sampleTokens [.op "expr_stmt".toList [], .op "expr".toList [], .op "name".toList [],
    .ch 'a', .cl "name".toList, .ch '<', .ch 'b', .cl "expr".toList, .ch ';', .cl "expr_stmt".toList] rfl
    sample_prefixes sample_meta ⟨Or.inl rfl, Or.inl rfl⟩ (by decide) (by decide +kernel)]
  decide +kernel

/-- C12 is false for a stream with one end token too many: it closes the unit itself, and the rest of the
text is outside of the document element. -/
theorem C12_finding_extra_end : readXml (sampleOut.unitDocument {}
    [{ type := chars! "SNAME", category := .end_ }, { type := "NAME".toList, text := "a".toList }]) = none := by
  decide +kernel

/-- C12 is false for a stream that leaves an element open: ending the unit closes that element, and the
unit stays open. -/
theorem C12_finding_missing_end : readXml (sampleOut.unitDocument {}
    [{ type := chars! "SNAME", category := .start }, { type := "NAME".toList, text := "a".toList }]) = none := by
  decide +kernel

end Srcml
