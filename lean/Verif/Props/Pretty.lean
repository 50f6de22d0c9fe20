import Verif.Model.Pretty
import Verif.Spec.Pretty
/-
C49: formatted metadata output.
-/
set_option linter.unusedSimpArgs false
namespace Srcml
open Spec

/-- A format with every field replaced by `%s`. -/
def plainFormat (ns : Nat) (ps : List FormatPiece) : Str := ps.flatMap fun
  | .char c => [c]
  | .percent => ['%', '%']
  | .field n => if n.head? = some 'N' then expand_namespace [' '] ns else ['%', 's']

theorem parse_nil (al : Str) (ns : Nat) : parse_templates al ns [] = some ([], []) := by
  rw [parse_templates.eq_def]

theorem parse_char (al : Str) (ns : Nat) (c : Char) (r : Str) (h : c ≠ '%') :
    parse_templates al ns (c :: r) = (parse_templates al ns r).map fun x => (c :: x.1, x.2) := by
  rw [parse_templates.eq_def]
  split
  · simp_all
  · simp_all
  · simp_all

theorem parse_skip (al : Str) (ns : Nat) (r : Str) (h : ∀ c, r.head? = some c → c = '%' ∨ c = 's') :
    parse_templates al ns ('%' :: r) = (parse_templates al ns r).map fun x => ('%' :: x.1, x.2) := by
  cases r with
  | nil => rw [parse_templates.eq_def]; rfl
  | cons d r =>
    have := h d rfl
    rw [parse_templates.eq_def]
    simp only [if_pos this]

theorem parse_field (al : Str) (ns : Nat) (d : Char) (r : Str) (h1 : d ≠ '%') (h2 : d ≠ 's') (h3 : d ≠ 'N')
    (h : d ∈ al) : parse_templates al ns ('%' :: d :: r) =
      (parse_templates al ns r).map fun x => ('%' :: 's' :: x.1, [d] :: x.2) := by
  rw [parse_templates.eq_def]
  simp only [h1, h2, h3, or_self, if_false, h, not_true_eq_false]

theorem parse_namespace (al : Str) (ns : Nat) (r : Str) (hn : ns ≠ 0) (h : 'N' ∈ al) :
    parse_templates al ns ('%' :: 'N' :: r) = (parse_templates al ns (namespaceField r).2).map fun x =>
        (expand_namespace [' '] ns ++ x.1, (namespaceField r).1 :: x.2) := by
  rw [parse_templates.eq_def]
  simp only [h, not_true_eq_false, if_false, if_true, hn]
  simp

/-- The first letters of names are in the list of the section, and the names are of the known forms. -/
def NamesIn (al : Str) (names : List Str) : Prop :=
  ∀ n ∈ names, (∃ d, n = [d] ∧ d ≠ '%' ∧ d ≠ 's' ∧ d ≠ 'N' ∧ d ∈ al) ∨
    ('N' ∈ al ∧ (n = ['N'] ∨ n = ['N', ':', 'u'] ∨ n = ['N', ':', 'p']))

theorem parse_pieces (al : Str) (names : List Str) (hal : NamesIn al names) (ns : Nat) (hn : ns ≠ 0)
    (ps : List FormatPiece) (h : WellFormed names ps) :
    parse_templates al ns (formatText ps) = some (plainFormat ns ps, fields ps) := by
  induction ps with
  | nil => exact parse_nil _ _
  | cons p ps ih =>
    cases p with
    | char c =>
      obtain ⟨hc, h⟩ := h
      have : formatText (.char c :: ps) = c :: formatText ps := rfl
      rw [this, parse_char _ _ _ _ hc, ih h]
      simp [plainFormat, fields]
    | percent =>
      obtain ⟨hc, h⟩ := h
      have : formatText (.percent :: ps) = '%' :: '%' :: formatText ps := rfl
      rw [this, parse_skip _ _ _ (by simp), parse_skip _ _ _ hc, ih h]
      simp [plainFormat, fields]
    | field n =>
      obtain ⟨hm, hs, h⟩ := h
      have : formatText (.field n :: ps) = '%' :: (n ++ formatText ps) := rfl
      rw [this]
      rcases hal n hm with ⟨d, rfl, h1, h2, h3, h4⟩ | ⟨hN, hn'⟩
      · rw [List.singleton_append, parse_field _ _ _ _ h1 h2 h3 h4, ih h]
        simp [plainFormat, fields, h3]
      · have hd : n.head? = some 'N' := by rcases hn' with rfl | rfl | rfl <;> rfl
        obtain ⟨s1, s2⟩ := hs hd
        have key : ∃ r, n ++ formatText ps = 'N' :: r ∧ namespaceField r = (n, formatText ps) := by
          rcases hn' with rfl | rfl | rfl
          · exact ⟨_, rfl, by simp [namespaceField, s1, s2]⟩
          · exact ⟨_, rfl, by simp [namespaceField, s1, s2]⟩
          · exact ⟨_, rfl, by simp [namespaceField, s1, s2]⟩
        obtain ⟨r, hr, hf⟩ := key
        rw [hr, parse_namespace _ _ _ hn hN, hf, ih h]
        simp [plainFormat, fields, hd]

theorem print_char (c : Char) (h : c ≠ '%') (r : Str) (args : List Str) (o : Str)
    (hr : pretty_print r args = .val o) : pretty_print (c :: r) args = .val (c :: o) := by
  rw [pretty_print.eq_def]
  split <;> simp_all <;> rfl

theorem print_percent (r : Str) (args : List Str) (o : Str)
    (hr : pretty_print r args = .val o) : pretty_print ('%' :: '%' :: r) args = .val ('%' :: o) := by
  rw [pretty_print.eq_def]
  simp only [if_true, hr]; rfl

theorem print_field (r : Str) (v : Str) (args : List Str) (o : Str)
    (hr : pretty_print r args = .val o) : pretty_print ('%' :: 's' :: r) (v :: args) = .val (v ++ o) := by
  rw [pretty_print.eq_def]
  simp [hr]; rfl

theorem print_expand (vs : List Str) (hv : vs ≠ []) (r : Str) (args : List Str) (o : Str)
    (hr : pretty_print r args = .val o) :
    pretty_print (expand_namespace [' '] vs.length ++ r) (vs ++ args) = .val (spaced vs ++ o) := by
  induction vs with
  | nil => exact absurd rfl hv
  | cons v vs ih =>
    cases vs with
    | nil => exact print_field _ _ _ _ hr
    | cons w vs =>
      have := print_field _ v _ _ (print_char ' ' (by decide) _ _ _ (ih (by simp)))
      simpa [expand_namespace, spaced] using this

theorem print_pieces (names : List Str) (ns : Nat) (hn : ns ≠ 0) (params : Str → List Str) (value : Str → Str)
    (ps : List FormatPiece) (h : WellFormed names ps)
    (hp : ∀ n ∈ fields ps, value n = spaced (params n) ∧ (params n).length = if n.head? = some 'N' then ns else 1) :
    pretty_print (plainFormat ns ps) ((fields ps).flatMap params) = .val (printed value ps) := by
  induction ps with
  | nil => rfl
  | cons p ps ih =>
    cases p with
    | char c => exact print_char c h.1 _ _ _ (ih h.2 hp)
    | percent => exact print_percent _ _ _ (ih h.2 hp)
    | field n =>
      have h1 := hp n (by simp [fields])
      have ih := ih h.2.2 (fun m hm => hp m (by simp [fields] at hm ⊢; exact .inr hm))
      have e1 : (fields (.field n :: ps)).flatMap params = params n ++ (fields ps).flatMap params := by
        simp [fields]
      have e2 : printed value (.field n :: ps) = value n ++ printed value ps := by simp [printed]
      rw [e1, e2, h1.1]
      by_cases hN : n.head? = some 'N'
      · have e3 : plainFormat ns (.field n :: ps) = expand_namespace [' '] (params n).length ++ plainFormat ns ps := by
          simp [plainFormat, hN, h1.2]
        rw [e3]
        have hl : (params n).length ≠ 0 := by rw [h1.2, if_pos hN]; exact hn
        exact print_expand _ (by intro he; rw [he] at hl; simp at hl) _ _ _ ih
      · have e3 : plainFormat ns (.field n :: ps) = '%' :: 's' :: plainFormat ns ps := by
          simp [plainFormat, hN]
        rw [e3]
        have hl : (params n).length = 1 := by rw [h1.2, if_neg hN]
        match hpn : params n, hl with
        | [v], _ => exact print_field _ _ _ _ ih

theorem findFirst_after (c : Char) (l r : Str) (h : c ∉ l) : findFirst c (l ++ c :: r) = some l.length := by
  induction l with
  | nil => simp [findFirst]
  | cons x l ih =>
    have : x ≠ c := fun e => h (by simp [e])
    simp [findFirst, this, ih (fun hm => h (by simp [hm]))]

theorem findFirst_absent (c : Char) (l : Str) (h : c ∉ l) : findFirst c l = none := by
  induction l with
  | nil => rfl
  | cons x l ih =>
    have : x ≠ c := fun e => h (by simp [e])
    simp [findFirst, this, ih (fun hm => h (by simp [hm]))]

theorem split_sections (stray : Run Char) (H B F : Str) (h1 : '{' ∉ H) (h2 : '}' ∉ H) (h3 : '}' ∉ B) :
    split_template_sections stray (H ++ " { ".toList ++ B ++ " } ".toList ++ F) =
      .val (some ⟨some H, some B, some F⟩) := by
  have e1 : H ++ " { ".toList ++ B ++ " } ".toList ++ F = (H ++ [' ']) ++ '{' :: ([' '] ++ B ++ [' ', '}', ' '] ++ F) := by
    simp
  have e2 : H ++ " { ".toList ++ B ++ " } ".toList ++ F = (H ++ [' ', '{', ' '] ++ B ++ [' ']) ++ '}' :: ([' '] ++ F) := by
    simp
  have p1 : findFirst '{' (H ++ " { ".toList ++ B ++ " } ".toList ++ F) = some (H.length + 1) := by
    rw [e1, findFirst_after _ _ _ (by simp [h1])]; simp
  have p2 : findFirst '}' (H ++ " { ".toList ++ B ++ " } ".toList ++ F) = some (H.length + B.length + 4) := by
    rw [e2, findFirst_after _ _ _ (by simp [h2, h3])]; simp; omega
  have c1 : charBefore stray (H ++ " { ".toList ++ B ++ " } ".toList ++ F) (some (H.length + 1)) = .val (some ' ') := by
    simp [charBefore]
  have c2 : charBefore stray (H ++ " { ".toList ++ B ++ " } ".toList ++ F) (some (H.length + B.length + 4)) =
      .val (some ' ') := by
    have : (H ++ [' ', '{', ' '] ++ B).length = H.length + B.length + 3 := by simp; omega
    rw [e2]
    simp only [charBefore]
    rw [List.append_assoc (H ++ [' ', '{', ' '] ++ B), List.getElem?_append_right (by omega), this]
    simp
  unfold split_template_sections
  simp only [p1, p2, c2]
  have d1 : List.drop (H.length + 3) (H ++ " { ".toList ++ B ++ " } ".toList ++ F) = B ++ " } ".toList ++ F := by
    have : (H ++ " { ".toList ++ B ++ " } ".toList ++ F) = (H ++ " { ".toList) ++ (B ++ " } ".toList ++ F) := by simp
    rw [this, List.drop_left' (by simp)]
  have d2 : List.drop (H.length + B.length + 6) (H ++ " { ".toList ++ B ++ " } ".toList ++ F) = F := by
    rw [List.drop_left' (by simp; omega)]
  have d3 : List.take (H.length) (H ++ " { ".toList ++ B ++ " } ".toList ++ F) = H := by
    simp
  have hd : ¬ (H.length + B.length + 4 + 2 > (H ++ " { ".toList ++ B ++ " } ".toList ++ F).length) := by simp; omega
  simp only [bind, Run.bind, pure]
  split
  · rename_i h _; cases h
  · rename_i h _; cases h
  · simp only [c1]
    split
    · rename_i h _; cases h
    · rename_i h _; cases h
    · simp only [Run.val.injEq, Option.some.injEq, PrettyTemplate.mk.injEq]
      refine ⟨?_, ?_, ?_⟩
      · simp only [Nat.add_sub_cancel, Nat.zero_lt_succ, gt_iff_lt, if_true, d3]
      · rw [if_pos (by omega), if_neg (by omega), d1]
        have : H.length + B.length + 4 - (H.length + 1) - 3 = B.length := by omega
        rw [this]; simp
      · rw [if_neg hd, d2]

theorem split_plain (c : Char) (hc : c ≠ '%') (B : Str) (h1 : '{' ∉ B) (h2 : '}' ∉ B) :
    split_template_sections (.val c) B = .val (some { body := some B }) := by
  unfold split_template_sections
  simp only [findFirst_absent _ _ h1, findFirst_absent _ _ h2, charBefore, bind, Run.bind, pure]
  split
  · simp_all
  · simp_all
  · split <;> simp_all

theorem header_names : NamesIn valid_header_args headerFields := by
  intro n hn
  simp [headerFields] at hn
  rcases hn with rfl | rfl | rfl | rfl <;> simp [valid_header_args]

theorem body_names : NamesIn valid_body_args bodyFields := by
  intro n hn
  simp [bodyFields] at hn
  rcases hn with rfl | rfl | rfl | rfl | rfl | rfl | rfl | rfl | rfl | rfl | rfl | rfl | rfl <;> simp [valid_body_args]

theorem footer_names : NamesIn valid_footer_args footerFields := by
  intro n hn
  simp [footerFields] at hn
  rcases hn with rfl | rfl | rfl | rfl | rfl <;> simp [valid_footer_args]

theorem WellFormed_fields (names : List Str) (ps : List FormatPiece) (h : WellFormed names ps) : ∀ n ∈ fields ps, n ∈ names := by
  induction ps with
  | nil => simp [fields]
  | cons p ps ih =>
    cases p with
    | char c => exact ih h.2
    | percent => exact ih h.2
    | field n =>
      intro m hm
      simp only [fields, List.filterMap_cons, List.mem_cons] at hm
      rcases hm with rfl | hm
      · exact h.1
      · exact ih h.2.2 m hm

/-- A section with parameters for its fields prints what it should. -/
theorem section_shown (names : List Str) (ns : Nat) (hn : ns ≠ 0) (params : Nat → Str → List Str)
    (value : Str → Option Str)
    (hp : ∀ n ∈ names, ∀ k, match value n with
      | some v => v = spaced (params k n) ∧ (params k n).length = (if n.head? = some 'N' then ns else 1)
      | none => params k n = (if k > 1 then [[]] else []) ∧ n.head? ≠ some 'N')
    (ps : List FormatPiece) (h : WellFormed names ps) :
    printSection (plainFormat ns ps) ((fields ps).flatMap (params (fields ps).length)) = .val (shown value ps) := by
  have hm := WellFormed_fields names ps h
  have hpos : ∀ n ∈ fields ps, (value n ≠ none ∨ (fields ps).length > 1) → (value n).getD [] = spaced (params (fields ps).length n) ∧
      (params (fields ps).length n).length = if n.head? = some 'N' then ns else 1 := by
    intro n hnf ho
    have := hp n (hm n hnf) (fields ps).length
    cases hv : value n with
    | some v => rw [hv] at this; simpa using this
    | none =>
      rw [hv] at this ho
      have hk : (fields ps).length > 1 := by simpa using ho
      rw [if_pos hk] at this
      simp [this.1, this.2, spaced]
  have pr : fields ps ≠ [] → (∀ n ∈ fields ps, value n ≠ none ∨ (fields ps).length > 1) →
      printSection (plainFormat ns ps) ((fields ps).flatMap (params (fields ps).length)) =
        .val (printed (fun n => (value n).getD []) ps) := by
    intro hne hall
    have h1 : (fields ps).flatMap (params (fields ps).length) ≠ [] := by
      obtain ⟨m, hmem⟩ := List.exists_mem_of_ne_nil _ hne
      intro he
      have h2 := List.flatMap_eq_nil_iff.1 he m hmem
      have h3 := (hpos m hmem (hall m hmem)).2
      rw [h2] at h3
      split at h3 <;> simp at h3
      exact hn h3.symm
    rw [printSection, if_neg h1]
    exact print_pieces names ns hn _ _ ps h (fun n hnf => hpos n hnf (hall n hnf))
  unfold shown
  split
  · rename_i hf; simp [hf, printSection]
  · rename_i m hf
    by_cases hv : value m = none
    · rw [if_pos hv]
      have := hp m (hm m (by simp [hf])) 1
      rw [hv] at this
      simp [hf, printSection, this.1]
    · rw [if_neg hv]
      exact pr (by simp [hf]) (by rw [hf]; intro n hn'; simp at hn'; exact .inl (hn' ▸ hv))
  · rename_i h0 h1
    refine pr h0 (fun n _ => .inr ?_)
    match hf : fields ps with
    | [] => exact absurd hf h0
    | [x] => exact absurd hf (h1 x)
    | _ :: _ :: _ => simp

theorem nsShown_eq (n : Namespace) : nsShown n =
    if n.prefix_ = [] then chars! "xmlns=" ++ n.uri else chars! "xmlns:" ++ n.prefix_ ++ ['='] ++ n.uri := by
  unfold nsShown; split <;> simp

theorem header_section (a : Archive) (ns : Nat) (hn : ns ≠ 0) (ps : List FormatPiece) (h : WellFormed headerFields ps) :
    printSection (plainFormat ns ps) ((fields ps).flatMap (plainParam a none (fields ps).length)) =
      .val (shown (archiveValue a) ps) := by
  refine section_shown headerFields ns hn (plainParam a none) _ ?_ ps h
  intro n hm k
  simp [headerFields] at hm
  rcases hm with rfl | rfl | rfl | rfl <;> simp only [archiveValue, plainParam, acquire_metadata] <;>
    (split <;> simp_all [spaced])

theorem body_section (a : Archive) (u : UnitData) (i : Nat) (hn : a.namespaces ≠ []) (ps : List FormatPiece)
    (h : WellFormed bodyFields ps) :
    printSection (plainFormat a.namespaces.length ps) (bodyParams a u i (fields ps)) =
      .val (shown (unitValue a u i) ps) := by
  refine section_shown bodyFields _ (by simpa using hn) (fun k arg => bodyParamsOf a u i k arg) _ ?_ ps h
  intro n hm k
  have hplain : ∀ n, unitValue a u i n = acquire_metadata a (some u) n →
      bodyParamsOf a u i k n = plainParam a (some u) k n → n.head? ≠ some 'N' →
      match unitValue a u i n with
      | some v => v = spaced (bodyParamsOf a u i k n) ∧
          (bodyParamsOf a u i k n).length = (if n.head? = some 'N' then a.namespaces.length else 1)
      | none => bodyParamsOf a u i k n = (if k > 1 then [[]] else []) ∧ n.head? ≠ some 'N' := by
    intro n h1 h2 h3
    rw [h1, h2, plainParam]
    cases acquire_metadata a (some u) n <;> simp [spaced, h3]
  have hN : bodyParamsOf a u i k ['N'] = a.namespaces.map nsShown := by
    rw [show nsShown = _ from funext nsShown_eq]; rfl
  simp [bodyFields] at hm
  rcases hm with rfl | rfl | rfl | rfl | rfl | rfl | rfl | rfl | rfl | rfl | rfl | rfl | rfl
  · exact hplain _ rfl rfl (by decide)
  · exact hplain _ rfl rfl (by decide)
  · exact ⟨rfl, rfl⟩
  · exact hplain _ rfl rfl (by decide)
  · simp only [unitValue, hN]; simp
  · refine ⟨rfl, ?_⟩
    show (a.namespaces.map _).length = _
    simp
  · refine ⟨rfl, ?_⟩
    show (a.namespaces.map _).length = _
    simp
  · exact hplain _ rfl rfl (by decide)
  · exact hplain _ rfl rfl (by decide)
  · exact hplain _ rfl rfl (by decide)
  · exact hplain _ rfl rfl (by decide)
  · exact hplain _ rfl rfl (by decide)
  · exact hplain _ rfl rfl (by decide)

theorem footer_section (a : Archive) (count ns : Nat) (hn : ns ≠ 0) (ps : List FormatPiece)
    (h : WellFormed footerFields ps) :
    printSection (plainFormat ns ps) (footerParams a count (fields ps)) =
      .val (shown (footerValue a (count + 1)) ps) := by
  refine section_shown footerFields ns hn (fun k arg => if arg = ['C'] then [(toString (count + 1)).toList] else
    plainParam a none k arg) _ ?_ ps h
  intro n hm k
  simp [footerFields] at hm
  rcases hm with rfl | rfl | rfl | rfl | rfl <;> simp only [footerValue, archiveValue, plainParam, acquire_metadata] <;>
    first
    | (simp [spaced]; done)
    | (split <;> simp_all [spaced])

theorem printUnits_shown (a : Archive) (hn : a.namespaces ≠ []) (ps : List FormatPiece) (h : WellFormed bodyFields ps)
    (us : List UnitData) (i : Nat) :
    printUnits a (plainFormat a.namespaces.length ps) (fields ps) i us =
      .val ((us.zipIdx i).flatMap fun x => shown (unitValue a x.1 x.2) ps) := by
  induction us generalizing i with
  | nil => rfl
  | cons u us ih =>
    rw [printUnits, body_section a u i hn ps h, ih]
    simp [bind, Run.bind, pure]

/-- **C49** (partial: the forms of `WellFormed`; a section without fields, or with one field that is not set, is not
printed). The header is printed once, then the body for each unit in order, then the footer, every field replaced by its
value. -/
theorem C49_sections_partial (stray : Run Char) (a : Archive) (hn : a.namespaces ≠ []) (H B F : List FormatPiece)
    (hH : WellFormed headerFields H) (hB : WellFormed bodyFields B) (hF : WellFormed footerFields F)
    (h1 : '{' ∉ formatText H) (h2 : '}' ∉ formatText H) (h3 : '}' ∉ formatText B)
    (unit_num : Int) (xml : Bool) (hsel : unit_num ≤ 0 ∨ xml = true) (us : List UnitData) (hus : us ≠ [] ∨ F = []) :
    srcml_pretty stray a (formatText H ++ " { ".toList ++ formatText B ++ " } ".toList ++ formatText F) unit_num xml us =
      .val (shown (archiveValue a) H ++ (us.zipIdx.flatMap fun x => shown (unitValue a x.1 x.2) B) ++
        shown (footerValue a us.length) F, 0) := by
  have hl : a.namespaces.length ≠ 0 := by simpa using hn
  have hs : (decide (unit_num > 0) && !xml) = false := by
    rcases hsel with h | h
    · simp; intro h'; omega
    · simp [h]
  have hf : printSection (plainFormat a.namespaces.length F) (footerParams a (us.length - 1) (fields F)) = .val (shown (footerValue a us.length) F) := by
    rcases hus with hus | rfl
    · have hlen : us.length - 1 + 1 = us.length := by
        have : us.length ≠ 0 := by simpa using hus
        omega
      have hf := footer_section a (us.length - 1) _ hl F hF
      rw [hlen] at hf
      exact hf
    · rfl
  unfold srcml_pretty
  rw [split_sections stray _ _ _ h1 h2 h3]
  simp only [bind, Run.bind, Option.getD_some, parseSection, parse_pieces _ _ header_names _ hl _ hH,
    parse_pieces _ _ body_names _ hl _ hB, parse_pieces _ _ footer_names _ hl _ hF, Option.map_some, display_template,
    header_section a _ hl H hH, hs, printUnits_shown a hn B hB us 0, Option.isSome_some, if_true, hf, pure]
  simp [hf]

/-- **C49** (partial, as above) A format without braces is printed for each unit; here the character in front of the
format in memory, which the code reads, is taken not to be a percent sign. -/
theorem C49_units_partial (c : Char) (hc : c ≠ '%') (a : Archive) (hn : a.namespaces ≠ []) (B : List FormatPiece)
    (hB : WellFormed bodyFields B) (h1 : '{' ∉ formatText B) (h2 : '}' ∉ formatText B)
    (unit_num : Int) (xml : Bool) (hsel : unit_num ≤ 0 ∨ xml = true) (us : List UnitData) :
    srcml_pretty (.val c) a (formatText B) unit_num xml us =
      .val (us.zipIdx.flatMap fun x => shown (unitValue a x.1 x.2) B, 0) := by
  have hl : a.namespaces.length ≠ 0 := by simpa using hn
  have hs : (decide (unit_num > 0) && !xml) = false := by
    rcases hsel with h | h
    · simp; intro h'; omega
    · simp [h]
  unfold srcml_pretty
  rw [split_plain c hc _ h1 h2]
  simp only [bind, Run.bind, Option.getD_some, parseSection,
    parse_pieces _ _ body_names _ hl _ hB, Option.map_some, display_template, hs, printUnits_shown a hn B hB us 0, pure]
  simp

/-- A case that meets the hypotheses: two units, a header, a body with a doubled percent sign and a footer. -/
example : ∃ (H B F : List FormatPiece), WellFormed headerFields H ∧ WellFormed bodyFields B ∧ WellFormed footerFields F ∧
    formatText H ++ " { ".toList ++ formatText B ++ " } ".toList ++ formatText F = "%U: { %i=%f %N:p%%%l\n } %C units".toList ∧
    srcml_pretty .ub { url := some "u".toList, namespaces := [⟨[], "s".toList, 0⟩, ⟨"p".toList, "t".toList, 0⟩] }
      "%U: { %i=%f %N:p%%%l\n } %C units".toList 0 false
      [{ filename := some "a.c".toList, language := some "C".toList }, { language := some "Java".toList }] =
      .val ("u:0=a.c  p%C\n1=  p%Java\n2 units".toList, 0) := by
  refine ⟨[.field ['U'], .char ':'], [.field ['i'], .char '=', .field ['f'], .char ' ', .field ['N', ':', 'p'], .percent,
    .field ['l'], .char '\n'], [.field ['C'], .char ' ', .char 'u', .char 'n', .char 'i', .char 't', .char 's'], ?_, ?_, ?_, ?_, ?_⟩
  · simp [WellFormed, headerFields]
  · simp [WellFormed, bodyFields, formatText, FormatPiece.text]
  · simp [WellFormed, footerFields]
  · simp [formatText, FormatPiece.text]
  · decide +kernel

/-- **C49, finding.** Without a closing brace the code reads the character at `npos - 1`: out of bounds. -/
theorem C49_finding_no_brace (a : Archive) (input : Str) (h : '}' ∉ input) (n : Int) (xml : Bool) (us : List UnitData) :
    srcml_pretty .ub a input n xml us = .ub := by
  simp [srcml_pretty, split_template_sections, findFirst_absent _ _ h, charBefore, bind, Run.bind]

/-- **C49, finding.** A doubled percent sign in front of text is an error: nothing is printed. -/
theorem C49_finding_percent (ns : Nat) (r : Str) (c : Char) (h1 : c ≠ '%') (h2 : c ≠ 's') (h : c ∉ valid_body_args) :
    parse_templates valid_body_args ns ('%' :: '%' :: c :: r) = none := by
  rw [parse_skip _ _ _ (by simp), parse_templates.eq_def]
  simp [h1, h2, h]

/-- **C49, finding.** A doubled percent sign in front of the letter of a field: the letter is taken as a field, and
`s` is printed for it (`%%f` prints `%s`). -/
theorem C49_finding_percent_field : srcml_pretty (.val 'x') { namespaces := [⟨[], "s".toList, 0⟩] }
    "%%f".toList 0 false [{ filename := some "a.c".toList }] = .val ("%s".toList, 0) := by decide +kernel

/-- **C49, finding.** The field `%s` (source encoding of the unit) takes the value of the next field. -/
theorem C49_finding_encoding : srcml_pretty (.val 'x') { namespaces := [⟨[], "s".toList, 0⟩] }
    "%s %f".toList 0 false [{ filename := some "a.c".toList, encoding := some "UTF-8".toList }] =
      .val ("a.c s".toList, 0) := by decide +kernel

/-- **C49, finding.** A percent sign at the end of a section moves past the end of the text. -/
theorem C49_finding_last_percent : srcml_pretty (.val 'x') { namespaces := [⟨[], "s".toList, 0⟩] }
    "%f%".toList 0 false [{ filename := some "a.c".toList }] = .ub := by decide +kernel

/-- **C49, finding.** The namespace field of a header prints `???` and takes one value, but stands for all of them. -/
theorem C49_finding_header_namespaces : srcml_pretty .ub
    { namespaces := [⟨[], "s".toList, 0⟩, ⟨[], "t".toList, 0⟩], url := some "u".toList }
    "%N %U { %f } ".toList 0 false [] = .val ("??? u s".toList, 0) := by decide +kernel

/-- **C49, finding.** With a selected unit (and no `--xml`) no unit is printed. -/
theorem C49_finding_selected_unit (a : Archive) (c : Char) (hc : c ≠ '%') (B : List FormatPiece) (hB : WellFormed bodyFields B)
    (hn : a.namespaces ≠ []) (h1 : '{' ∉ formatText B) (h2 : '}' ∉ formatText B) (n : Int) (h : n > 0) (us : List UnitData) :
    srcml_pretty (.val c) a (formatText B) n false us = .val ([], 0) := by
  have hl : a.namespaces.length ≠ 0 := by simpa using hn
  unfold srcml_pretty
  rw [split_plain c hc _ h1 h2]
  simp [bind, Run.bind, Option.getD_some, parseSection, parse_pieces _ _ body_names _ hl _ hB, display_template, h, pure]

/-- **C49, finding.** The footer counts one unit in an archive without units. -/
theorem C49_finding_count : srcml_pretty .ub { namespaces := [⟨[], "s".toList, 0⟩] } " { %f } %C".toList 0 false [] =
    .val ("1".toList, 0) := by decide +kernel

end Srcml
