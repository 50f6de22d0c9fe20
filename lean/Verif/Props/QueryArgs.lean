import Verif.Spec.QueryArgs
import Verif.Props.Transform
import Verif.Props.InputName
import Verif.Proofs.Strings
/-
C82: queries and transformations on the command line.
-/
set_option linter.unusedSimpArgs false
namespace Srcml
open Spec

/-! ### The values of the options -/

theorem mark_value (h t v : Str) (hq : InQuotes v t) : markValue (h ++ '=' :: t) h.length = v := by
  have e0 : (h ++ '=' :: t)[h.length + 1]? = t.head? := by
    rw [List.getElem?_append_right (by omega)]
    cases t <;> simp
  have e1 : (h ++ '=' :: t).getLast? = some (t.getLast?.getD '=') := by
    cases t with
    | nil => simp
    | cons c t => simp [List.getLast?_append, List.getLast?_cons]
  have e2 : ∀ k, (h ++ '=' :: t).drop (h.length + 1 + k) = t.drop k := by
    intro k
    rw [List.drop_append]
    simp only [show h.length + 1 + k - h.length = k + 1 by omega, List.drop_succ_cons]
    rw [List.drop_eq_nil_of_le (by omega)]
    rfl
  have e3 : (h ++ '=' :: t).length = h.length + 1 + t.length := by simp; omega
  unfold markValue
  simp only [e0, e1, e3]
  have last : ∀ c w, (c :: w ++ [c] : Str).getLast? = some c := fun c w => by rw [List.getLast?_append]; rfl
  have inside : ∀ (c : Char) (w : Str), List.take (h.length + 1 + (c :: w ++ [c]).length - (h.length + 1 + 1) - 1) ((c :: w ++ [c] : Str).drop 1) = w := by
    intro c w
    have : h.length + 1 + (c :: w ++ [c]).length - (h.length + 1 + 1) - 1 = w.length := by simp; omega
    rw [this]
    simp
  cases hq with
  | double =>
    have a1 : ("\"".toList ++ v ++ "\"".toList).head? = some '"' := rfl
    have a2 : ("\"".toList ++ v ++ "\"".toList).getLast? = some '"' := last _ _
    rw [a1, a2, if_pos (.inr rfl), if_pos (.inr rfl), e2 1]
    exact inside _ _
  | single =>
    have a1 : ("'".toList ++ v ++ "'".toList).head? = some '\'' := rfl
    have a2 : ("'".toList ++ v ++ "'".toList).getLast? = some '\'' := last _ _
    rw [a1, a2, if_pos (.inl rfl), if_pos (.inl rfl), e2 1]
    exact inside _ _
  | bare h1 h2 h3 h4 =>
    rw [if_neg (show ¬ (t.head? = some '\'' ∨ t.head? = some '"') by rintro (h | h) <;> contradiction)]
    have : ¬ (some (t.getLast?.getD '=') = some '\'' ∨ some (t.getLast?.getD '=') = some '"') := by
      cases hl : t.getLast? with
      | none => simp
      | some c => rw [hl] at h3 h4; rintro (h | h) <;> contradiction
    rw [if_neg this]
    have e := e2 0
    simp only [Nat.add_zero, List.drop_zero] at e
    rw [e]
    simp

theorem attribute_text (e : Option MarkElement) (t : Str) (x : Str × Str × Str) (h : AttributeText (e.map (·.1)) t x) : attributeArg e t = some x := by
  cases h with
  | @full p n v t hp hp' hn hq =>
    have h1 : findFirst ':' (p ++ ":".toList ++ n ++ "=".toList ++ t) = some p.length := by
      have := findFirst_append p (n ++ '=' :: t) hp
      simpa using this
    have hpn : '=' ∉ p ++ ':' :: n := by simp [hp', hn]
    have e0 : p ++ ":".toList ++ n ++ "=".toList ++ t = (p ++ ':' :: n) ++ '=' :: t := by simp
    have h2 : findFirst '=' (p ++ ":".toList ++ n ++ "=".toList ++ t) = some (p ++ ':' :: n).length := by
      rw [e0]; exact findFirst_append _ _ hpn
    unfold attributeArg
    rw [h1, h2]
    dsimp only
    rw [e0, mark_value _ _ _ hq, if_pos (by simp)]
    simp
  | @short p n v t he hn hn' ht hq =>
    have e0 : n ++ "=".toList ++ t = n ++ '=' :: t := by simp
    have h2 : findFirst '=' (n ++ "=".toList ++ t) = some n.length := by rw [e0]; exact findFirst_append _ _ hn'
    have h1 : findFirst ':' (n ++ "=".toList ++ t) = none := findFirst_none.mpr (by simp [hn, ht])
    cases e with
    | none => simp at he
    | some e =>
      unfold attributeArg
      rw [h1, h2]
      dsimp only
      rw [e0, mark_value _ _ _ hq]
      simp at he
      simp [he]

theorem element_text (p n : Str) (hp : ':' ∉ p) : elementArg (p ++ ":".toList ++ n) = some (p, n) := by
  have h1 : findFirst ':' (p ++ ":".toList ++ n) = some p.length := by
    have := findFirst_append p n hp
    simpa using this
  unfold elementArg
  rw [h1]
  simp

theorem param_text (t n v : Str) (h : ParamText t n v) : xsltParam t = (n, v) := by
  have split : ∀ (n r : Str), '=' ∉ n → splitExt (n ++ '=' :: r) = (n, r) := by
    intro n r hn
    unfold splitExt
    rw [findFirst_append n r hn]
    simp
  cases h with
  | @quoted n v hn =>
    have : n ++ "=\"".toList ++ v = n ++ '=' :: ('"' :: v) := by simp
    unfold xsltParam
    rw [this, split _ _ hn]
    rfl
  | @bare n v hn hv =>
    have : n ++ "=".toList ++ v = n ++ '=' :: v := by simp
    unfold xsltParam
    rw [this, split _ _ hn]
    dsimp only
    rw [if_neg hv]
    rfl

/-! ### The request -/

theorem transArgs_snoc (r : TransReq) (xs : List TransArg) (x : TransArg) : transArgs r (xs ++ [x]) = (transArgs r xs).bind (x.run ·) := by
  induction xs generalizing r with
  | nil => simp [transArgs]
  | cons y ys ih =>
    simp only [List.cons_append, transArgs]
    cases y.run r with
    | none => rfl
    | some r' => simp only [Option.bind_some]; exact ih r'

/-- The text of a step in the request. -/
def stepText : Step → Str
  | .query q _ _ => src_prefix_add_uri2 "xpath".toList q
  | .stylesheet f => src_prefix_add_uri2 "xslt".toList f
  | .param t => src_prefix_add_uri2 "xslt-param".toList t
  | .schema f => src_prefix_add_uri2 "relaxng".toList f

/-- The marks of a step. -/
def stepMarks : Step → Option (Option MarkElement × Option MarkAttribute)
  | .query _ e a => some (e, a)
  | _ => none

theorem marks_rest {rest : List Step} (h : ∀ s ∈ rest, s.isQuery = false) : rest.filterMap stepMarks = [] := by
  rw [List.filterMap_eq_nil_iff]
  intro s hs
  have := h s hs
  cases s <;> first | rfl | simp [Step.isQuery] at this

theorem steps_request {args : List TransArg} {ss : List Step} (h : Steps args ss) : transArgs {} args = some { transformations := ss.map stepText, support := ss.filterMap stepMarks } := by
  induction h with
  | nil => rfl
  | xpath _ ih => rw [transArgs_snoc, ih]; simp [TransArg.run, stepText, stepMarks]
  | @element args ss rest q p n e a h hr hp ih =>
    rw [transArgs_snoc, ih]
    simp only [Option.bind_some, TransArg.run, element_text p n hp, List.filterMap_append, List.filterMap_cons, stepMarks, marks_rest hr]
    simp [stepText]
  | @attr args ss rest q t e a x h hr hx ih =>
    rw [transArgs_snoc, ih]
    simp only [Option.bind_some, TransArg.run, List.filterMap_append, List.filterMap_cons, stepMarks, marks_rest hr]
    simp only [List.getLast?_append, List.getLast?_singleton, Option.some_or, attribute_text e t x hx]
    simp [stepText]
  | xslt _ ih => rw [transArgs_snoc, ih]; simp [TransArg.run, stepText, stepMarks]
  | param _ ih => rw [transArgs_snoc, ih]; simp [TransArg.run, stepText, stepMarks]
  | relaxng _ ih => rw [transArgs_snoc, ih]; simp [TransArg.run, stepText, stepMarks]

/-! ### The transformations of the archive -/

/-- The calls leave the settings of the archive as they are. -/
theorem call_settings {w : World} {i : Addr} {a : Archive} (h : w.archives[i]? = some a) (c : TCall) :
    ∃ ts, (c.run w i).2.archives[i]? = some { a with transformations := ts } := by
  have hlt : i < w.archives.length := (List.getElem?_eq_some_iff.1 h).1
  have push : ∀ t, ∃ ts, (w.pushTransform i t).archives[i]? = some { a with transformations := ts } := by
    intro t
    refine ⟨a.transformations ++ [w.transforms.length], ?_⟩
    unfold World.pushTransform
    simp only [h]
    rw [List.getElem?_set_self hlt]
  have same : ∃ ts, w.archives[i]? = some { a with transformations := ts } := ⟨a.transformations, h⟩
  cases c with
  | xpath x => cases x with
    | none => exact same
    | some x => exact push _
  | xpathAttribute x p u n v =>
    cases x with
    | none => exact same
    | some x =>
    cases p with
    | none => exact same
    | some p =>
    cases u with
    | none => exact same
    | some u =>
    cases n with
    | none => exact same
    | some n =>
    cases v with
    | none => exact same
    | some v =>
      show ∃ ts, (w.appendXPathAttribute i (some x) (some p) (some u) (some n) (some v)).2.archives[i]? = _
      unfold World.appendXPathAttribute
      simp only [h]
      split
      · split
        · exact same
        · exact push _
      · exact push _
  | xpathElement x p u e =>
    cases x with
    | none => exact same
    | some x =>
    cases p with
    | none => exact same
    | some p =>
    cases u with
    | none => exact same
    | some u =>
    cases e with
    | none => exact same
    | some e => exact push _
  | doc x d => cases d with
    | none => exact same
    | some d => exact push _
  | param q n v =>
    cases n with
    | none => exact same
    | some n =>
    cases v with
    | none => exact same
    | some v =>
      show ∃ ts, (w.appendParam i q (some n) (some v)).2.archives[i]? = _
      unfold World.appendParam
      simp only [h]
      split
      · exact same
      · exact same
  | clear =>
    show ∃ ts, (w.clearTransforms i).2.archives[i]? = _
    unfold World.clearTransforms
    simp only [h]
    exact ⟨[], by rw [List.getElem?_set_self hlt]⟩

/-- The archive after some of the steps: only the transformations, and whether it is a full archive, have changed. -/
def Spec.OnlyTransforms (a b : Archive) (full : Bool) : Prop := ∃ ts, b = { a with options := if full then a.options ||| OPTION_ARCHIVE else a.options, transformations := ts }

theorem only_namespaces {a b : Archive} {full : Bool} (h : OnlyTransforms a b full) : b.namespaces = a.namespaces := by
  obtain ⟨ts, rfl⟩ := h; rfl

theorem markUri_same {pk : Pick} {a b : Archive} {xmlns : List (Str × Str)} (h : b.namespaces = a.namespaces) (p : Str) : markUri pk b xmlns p = markUri pk a xmlns p := by
  unfold markUri srcml_archive_get_uri_from_prefix
  rw [h]

/-- A call that succeeds. -/
theorem try_call {w : World} {i : Addr} {b : Archive} (h : Owned w i b) (c : TCall) {ts : List Transformation} (he : expected (w.transformsOf i) c = (.ok, ts)) :
    ∃ w' b', tryCall w i c = some w' ∧ Owned w' i b' ∧ w'.transformsOf i = ts ∧ ∃ l, b' = { b with transformations := l } := by
  obtain ⟨⟨b', hb'⟩, h1, h2⟩ := call_spec h c
  obtain ⟨l, hl⟩ := call_settings h.here c
  rw [he] at h1 h2
  refine ⟨_, b', ?_, hb', h2, l, ?_⟩
  · unfold tryCall
    rw [if_pos h1]
  · have := hb'.here.symm.trans hl
    exact Option.some.inj this

theorem owned_full {w : World} {i : Addr} {b : Archive} (h : Owned w i b) :
    ∃ w', w.setup i .disableSolitary = .val (.ok, w') ∧ Owned w' i { b with options := b.options ||| OPTION_ARCHIVE } ∧ w'.transformsOf i = w.transformsOf i := by
  have hlt : i < w.archives.length := (List.getElem?_eq_some_iff.1 h.here).1
  refine ⟨{ w with archives := w.archives.set i { b with options := b.options ||| OPTION_ARCHIVE } }, ?_, ?_, ?_⟩
  · unfold World.setup
    rw [h.here]
    rfl
  · exact ⟨by simp [hlt], h.nodup, h.inRange⟩
  · unfold World.transformsOf
    simp only [List.getElem?_set_self hlt, h.here]

/-- Is the step a query whose results are not marked? -/
def plainQuery : Step → Bool
  | .query _ none none => true
  | _ => false

theorem only_more {a b : Archive} {f : Bool} (h : OnlyTransforms a b f) (l : List Addr) : OnlyTransforms a { b with transformations := l } f := by
  obtain ⟨ts, rfl⟩ := h; exact ⟨l, rfl⟩

theorem only_full {a b : Archive} {f : Bool} (h : OnlyTransforms a b f) : OnlyTransforms a { b with options := b.options ||| OPTION_ARCHIVE } true := by
  obtain ⟨ts, rfl⟩ := h
  refine ⟨ts, ?_⟩
  cases f
  · rfl
  · simp [BitVec.or_assoc]

theorem made_applied (pk : Pick) (xmlns : List (Str × Str)) (docs : Bool → Str → Option Str) (a : Archive) (i : Addr) {ts out : List Transformation} {ss : List Step}
    (hm : Made (fun p => markUri pk a xmlns p) docs ts ss out) : ∀ (w : World) (b : Archive) (f : Bool) (pre extra : List (Option MarkElement × Option MarkAttribute)), Owned w i b → OnlyTransforms a b f → w.transformsOf i = ts →
      ∃ w' b', applyTransformations pk xmlns docs (pre ++ (ss.filterMap stepMarks ++ extra)) w i pre.length (ss.map stepText) = .val (some w') ∧ Owned w' i b' ∧ OnlyTransforms a b' (f || ss.any plainQuery) ∧ w'.transformsOf i = out := by
  have sx : ∀ q, src_prefix_split_uri (src_prefix_add_uri2 "xpath".toList q) = ("xpath".toList, q) := fun q => C42_join _ _ (by decide)
  have ss' : ∀ q, src_prefix_split_uri (src_prefix_add_uri2 "xslt".toList q) = ("xslt".toList, q) := fun q => C42_join _ _ (by decide)
  have sp : ∀ q, src_prefix_split_uri (src_prefix_add_uri2 "xslt-param".toList q) = ("xslt-param".toList, q) := fun q => C42_join _ _ (by decide)
  have sr : ∀ q, src_prefix_split_uri (src_prefix_add_uri2 "relaxng".toList q) = ("relaxng".toList, q) := fun q => C42_join _ _ (by decide)
  have at_ : ∀ (pre rest : List (Option MarkElement × Option MarkAttribute)) (s : Option MarkElement × Option MarkAttribute), (pre ++ s :: rest)[pre.length]? = some s := by
    intro pre rest s; rw [List.getElem?_append_right (by omega)]; simp
  have next : ∀ (pre rest : List (Option MarkElement × Option MarkAttribute)) (s : Option MarkElement × Option MarkAttribute), pre ++ s :: rest = (pre ++ [s]) ++ rest := by simp
  induction hm with
  | nil =>
    intro w b f pre extra hw hb ht
    exact ⟨w, b, rfl, hw, by simpa using hb, ht⟩
  | @query ts out ss q hm ih =>
    intro w b f pre extra hw hb ht
    obtain ⟨w1, e1, hw1, ht1⟩ := owned_full hw
    obtain ⟨w2, b2, e2, hw2, ht2, l, rfl⟩ := try_call hw1 (.xpath (some q)) (ts := ts ++ [⟨.xpath q ([], [], []) ([], [], [], []), []⟩]) (by rw [ht1, ht]; rfl)
    obtain ⟨w3, b3, e3, hw3, hb3, ht3⟩ := ih w2 _ true (pre ++ [(none, none)]) extra hw2 (only_more (only_full hb) l) ht2
    refine ⟨w3, b3, ?_, hw3, by simpa [plainQuery] using hb3, ht3⟩
    simp only [List.map_cons, stepText, List.filterMap_cons, stepMarks, List.cons_append, applyTransformations, sx, if_true, at_]
    unfold apply_xpath
    simp only [hw.here, e1, Run.bind, e2]
    rw [next]
    simpa using e3
  | @element ts out ss q p n u hu hm ih =>
    intro w b f pre extra hw hb ht
    obtain ⟨w2, b2, e2, hw2, ht2, l, rfl⟩ := try_call hw (.xpathElement (some q) (some p) (some u) (some n)) (ts := ts ++ [⟨.xpath q (p, u, n) ([], [], [], []), []⟩]) (by rw [ht]; rfl)
    obtain ⟨w3, b3, e3, hw3, hb3, ht3⟩ := ih w2 _ f (pre ++ [(some (p, n), none)]) extra hw2 (only_more hb l) ht2
    refine ⟨w3, b3, ?_, hw3, by simpa [plainQuery] using hb3, ht3⟩
    simp only [List.map_cons, stepText, List.filterMap_cons, stepMarks, List.cons_append, applyTransformations, sx, if_true, at_]
    unfold apply_xpath
    have hu' : markUri pk b xmlns p = some u := (markUri_same (only_namespaces hb) p).trans hu
    simp only [hw.here, hu', Run.bind, e2]
    rw [next]
    simpa using e3
  | @attr ts out ss q p n v u hu hd hm ih =>
    intro w b f pre extra hw hb ht
    obtain ⟨w2, b2, e2, hw2, ht2, l, rfl⟩ := try_call hw (.xpathAttribute (some q) (some p) (some u) (some n) (some v)) (ts := ts ++ [⟨.xpath q ([], [], []) (p, u, n, v), []⟩]) (by
      rw [ht]
      simp only [expected]
      split
      · rename_i x' e ps hl
        rw [if_neg]
        rintro rfl
        exact hd ⟨e, ps, hl⟩
      · rfl)
    obtain ⟨w3, b3, e3, hw3, hb3, ht3⟩ := ih w2 _ f (pre ++ [(none, some (p, n, v))]) extra hw2 (only_more hb l) ht2
    refine ⟨w3, b3, ?_, hw3, by simpa [plainQuery] using hb3, ht3⟩
    simp only [List.map_cons, stepText, List.filterMap_cons, stepMarks, List.cons_append, applyTransformations, sx, if_true, at_]
    unfold apply_xpath
    have hu' : markUri pk b xmlns p = some u := (markUri_same (only_namespaces hb) p).trans hu
    simp only [hw.here, hu', Run.bind, e2]
    rw [next]
    simpa using e3
  | @both ts out ss q p n u p' n' v' u' hu hu2 hm ih =>
    intro w b f pre extra hw hb ht
    obtain ⟨w1, b1, e1, hw1, ht1, l1, rfl⟩ := try_call hw (.xpathElement (some q) (some p) (some u) (some n)) (ts := ts ++ [⟨.xpath q (p, u, n) ([], [], [], []), []⟩]) (by rw [ht]; rfl)
    obtain ⟨w2, b2, e2, hw2, ht2, l, rfl⟩ := try_call hw1 (.xpathAttribute (some q) (some p') (some u') (some n') (some v')) (ts := ts ++ [⟨.xpath q (p, u, n) (p', u', n', v'), []⟩]) (by
      rw [ht1]
      simp [expected])
    obtain ⟨w3, b3, e3, hw3, hb3, ht3⟩ := ih w2 _ f (pre ++ [(some (p, n), some (p', n', v'))]) extra hw2 (only_more hb l) ht2
    refine ⟨w3, b3, ?_, hw3, by simpa [plainQuery] using hb3, ht3⟩
    simp only [List.map_cons, stepText, List.filterMap_cons, stepMarks, List.cons_append, applyTransformations, sx, if_true, at_]
    unfold apply_xpath
    have hu' : markUri pk b xmlns p = some u := (markUri_same (only_namespaces hb) p).trans hu
    have hu2' : markUri pk b xmlns p' = some u' := (markUri_same (only_namespaces hb) p').trans hu2
    simp only [hw.here, hu', hu2', Run.bind, e1, Option.bind_some, e2]
    rw [next]
    simpa using e3
  | @stylesheet ts out ss f' d hd hm ih =>
    intro w b f pre extra hw hb ht
    obtain ⟨w2, b2, e2, hw2, ht2, l, rfl⟩ := try_call hw (.doc true (some d)) (ts := ts ++ [⟨.xslt d, []⟩]) (by rw [ht]; rfl)
    obtain ⟨w3, b3, e3, hw3, hb3, ht3⟩ := ih w2 _ f pre extra hw2 (only_more hb l) ht2
    refine ⟨w3, b3, ?_, hw3, by simpa [plainQuery] using hb3, ht3⟩
    simp only [List.map_cons, stepText, List.filterMap_cons, stepMarks, List.cons_append, applyTransformations, ss']
    rw [if_neg (by decide), if_pos (by trivial), hd, e2]
    exact e3
  | @schema ts out ss f' d hd hm ih =>
    intro w b f pre extra hw hb ht
    obtain ⟨w2, b2, e2, hw2, ht2, l, rfl⟩ := try_call hw (.doc false (some d)) (ts := ts ++ [⟨.relaxng d, []⟩]) (by rw [ht]; rfl)
    obtain ⟨w3, b3, e3, hw3, hb3, ht3⟩ := ih w2 _ f pre extra hw2 (only_more hb l) ht2
    refine ⟨w3, b3, ?_, hw3, by simpa [plainQuery] using hb3, ht3⟩
    simp only [List.map_cons, stepText, List.filterMap_cons, stepMarks, List.cons_append, applyTransformations, sr]
    rw [if_neg (by decide), if_neg (by decide), if_neg (by decide), if_pos (by trivial), hd, e2]
    exact e3
  | @param ts out t ss text n v hp hm ih =>
    intro w b f pre extra hw hb ht
    obtain ⟨w2, b2, e2, hw2, ht2, l, rfl⟩ := try_call hw (.param false (some n) (some v)) (ts := ts ++ [{ t with params := t.params ++ [n, v] }]) (by rw [ht]; simp [expected])
    obtain ⟨w3, b3, e3, hw3, hb3, ht3⟩ := ih w2 _ f pre extra hw2 (only_more hb l) ht2
    refine ⟨w3, b3, ?_, hw3, by simpa [plainQuery] using hb3, ht3⟩
    simp only [List.map_cons, stepText, List.filterMap_cons, stepMarks, List.cons_append, applyTransformations, sp]
    rw [if_neg (by decide), if_neg (by decide), if_pos (by trivial), param_text _ _ _ hp]
    have : (TCall.run w i (.param false (some n) (some v))).2 = w2 := by
      unfold tryCall at e2
      split at e2
      · exact Option.some.inj e2
      · cases e2
    dsimp only
    rw [this]
    exact e3

/-! ### C82 -/

/-- C82: the steps that the options ask for become the transformations of the archive, in order: each query with the element and the attribute that were given for it, each stylesheet and schema, each
parameter at the transformation before it. The archive is made a full archive if there is a query whose results are not marked, and nothing else of it changes. -/
theorem C82_queries (pk : Pick) (xmlns : List (Str × Str)) (docs : Bool → Str → Option Str) (w : World) (i : Addr) (a : Archive) (h : Owned w i a) (args : List TransArg) (ss : List Step)
    (hs : Steps args ss) (out : List Transformation) (hm : Made (fun p => markUri pk a xmlns p) docs (w.transformsOf i) ss out) :
    ∃ r w' b, transArgs {} args = some r ∧ applyTransformations pk xmlns docs r.support w i 0 r.transformations = .val (some w') ∧ w'.transformsOf i = out ∧ w'.archives[i]? = some b ∧
      ((∃ q, .query q none none ∈ ss) → OnlyTransforms a b true) ∧ ((∀ q, .query q none none ∉ ss) → OnlyTransforms a b false) := by
  obtain ⟨w', b, e, hb, ho, ht⟩ := made_applied pk xmlns docs a i hm w a false [] [] h ⟨a.transformations, rfl⟩ rfl
  simp only [List.nil_append, List.append_nil, List.length_nil] at e
  refine ⟨_, w', b, steps_request hs, e, ht, hb.here, ?_, ?_⟩
  · rintro ⟨q, hq⟩
    have : ss.any plainQuery = true := List.any_eq_true.mpr ⟨_, hq, rfl⟩
    rw [this] at ho
    exact ho
  · intro hq
    have : ss.any plainQuery = false := by
      rw [List.any_eq_false]
      intro s hs hp
      cases s with
      | query q e a =>
        cases e with
        | some e => simp [plainQuery] at hp
        | none =>
          cases a with
          | some a => simp [plainQuery] at hp
          | none => exact hq q hs
      | _ => simp [plainQuery] at hp
    rw [this] at ho
    exact ho

/-- C82: the uri of a prefix is that of a namespace of the archive with the prefix, or, if there is none, the one given with `--xmlns`. -/
theorem C82_uri (pk : Pick) (a : Archive) (xmlns : List (Str × Str)) (p : Str) :
    (∀ u, markUri pk a xmlns p = some u → (∃ n ∈ a.namespaces, n.prefix_ = p ∧ n.uri = u) ∨ ((∀ n ∈ a.namespaces, n.prefix_ ≠ p) ∧ (p, u) ∈ xmlns)) ∧
    (markUri pk a xmlns p = none ↔ (∀ n ∈ a.namespaces, n.prefix_ ≠ p) ∧ ∀ x ∈ xmlns, x.1 ≠ p) := by
  have hpick : ∀ n, pk.pick (a.namespaces.filter (fun n => n.prefix_ = p)) = some n → n ∈ a.namespaces ∧ n.prefix_ = p := by
    intro n hn
    simpa using pk.sound _ _ hn
  have hnone : pk.pick (a.namespaces.filter (fun n => n.prefix_ = p)) = none → ∀ n ∈ a.namespaces, n.prefix_ ≠ p := by
    intro hn m hm hp
    have : (a.namespaces.filter (fun n => n.prefix_ = p)) ≠ [] := List.ne_nil_of_mem (List.mem_filter.mpr ⟨hm, by simpa using hp⟩)
    have := pk.total _ this
    rw [hn] at this
    cases this
  unfold markUri srcml_archive_get_uri_from_prefix
  dsimp only
  cases hk : pk.pick (a.namespaces.filter (fun n => n.prefix_ = p)) with
  | some n =>
    obtain ⟨h1, h2⟩ := hpick n hk
    refine ⟨?_, ?_⟩
    · intro u hu
      simp only [Option.map_some] at hu
      exact .inl ⟨n, h1, h2, Option.some.inj hu⟩
    · simp only [Option.map_some, reduceCtorEq, false_iff]
      rintro ⟨h, _⟩
      exact h n h1 h2
  | none =>
    simp only [Option.map_none]
    refine ⟨?_, ?_⟩
    · intro u hu
      refine .inr ⟨hnone hk, ?_⟩
      cases hx : xmlns.find? (fun x => x.1 = p) with
      | none => rw [hx] at hu; cases hu
      | some x =>
        rw [hx] at hu
        simp only [Option.map_some, Option.some.injEq] at hu
        have h1 := List.mem_of_find?_eq_some hx
        have h2 := List.find?_some hx
        simp only [decide_eq_true_eq] at h2
        subst hu; subst h2
        exact h1
    · simp only [Option.map_eq_none_iff, List.find?_eq_none, decide_eq_true_eq]
      exact ⟨fun h => ⟨hnone hk, h⟩, fun h => h.2⟩

/-- An option that does not fit to the options before it. -/
inductive Spec.Misfit (ss : List Step) : TransArg → Prop where
  | elementFirst {t : Str} : (∀ s ∈ ss, s.isQuery = false) → Misfit ss (.element t)
  | attributeFirst {t : Str} : (∀ s ∈ ss, s.isQuery = false) → Misfit ss (.attribute t)
  | noPrefix {t : Str} : ':' ∉ t → Misfit ss (.element t)
  | noValue {t : Str} : '=' ∉ t → Misfit ss (.attribute t)
  | noElement {t q : Str} {pre rest : List Step} {a : Option (Str × Str × Str)} : ':' ∉ t → ss = pre ++ .query q none a :: rest → (∀ s ∈ rest, s.isQuery = false) → Misfit ss (.attribute t)

/-- C82: an element or an attribute before every query, an element without a prefix, an attribute without a value, or one without a prefix for a query without an element, is refused: the command ends,
whatever comes after it. -/
theorem C82_refused (args rest : List TransArg) (ss : List Step) (hs : Steps args ss) (x : TransArg) (hx : Misfit ss x) : transArgs {} (args ++ x :: rest) = none := by
  have run : ∀ r, x.run r = none → transArgs {} args = some r → transArgs {} (args ++ x :: rest) = none := by
    have app : ∀ (xs ys : List TransArg) (r0 : TransReq), transArgs r0 (xs ++ ys) = (transArgs r0 xs).bind (fun r => transArgs r ys) := by
      intro xs ys
      induction xs with
      | nil => intro r0; rfl
      | cons y xs ih =>
        intro r0
        simp only [List.cons_append, transArgs]
        cases y.run r0 with
        | none => rfl
        | some r1 => simp only [Option.bind_some]; exact ih r1
    intro r hr ha
    rw [app, ha]
    simp [transArgs, hr]
  apply run _ _ (steps_request hs)
  cases hx with
  | elementFirst h => simp [TransArg.run, marks_rest h]
  | attributeFirst h => simp [TransArg.run, marks_rest h]
  | @noPrefix t h =>
    have e : elementArg t = none := by unfold elementArg; rw [findFirst_none.mpr h]; rfl
    simp only [TransArg.run, e]
    split <;> rfl
  | @noValue t h =>
    have e : ∀ x, attributeArg x t = none := fun x => by unfold attributeArg; rw [findFirst_none.mpr h]
    simp only [TransArg.run, e]
    split <;> rfl
  | @noElement t q pre rest' a h hss hr =>
    subst hss
    simp only [TransArg.run, List.filterMap_append, List.filterMap_cons, stepMarks, marks_rest hr, List.getLast?_append, List.getLast?_singleton, Option.some_or]
    have : attributeArg none t = none := by
      unfold attributeArg
      split
      · rfl
      · rw [findFirst_none.mpr h]
        rfl
    rw [this]
    rfl

/-- A step that cannot be made. -/
inductive Spec.Impossible (uri : Str → Option Str) (docs : Bool → Str → Option Str) : Step → Prop where
  | element {q p n : Str} {a : Option (Str × Str × Str)} : uri p = none → Impossible uri docs (.query q (some (p, n)) a)
  | attr {q p n v : Str} {e : Option (Str × Str)} : uri p = none → Impossible uri docs (.query q e (some (p, n, v)))
  | stylesheet {f : Str} : docs true f = none → Impossible uri docs (.stylesheet f)
  | schema {f : Str} : docs false f = none → Impossible uri docs (.schema f)

theorem apply_append (pk : Pick) (xmlns : List (Str × Str)) (docs : Bool → Str → Option Str) (sup : List (Option MarkElement × Option MarkAttribute)) (i : Addr) (ss : List Step) (more : List Str) :
    ∀ (w w' : World) (k : Nat), applyTransformations pk xmlns docs sup w i k (ss.map stepText) = .val (some w') →
      applyTransformations pk xmlns docs sup w i k (ss.map stepText ++ more) = applyTransformations pk xmlns docs sup w' i (k + (ss.filterMap stepMarks).length) more := by
  have sx : ∀ q, src_prefix_split_uri (src_prefix_add_uri2 "xpath".toList q) = ("xpath".toList, q) := fun q => C42_join _ _ (by decide)
  have ss' : ∀ q, src_prefix_split_uri (src_prefix_add_uri2 "xslt".toList q) = ("xslt".toList, q) := fun q => C42_join _ _ (by decide)
  have sp : ∀ q, src_prefix_split_uri (src_prefix_add_uri2 "xslt-param".toList q) = ("xslt-param".toList, q) := fun q => C42_join _ _ (by decide)
  have sr : ∀ q, src_prefix_split_uri (src_prefix_add_uri2 "relaxng".toList q) = ("relaxng".toList, q) := fun q => C42_join _ _ (by decide)
  induction ss with
  | nil =>
    intro w w' k h
    simp only [List.map_nil, applyTransformations] at h
    cases h
    rfl
  | cons s ss ih =>
    intro w w' k h
    cases s with
    | query q e a =>
      simp only [List.map_cons, List.cons_append, stepText, List.filterMap_cons, stepMarks, applyTransformations, sx, if_true, List.length_cons] at h ⊢
      cases hk : sup[k]? with
      | none => rw [hk] at h; cases h
      | some s =>
        rw [hk] at h
        dsimp only at h ⊢
        cases hx : apply_xpath pk xmlns w i q s with
        | ub => rw [hx] at h; cases h
        | val r =>
          rw [hx] at h
          simp only [Run.bind] at h ⊢
          cases r with
          | none => cases h
          | some w1 =>
            dsimp only at h ⊢
            rw [ih w1 w' (k + 1) h]
            congr 1
            omega
    | stylesheet f =>
      simp only [List.map_cons, List.cons_append, stepText, List.filterMap_cons, stepMarks, applyTransformations, ss'] at h ⊢
      rw [if_neg (by decide), if_pos (by trivial)] at h ⊢
      cases hx : tryCall w i (.doc true (docs true f)) with
      | none => rw [hx] at h; cases h
      | some w1 =>
        rw [hx] at h
        exact ih w1 w' k h
    | param t =>
      simp only [List.map_cons, List.cons_append, stepText, List.filterMap_cons, stepMarks, applyTransformations, sp] at h ⊢
      rw [if_neg (by decide), if_neg (by decide), if_pos (by trivial)] at h ⊢
      exact ih _ w' k h
    | schema f =>
      simp only [List.map_cons, List.cons_append, stepText, List.filterMap_cons, stepMarks, applyTransformations, sr] at h ⊢
      rw [if_neg (by decide), if_neg (by decide), if_neg (by decide), if_pos (by trivial)] at h ⊢
      cases hx : tryCall w i (.doc false (docs false f)) with
      | none => rw [hx] at h; cases h
      | some w1 =>
        rw [hx] at h
        exact ih w1 w' k h

/-- C82: a mark whose prefix has no uri, or a stylesheet or schema that cannot be read, ends the command before any input is looked at, whatever comes after it. -/
theorem C82_impossible (pk : Pick) (xmlns : List (Str × Str)) (docs : Bool → Str → Option Str) (w : World) (i : Addr) (a : Archive) (h : Owned w i a) (args : List TransArg) (ss rest : List Step) (s : Step)
    (hs : Steps args (ss ++ s :: rest)) (out : List Transformation) (hm : Made (fun p => markUri pk a xmlns p) docs (w.transformsOf i) ss out)
    (hi : Impossible (fun p => markUri pk a xmlns p) docs s) :
    ∃ r, transArgs {} args = some r ∧ applyTransformations pk xmlns docs r.support w i 0 r.transformations = .val none := by
  have sx : ∀ q, src_prefix_split_uri (src_prefix_add_uri2 "xpath".toList q) = ("xpath".toList, q) := fun q => C42_join _ _ (by decide)
  have ss' : ∀ q, src_prefix_split_uri (src_prefix_add_uri2 "xslt".toList q) = ("xslt".toList, q) := fun q => C42_join _ _ (by decide)
  have sr : ∀ q, src_prefix_split_uri (src_prefix_add_uri2 "relaxng".toList q) = ("relaxng".toList, q) := fun q => C42_join _ _ (by decide)
  refine ⟨_, steps_request hs, ?_⟩
  have step : ∃ extra, (ss ++ s :: rest).filterMap stepMarks = [] ++ (ss.filterMap stepMarks ++ extra) ∧ extra = (s :: rest).filterMap stepMarks := ⟨_, by rw [List.filterMap_append]; rfl, rfl⟩
  obtain ⟨extra, he, hx⟩ := step
  obtain ⟨w', b, e, hb, ho, _⟩ := made_applied pk xmlns docs a i hm w a false [] extra h ⟨a.transformations, rfl⟩ rfl
  show applyTransformations pk xmlns docs ((ss ++ s :: rest).filterMap stepMarks) w i ([] : List (Option MarkElement × Option MarkAttribute)).length ((ss ++ s :: rest).map stepText) = _
  rw [he, List.map_append, apply_append pk xmlns docs _ i ss _ w w' _ e]
  have uri : ∀ p, markUri pk b xmlns p = markUri pk a xmlns p := fun p => markUri_same (only_namespaces ho) p
  have at_ : ∀ (q : Str) (e : Option MarkElement) (a : Option MarkAttribute), s = .query q e a → ([] ++ (ss.filterMap stepMarks ++ extra))[([] : List (Option MarkElement × Option MarkAttribute)).length + (ss.filterMap stepMarks).length]? = some (e, a) := by
    intro q e a hs
    subst hs hx
    simp [List.filterMap_cons, stepMarks]
  cases hi with
  | @element q p n x hu =>
    simp only [List.map_cons, stepText, applyTransformations, sx, if_true]
    rw [at_ q _ _ rfl]
    dsimp only
    have hu' : markUri pk b xmlns p = none := (uri p).trans hu
    unfold apply_xpath
    cases x with
    | none => simp only [hb.here, hu', Run.bind]
    | some x => simp only [hb.here, hu', Run.bind]
  | @attr q p n v x hu =>
    simp only [List.map_cons, stepText, applyTransformations, sx, if_true]
    rw [at_ q _ _ rfl]
    dsimp only
    have hu' : markUri pk b xmlns p = none := (uri p).trans hu
    unfold apply_xpath
    cases x with
    | none => simp only [hb.here, hu', Run.bind]
    | some x =>
      cases hx : markUri pk b xmlns x.1 with
      | none => simp only [hb.here, hu', hx, Run.bind]
      | some y => simp only [hb.here, hu', hx, Run.bind]
  | @stylesheet f hd =>
    simp only [List.map_cons, stepText, applyTransformations, ss']
    rw [if_neg (by decide), if_pos (by trivial), hd]
    rfl
  | @schema f hd =>
    simp only [List.map_cons, stepText, applyTransformations, sr]
    rw [if_neg (by decide), if_neg (by decide), if_neg (by decide), if_pos (by trivial), hd]
    rfl

/-- C82, finding: a colon in the value of an attribute without a prefix is taken for the end of a prefix: with `--element p:e`, `--attribute n="a:b"` asks for an attribute `b"` with the prefix `n="a`
(src/client/srcml_cli.cpp:493-505). -/
theorem C82_finding_colon_in_value : transArgs {} [.xpath "//x".toList, .element "p:e".toList, .attribute "n=\"a:b\"".toList] =
    some { transformations := ["xpath:////x".toList], support := [(some ("p".toList, "e".toList), some ("n=\"a".toList, "b\"".toList, "a:b".toList))] } := by decide

/-- C82, finding: a query that is given twice, the second time with an attribute, is one transformation and not two: the attribute is set on the results of the first, and they are not selected
(src/libsrcml/srcml_transform.cpp:126-150). -/
theorem C82_finding_same_query (pk : Pick) (xmlns : List (Str × Str)) (docs : Bool → Str → Option Str) (w : World) (i : Addr) (a : Archive) (h : Owned w i a) (hw : w.transformsOf i = []) (u : Str)
    (hu : markUri pk a xmlns "p".toList = some u) :
    Steps [.xpath "//x".toList, .xpath "//x".toList, .attribute "p:n=v".toList] [.query "//x".toList none none, .query "//x".toList none (some ("p".toList, "n".toList, "v".toList))] ∧
    ∃ r w', transArgs {} [.xpath "//x".toList, .xpath "//x".toList, .attribute "p:n=v".toList] = some r ∧ applyTransformations pk xmlns docs r.support w i 0 r.transformations = .val (some w') ∧
      w'.transformsOf i = [⟨.xpath "//x".toList ([], [], []) ("p".toList, u, "n".toList, "v".toList), []⟩] := by
  have hs : Steps [.xpath "//x".toList, .xpath "//x".toList, .attribute "p:n=v".toList] [.query "//x".toList none none, .query "//x".toList none (some ("p".toList, "n".toList, "v".toList))] :=
    Steps.attr (args := [.xpath "//x".toList, .xpath "//x".toList]) (ss := [.query "//x".toList none none]) (rest := [])
      (Steps.xpath (args := [.xpath "//x".toList]) (Steps.xpath Steps.nil)) (by simp) (.full (p := "p".toList) (n := "n".toList) (t := "v".toList) (by decide) (by decide) (by decide) (.bare (by decide) (by decide) (by decide) (by decide)))
  have hm : Made (fun p => markUri pk a xmlns p) docs (w.transformsOf i) [.query "//x".toList none none] (w.transformsOf i ++ [⟨.xpath "//x".toList ([], [], []) ([], [], [], []), []⟩]) := .query .nil
  have sx : ∀ q, src_prefix_split_uri (src_prefix_add_uri2 "xpath".toList q) = ("xpath".toList, q) := fun q => C42_join _ _ (by decide)
  obtain ⟨w1, b, e, hb, ho, ht⟩ := made_applied pk xmlns docs a i hm w a false [] [(none, some ("p".toList, "n".toList, "v".toList))] h ⟨a.transformations, rfl⟩ rfl
  obtain ⟨w2, b2, e2, _, ht2, _⟩ := try_call hb (.xpathAttribute (some "//x".toList) (some "p".toList) (some u) (some "n".toList) (some "v".toList))
    (ts := [⟨.xpath "//x".toList ([], [], []) ("p".toList, u, "n".toList, "v".toList), []⟩]) (by rw [ht, hw]; simp [expected])
  refine ⟨hs, _, w2, steps_request hs, ?_, ht2⟩
  have e' := apply_append pk xmlns docs _ i [.query "//x".toList none none] [src_prefix_add_uri2 "xpath".toList "//x".toList] w w1 _ e
  refine Eq.trans e' ?_
  simp only [applyTransformations, sx, if_true]
  have hk : ([] ++ (List.filterMap stepMarks [.query "//x".toList none none] ++ [(none, some ("p".toList, "n".toList, "v".toList))]))[([] : List (Option MarkElement × Option MarkAttribute)).length + (List.filterMap stepMarks [.query "//x".toList none none]).length]? =
      some ((none : Option MarkElement), some ("p".toList, "n".toList, "v".toList)) := rfl
  rw [hk]
  have hu' : markUri pk b xmlns "p".toList = some u := (markUri_same (only_namespaces ho) _).trans hu
  unfold apply_xpath
  simp only [hb.here, hu', e2, Run.bind]

/-- C82, finding: a parameter before every stylesheet is dropped without a message (src/client/create_srcml.cpp:294). -/
theorem C82_finding_param_first (pk : Pick) (xmlns : List (Str × Str)) (docs : Bool → Str → Option Str) (w : World) (i : Addr) (a : Archive) (h : Owned w i a) (hw : w.transformsOf i = []) (t : Str) :
    ∃ r w', transArgs {} [.xsltParam t] = some r ∧ applyTransformations pk xmlns docs r.support w i 0 r.transformations = .val (some w') ∧ w'.transformsOf i = [] := by
  have sp : ∀ q, src_prefix_split_uri (src_prefix_add_uri2 "xslt-param".toList q) = ("xslt-param".toList, q) := fun q => C42_join _ _ (by decide)
  have hc := call_spec h (.param false (some (xsltParam t).1) (some (xsltParam t).2))
  refine ⟨_, (TCall.run w i (.param false (some (xsltParam t).1) (some (xsltParam t).2))).2, rfl, ?_, ?_⟩
  · simp only [List.nil_append, applyTransformations, sp]
    rw [if_neg (by decide), if_neg (by decide), if_pos (by trivial)]
  · rw [hc.2.2, hw]
    rfl

/-- C82: the conditions hold for a query with an element and an attribute, a query without marks, and a stylesheet with a parameter. -/
example (pk : Pick) (docs : Bool → Str → Option Str) (d : Str) (hd : docs true "s.xsl".toList = some d) :
    let w : World := { archives := [srcml_archive_create] }
    let i : Addr := 0
    ∃ r w', transArgs {} [.xpath "//a".toList, .element "p:e".toList, .xpath "//b".toList, .xslt "s.xsl".toList, .xsltParam "n=v".toList] = some r ∧
      applyTransformations pk [("p".toList, "http://p".toList)] docs r.support w i 0 r.transformations = .val (some w') ∧
      w'.transformsOf i = [⟨.xpath "//a".toList ("p".toList, "http://p".toList, "e".toList) ([], [], [], []), []⟩, ⟨.xpath "//b".toList ([], [], []) ([], [], [], []), []⟩, ⟨.xslt d, ["n".toList, "\"v\"".toList]⟩] := by
  intro w i
  have h : Owned w i srcml_archive_create := ⟨rfl, by decide, by decide⟩
  have hw : w.transformsOf i = [] := rfl
  have hu : markUri pk srcml_archive_create [("p".toList, "http://p".toList)] "p".toList = some "http://p".toList := by
    have hf : srcml_archive_create.namespaces.filter (fun n => n.prefix_ = "p".toList) = [] := by decide
    have hp : pk.pick [] = none := by
      cases hk : pk.pick [] with
      | none => rfl
      | some n => exact absurd (pk.sound _ _ hk) (by simp)
    unfold markUri srcml_archive_get_uri_from_prefix
    dsimp only
    rw [hf, hp]
    decide
  have hs : Steps [.xpath "//a".toList, .element "p:e".toList, .xpath "//b".toList, .xslt "s.xsl".toList, .xsltParam "n=v".toList]
      [.query "//a".toList (some ("p".toList, "e".toList)) none, .query "//b".toList none none, .stylesheet "s.xsl".toList, .param "n=v".toList] :=
    Steps.param (args := [.xpath "//a".toList, .element "p:e".toList, .xpath "//b".toList, .xslt "s.xsl".toList]) (ss := [.query "//a".toList (some ("p".toList, "e".toList)) none, .query "//b".toList none none, .stylesheet "s.xsl".toList])
      (Steps.xslt (args := [.xpath "//a".toList, .element "p:e".toList, .xpath "//b".toList]) (ss := [.query "//a".toList (some ("p".toList, "e".toList)) none, .query "//b".toList none none])
        (Steps.xpath (args := [.xpath "//a".toList, .element "p:e".toList]) (ss := [.query "//a".toList (some ("p".toList, "e".toList)) none])
          (Steps.element (args := [.xpath "//a".toList]) (ss := []) (rest := []) (p := "p".toList) (n := "e".toList) (Steps.xpath Steps.nil) (by simp) (by decide))))
  have hm : Made (fun p => markUri pk srcml_archive_create [("p".toList, "http://p".toList)] p) docs (w.transformsOf i)
      [.query "//a".toList (some ("p".toList, "e".toList)) none, .query "//b".toList none none, .stylesheet "s.xsl".toList, .param "n=v".toList]
      [⟨.xpath "//a".toList ("p".toList, "http://p".toList, "e".toList) ([], [], [], []), []⟩, ⟨.xpath "//b".toList ([], [], []) ([], [], [], []), []⟩, ⟨.xslt d, ["n".toList, "\"v\"".toList]⟩] := by
    rw [hw]
    exact .element hu (.query (.stylesheet hd (.param (ts := [_, _]) (t := ⟨.xslt d, []⟩) (.bare (n := "n".toList) (v := "v".toList) (by decide) (by decide)) .nil)))
  obtain ⟨r, w', b, h1, h2, h3, _⟩ := C82_queries pk [("p".toList, "http://p".toList)] docs w i srcml_archive_create h _ _ hs _ hm
  exact ⟨r, w', h1, h2, h3⟩

end Srcml
