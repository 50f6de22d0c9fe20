import Verif.Model.Transform
import Verif.Model.UnitWriter
import Verif.Spec.Transform
import Verif.Proofs.Tables
import Verif.Proofs.Strings
set_option linter.unusedSimpArgs false
namespace Srcml

/-! ### C37: the transformations of an archive after a history of calls -/

/-- What each call must do to the list of transformations of the archive, and the status. A parameter goes to the last
one; string parameters are put in quotes; an attribute for the same expression as a last one without attribute is added
to that one. -/
def expected (l : List Transformation) : TCall → Status × List Transformation
  | .xpath (some x) => (.ok, l ++ [⟨.xpath x ([], [], []) ([], [], [], []), []⟩])
  | .xpathElement (some x) (some p) (some u) (some e) => (.ok, l ++ [⟨.xpath x (p, u, e) ([], [], [], []), []⟩])
  | .xpathAttribute (some x) (some p) (some u) (some n) (some v) =>
    match l.getLast? with
    | some ⟨.xpath x' e ([], [], [], []), ps⟩ =>
      if x' = x then (.ok, l.dropLast ++ [⟨.xpath x e (p, u, n, v), ps⟩])
      else (.ok, l ++ [⟨.xpath x ([], [], []) (p, u, n, v), []⟩])
    | _ => (.ok, l ++ [⟨.xpath x ([], [], []) (p, u, n, v), []⟩])
  | .doc true (some d) => (.ok, l ++ [⟨.xslt d, []⟩])
  | .doc false (some d) => (.ok, l ++ [⟨.relaxng d, []⟩])
  | .param quoted (some n) (some v) =>
    match l.getLast? with
    | none => (.noTransformation, l)
    | some t => (.ok, l.dropLast ++ [{ t with params := t.params ++ [n, if quoted then ['"'] ++ v ++ ['"'] else v] }])
  | .clear => (.ok, [])
  | _ => (.invalidArgument, l)

/-- The same for a history. -/
def expectedAll (l : List Transformation) : List TCall → List Status × List Transformation
  | [] => ([], l)
  | c :: cs => ((expected l c).1 :: (expectedAll (expected l c).2 cs).1, (expectedAll (expected l c).2 cs).2)

/-- The pointers of the archive at an address point to different existing transformations. -/
structure Owned (w : World) (i : Addr) (a : Archive) : Prop where
  here : w.archives[i]? = some a
  nodup : a.transformations.Nodup
  inRange : ∀ t ∈ a.transformations, t < w.transforms.length

theorem owned_list {w : World} {i : Addr} {a : Archive} (h : Owned w i a) :
    w.transformsOf i = a.transformations.filterMap (fun t => w.transforms[t]?) := by
  unfold World.transformsOf; rw [h.here]

theorem filterMap_congr' {α β : Type} {f g : α → Option β} {l : List α} (h : ∀ x ∈ l, f x = g x) :
    l.filterMap f = l.filterMap g := by
  induction l with
  | nil => rfl
  | cons x xs ih =>
    rw [List.filterMap_cons, List.filterMap_cons, h x (by simp), ih (fun y hy => h y (by simp [hy]))]

theorem push_spec {w : World} {i : Addr} {a : Archive} (h : Owned w i a) (t : Transformation) :
    (∃ a', Owned (w.pushTransform i t) i a') ∧ (w.pushTransform i t).transformsOf i = w.transformsOf i ++ [t] := by
  have hlt : i < w.archives.length := (List.getElem?_eq_some_iff.1 h.here).1
  have e : w.pushTransform i t = { archives := w.archives.set i { a with transformations := a.transformations ++ [w.transforms.length] }
                                   transforms := w.transforms ++ [t] } := by
    unfold World.pushTransform; rw [h.here]
  have own : Owned (w.pushTransform i t) i { a with transformations := a.transformations ++ [w.transforms.length] } := by
    rw [e]
    refine ⟨by simp [hlt], ?_, ?_⟩
    · rw [List.nodup_append]
      refine ⟨h.nodup, by simp, ?_⟩
      intro x hx y hy hxy
      simp only [List.mem_singleton] at hy
      exact absurd (hxy.trans hy) (Nat.ne_of_lt (h.inRange x hx))
    · intro x hx
      simp only [List.mem_append, List.mem_singleton] at hx
      simp only [List.length_append, List.length_singleton]
      rcases hx with hx | hx
      · exact Nat.lt_succ_of_lt (h.inRange x hx)
      · rw [hx]; exact Nat.lt_succ_self _
  refine ⟨⟨_, own⟩, ?_⟩
  rw [owned_list own, owned_list h, e]
  simp only [List.filterMap_append]
  congr 1
  · apply filterMap_congr'
    intro x hx
    exact List.getElem?_append_left (h.inRange x hx)
  · simp [List.filterMap_cons]

/-- Changing the object of the last pointer changes the last transformation only. -/
theorem modify_spec {w : World} {i : Addr} {a : Archive} (h : Owned w i a) {t : Addr} (ht : a.transformations.getLast? = some t)
    (ts : List Transformation) (o o' : Transformation) (ho : w.transforms[t]? = some o) (hts : ts = w.transforms.set t o') :
    Owned { w with transforms := ts } i a ∧
    w.transformsOf i = (w.transformsOf i).dropLast ++ [o] ∧ (w.transformsOf i).getLast? = some o ∧
    ({ w with transforms := ts } : World).transformsOf i = (w.transformsOf i).dropLast ++ [o'] := by
  subst hts
  have own : Owned { w with transforms := w.transforms.set t o' } i a :=
    ⟨h.here, h.nodup, by intro x hx; simpa using h.inRange x hx⟩
  obtain ⟨l, hl⟩ : ∃ l, a.transformations = l ++ [t] := by
    refine ⟨a.transformations.dropLast, ?_⟩
    have hne : a.transformations ≠ [] := by intro e; rw [e] at ht; cases ht
    have hl := List.dropLast_concat_getLast hne
    rw [List.getLast?_eq_some_getLast hne] at ht
    simp only [Option.some.injEq] at ht
    rw [ht] at hl
    exact hl.symm
  have hlt : t < w.transforms.length := h.inRange t (by rw [hl]; simp)
  have hnt : t ∉ l := by
    have := h.nodup
    rw [hl, List.nodup_append] at this
    intro hm
    exact this.2.2 t hm t (by simp) rfl
  have e1 : w.transformsOf i = l.filterMap (fun t => w.transforms[t]?) ++ [o] := by
    rw [owned_list h, hl, List.filterMap_append]
    simp [List.filterMap_cons, ho]
  have e2 : ({ w with transforms := w.transforms.set t o' } : World).transformsOf i =
      l.filterMap (fun t => w.transforms[t]?) ++ [o'] := by
    rw [owned_list own, hl, List.filterMap_append]
    congr 1
    · apply filterMap_congr'
      intro x hx
      have : t ≠ x := fun e => hnt (e ▸ hx)
      exact List.getElem?_set_ne this
    · simp [List.filterMap_cons, hlt]
  refine ⟨own, ?_, ?_, ?_⟩
  · rw [e1]; simp
  · rw [e1]; simp
  · rw [e2, e1]; simp

theorem last_object {w : World} {i : Addr} {a : Archive} (h : Owned w i a) :
    (a.transformations = [] ∧ w.transformsOf i = []) ∨
    ∃ t o, a.transformations.getLast? = some t ∧ w.transforms[t]? = some o := by
  cases hl : a.transformations.getLast? with
  | none =>
    left
    have : a.transformations = [] := by simpa using hl
    exact ⟨this, by rw [owned_list h, this]; rfl⟩
  | some t =>
    right
    have hm : t ∈ a.transformations := List.mem_of_getLast? hl
    have := h.inRange t hm
    exact ⟨t, w.transforms[t], rfl, by simp [this]⟩

/-- One call. -/
theorem call_spec {w : World} {i : Addr} {a : Archive} (h : Owned w i a) (c : TCall) :
    (∃ a', Owned (c.run w i).2 i a') ∧ (c.run w i).1 = (expected (w.transformsOf i) c).1 ∧
    (c.run w i).2.transformsOf i = (expected (w.transformsOf i) c).2 := by
  cases c with
  | xpath x =>
    cases x with
    | none => exact ⟨⟨a, h⟩, rfl, rfl⟩
    | some x => exact ⟨(push_spec h _).1, rfl, (push_spec h _).2⟩
  | xpathElement x p u e =>
    cases x <;> cases p <;> cases u <;> cases e <;> first
      | exact ⟨⟨a, h⟩, rfl, rfl⟩
      | exact ⟨(push_spec h _).1, rfl, (push_spec h _).2⟩
  | doc b d =>
    cases d with
    | none => cases b <;> exact ⟨⟨a, h⟩, rfl, rfl⟩
    | some d => cases b <;> exact ⟨(push_spec h _).1, rfl, (push_spec h _).2⟩
  | clear =>
    have hlt : i < w.archives.length := (List.getElem?_eq_some_iff.1 h.here).1
    have e : w.clearTransforms i = (.ok, { w with archives := w.archives.set i { a with transformations := [] } }) := by
      unfold World.clearTransforms; rw [h.here]
    have own : Owned (w.clearTransforms i).2 i { a with transformations := [] } := by
      rw [e]; exact ⟨by simp [hlt], by simp, by simp⟩
    refine ⟨⟨_, own⟩, by show (w.clearTransforms i).1 = _; rw [e]; rfl, ?_⟩
    show (w.clearTransforms i).2.transformsOf i = _
    rw [owned_list own]; rfl
  | param q n v =>
    cases n with
    | none => exact ⟨⟨a, h⟩, rfl, rfl⟩
    | some n =>
      cases v with
      | none => exact ⟨⟨a, h⟩, rfl, rfl⟩
      | some v =>
        rcases last_object h with ⟨h1, h2⟩ | ⟨t, o, h1, h2⟩
        · have e : w.appendParam i q (some n) (some v) = (.noTransformation, w) := by
            unfold World.appendParam; simp only [h.here, h1, List.getLast?_nil]
          refine ⟨⟨a, ?_⟩, ?_, ?_⟩
          · show Owned (w.appendParam i q (some n) (some v)).2 i a
            rw [e]; exact h
          · show (w.appendParam i q (some n) (some v)).1 = _
            rw [e, h2]; rfl
          · show (w.appendParam i q (some n) (some v)).2.transformsOf i = _
            rw [e]; simp only [expected, h2]; rfl
        · have e : w.appendParam i q (some n) (some v) = (.ok, (⟨w.archives,
              w.transforms.set t ⟨o.kind, o.params ++ [n, if q then ['"'] ++ v ++ ['"'] else v]⟩⟩ : World)) := by
            unfold World.appendParam
            simp only [h.here, h1]
            congr 2
            have : Inhabited Transformation := ⟨o⟩
            rw [List.modify_eq_set, h2]
            simp
          obtain ⟨m1, _, m3, m4⟩ := modify_spec h h1 _ o _ h2 rfl
          refine ⟨⟨a, ?_⟩, ?_, ?_⟩
          · show Owned (w.appendParam i q (some n) (some v)).2 i a
            rw [e]; exact m1
          · show (w.appendParam i q (some n) (some v)).1 = _
            rw [e]; simp only [expected, m3]
          · show (w.appendParam i q (some n) (some v)).2.transformsOf i = _
            rw [e]; simp only [expected, m3]; exact m4
  | xpathAttribute x p u n v =>
    cases x with
    | none => exact ⟨⟨a, h⟩, rfl, rfl⟩
    | some x =>
    cases p with
    | none => exact ⟨⟨a, h⟩, rfl, rfl⟩
    | some p =>
    cases u with
    | none => exact ⟨⟨a, h⟩, rfl, rfl⟩
    | some u =>
    cases n with
    | none => exact ⟨⟨a, h⟩, rfl, rfl⟩
    | some n =>
    cases v with
    | none => exact ⟨⟨a, h⟩, rfl, rfl⟩
    | some v =>
      show (∃ a', Owned (w.appendXPathAttribute i (some x) (some p) (some u) (some n) (some v)).2 i a') ∧
        (w.appendXPathAttribute i (some x) (some p) (some u) (some n) (some v)).1 = _ ∧
        (w.appendXPathAttribute i (some x) (some p) (some u) (some n) (some v)).2.transformsOf i = _
      have p1 := push_spec h ⟨.xpath x ([], [], []) (p, u, n, v), []⟩
      rcases last_object h with ⟨h1, h2⟩ | ⟨t, o, h1, h2⟩
      · have e : w.appendXPathAttribute i (some x) (some p) (some u) (some n) (some v) =
            (.ok, w.pushTransform i ⟨.xpath x ([], [], []) (p, u, n, v), []⟩) := by
          unfold World.appendXPathAttribute; simp only [h.here, h1, List.getLast?_nil, Option.bind_none]
        rw [e]
        refine ⟨p1.1, ?_, ?_⟩
        · simp only [expected, h2, List.getLast?_nil]
        · rw [p1.2]; simp only [expected, h2, List.getLast?_nil]
      · have hb : a.transformations.getLast?.bind (fun t => (w.transforms[t]?).map (fun o => (t, o))) = some (t, o) := by
          rw [h1]; simp [h2]
        have m := modify_spec h h1 (w.transforms.set t ⟨match o.kind with
            | .xpath x' e _ => .xpath x' e (p, u, n, v)
            | k => k, o.params⟩) o _ h2 rfl
        have hlast := m.2.2.1
        unfold World.appendXPathAttribute
        simp only [h.here, hb, expected, hlast]
        rcases o with ⟨k, ps⟩
        rcases k with ⟨x', e', ⟨a1, a2, a3, a4⟩⟩ | d | d
        · cases a1 <;> cases a2 <;> cases a3 <;> cases a4 <;> simp only [] <;> first
            | exact ⟨p1.1, trivial, p1.2⟩
            | (split
               · next hx => subst hx; exact ⟨⟨a, m.1⟩, rfl, m.2.2.2⟩
               · exact ⟨p1.1, rfl, p1.2⟩)
        · exact ⟨p1.1, rfl, p1.2⟩
        · exact ⟨p1.1, rfl, p1.2⟩

/-- After any history of append, parameter and clear calls the statuses and the transformations of the archive are
those of the list: every parameter is on the transformation that was the latest when it was given, in order, string
parameters in quotes, and a clear removes everything. -/
theorem C37_history (w : World) (i : Addr) (a : Archive) (h : Owned w i a) (cs : List TCall) :
    (runTCalls w i cs).1 = (expectedAll (w.transformsOf i) cs).1 ∧
    (runTCalls w i cs).2.transformsOf i = (expectedAll (w.transformsOf i) cs).2 := by
  induction cs generalizing w a with
  | nil => exact ⟨rfl, rfl⟩
  | cons c cs ih =>
    obtain ⟨⟨a', h1⟩, h2, h3⟩ := call_spec h c
    have := ih _ _ h1
    rw [h3] at this
    exact ⟨by simp only [runTCalls, expectedAll, h2, this.1], by simp only [runTCalls, expectedAll, this.2]⟩

/-- A new archive has no transformations and owns what it will get. -/
theorem C37_created (w : World) :
    Owned { w with archives := w.archives ++ [srcml_archive_create] } w.archives.length srcml_archive_create ∧
    ({ w with archives := w.archives ++ [srcml_archive_create] } : World).transformsOf w.archives.length = [] := by
  have h : Owned { w with archives := w.archives ++ [srcml_archive_create] } w.archives.length srcml_archive_create :=
    ⟨by simp, by simp [srcml_archive_create], by simp [srcml_archive_create]⟩
  exact ⟨h, by rw [owned_list h]; rfl⟩

example : let w : World := { archives := [srcml_archive_create] }
    (runTCalls w 0 [.param true (some "n".toList) (some "v".toList), .xpath (some "//a".toList), .doc true (some "s".toList),
      .param true (some "n".toList) (some "v".toList), .param false (some "m".toList) (some "1".toList), .xpath none]).1 =
      [.noTransformation, .ok, .ok, .ok, .ok, .invalidArgument] ∧
    (runTCalls w 0 [.param true (some "n".toList) (some "v".toList), .xpath (some "//a".toList), .doc true (some "s".toList),
      .param true (some "n".toList) (some "v".toList), .param false (some "m".toList) (some "1".toList), .xpath none]).2.transformsOf 0 =
      [⟨.xpath "//a".toList ([], [], []) ([], [], [], []), []⟩,
       ⟨.xslt "s".toList, ["n".toList, "\"v\"".toList, "m".toList, "1".toList]⟩] := by
  have h := (C37_created {}).1
  have := C37_history _ _ _ h [.param true (some "n".toList) (some "v".toList), .xpath (some "//a".toList), .doc true (some "s".toList),
      .param true (some "n".toList) (some "v".toList), .param false (some "m".toList) (some "1".toList), .xpath none]
  exact this

/-- A string parameter with a quote in its value is not a string of the parameter language any more: nothing is
escaped. -/
theorem C37_finding_quote (w : World) (i : Addr) (a : Archive) (h : Owned w i a) (x : Str) :
    ((runTCalls w i [.doc true (some x), .param true (some "n".toList) (some "a\"b".toList)]).2.transformsOf i).getLast? =
      some ⟨.xslt x, ["n".toList, "\"a\"b\"".toList]⟩ := by
  rw [(C37_history w i a h _).2]
  simp [expectedAll, expected]

/-! ### C38: accessors of a result -/

/-- The accessors of a result: each gives the value for its own kind of result and the neutral value (0, null, -1) for
every other kind; a unit is given exactly for the indexes of the units. -/
theorem C38_accessors_partial {D : Type} (zero : D) (r : TransformResult D) :
    srcml_transform_get_type (some r) = .val r.type ∧
    srcml_transform_get_unit_size (some r) = .val (if r.type = 1 then r.units.length else 0) ∧
    srcml_transform_get_bool (some r) = .val (match r.type, r.bool with | 2, some b => b | _, _ => -1) ∧
    srcml_transform_get_number zero (some r) = .val (match r.type, r.number with | 3, some d => d | _, _ => zero) ∧
    srcml_transform_get_string (some r) = .val (match r.type, r.string with | 4, some s => some s | _, _ => none) ∧
    (∀ i : Nat, srcml_transform_get_unit (i : Int) (some r) = .val (if r.type = 1 then r.units[i]? else none)) := by
  refine ⟨rfl, ?_, ?_, ?_, ?_, ?_⟩
  · simp only [srcml_transform_get_unit_size, RESULT_UNITS]
    by_cases h : r.type = 1 <;> simp [h]
  · simp only [srcml_transform_get_bool, RESULT_BOOLEAN]
    by_cases h : r.type = 2
    · rw [h]; cases r.bool <;> rfl
    · simp only [h, ne_eq, not_false_eq_true, if_true]
      congr 1
      split
      · next h1 _ => exact absurd h1 h
      · rfl
  · simp only [srcml_transform_get_number, RESULT_NUMBER]
    by_cases h : r.type = 3
    · rw [h]; cases r.number <;> rfl
    · simp only [h, ne_eq, not_false_eq_true, if_true]
      congr 1
      split
      · next h1 _ => exact absurd h1 h
      · rfl
  · simp only [srcml_transform_get_string, RESULT_STRING]
    by_cases h : r.type = 4
    · rw [h]; cases r.string <;> rfl
    · simp only [h, ne_eq, not_false_eq_true, if_true]
      congr 1
      split
      · next h1 _ => exact absurd h1 h
      · rfl
  · intro i
    simp only [srcml_transform_get_unit, RESULT_UNITS]
    by_cases h : r.type = 1
    · simp only [h, ne_eq, not_true, if_false, if_true]
      by_cases h1 : (i : Int) ≥ r.units.length
      · simp only [h1, if_true]
        rw [List.getElem?_eq_none (by omega)]
      · have : ¬ ((i : Int) < 0) := by omega
        simp only [h1, this, if_false]
        simp
    · simp [h]

/-- A negative index is out of bounds, and a missing result is dereferenced. -/
theorem C38_finding_bounds {D : Type} (zero : D) (r : TransformResult D) (i : Int) (hr : r.type = 1) (hi : i < 0) :
    srcml_transform_get_unit i (some r) = .ub ∧ srcml_transform_get_type (none : Option (TransformResult D)) = .ub ∧
    srcml_transform_get_unit_size (none : Option (TransformResult D)) = .ub ∧
    srcml_transform_get_number zero none = .ub := by
  refine ⟨?_, rfl, rfl, rfl⟩
  have h1 : ¬ (i ≥ r.units.length) := by omega
  simp only [srcml_transform_get_unit, RESULT_UNITS, hr, ne_eq, not_true, if_false, h1, hi, if_true]

example : srcml_transform_get_unit 1 (some ({ type := 1, units := [{}, { loc := 7 }] } : TransformResult Nat)) =
    .val (some { loc := 7 }) ∧
    srcml_transform_get_unit 2 (some ({ type := 1, units := [{}, { loc := 7 }] } : TransformResult Nat)) = .val none ∧
    srcml_transform_get_bool (some ({ type := 1, bool := some 0 } : TransformResult Nat)) = .val (-1) := by
  refine ⟨by decide, by decide, by decide⟩

/-! ### C36: application in order -/

/-- The node sets that a transformation gives for each of some nodes, put together in order, every node once. -/
inductive Applied {N D : Type} (f : N → TResult N D) : List N → List N → Prop
  | nil : Applied f [] []
  | snoc {ns out l : List N} {n : N} : Applied f ns out → (f n).nodeset = some l →
      ∀ {out' : List N}, (∀ x, x ∈ out' ↔ x ∈ l ∧ x ∉ out) → out'.Sublist l → Applied f (ns ++ [n]) (out ++ out')

/-- One transformation after the other, each on the results of the one before. -/
inductive Composed {N D : Type} : List (N → TResult N D) → List N → List N → Prop
  | nil {ns : List N} : Composed [] ns ns
  | cons {f : N → TResult N D} {fs : List (N → TResult N D)} {ns mid out : List N} :
      Applied f ns mid → Composed fs mid out → Composed (f :: fs) ns out

/-- The transformation gives units, at least one, for this node. -/
def GivesUnits {N D : Type} (f : N → TResult N D) (n : N) : Prop :=
  (f n).nodeType = RESULT_UNITS ∧ ∃ l, (f n).nodeset = some l ∧ l ≠ []

/-- Starting with these nodes every transformation gives units for each of the results of the one before. -/
def AllGive {N D : Type} : List (N → TResult N D) → List N → Prop
  | [], _ => True
  | f :: fs, ns => (∀ n ∈ ns, GivesUnits f n) ∧ ∀ mid, Applied f ns mid → AllGive fs mid

theorem applyNodes_spec {N D : Type} [DecidableEq N] (f : N → TResult N D) :
    ∀ (ns done full : List N) (last : TResult N D), (∀ n ∈ ns, ∃ l, (f n).nodeset = some l) → Applied f done full →
      Applied f (done ++ ns) (applyNodes f full last ns).1 ∧
      (applyNodes f full last ns).2 = ((ns.getLast?).map f).getD last := by
  intro ns
  induction ns with
  | nil => intro done full last _ h; exact ⟨by simpa [applyNodes] using h, rfl⟩
  | cons n ns ih =>
    intro done full last hf h
    obtain ⟨l, hl⟩ := hf n (by simp)
    have e : applyNodes f full last (n :: ns) = applyNodes f (mergeNodes full l) (f n) ns := by
      rw [applyNodes]; simp only [hl]
    rw [e]
    have h1 : Applied f (done ++ [n]) (mergeNodes full l) := by
      unfold mergeNodes
      refine .snoc h hl ?_ List.filter_sublist
      intro x; simp
    have := ih (done ++ [n]) (mergeNodes full l) (f n) (fun m hm => hf m (by simp [hm])) h1
    refine ⟨by simpa using this.1, ?_⟩
    rw [this.2]
    cases ns with
    | nil => rfl
    | cons m ms => rw [List.getLast?_cons_cons, List.getLast?_eq_some_getLast (by simp)]; rfl

theorem applyNodes_nonempty {N D : Type} [DecidableEq N] (f : N → TResult N D)
    (ns full : List N) (last : TResult N D) (hf : ∀ n ∈ ns, ∃ l, (f n).nodeset = some l ∧ l ≠ [])
    (h : full ≠ [] ∨ ns ≠ []) : (applyNodes f full last ns).1 ≠ [] := by
  induction ns generalizing full last with
  | nil => simpa [applyNodes] using h
  | cons n ns ih =>
    obtain ⟨l, hl, hne⟩ := hf n (by simp)
    have e : applyNodes f full last (n :: ns) = applyNodes f (mergeNodes full l) (f n) ns := by
      rw [applyNodes]; simp only [hl]
    rw [e]
    apply ih _ _ (fun m hm => hf m (by simp [hm]))
    left
    unfold mergeNodes
    cases full with
    | cons x xs => simp
    | nil =>
      rw [List.nil_append, List.filter_eq_self.2 (by simp)]
      exact hne

theorem applyAll_spec {N D : Type} [DecidableEq N] (fs : List (N → TResult N D)) :
    ∀ (ns : List N) (last : TResult N D), AllGive fs ns → ns ≠ [] → (fs = [] → last.nodeType = RESULT_UNITS) →
      Composed fs ns (applyAll ns last fs).1 ∧ (applyAll ns last fs).2.1.nodeType = RESULT_UNITS ∧
      (applyAll ns last fs).2.2 = false ∧
      (∀ g, fs.getLast? = some g → ∃ n, (applyAll ns last fs).2.1 = g n) := by
  induction fs with
  | nil => intro ns last _ hns hl; exact ⟨.nil, hl rfl, rfl, by simp⟩
  | cons f fs ih =>
    intro ns last hf hns _
    have g := hf.1
    have g1 : ∀ n ∈ ns, ∃ l, (f n).nodeset = some l := fun n hn => by obtain ⟨l, h, _⟩ := (g n hn).2; exact ⟨l, h⟩
    have a1 := applyNodes_spec f ns [] [] last g1 .nil
    have a2 := applyNodes_nonempty f ns [] last (fun n hn => (g n hn).2) (Or.inr hns)
    have hlast : ∃ n ∈ ns, (applyNodes f [] last ns).2 = f n := by
      rw [a1.2, List.getLast?_eq_some_getLast hns]; exact ⟨_, List.getLast_mem hns, rfl⟩
    obtain ⟨n, hnm, hn⟩ := hlast
    have e : applyAll ns last (f :: fs) = applyAll (applyNodes f [] last ns).1 (applyNodes f [] last ns).2 fs := by
      rw [applyAll, if_neg a2]
    rw [e]
    have a3 := ih (applyNodes f [] last ns).1 (applyNodes f [] last ns).2 (hf.2 _ (by simpa using a1.1)) a2
      (fun _ => by rw [hn]; exact (g n hnm).1)
    refine ⟨.cons (by simpa using a1.1) a3.1, a3.2.1, a3.2.2.1, ?_⟩
    intro g' hg'
    cases fs with
    | nil =>
      simp only [List.getLast?_singleton, Option.some.injEq] at hg'
      subst hg'
      exact ⟨n, by simp only [applyAll]; exact hn⟩
    | cons f' fs' =>
      rw [List.getLast?_cons_cons] at hg'
      exact a3.2.2.2 g' hg'

/-- The settings that a unit has besides its contents. -/
def plainSettings (u : UnitData) :=
  (u.encoding, u.revision, u.language, u.filename, u.url, u.version, u.timestamp, u.hash, u.eol)

theorem clearBit2 (x i : Nat) : (x - (x &&& NS_USED)).testBit i = (x.testBit i && decide (i ≠ 2)) := by
  have h4 : x &&& NS_USED = 4 * (x / 4 % 2) := by
    apply Nat.eq_of_testBit_eq
    intro j
    rw [Nat.testBit_and, show NS_USED = 2 ^ 2 from rfl, Nat.testBit_two_pow,
      show 4 * (x / 4 % 2) = 2 ^ 2 * (x / 4 % 2) + 0 by omega, Nat.testBit_two_pow_mul_add _ (by omega)]
    by_cases hj : j < 2
    · simp [hj, show ¬ 2 = j by omega]
    · simp only [hj, if_false]
      by_cases h2 : 2 = j
      · subst h2
        rw [Nat.testBit_eq_decide_div_mod_eq]
        rcases Nat.mod_two_eq_zero_or_one (x / 4) with h | h <;> simp [h]
      · obtain ⟨k, rfl⟩ : ∃ k, j = k + 3 := ⟨j - 3, by omega⟩
        rw [show k + 3 - 2 = k + 1 by omega, Nat.testBit_succ (x / 4 % 2), show x / 4 % 2 / 2 = 0 by omega]
        simp
  rw [h4]
  by_cases hi : i = 2
  · subst hi
    have e : x - 4 * (x / 4 % 2) = 2 ^ 2 * (2 * (x / 8)) + x % 4 := by omega
    rw [e, Nat.testBit_two_pow_mul_add _ (by omega)]
    simp
  · have e : x - 4 * (x / 4 % 2) = 2 ^ 2 * (2 * (x / 8)) + x % 4 := by omega
    have e2 : x = 2 ^ 2 * (2 * (x / 8) + x / 4 % 2) + x % 4 := by omega
    have e3 : x.testBit i = (2 ^ 2 * (2 * (x / 8) + x / 4 % 2) + x % 4).testBit i := congrArg (Nat.testBit · i) e2
    rw [e, e3, Nat.testBit_two_pow_mul_add _ (by omega), Nat.testBit_two_pow_mul_add _ (by omega)]
    by_cases hlt : i < 2
    · simp [hlt, hi]
    · simp only [hlt, if_false]
      obtain ⟨k, rfl⟩ : ∃ k, i = k + 3 := ⟨i - 3, by omega⟩
      rw [show k + 3 - 2 = k + 1 by omega, Nat.testBit_succ, Nat.testBit_succ]
      have : (2 * (x / 8) + x / 4 % 2) / 2 = 2 * (x / 8) / 2 := by omega
      rw [this]; simp

theorem setBit2 (x i : Nat) : (x ||| NS_USED).testBit i = (x.testBit i || decide (i = 2)) := by
  rw [Nat.testBit_or]
  congr 1
  by_cases h : i = 2
  · subst h; decide
  · rw [show NS_USED = 2 ^ 2 from rfl, Nat.testBit_two_pow]
    simp [h, eq_comm]

theorem clearUsed_self (ns : List Namespace) (uri : Str) :
    findUri (clearUsed ns uri) uri = (findUri ns uri).map (fun n => { n with flags := n.flags - (n.flags &&& NS_USED) }) :=
  findUri_modifyUri_self ns uri _ (fun _ => rfl)

theorem clearUsed_ne (ns : List Namespace) {uri v : Str} (h : v ≠ uri) : findUri (clearUsed ns uri) v = findUri ns v :=
  findUri_modifyUri_ne ns uri v h _ (fun _ => rfl)

theorem findUri_snoc (ns : List Namespace) (n : Namespace) (v : Str) :
    findUri (ns ++ [n]) v = (findUri ns v).or (if n.uri = v then some n else none) := by
  unfold findUri
  rw [List.find?_append]
  simp [List.find?_cons]
  by_cases h : n.uri = v <;> simp [h]

theorem markResultUsed_ne (ns : List Namespace) (pre : Str) {uri v : Str} (h : v ≠ uri) :
    findUri (markResultUsed ns pre uri) v = findUri ns v := by
  unfold markResultUsed
  split
  · exact findUri_modifyUri_ne ns uri v h _ (fun _ => rfl)
  · rw [findUri_snoc, if_neg (fun e => h (Eq.symm e)), Option.or_none]

theorem markResultUsed_self (ns : List Namespace) (pre uri : Str) :
    findUri (markResultUsed ns pre uri) uri = some (((findUri ns uri).map (fun n => { n with flags := n.flags ||| NS_USED })).getD
      ⟨pre, uri, NS_USED ||| NS_STANDARD⟩) := by
  unfold markResultUsed
  split
  · next h => rw [findUri_modifyUri_self ns uri (fun n => { n with flags := n.flags ||| NS_USED }) (fun _ => rfl), h]; rfl
  · next h => rw [findUri_snoc, h]; simp

theorem optional_clear (pre uri : Str) (o : Option Namespace) :
    Spec.OptionalNs pre uri false o (o.map (fun n => { n with flags := n.flags - (n.flags &&& NS_USED) })) := by
  cases o with
  | none => rfl
  | some n => exact ⟨rfl, rfl, by rw [clearBit2]; simp, fun i hi => by rw [clearBit2]; simp [hi]⟩

theorem optional_mark (pre uri : Str) (o : Option Namespace) :
    Spec.OptionalNs pre uri true o (some (((o.map (fun n => { n with flags := n.flags - (n.flags &&& NS_USED) })).map
      (fun n => { n with flags := n.flags ||| NS_USED })).getD ⟨pre, uri, NS_USED ||| NS_STANDARD⟩)) := by
  cases o with
  | none => exact ⟨rfl, rfl, rfl, by show (NS_USED ||| NS_STANDARD).testBit 2 = true; decide⟩
  | some n =>
    exact ⟨rfl, rfl, by simp only [Option.map_some, Option.getD_some]; rw [setBit2]; simp,
      fun i hi => by simp only [Option.map_some, Option.getD_some]; rw [setBit2, clearBit2]; simp [hi]⟩

theorem resultNamespaces_spec (ns : Option (List Namespace)) (v : NodeView) :
    Spec.ResultNs ns v (resultNamespaces ns v) := by
  have hco : CPP_NS_URI ≠ OPENMP_NS_URI := by decide +kernel
  have hoc : OPENMP_NS_URI ≠ CPP_NS_URI := hco.symm
  have hs : ([⟨[], SRC_NS_URI, 17⟩] : List Namespace) = startingNamespaces := rfl
  have b1 : ∀ (o : List Namespace) (uri : Str), uri ≠ CPP_NS_URI → uri ≠ OPENMP_NS_URI →
      findUri (clearUsed (clearUsed o CPP_NS_URI) OPENMP_NS_URI) uri = findUri o uri :=
    fun o uri h1 h2 => by rw [clearUsed_ne _ h2, clearUsed_ne _ h1]
  have b2 : ∀ o : List Namespace, findUri (clearUsed (clearUsed o CPP_NS_URI) OPENMP_NS_URI) CPP_NS_URI =
      (findUri o CPP_NS_URI).map (fun n => { n with flags := n.flags - (n.flags &&& NS_USED) }) :=
    fun o => by rw [clearUsed_ne _ hco, clearUsed_self]
  have b3 : ∀ o : List Namespace, findUri (clearUsed (clearUsed o CPP_NS_URI) OPENMP_NS_URI) OPENMP_NS_URI =
      (findUri o OPENMP_NS_URI).map (fun n => { n with flags := n.flags - (n.flags &&& NS_USED) }) :=
    fun o => by rw [clearUsed_self, clearUsed_ne _ hoc]
  have plain : Spec.ResultNs ns (.text []) (clearUsed (clearUsed (ns.getD startingNamespaces) CPP_NS_URI) OPENMP_NS_URI) :=
    ⟨fun uri h1 h2 => b1 _ uri h1 h2, by show Spec.OptionalNs _ _ _ _ (findUri _ _); rw [b2]; exact optional_clear _ _ _,
      by show Spec.OptionalNs _ _ _ _ (findUri _ _); rw [b3]; exact optional_clear _ _ _⟩
  cases v with
  | comment _ => exact ⟨plain.others, plain.cpp, plain.omp⟩
  | text _ => exact ⟨plain.others, plain.cpp, plain.omp⟩
  | «attribute» _ _ => exact ⟨plain.others, plain.cpp, plain.omp⟩
  | element d c o =>
    refine ⟨fun uri h1 h2 => ?_, ?_, ?_⟩
    · show findUri _ uri = findUri _ uri
      rw [hs]
      simp only [resultNamespaces]
      cases c <;> cases o <;> simp [markResultUsed_ne _ _ h1, markResultUsed_ne _ _ h2, b1 _ uri h1 h2]
    · show Spec.OptionalNs _ _ _ _ (findUri _ _)
      rw [hs]
      simp only [resultNamespaces]
      cases c <;> cases o <;> simp only [Bool.false_eq_true, if_false, if_true, markResultUsed_ne _ _ hco, b2,
        markResultUsed_self, Spec.uses]
      · exact optional_clear _ _ _
      · exact optional_clear _ _ _
      · exact optional_mark _ _ _
      · exact optional_mark _ _ _
    · show Spec.OptionalNs _ _ _ _ (findUri _ _)
      rw [hs]
      simp only [resultNamespaces]
      cases c <;> cases o <;> simp only [Bool.false_eq_true, if_false, if_true, markResultUsed_ne _ _ hoc, b3,
        markResultUsed_self, Spec.uses]
      · exact optional_clear _ _ _
      · exact optional_mark _ _ _
      · exact optional_clear _ _ _
      · exact optional_mark _ _ _

/-- What a unit made of a result that is not itself a whole unit must be: the settings of the transformed unit, the text
of the node as contents, its number as attribute `item`, the namespaces of the unit with the marks of the node, and no
hash. -/
structure ItemUnit (u : UnitData) (i : Nat) (v : NodeView) (x : UnitData) : Prop where
  srcml : Spec.NodeText v x.srcml
  settings : plainSettings x = plainSettings { u with hash := none }
  attributes : x.attributes = u.attributes ++ ["item".toList, (toString (i + 1)).toList]
  namespaces : ∃ l, x.namespaces = some l ∧ Spec.ResultNs u.namespaces v l
  readable : x.readBody = true
  inner : ({ data := x } : UnitObj).getInner.1 = some x.srcml

theorem nodeText_srcml {v : NodeView} {t : Str} (h : Spec.NodeText v t) : v.srcml = some t := by
  cases h <;> rfl

theorem whole_inner (x : UnitData) (hr : x.readBody = true) (hb : x.contentBegin = 0)
    (he : x.contentEnd = x.srcml.length + 1) : ({ data := x } : UnitObj).getInner.1 = some x.srcml := by
  unfold UnitObj.getInner
  simp only [hr, hb, he, Bool.true_eq_false, false_and, if_false]
  split
  · next h =>
    have : x.srcml.length = 0 := by simp only [Int.natCast_add] at h; omega
    rw [List.length_eq_zero_iff.1 this]
  · simp only [List.drop_zero]
    rw [List.take_of_length_le (by simp only [Int.natCast_add]; omega)]

theorem resultUnits_items (attrsOf : Str → List (Str × Str)) (u : UnitData) (vs : List NodeView) (i : Nat)
    (hv : ∀ v ∈ vs, ∃ t, Spec.NodeText v t) :
    ∃ xs, resultUnits attrsOf u false i vs = .val xs ∧ xs.length = vs.length ∧
      ∀ k v x, vs[k]? = some v → xs[k]? = some x → ItemUnit u (i + k) v x := by
  induction vs generalizing i with
  | nil => exact ⟨[], rfl, rfl, by simp⟩
  | cons v vs ih =>
    obtain ⟨xs, h1, h2, h3⟩ := ih (i + 1) (fun w hw => hv w (by simp [hw]))
    obtain ⟨t, ht⟩ := hv v (by simp)
    have : ∃ x, resultUnit attrsOf u false i v = .val x ∧ ItemUnit u i v x := by
      unfold resultUnit srcml_unit_clone
      simp only [Option.map_some, nodeText_srcml ht, Bool.false_eq_true, if_false]
      exact ⟨_, rfl, ⟨ht, rfl, rfl, ⟨_, rfl, resultNamespaces_spec _ _⟩, rfl, whole_inner _ rfl rfl rfl⟩⟩
    obtain ⟨x, hx, hi⟩ := this
    refine ⟨x :: xs, ?_, by simp [h2], ?_⟩
    · rw [resultUnits, hx]; simp only [h1]
    · intro k v' x' hv hx'
      cases k with
      | zero =>
        simp only [List.getElem?_cons_zero, Option.some.injEq] at hv hx'
        subst hv hx'
        exact hi
      | succ k =>
        simp only [List.getElem?_cons_succ] at hv hx'
        have := h3 k v' x' hv hx'
        rwa [show i + 1 + k = i + (k + 1) by omega] at this

/-- The attributes of a unit that is a whole result: the text of the start tag, as the tag of an empty element. -/
inductive StartTag : Str → Str → Prop
  | empty (tag rest : Str) : '>' ∉ tag → StartTag ('<' :: tag ++ ['/', '>'] ++ rest) ('<' :: tag ++ ['/', '>'])
  | full (tag rest : Str) : '>' ∉ tag → tag.getLast? ≠ some '/' →
      StartTag ('<' :: tag ++ ['>'] ++ rest) ('<' :: tag ++ ['/', '>'])

/-- What a unit made of a whole unit in the results must be: its srcML is the text of the node, its settings and
attributes are those of the transformed unit as updated by the start tag of the node, and its contents are those of the
node. -/
structure WholeUnit (attrsOf : Str → List (Str × Str)) (u : UnitData) (v : NodeView) (x : UnitData) : Prop where
  srcml : Spec.NodeText v x.srcml
  settings : ∀ tag, StartTag x.srcml tag →
    plainSettings x = plainSettings (unit_update_attributes u (attrsOf tag)) ∧
    x.attributes = (unit_update_attributes u (attrsOf tag)).attributes
  namespaces : ∃ l, x.namespaces = some l ∧ Spec.ResultNs u.namespaces v l
  readable : x.readBody = true
  inner : ∀ tag text name, x.srcml = '<' :: tag ++ '>' :: text ++ '<' :: name → '>' ∉ tag → '<' ∉ name →
    ({ data := x } : UnitObj).getInner.1 = some text
  none : ∀ tag, x.srcml = '<' :: tag ++ ['>'] → '>' ∉ tag → '<' ∉ tag → ({ data := x } : UnitObj).getInner.1 = some []

theorem startTag_model {s tag : Str} (h : StartTag s tag) : resultStartTag s = some tag := by
  cases h with
  | empty tag rest hn =>
    unfold resultStartTag
    rw [show '<' :: tag ++ ['/', '>'] ++ rest = ('<' :: tag ++ ['/']) ++ '>' :: rest by simp,
      findFirst_append _ _ (by simp [hn])]
    simp only [List.take_left']
    rw [List.getLast?_append]
    simp
  | full tag rest hn hl =>
    unfold resultStartTag
    rw [show '<' :: tag ++ ['>'] ++ rest = ('<' :: tag) ++ '>' :: rest by simp,
      findFirst_append _ _ (by simp [hn])]
    simp only [List.take_left']
    cases ht : tag.getLast? with
    | none => rw [List.getLast?_eq_none_iff] at ht; subst ht; rfl
    | some c =>
      rw [List.getLast?_cons, ht]
      have hc : c ≠ '/' := fun e => hl (by rw [ht, e])
      simp [hc]

theorem update_same (as : List (Str × Str)) (m n : UnitData) (h : plainSettings m = plainSettings n)
    (ha : m.attributes = n.attributes) :
    plainSettings (unit_update_attributes m as) = plainSettings (unit_update_attributes n as) ∧
    (unit_update_attributes m as).attributes = (unit_update_attributes n as).attributes := by
  induction as generalizing m n with
  | nil => exact ⟨h, ha⟩
  | cons a as ih =>
    apply ih (updateAttribute m a) (updateAttribute n a)
    · simp only [plainSettings, Prod.mk.injEq] at h ⊢
      obtain ⟨h1, h2, h3, h4, h5, h6, h7, h8, h9⟩ := h
      unfold updateAttribute
      rw [ha]
      repeat' split
      all_goals exact ⟨by assumption, by first | assumption | rfl, by first | assumption | rfl, by first | assumption | rfl,
        by first | assumption | rfl, by first | assumption | rfl, by first | assumption | rfl, by first | assumption | rfl,
        by first | assumption | rfl⟩
    · unfold updateAttribute
      rw [ha]
      repeat' split
      all_goals first | exact ha | rfl

theorem update_keeps (as : List (Str × Str)) (m : UnitData) :
    (unit_update_attributes m as).srcml = m.srcml ∧ (unit_update_attributes m as).readBody = m.readBody ∧
    (unit_update_attributes m as).readHeader = m.readHeader ∧
    (unit_update_attributes m as).namespaces = m.namespaces ∧
    (unit_update_attributes m as).contentBegin = m.contentBegin ∧
    (unit_update_attributes m as).contentEnd = m.contentEnd := by
  induction as generalizing m with
  | nil => exact ⟨rfl, rfl, rfl, rfl, rfl, rfl⟩
  | cons a as iha =>
    have h := iha (updateAttribute m a)
    have h0 : (updateAttribute m a).srcml = m.srcml ∧ (updateAttribute m a).readBody = m.readBody ∧
        (updateAttribute m a).readHeader = m.readHeader ∧ (updateAttribute m a).namespaces = m.namespaces ∧
        (updateAttribute m a).contentBegin = m.contentBegin ∧ (updateAttribute m a).contentEnd = m.contentEnd := by
      unfold updateAttribute
      repeat' split
      all_goals exact ⟨rfl, rfl, rfl, rfl, rfl, rfl⟩
    exact ⟨h.1.trans h0.1, h.2.1.trans h0.2.1, h.2.2.1.trans h0.2.2.1, h.2.2.2.1.trans h0.2.2.2.1,
      h.2.2.2.2.1.trans h0.2.2.2.2.1, h.2.2.2.2.2.trans h0.2.2.2.2.2⟩

/-- Without transformations nothing happens: the status is OK and no result is stored. -/
theorem C36_none {N D : Type} [DecidableEq N] (zero : D) (parse : Str → Option N) (view : N → NodeView)
    (attrsOf : Str → List (Str × Str)) (u : UnitData) (want : Bool) :
    applyTransforms zero parse view attrsOf ([] : List (N → TResult N D)) u want = .val (.ok, none) := rfl

/-- If every transformation gives at least one node for every result of the one before, the result is the left-to-right composition: each
transformation applied to every result of the one before, in order, every node once. The i-th unit of the result is
made of the i-th node, with the settings of the transformed unit. Missing: transformations that give nothing for some
node (the findings below), whole units as results (`C36_wrapped_partial`), attributes with empty values
(`C36_finding_empty_attribute`), and the effect that making a node the root has on other nodes. -/
theorem C36_compose_partial {N D : Type} [DecidableEq N] (zero : D) (parse : Str → Option N) (view : N → NodeView)
    (attrsOf : Str → List (Str × Str)) (fs : List (N → TResult N D)) (u : UnitData) (root : N)
    (hne : fs ≠ []) (hf : AllGive fs [root]) (hp : parse u.srcml = some root)
    (hw : ∀ g, fs.getLast? = some g → ∀ n, (g n).unitWrapped = false)
    (hv : ∀ n, ∃ t, Spec.NodeText (view n) t) :
    ∃ nodes r, Composed fs [root] nodes ∧
      applyTransforms zero parse view attrsOf fs u true = .val (.ok, some r) ∧
      r.type = 1 ∧ r.units.length = nodes.length ∧
      ∀ k n x, nodes[k]? = some n → r.units[k]? = some x → ItemUnit u k (view n) x := by
  obtain ⟨h1, h2, h3, h4⟩ := applyAll_spec fs [root] ({ number := zero } : TResult N D) hf (by simp) (fun h => absurd h hne)
  generalize hA : applyAll [root] ({ number := zero } : TResult N D) fs = A at *
  obtain ⟨full, last, emptied⟩ := A
  simp only at h1 h2 h3 h4
  have hlw : last.unitWrapped = false := by
    obtain ⟨n, hn⟩ := h4 (fs.getLast hne) (List.getLast?_eq_some_getLast hne)
    rw [hn]; exact hw _ (List.getLast?_eq_some_getLast hne) n
  obtain ⟨xs, g1, g2, g3⟩ := resultUnits_items attrsOf u (full.map view) 0
    (fun v hm => by obtain ⟨n, _, rfl⟩ := List.mem_map.1 hm; exact hv n)
  refine ⟨full, { bool := some 0, type := 1, units := xs }, h1, ?_, rfl, by simpa using g2, ?_⟩
  · have he : fs.isEmpty = false := by cases fs with | nil => exact absurd rfl hne | cons _ _ => rfl
    unfold applyTransforms
    simp only [he, Bool.false_eq_true, if_false, hp, hA, h3, false_and, h2, ne_eq, not_true, RESULT_UNITS, RESULT_STRING,
      RESULT_BOOLEAN, RESULT_NUMBER, reduceCtorEq, Nat.reduceEqDiff, hlw, Bool.true_eq_false, g1]
  · intro k n x hn hx
    have := g3 k (view n) x (by simp [hn]) hx
    simpa using this

theorem resultUnit_whole (attrsOf : Str → List (Str × Str)) (u : UnitData) (i : Nat) (v : NodeView) {t tag : Str}
    (ht : Spec.NodeText v t) (hs : StartTag t tag) :
    ∃ x, resultUnit attrsOf u true i v = .val x ∧ WholeUnit attrsOf u v x := by
  unfold resultUnit srcml_unit_clone
  simp only [Option.map_some, nodeText_srcml ht, if_true, startTag_model hs]
  refine ⟨_, rfl, ?_⟩
  have k := update_keeps (attrsOf tag)
  refine ⟨by rw [(k _).1]; exact ht, ?_, ⟨_, by rw [(k _).2.2.2.1], resultNamespaces_spec _ _⟩, by rw [(k _).2.1], ?_, ?_⟩
  · intro tag' hs'
    rw [(k _).1] at hs'
    have e : tag' = tag := by
      have := startTag_model hs'
      rw [show _ = t from rfl] at this
      rw [startTag_model hs] at this
      exact (Option.some.inj this).symm
    subst e
    exact update_same _ _ _ rfl rfl
  · intro tag' text name e h1 h2
    unfold UnitObj.getInner
    dsimp only
    rw [(k _).1] at e
    simp only at e
    rw [(k _).1, (k _).2.1, (k _).2.2.1, (k _).2.2.2.2.1, (k _).2.2.2.2.2]
    subst e
    have f1 : findFirst '>' ('<' :: tag' ++ '>' :: text ++ '<' :: name) = some (tag'.length + 1) := by
      rw [show '<' :: tag' ++ '>' :: text ++ '<' :: name = ('<' :: tag') ++ '>' :: (text ++ '<' :: name) by simp,
        findFirst_append _ _ (by simp [h1])]; simp
    have f2 : findLast '<' ('<' :: tag' ++ '>' :: text ++ '<' :: name) = some (tag'.length + 2 + text.length) := by
      rw [findLast_append _ _ h2]; simp; omega
    simp only [f1, f2, Option.map_some, Option.getD_some, Bool.true_eq_false, false_and, if_false]
    split
    · next h =>
      have : text.length = 0 := by simp only [Int.natCast_add] at h; omega
      rw [List.length_eq_zero_iff.1 this]
    · congr 1
      rw [show '<' :: tag' ++ '>' :: text ++ '<' :: name = ('<' :: tag' ++ ['>']) ++ (text ++ '<' :: name) by simp]
      rw [List.drop_left' (by simp)]
      rw [List.take_left' (by simp only [Int.natCast_add]; omega)]
  · intro tag' e h1 h2
    unfold UnitObj.getInner
    dsimp only
    rw [(k _).1] at e
    simp only at e
    rw [(k _).1, (k _).2.1, (k _).2.2.1, (k _).2.2.2.2.1, (k _).2.2.2.2.2]
    subst e
    have f1 : findFirst '>' ('<' :: tag' ++ ['>']) = some (tag'.length + 1) := by
      rw [findFirst_append _ _ (by simp [h1])]; simp
    have f2 : findLast '<' ('<' :: tag' ++ ['>']) = some 0 := by
      have := findLast_append (c := '<') [] (tag' ++ ['>']) (by simp [h2])
      simpa using this
    simp only [f1, f2, Option.map_some, Option.getD_some, Bool.true_eq_false, false_and, if_false]
    rw [if_pos (by simp only [Int.natCast_add]; omega)]

/-- The same if the results are whole units: the srcML of the i-th unit is that of the i-th node, its contents are what
is between the first `>` and the last `<`, and its attributes are updated from its start tag. -/
theorem C36_wrapped_partial {N D : Type} [DecidableEq N] (zero : D) (parse : Str → Option N) (view : N → NodeView)
    (attrsOf : Str → List (Str × Str)) (fs : List (N → TResult N D)) (u : UnitData) (root : N)
    (hne : fs ≠ []) (hf : AllGive fs [root]) (hp : parse u.srcml = some root)
    (hw : ∀ g, fs.getLast? = some g → ∀ n, (g n).unitWrapped = true)
    (hv : ∀ n, ∃ t tag, Spec.NodeText (view n) t ∧ StartTag t tag) :
    ∃ nodes r, Composed fs [root] nodes ∧
      applyTransforms zero parse view attrsOf fs u true = .val (.ok, some r) ∧
      r.type = 1 ∧ r.units.length = nodes.length ∧
      ∀ (k : Nat) (n : N) (x : UnitData), nodes[k]? = some n → r.units[k]? = some x → WholeUnit attrsOf u (view n) x := by
  obtain ⟨h1, h2, h3, h4⟩ := applyAll_spec fs [root] ({ number := zero } : TResult N D) hf (by simp) (fun h => absurd h hne)
  generalize hA : applyAll [root] ({ number := zero } : TResult N D) fs = A at *
  obtain ⟨full, last, emptied⟩ := A
  simp only at h1 h2 h3 h4
  have hlw : last.unitWrapped = true := by
    obtain ⟨n, hn⟩ := h4 (fs.getLast hne) (List.getLast?_eq_some_getLast hne)
    rw [hn]; exact hw _ (List.getLast?_eq_some_getLast hne) n
  have key : ∀ (full : List N) (i : Nat), ∃ xs, resultUnits attrsOf u true i (full.map view) = .val xs ∧ xs.length = full.length ∧
      ∀ (k : Nat) (n : N) (x : UnitData), full[k]? = some n → xs[k]? = some x → WholeUnit attrsOf u (view n) x := by
    intro full
    induction full with
    | nil => intro i; exact ⟨[], rfl, rfl, by simp⟩
    | cons n ns ih =>
      intro i
      obtain ⟨xs, q1, q2, q3⟩ := ih (i + 1)
      obtain ⟨t, tag, ht, hs⟩ := hv n
      obtain ⟨x, hx, hx'⟩ := resultUnit_whole attrsOf u i (view n) ht hs
      refine ⟨x :: xs, ?_, by simp [q2], ?_⟩
      · rw [List.map_cons, resultUnits, hx]; simp only [q1]
      · intro k n' x' hn hx2
        cases k with
        | zero =>
          simp only [List.getElem?_cons_zero, Option.some.injEq] at hn hx2
          subst hn hx2
          exact hx'
        | succ k => exact q3 k n' x' (by simpa using hn) (by simpa using hx2)
  obtain ⟨xs, g1, g2, g3⟩ := key full 0
  refine ⟨full, { bool := some 0, type := 1, units := xs }, h1, ?_, rfl, g2, g3⟩
  have he : fs.isEmpty = false := by cases fs with | nil => exact absurd rfl hne | cons _ _ => rfl
  unfold applyTransforms
  simp only [he, Bool.false_eq_true, if_false, hp, hA, h3, false_and, h2, ne_eq, not_true, RESULT_UNITS, RESULT_STRING,
    RESULT_BOOLEAN, RESULT_NUMBER, reduceCtorEq, Nat.reduceEqDiff, hlw, Bool.true_eq_false, g1]

theorem applyAll_append {N D : Type} [DecidableEq N] (fs gs : List (N → TResult N D)) (ns : List N) (last : TResult N D)
    (h : (applyAll ns last fs).2.2 = false) :
    applyAll ns last (fs ++ gs) = applyAll (applyAll ns last fs).1 (applyAll ns last fs).2.1 gs := by
  induction fs generalizing ns last with
  | nil => rfl
  | cons f fs ih =>
    rw [List.cons_append, applyAll]
    rw [applyAll] at h ⊢
    split
    · next he => rw [if_pos he] at h; cases h
    · next he => rw [if_neg he] at h; exact ih _ _ h

/-- A last transformation that gives a value: the result is its value on the first node of the composition of the
others, stored under its own type. -/
theorem C36_scalar {N D : Type} [DecidableEq N] (zero : D) (parse : Str → Option N) (view : N → NodeView)
    (attrsOf : Str → List (Str × Str)) (fs : List (N → TResult N D)) (g : N → TResult N D) (u : UnitData) (root : N)
    (hf : AllGive fs [root]) (hp : parse u.srcml = some root)
    (hg : ∀ n, (g n).nodeset = none) :
    ∃ n ns, Composed fs [root] (n :: ns) ∧
      ((g n).nodeType = 2 → applyTransforms zero parse view attrsOf (fs ++ [g]) u true =
        .val (.ok, some { type := 2, bool := some (if (g n).bool then 1 else 0) })) ∧
      ((g n).nodeType = 3 → applyTransforms zero parse view attrsOf (fs ++ [g]) u true =
        .val (.ok, some { type := 3, number := some (g n).number, bool := some 0 })) ∧
      ((g n).nodeType = 4 → applyTransforms zero parse view attrsOf (fs ++ [g]) u true =
        .val (.ok, some { type := 4, string := some (g n).string, bool := some 0 })) ∧
      ((g n).nodeType = 0 → applyTransforms zero parse view attrsOf (fs ++ [g]) u true =
        .val (.ok, some { type := 0, bool := some 0 })) := by
  have hcomp : ∃ n ns, Composed fs [root] (n :: ns) ∧
      applyAll [root] ({ number := zero } : TResult N D) (fs ++ [g]) = ([], g n, true) := by
    cases hfs : fs with
    | nil =>
      refine ⟨root, [], .nil, ?_⟩
      simp only [List.nil_append, applyAll, applyNodes, hg root, if_true]
    | cons f fs' =>
      rw [← hfs]
      obtain ⟨h1, h2, h3, h4⟩ := applyAll_spec fs [root] ({ number := zero } : TResult N D) hf (by simp)
        (fun h => by rw [hfs] at h; cases h)
      have hne : (applyAll [root] ({ number := zero } : TResult N D) fs).1 ≠ [] := by
        have : ∀ (gs : List (N → TResult N D)) (ms : List N) (l : TResult N D), AllGive gs ms → ms ≠ [] →
            (applyAll ms l gs).1 ≠ [] := by
          intro gs
          induction gs with
          | nil => intro ms l _ h; exact h
          | cons a as iha =>
            intro ms l hh hms
            have a2 := applyNodes_nonempty a ms [] l (fun n hn => (hh.1 n hn).2) (Or.inr hms)
            have a1 := applyNodes_spec a ms [] [] l (fun n hn => by obtain ⟨l, h, _⟩ := (hh.1 n hn).2; exact ⟨l, h⟩) .nil
            rw [applyAll, if_neg a2]
            exact iha _ _ (hh.2 _ (by simpa using a1.1)) a2
        exact this fs _ _ hf (by simp)
      rw [applyAll_append _ _ _ _ h3]
      cases hc : (applyAll [root] ({ number := zero } : TResult N D) fs).1 with
      | nil => exact absurd hc hne
      | cons n ns =>
        rw [hc] at h1
        refine ⟨n, ns, h1, ?_⟩
        simp only [applyAll, applyNodes, hg n, if_true]
  obtain ⟨n, ns, h1, h2⟩ := hcomp
  have he : (fs ++ [g]).isEmpty = false := by cases fs <;> rfl
  refine ⟨n, ns, h1, ?_, ?_, ?_, ?_⟩ <;> intro ht <;> unfold applyTransforms <;>
    simp only [he, hp, h2, Bool.false_eq_true, if_false] <;>
    simp [ht, RESULT_UNITS, RESULT_STRING, RESULT_BOOLEAN, RESULT_NUMBER, RESULT_NONE, resultUnits]

/-- Sample transformations on nodes that are numbers: a node has its two halves below it; and a choice. -/
def sampleSplit (n : Nat) : TResult Nat Nat := { nodeType := 1, nodeset := some [2 * n, 2 * n + 1], number := 0 }

/-- The nodes below that satisfy a condition; like an XPath expression without matches, it gives no node set then. -/
def sampleSelect (p : Nat → Bool) (n : Nat) : TResult Nat Nat :=
  let l := [2 * n, 2 * n + 1].filter p
  if l = [] then { nodeType := 0, nodeset := none, number := 0 } else { nodeType := 1, nodeset := some l, number := 0 }

/-- The number of units and the type of the result. -/
def typeAndSize {D : Type} : Run (Status × Option (TransformResult D)) → Option (Nat × Nat)
  | .val (.ok, some r) => some (r.type, r.units.length)
  | _ => none

example : AllGive [sampleSplit, sampleSplit] [1] ∧
    typeAndSize (applyTransforms 0 (fun _ => some 1) (fun n => .text (toString n).toList) (fun _ => [])
      [sampleSplit, sampleSplit] {} true) = some (1, 4) := by
  constructor
  · exact ⟨fun n _ => ⟨rfl, _, rfl, by simp⟩, fun _ _ => ⟨fun n _ => ⟨rfl, _, rfl, by simp⟩, fun _ _ => trivial⟩⟩
  · decide +kernel

example : ∃ t tag, Spec.NodeText (.element "<unit url=\"a\"><x/></unit>".toList false false) t ∧ StartTag t tag :=
  ⟨_, _, .element _ _ _, .full "unit url=\"a\"".toList "<x/></unit>".toList (by decide) (by decide)⟩

/-- One intermediate result without a match ends the transformation: results of the later ones are lost (node 2 has no
match, node 3 has one), and if it is the last one, those of the earlier ones are lost too. In the middle of the
transformations those of the earlier ones are kept, so the outcome depends on the position of the node without match. -/
theorem C36_finding_no_match :
    typeAndSize (applyTransforms 0 (fun _ => some 1) (fun n => .text (toString n).toList) (fun _ => [])
      [sampleSplit, sampleSelect (· ≥ 6)] {} true) = some (0, 0) ∧
    typeAndSize (applyTransforms 0 (fun _ => some 1) (fun n => .text (toString n).toList) (fun _ => [])
      [sampleSplit, sampleSelect (· ≤ 5)] {} true) = some (0, 0) ∧
    typeAndSize (applyTransforms 0 (fun _ => some 3) (fun n => .text (toString n).toList) (fun _ => [])
      [sampleSelect (· ≥ 6)] {} true) = some (1, 2) ∧
    typeAndSize (applyTransforms 0 (fun _ => some 1) (fun n => .text (toString n).toList) (fun _ => [])
      [sampleSplit, sampleSelect (· ≤ 5), sampleSplit] {} true) = some (1, 4) ∧
    typeAndSize (applyTransforms 0 (fun _ => some 1) (fun n => .text (toString n).toList) (fun _ => [])
      [sampleSplit, sampleSelect (· ≥ 6), sampleSplit] {} true) = some (0, 0) := by
  refine ⟨?_, ?_, ?_, ?_, ?_⟩ <;> decide +kernel

/-- A result that is an attribute with an empty value is a null dereference. -/
theorem C36_finding_empty_attribute {N D : Type} [DecidableEq N] (zero : D) (parse : Str → Option N) (view : N → NodeView)
    (attrsOf : Str → List (Str × Str)) (g : N → TResult N D) (u : UnitData) (root n : N) (ns : List N) (name : Str)
    (hp : parse u.srcml = some root) (hg : (g root).nodeType = 1) (hn : (g root).nodeset = some (n :: ns))
    (hv : view n = .attribute name none) : applyTransforms zero parse view attrsOf [g] u true = .ub := by
  have hA : applyAll [root] ({ number := zero } : TResult N D) [g] = (n :: ns, g root, false) := by
    simp [applyAll, applyNodes, hn, mergeNodes]
  unfold applyTransforms
  simp [hp, hA, hg, RESULT_UNITS, RESULT_STRING, RESULT_BOOLEAN, RESULT_NUMBER, resultUnits, resultUnit, srcml_unit_clone,
    hv, NodeView.srcml]

/-- Without a place for the result, a value or an empty result is a null dereference. -/
theorem C36_finding_null_result {N D : Type} [DecidableEq N] (zero : D) (parse : Str → Option N) (view : N → NodeView)
    (attrsOf : Str → List (Str × Str)) (g : N → TResult N D) (u : UnitData) (root : N) (hp : parse u.srcml = some root)
    (hg : (g root).nodeset = none) : applyTransforms zero parse view attrsOf [g] u false = .ub := by
  unfold applyTransforms
  simp [hp, applyAll, applyNodes, hg]

end Srcml
