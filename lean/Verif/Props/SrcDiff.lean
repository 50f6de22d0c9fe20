import Verif.Model.UnitWriter
import Verif.Spec.SrcDiff
set_option linter.unusedSimpArgs false
namespace Srcml
open Spec

/-! ### C35: attributes -/

theorem findFirst_absent {c : Char} {s : Str} (h : c ∉ s) : findFirst c s = none := by
  induction s with
  | nil => rfl
  | cons x xs ih =>
    simp only [List.mem_cons, not_or] at h
    unfold findFirst
    rw [if_neg (fun e => h.1 e.symm), ih h.2]; rfl

theorem findFirst_append {c : Char} {s t : Str} (h : c ∉ s) : findFirst c (s ++ c :: t) = some s.length := by
  induction s with
  | nil => simp [findFirst]
  | cons x xs ih =>
    simp only [List.mem_cons, not_or] at h
    rw [List.cons_append]
    unfold findFirst
    rw [if_neg (fun e => h.1 e.symm), ih h.2]; rfl

/-- A value `a|b` is `a` in the original and `b` in the modified revision. -/
theorem C35_both (a b : Str) (h : '|' ∉ a) :
    attribute_revision (a ++ '|' :: b) 0 = a ∧ attribute_revision (a ++ '|' :: b) 1 = b := by
  unfold attribute_revision
  rw [findFirst_append h]
  constructor
  · simp
  · simp [List.drop_append, List.drop_eq_nil_of_le]

/-- A value without the separator is the same in every revision. -/
theorem C35_same (v : Str) (r : Nat) (h : '|' ∉ v) : attribute_revision v r = v := by
  unfold attribute_revision; rw [findFirst_absent h]

/-- The attributes of a unit that is written to an archive with a selected revision: each of the url (written only
without the archive option), filename, version, timestamp, hash and encoding is the part for that revision, and
without a selection the value itself. -/
theorem C35_written (t : Translator) (a : Archive) (u : UnitData) :
    let part : Option Str → Option Str := fun v => v.map (fun s => match a.revisionNumber with
      | none => s
      | some r => if '|' ∈ s then (if r = 0 then s.takeWhile (· ≠ '|') else (s.dropWhile (· ≠ '|')).drop 1) else s)
    (unitMeta t a u).filename = part u.filename ∧ (unitMeta t a u).version = part u.version ∧
    (unitMeta t a u).timestamp = part u.timestamp ∧ (unitMeta t a u).hash = part u.hash ∧
    (unitMeta t a u).encoding = part u.encoding ∧
    (isoption t.out.options OPTION_ARCHIVE = false → (unitMeta t a u).url = part u.url) := by
  have key : ∀ (s : Str) (r : Nat), attribute_revision s r =
      if '|' ∈ s then (if r = 0 then s.takeWhile (· ≠ '|') else (s.dropWhile (· ≠ '|')).drop 1) else s := by
    intro s r
    by_cases h : '|' ∈ s
    · rw [if_pos h]
      unfold attribute_revision
      have : findFirst '|' s = some (s.takeWhile (· ≠ '|')).length := by
        clear r
        induction s with
        | nil => cases h
        | cons x xs ih =>
          unfold findFirst
          by_cases hx : x = '|'
          · simp [hx]
          · rw [if_neg hx, ih (by rcases List.mem_cons.1 h with e | e; exact absurd e.symm hx; exact e)]
            simp [List.takeWhile_cons, hx]
      have e : s.takeWhile (· ≠ '|') ++ s.dropWhile (· ≠ '|') = s := List.takeWhile_append_dropWhile
      rw [this]
      simp only []
      have h1 : s.take (s.takeWhile (· ≠ '|')).length = s.takeWhile (· ≠ '|') := by
        conv => lhs; rw [← e]
        rw [List.take_left']
        rw [e]
      have h2 : s.drop ((s.takeWhile (· ≠ '|')).length + 1) = (s.dropWhile (· ≠ '|')).drop 1 := by
        conv => lhs; rw [← e]
        rw [← List.drop_drop, List.drop_left']
        rw [e]
      rw [h1, h2]
    · rw [if_neg h, C35_same s r h]
  have hp : ∀ v, revisionOf a v = v.map (fun s => match a.revisionNumber with
      | none => s
      | some r => if '|' ∈ s then (if r = 0 then s.takeWhile (· ≠ '|') else (s.dropWhile (· ≠ '|')).drop 1) else s) := by
    intro v
    unfold revisionOf
    cases v with
    | none => rfl
    | some s =>
      cases a.revisionNumber with
      | none => rfl
      | some r => simp only [Option.map_some, key]
  simp only []
  refine ⟨hp _, hp _, hp _, hp _, hp _, fun h => ?_⟩
  rw [← hp]
  simp [unitMeta, h]

example : attribute_revision "a.c|b.c".toList 0 = "a.c".toList ∧ attribute_revision "a.c|b.c".toList 1 = "b.c".toList ∧
    attribute_revision "a.c".toList 1 = "a.c".toList := by decide

/-! ### C34: contents -/

/-- Put something in front of a result. -/
def prepend (s : Str) : Run Str → Run Str
  | .val r => .val (s ++ r)
  | .ub => .ub

@[simp] theorem prepend_prepend (s t : Str) (r : Run Str) : prepend s (prepend t r) = prepend (s ++ t) r := by
  cases r <;> simp [prepend]
@[simp] theorem prepend_nil (r : Run Str) : prepend [] r = r := by cases r <;> rfl

theorem splitAt1_append {c : Char} {s : Str} (t : Str) (h : c ∉ s) : splitAt1 c (s ++ c :: t) = some (s, t) := by
  induction s with
  | nil => simp [splitAt1]
  | cons x xs ih =>
    simp only [List.mem_cons, not_or] at h
    rw [List.cons_append]
    unfold splitAt1
    rw [if_neg (fun e => h.1 e.symm), ih h.2]; rfl

theorem splitAt1_absent {c : Char} {s : Str} (h : c ∉ s) : splitAt1 c s = none := by
  induction s with
  | nil => rfl
  | cons x xs ih =>
    simp only [List.mem_cons, not_or] at h
    unfold splitAt1
    rw [if_neg (fun e => h.1 e.symm), ih h.2]; rfl

theorem loop_text_end {r : Nat} {b : Bool} {mode : List DiffMode} {s : Str} (h : '<' ∉ s) :
    extractRevisionLoop r b mode s = .val [] := by
  rw [extractRevisionLoop]
  have e := splitAt1_absent h
  split
  · rfl
  · next h2 => rw [e] at h2; cases h2

theorem loop_tag {r : Nat} {m : DiffMode} {ms : List DiffMode} {text tag rest : Str} (h : '<' ∉ text)
    (ht : '>' ∉ tag) :
    extractRevisionLoop r false (m :: ms) (text ++ '<' :: (tag ++ '>' :: rest)) =
      prepend ((if inMode r m then text else []) ++ (if inMode r m && (diffTag (m :: ms) tag).2 then '<' :: tag ++ ['>'] else []))
        (extractRevisionLoop r false (diffTag (m :: ms) tag).1 rest) := by
  rw [extractRevisionLoop]
  have e := splitAt1_append (tag ++ '>' :: rest) h
  have e2 := splitAt1_append rest ht
  split
  · next h2 => rw [e] at h2; cases h2
  · next text' rest' h2 =>
    rw [e] at h2
    simp only [Option.some.injEq, Prod.mk.injEq] at h2
    obtain ⟨rfl, rfl⟩ := h2
    simp only []
    split
    · next h3 => rw [e2] at h3; cases h3
    · next tag' rest'' h3 =>
      rw [e2] at h3
      simp only [Option.some.injEq, Prod.mk.injEq] at h3
      obtain ⟨rfl, rfl⟩ := h3
      simp only [Bool.not_false, Bool.and_true]
      cases extractRevisionLoop r false (diffTag (m :: ms) tag).1 rest <;> simp [prepend]

/-- The mode of a region. -/
def modeOf : Region → DiffMode
  | .delete => .delete | .insert => .insert | .common => .common | .ws => .common

theorem inMode_modeOf (r : Nat) (k : Region) : inMode r (modeOf k) = k.inRevision r := by
  cases k <;> simp [modeOf, inMode, Region.inRevision] <;> rfl

theorem diffTag_open (mode : List DiffMode) (k : Region) (attrs : Str) :
    diffTag mode ("diff:".toList ++ k.name ++ attrs) = (modeOf k :: mode, false) := by
  cases k <;> simp [diffTag, DIFF_PREFIX, Region.name, modeOf, List.isPrefixOf]

theorem diffTag_close (mode : List DiffMode) (k : Region) :
    diffTag mode ("/diff:".toList ++ k.name) = (mode.tail, false) := by
  cases k <;> simp [diffTag, DIFF_PREFIX, Region.name, List.isPrefixOf]

theorem diffTag_other (mode : List DiffMode) (t : Str) (h1 : ¬ "diff:".toList <+: t) (h2 : ¬ "/diff:".toList <+: t) :
    diffTag mode t = (mode, true) := by
  unfold diffTag DIFF_PREFIX
  rw [if_neg (by rw [List.isPrefixOf_iff_prefix]; exact h1), if_neg]
  rintro ⟨h3, h4⟩
  apply h2
  cases t with
  | nil => cases h3
  | cons c cs =>
    simp only [List.head?_cons, Option.some.injEq] at h3
    subst h3
    rw [List.isPrefixOf_iff_prefix, List.tail_cons] at h4
    have e : "/diff:".toList = '/' :: "diff:".toList := by decide
    rw [e]
    exact List.cons_prefix_cons.2 ⟨rfl, h4⟩

theorem render_append (d e : Diff) : (Diff.append d e).render = d.render ++ e.render := by
  induction d with
  | nil => rfl
  | text s rest ih => simp [Diff.append, Diff.render, ih]
  | tag t rest ih => simp [Diff.append, Diff.render, ih]
  | region k a body rest _ ih => simp [Diff.append, Diff.render, ih]

/-- Texts in front of a document do not end the search. -/
theorem loop_text {r : Nat} {m : DiffMode} {ms : List DiffMode} {s rest : Str} (h : '<' ∉ s) (hr : rest.head? = some '<') :
    extractRevisionLoop r false (m :: ms) (s ++ rest) =
      prepend (if inMode r m then s else []) (extractRevisionLoop r false (m :: ms) rest) := by
  cases rest with
  | nil => cases hr
  | cons c rest =>
    simp only [List.head?_cons, Option.some.injEq] at hr
    subst hr
    by_cases ht : '>' ∈ rest
    · obtain ⟨tag, rest', h1, h2⟩ : ∃ tag rest', rest = tag ++ '>' :: rest' ∧ '>' ∉ tag := by
        clear h
        induction rest with
        | nil => cases ht
        | cons x xs ih =>
          by_cases hx : x = '>'
          · exact ⟨[], xs, by simp [hx], by simp⟩
          · obtain ⟨t, r', h1, h2⟩ := ih (by rcases List.mem_cons.1 ht with e | e; exact absurd e.symm hx; exact e)
            exact ⟨x :: t, r', by simp [h1], by rw [List.mem_cons, not_or]; exact ⟨fun e => hx e.symm, h2⟩⟩
      subst h1
      rw [loop_tag h h2]
      have := loop_tag (r := r) (m := m) (ms := ms) (text := []) (tag := tag) (rest := rest') (by simp) h2
      simp only [List.nil_append] at this
      rw [this]
      simp
    · have e2 := splitAt1_absent ht
      have : ∀ s : Str, '<' ∉ s → extractRevisionLoop r false (m :: ms) (s ++ '<' :: rest) = .ub := by
        intro s hs
        rw [extractRevisionLoop]
        have e := splitAt1_append rest hs
        split
        · next h2 => rw [e] at h2; cases h2
        · next text' rest' h2 =>
          rw [e] at h2
          simp only [Option.some.injEq, Prod.mk.injEq] at h2
          obtain ⟨rfl, rfl⟩ := h2
          simp only []
          split
          · rfl
          · next h3 => rw [e2] at h3; cases h3
      rw [this s h]
      have := this [] (by simp)
      simp only [List.nil_append] at this
      rw [this]; rfl

theorem ends_text {s : Str} {d : Diff} (h : (Diff.text s d).EndsWithTag) : d.EndsWithTag ∧ d ≠ .nil := by
  cases d with
  | nil => exact h.elim
  | _ => exact ⟨h, by simp⟩

theorem render_head (d : Diff) (rest : Str) (h : d.EndsWithTag ∨ rest.head? = some '<') (hne : d ≠ .nil ∨ rest.head? = some '<')
    (hok : d.Ok) : ∃ s t, d.render ++ rest = s ++ '<' :: t ∧ '<' ∉ s := by
  induction d with
  | nil =>
    rcases hne with h | h
    · exact absurd rfl h
    · cases rest with
      | nil => cases h
      | cons c cs => simp only [List.head?_cons, Option.some.injEq] at h; subst h; exact ⟨[], cs, rfl, by simp⟩
  | text s d ih =>
    have : d.EndsWithTag ∨ rest.head? = some '<' := by
      rcases h with h | h
      · left; exact (ends_text h).1
      · right; exact h
    obtain ⟨s', t', h1, h2⟩ := ih this (by
      rcases h with h | h
      · left; exact (ends_text h).2
      · right; exact h) hok.2
    refine ⟨s ++ s', t', ?_, ?_⟩
    · simp only [Diff.render, List.append_assoc, h1]
    · simp only [List.mem_append, not_or]; exact ⟨hok.1, h2⟩
  | tag t d ih => exact ⟨[], _, rfl, by simp⟩
  | region k a body d =>
    exact ⟨[], _, rfl, by simp⟩

/-- Extraction from a document followed by something that begins with a tag, or from one that ends with a tag. -/
theorem loop_diff (r : Nat) (d : Diff) (hok : d.Ok) : ∀ (k : DiffMode) (ms : List DiffMode) (rest : Str),
    (d.EndsWithTag ∨ rest.head? = some '<') →
    extractRevisionLoop r false (k :: ms) (d.render ++ rest) =
      prepend ((d.revise r (inMode r k)).render) (extractRevisionLoop r false (k :: ms) rest) := by
  induction d with
  | nil => intro k ms rest _; simp [Diff.render, Diff.revise]
  | text s d ih =>
    intro k ms rest h
    have h' : d.EndsWithTag ∨ rest.head? = some '<' := by
      rcases h with h | h
      · left; exact (ends_text h).1
      · right; exact h
    have hne : d ≠ .nil ∨ rest.head? = some '<' := by
      rcases h with h | h
      · left; exact (ends_text h).2
      · right; exact h
    obtain ⟨s', t', h1, h2⟩ := render_head d rest h' hne hok.2
    have e1 := ih hok.2 k ms rest h'
    simp only [Diff.render, List.append_assoc]
    rw [h1] at e1 ⊢
    have hs : '<' ∉ s ++ s' := by simp only [List.mem_append, not_or]; exact ⟨hok.1, h2⟩
    rw [← List.append_assoc, loop_text hs (by rfl)]
    rw [loop_text h2 (by rfl)] at e1
    rw [Diff.revise]
    cases hm : inMode r k with
    | false => simpa [hm] using e1
    | true =>
      rw [hm] at e1
      simp only [if_true, Diff.render] at e1 ⊢
      rw [show s ++ s' = s ++ s' from rfl, ← prepend_prepend, e1, prepend_prepend]
  | tag t d ih =>
    intro k ms rest h
    have h' : d.EndsWithTag ∨ rest.head? = some '<' := h
    simp only [Diff.render, List.cons_append, List.append_assoc]
    have := loop_tag (r := r) (m := k) (ms := ms) (text := []) (tag := t) (rest := d.render ++ rest) (by simp) hok.1
    simp only [List.nil_append] at this
    rw [this, diffTag_other _ t hok.2.1 hok.2.2.1]
    simp only []
    rw [ih hok.2.2.2 k ms rest h', Diff.revise]
    cases inMode r k <;> simp [Diff.render]
  | region g attrs body d ihb ihd =>
    intro k ms rest h
    have h' : d.EndsWithTag ∨ rest.head? = some '<' := h
    have hg : '>' ∉ g.name := by cases g <;> decide
    have h1 : '>' ∉ "diff:".toList ++ g.name ++ attrs := by
      simp only [List.mem_append, not_or]; exact ⟨⟨by decide, hg⟩, hok.1⟩
    have h2 : '>' ∉ "/diff:".toList ++ g.name := by
      simp only [List.mem_append, not_or]; exact ⟨by decide, hg⟩
    have e : (Diff.region g attrs body d).render ++ rest =
        '<' :: (("diff:".toList ++ g.name ++ attrs) ++ '>' :: (body.render ++
          ('<' :: (("/diff:".toList ++ g.name) ++ '>' :: (d.render ++ rest))))) := by
      simp only [Diff.render, List.append_assoc, List.cons_append, Region.start, Region.stop]
    rw [e]
    have t1 := loop_tag (r := r) (m := k) (ms := ms) (text := []) (rest := body.render ++
          ('<' :: (("/diff:".toList ++ g.name) ++ '>' :: (d.render ++ rest)))) (by simp) h1
    rw [List.nil_append] at t1
    rw [t1, diffTag_open]
    simp only [Bool.and_false, Bool.false_eq_true, if_false, List.append_nil, ite_self, prepend_nil]
    rw [ihb hok.2.1 _ _ _ (Or.inr rfl)]
    have t2 := loop_tag (r := r) (m := modeOf g) (ms := k :: ms) (text := []) (rest := d.render ++ rest) (by simp) h2
    rw [List.nil_append] at t2
    rw [t2, diffTag_close]
    simp only [Bool.and_false, Bool.false_eq_true, if_false, List.append_nil, ite_self, prepend_nil, List.tail_cons]
    rw [ihd hok.2.2 k ms rest h', prepend_prepend, Diff.revise, inMode_modeOf, render_append]

/-- The text of a document with difference markup, extracted in a revision: exactly the parts of that revision, without
the markup, in order. The document must end with a tag, as a whole unit does. -/
theorem C34_extract (d : Diff) (r : Nat) (hok : d.Ok) (hend : d.EndsWithTag) :
    extract_revision d.render r false = .val (d.revise r true).render := by
  have := loop_diff r d hok .common [] [] (Or.inl hend)
  rw [List.append_nil, loop_text_end (s := []) (by simp)] at this
  unfold extract_revision
  rw [this]
  simp [prepend, inMode]

theorem plain_append {d e : Diff} (h1 : d.Plain) (h2 : e.Plain) : (Diff.append d e).Plain := by
  induction d with
  | nil => exact h2
  | text s d ih => exact ih h1
  | tag t d ih => exact ih h1
  | region => exact h1.elim

/-- No markup is left, whatever the document. -/
theorem C34_no_markup (d : Diff) (r : Nat) (b : Bool) : (d.revise r b).Plain := by
  induction d generalizing b with
  | nil => trivial
  | text s d ih => unfold Diff.revise; split; exact ih b; exact ih b
  | tag t d ih => unfold Diff.revise; split; exact ih b; exact ih b
  | region k a body d ihb ihd => unfold Diff.revise; exact plain_append (ihb _) (ihd _)

/-- A document without difference markup is the same in every revision. -/
theorem C34_unchanged (d : Diff) (r : Nat) (hok : d.Ok) (hend : d.EndsWithTag) (h : d.Plain) :
    extract_revision d.render r false = .val d.render := by
  rw [C34_extract d r hok hend]
  congr 1
  have : d.revise r true = d := by
    clear hok hend
    induction d with
    | nil => rfl
    | text s d ih => unfold Diff.revise; rw [if_pos rfl, ih h]
    | tag t d ih => unfold Diff.revise; rw [if_pos rfl, ih h]
    | region => exact h.elim
  rw [this]

/-- What the accessor of a unit returns in an archive of srcDiff documents with a selected revision. -/
theorem C34_get_srcml (a : Archive) (u : UnitObj) (d : Diff) (r : Nat) (hb : u.data.readBody = true)
    (hu : u.data.srcml = d.render) (hok : d.Ok) (hend : d.EndsWithTag)
    (hr : a.revisionNumber = some r) (hns : ∃ n ∈ a.namespaces, n.uri = DIFF_NS_URI) :
    u.getSrcml a = .val (some (d.revise r true).render) := by
  have h1 : issrcdiff a.namespaces = true := by
    unfold issrcdiff findUri
    rw [List.find?_isSome]
    obtain ⟨n, h1, h2⟩ := hns
    exact ⟨n, h1, by simp [h2]⟩
  unfold UnitObj.getSrcml revisionWanted
  simp only [hb, h1, hr, hu, C34_extract d r hok hend, if_true, Bool.true_eq_false, false_and, if_false]

/-- Without a selected revision, or if the archive is no srcDiff archive, the srcML itself is returned. -/
theorem C34_no_revision (a : Archive) (u : UnitObj) (hb : u.data.readBody = true)
    (h : a.revisionNumber = none ∨ ∀ n ∈ a.namespaces, n.uri ≠ DIFF_NS_URI) :
    u.getSrcml a = .val (some u.data.srcml) := by
  have h1 : revisionWanted a = none := by
    unfold revisionWanted
    rcases h with h | h
    · simp [h]
    · rw [if_neg]
      unfold issrcdiff findUri
      rw [List.find?_isSome]
      rintro ⟨n, h1, h2⟩
      exact h n h1 (by simpa using h2)
  unfold UnitObj.getSrcml
  simp only [hb, h1, Bool.true_eq_false, false_and, if_false]

/-- The contents that are written for a unit: the parts of the revision, if they end with a tag. -/
theorem C34_written_partial (a : Archive) (u : UnitData) (d : Diff) (r : Nat)
    (hin : (u.srcml.drop u.contentBegin).take (u.contentEnd - u.contentBegin - 1 : Int).toNat = d.render)
    (hsize : u.contentBegin < u.contentEnd) (hok : d.Ok) (hend : d.EndsWithTag)
    (hr : a.revisionNumber = some r) (hns : issrcdiff a.namespaces = true) :
    unitContent a u = .val (some (d.revise r true).render) := by
  unfold unitContent
  have : ¬ ((u.contentEnd : Int) - u.contentBegin - 1 < 0) := by omega
  simp only [hr, hns, if_true, this, if_false, hin, C34_extract d r hok hend]

/-- A sample: `<unit><a>x</a><diff:delete type="r"> y <diff:common><b/></diff:common></diff:delete><diff:insert>z</diff:insert></unit>`. -/
def sampleDiff : Diff :=
  .tag "unit".toList (.tag "a".toList (.text "x".toList (.tag "/a".toList
    (.region .delete " type=\"r\"".toList (.text " y ".toList (.region .common [] (.tag "b/".toList .nil) .nil))
      (.region .insert [] (.text "z".toList .nil) (.tag "/unit".toList .nil))))))

example : sampleDiff.Ok ∧ sampleDiff.EndsWithTag ∧
    (sampleDiff.revise 0 true).render = "<unit><a>x</a> y <b/></unit>".toList ∧
    (sampleDiff.revise 1 true).render = "<unit><a>x</a><b/>z</unit>".toList ∧
    extract_revision sampleDiff.render 1 false = .val "<unit><a>x</a><b/>z</unit>".toList := by
  have h1 : sampleDiff.Ok := by
    simp only [sampleDiff, Diff.Ok]
    decide
  have h2 : sampleDiff.EndsWithTag := trivial
  refine ⟨h1, h2, by decide, by decide, ?_⟩
  rw [C34_extract _ _ h1 h2]
  decide

/-- Text after the last tag is lost: the inner srcML of a unit with a selected revision, and what is written for it, end
with the last tag of the contents. -/
theorem C34_finding_trailing_text (d : Diff) (s : Str) (r : Nat) (hok : d.Ok) (hend : d.EndsWithTag) (hs : '<' ∉ s) :
    extract_revision (d.render ++ s) r false = .val (d.revise r true).render := by
  have := loop_diff r d hok .common [] s (Or.inl hend)
  rw [loop_text_end hs] at this
  unfold extract_revision
  rw [this]
  simp [prepend, inMode]

/-- An empty element of the markup is taken for the start of a region that never ends, and one end too many is
undefined. -/
theorem C34_finding_unbalanced :
    extract_revision "<u>a<diff:insert/>b</u>".toList 0 false = .val "<u>a".toList ∧
    extract_revision "</diff:common><a>".toList 0 false = .ub ∧
    extract_revision "<a".toList 0 false = .ub := by
  refine ⟨?_, ?_, ?_⟩ <;> decide +kernel

end Srcml
