import Verif.Model.InputName
import Verif.Proofs.Strings
set_option linter.unusedSimpArgs false
/-
C42, C43: names of inputs.
-/
namespace Srcml

namespace Spec

/-- The separator occurs somewhere in the name. -/
def HasProtocol (s : Str) : Prop := ∃ p r, s = p ++ "://".toList ++ r

/-- The name is `p`, the separator and `r`, and no separator starts earlier. -/
def SplitsAt (s p r : Str) : Prop :=
  s = p ++ "://".toList ++ r ∧ ∀ p' r', s = p' ++ "://".toList ++ r' → p.length ≤ p'.length

/-- An archive extension of the documentation. -/
def archiveExts : List String :=
  [".7z", ".ar", ".cpio", ".iso", ".mtree", ".pax", ".shar", ".tar", ".taz", ".tb2", ".tbz", ".tbz2", ".tgz",
   ".tlz", ".txz", ".xar", ".zip"]
/-- A compression extension of the documentation. -/
def compressionExts : List String :=
  [".bz2", ".gz", ".lz", ".lzma", ".taz", ".tb2", ".tbz2", ".tgz", ".tlz", ".txz", ".xar", ".xz", ".z"]

/-- A known extension. -/
def KnownExt (e : Str) : Prop := String.ofList e ∈ archiveExts ∨ String.ofList e ∈ compressionExts

/-- Text from the last dot of a name on. -/
def IsExt (e : Str) : Prop := ∃ r, e = '.' :: r ∧ '.' ∉ r

/-- The extension of a name: `e` is the part from its last dot on, or empty if there is no dot. -/
def HasExt (name e : Str) : Prop := (IsExt e ∧ ∃ stem, name = stem ++ e) ∨ (e = [] ∧ '.' ∉ name)

end Spec

open Spec

theorem Spec.SplitsAt.unique {s p r p' r' : Str} (h : SplitsAt s p r) (h' : SplitsAt s p' r') : p = p' ∧ r = r' := by
  have l1 := h.2 _ _ h'.1
  have l2 := h'.2 _ _ h.1
  have e := h.1.symm.trans h'.1
  have hl : p.length = p'.length := by omega
  have e1 := List.append_inj (by simpa [List.append_assoc] using e) hl
  refine ⟨e1.1, ?_⟩
  have := e1.2
  simpa using this

theorem findSub_sep_some {s : Str} {k : Nat} (h : findSub PROTOCOL_SEPARATOR s = some k) :
    SplitsAt s (s.take k) (s.drop (k + 3)) := by
  obtain ⟨pre, post, e, hk⟩ := findSub_some_decomp h
  have hl := findSub_least h
  subst hk
  refine ⟨?_, ?_⟩
  · subst e; simp [PROTOCOL_SEPARATOR, List.drop_append]
  · intro p' r' he
    have := hl p' r' he
    rw [List.length_take]; omega

theorem findSub_sep_none {s : Str} : findSub PROTOCOL_SEPARATOR s = none ↔ ¬ HasProtocol s := by
  constructor
  · intro h; exact findSub_none h
  · intro h
    cases e : findSub PROTOCOL_SEPARATOR s with
    | none => rfl
    | some k => exact absurd ⟨_, _, (findSub_sep_some e).1⟩ h

theorem Spec.SplitsAt.find {s p r : Str} (h : SplitsAt s p r) : findSub PROTOCOL_SEPARATOR s = some p.length := by
  cases e : findSub PROTOCOL_SEPARATOR s with
  | none => exact absurd ⟨p, r, h.1⟩ (findSub_sep_none.mp e)
  | some k =>
    have h2 := findSub_sep_some e
    obtain ⟨pre, post, e', hk⟩ := findSub_some_decomp e
    have := (h.unique h2).1
    rw [this, List.length_take]
    have : k ≤ s.length := by rw [e']; simp; omega
    congr 1; omega

/-- **C42.** A name with a separator is split at the first one, by all three functions, and putting protocol and
resource together again gives the name back. -/
theorem C42_split (s : Str) (h : HasProtocol s) :
    ∃ p r, SplitsAt s p r ∧ src_prefix_split_uri s = (p, r) ∧ src_prefix_protocol s = p ∧ src_prefix_resource s = r ∧
      src_prefix_add_uri s = s ∧ src_prefix_add_uri2 p r = s := by
  cases e : findSub PROTOCOL_SEPARATOR s with
  | none => exact absurd h (findSub_sep_none.mp e)
  | some k =>
    have hs := findSub_sep_some e
    refine ⟨_, _, hs, ?_, ?_, ?_, ?_, ?_⟩
    · simp [src_prefix_split_uri, e]; rfl
    · simp [src_prefix_protocol, e]
    · simp [src_prefix_resource, e]; rfl
    · simp [src_prefix_add_uri, e]
    · simpa [src_prefix_add_uri2, PROTOCOL_SEPARATOR] using hs.1.symm

/-- **C42.** The other direction: a protocol without a colon and any resource, put together, are taken apart again. -/
theorem C42_join (p r : Str) (hp : ':' ∉ p) :
    src_prefix_split_uri (src_prefix_add_uri2 p r) = (p, r) := by
  have hs : SplitsAt (src_prefix_add_uri2 p r) p r := by
    refine ⟨rfl, ?_⟩
    intro p' r' e
    apply Classical.byContradiction; intro hl
    apply hp
    have h1 := congrArg (fun l => l[p'.length]?) e
    simp only [src_prefix_add_uri2, List.append_assoc] at h1
    rw [List.getElem?_append_left (by omega)] at h1
    rw [List.getElem?_append_right (by omega)] at h1
    simp at h1
    exact List.mem_of_getElem? h1
  simp [src_prefix_split_uri, hs.find]
  constructor
  · simp [src_prefix_add_uri2]
  · simp [src_prefix_add_uri2, List.drop_append, PROTOCOL_SEPARATOR]

/-- **C42.** A name without a separator has an empty protocol and is its own resource. -/
theorem C42_no_protocol (s : Str) (h : ¬ HasProtocol s) :
    src_prefix_split_uri s = ([], s) ∧ src_prefix_protocol s = [] ∧ src_prefix_resource s = s := by
  have := findSub_sep_none.mpr h
  simp [src_prefix_split_uri, src_prefix_protocol, src_prefix_resource, this]

/-- Which names without a separator are taken for something else than a local file, although they could be one. -/
def Spec.WebLike (s : Str) : Prop :=
  (∃ a b, s = a ++ "http:".toList ++ b) ∧ (∃ a b, s = a ++ "https:".toList ++ b)

theorem findSub_none_iff {n s : Str} : findSub n s = none ↔ ¬ ∃ a b, s = a ++ n ++ b := by
  constructor
  · exact findSub_none
  · intro h
    cases e : findSub n s with
    | none => rfl
    | some k =>
      obtain ⟨a, b, e1, _⟩ := findSub_some_decomp e
      exact absurd ⟨a, b, e1⟩ h

/-- **C42.** `-` and `/dev/stdin` are the standard input; any other name without a separator is a local file, unless
both `http:` and `https:` occur in it. -/
theorem C42_add_partial (s : Str) (h : ¬ HasProtocol s) :
    ((s = "-".toList ∨ s = "/dev/stdin".toList) → src_prefix_add_uri s = "stdin://-".toList) ∧
    (s ≠ "-".toList → s ≠ "/dev/stdin".toList → ¬ WebLike s →
      src_prefix_add_uri s = "file://".toList ++ s ∧
      src_prefix_split_uri (src_prefix_add_uri s) = ("file".toList, s)) := by
  have hn := findSub_sep_none.mpr h
  constructor
  · rintro (e | e) <;> subst e <;> decide +kernel
  · intro h1 h2 h3
    have hw : findSub "http:".toList s = none ∨ findSub "https:".toList s = none := by
      rw [findSub_none_iff, findSub_none_iff]
      by_cases ha : ∃ a b, s = a ++ "http:".toList ++ b
      · by_cases hb : ∃ a b, s = a ++ "https:".toList ++ b
        · exact absurd ⟨ha, hb⟩ h3
        · exact .inr hb
      · exact .inl ha
    have : src_prefix_add_uri s = src_prefix_add_uri2 "file".toList s := by
      unfold src_prefix_add_uri
      rw [hn]
      simp only [hw, if_true]
      rw [if_neg]
      rintro (e | e)
      · exact h2 e
      · exact h1 e
    rw [this]
    exact ⟨by simp [src_prefix_add_uri2, PROTOCOL_SEPARATOR], C42_join _ _ (by decide)⟩

/-- **C42.** Adding the protocol twice changes nothing. -/
theorem C42_idempotent (s : Str) : src_prefix_add_uri (src_prefix_add_uri s) = src_prefix_add_uri s := by
  have key : ∀ t : Str, HasProtocol t → src_prefix_add_uri t = t := fun t h => by
    obtain ⟨_, _, _, _, _, _, h, _⟩ := C42_split t h; exact h
  by_cases h : HasProtocol s
  · rw [key s h, key s h]
  · have hn := findSub_sep_none.mpr h
    have : HasProtocol (src_prefix_add_uri s) ∨ src_prefix_add_uri s = s := by
      unfold src_prefix_add_uri
      rw [hn]
      simp only
      split
      · exact .inl ⟨_, _, rfl⟩
      · split
        · exact .inl ⟨_, _, rfl⟩
        · exact .inr rfl
    rcases this with h' | h'
    · exact key _ h'
    · rw [h', h']

/-- A local file whose name contains `http:` and `https:` is not taken for a file: it has no protocol at all. -/
theorem C42_finding_web_like (s : Str) (h : ¬ HasProtocol s) (hw : WebLike s) (h1 : s ≠ "-".toList)
    (h2 : s ≠ "/dev/stdin".toList) : src_prefix_add_uri s = s ∧ src_prefix_split_uri (src_prefix_add_uri s) = ([], s) := by
  have hn := findSub_sep_none.mpr h
  have : src_prefix_add_uri s = s := by
    unfold src_prefix_add_uri
    rw [hn]
    simp only
    rw [if_neg (by rintro (e | e); exact h2 e; exact h1 e), if_neg]
    rw [findSub_none_iff, findSub_none_iff]
    rintro (h3 | h3)
    · exact h3 hw.1
    · exact h3 hw.2
  rw [this]
  exact ⟨rfl, (C42_no_protocol s h).1⟩

example : HasProtocol "https://a.b/c?x=http://d".toList ∧
    src_prefix_split_uri "https://a.b/c?x=http://d".toList = ("https".toList, "a.b/c?x=http://d".toList) :=
  ⟨⟨"https".toList, "a.b/c?x=http://d".toList, by decide⟩, by decide +kernel⟩
example : src_prefix_add_uri "a/b.c".toList = "file://a/b.c".toList := by decide +kernel
example : src_prefix_add_uri "x-http:https:".toList = "x-http:https:".toList := by decide +kernel

/-! ### C43 -/

theorem isArchive_iff (e : Str) : is_archive e = true ↔ String.ofList e ∈ archiveExts := by
  simp [is_archive, archiveExtensions, archiveExts, ← String.toList_inj]

theorem isCompressed_iff (e : Str) : is_compressed e = true ↔ String.ofList e ∈ compressionExts := by
  simp [is_compressed, compressionExtensions, compressionExts, ← String.toList_inj]

theorem cur_extension_spec (f : Str) : HasExt f (cur_extension f) := by
  unfold cur_extension
  split
  · next e => exact .inr ⟨rfl, findLast_none.mp e⟩
  · next p e =>
    have h := findLast_some e
    refine .inl ⟨⟨f.drop (p + 1), ?_, h.2⟩, f.take p, (List.take_append_drop p f).symm⟩
    have hd := congrArg (List.drop p) h.1
    rw [hd]
    have : (f.take p).length = p ∨ f.length < p := by rw [List.length_take]; omega
    rcases this with hl | hl
    · rw [List.drop_append, hl]; simp [List.drop_take]
    · exfalso
      have := congrArg List.length h.1
      simp at this; omega

theorem Spec.HasExt.unique {f e e' : Str} (h : HasExt f e) (h' : HasExt f e') : e = e' := by
  rcases h with ⟨⟨r, he, hr⟩, st, hf⟩ | ⟨he, hn⟩
  · rcases h' with ⟨⟨r', he', hr'⟩, st', hf'⟩ | ⟨he', hn'⟩
    · subst he he'
      have h1 := findLast_append st r hr
      have h2 := findLast_append st' r' hr'
      rw [← hf] at h1
      rw [← hf'] at h2
      have hl : st.length = st'.length := by simpa using h1.symm.trans h2
      exact (List.append_inj (hf.symm.trans hf') hl).2
    · exact absurd (by rw [hf, he]; simp) hn'
  · rcases h' with ⟨⟨r', he', hr'⟩, st', hf'⟩ | ⟨he', hn'⟩
    · exact absurd (by rw [hf', he']; simp) hn
    · rw [he, he']

theorem pop_append (f : Str) (_h : cur_extension f ≠ []) : pop_extension f ++ cur_extension f = f := by
  unfold pop_extension cur_extension at *
  split
  · next e => simp [e]
  · exact List.take_append_drop _ f

/-- What the loop computes. -/
theorem strip_spec (n : Nat) : ∀ (f : Str) (cs as : List Str), f.length = n → ∃ es : List Str,
    f = (stripExtensions f cs as).1 ++ es.reverse.flatten ∧
    (∀ e ∈ es, IsExt e ∧ KnownExt e) ∧
    HasExt (stripExtensions f cs as).1 (stripExtensions f cs as).2.1 ∧ ¬ KnownExt (stripExtensions f cs as).2.1 ∧
    (stripExtensions f cs as).2.2.1 = cs ++ es.filter (fun e => decide (String.ofList e ∈ compressionExts)) ∧
    (stripExtensions f cs as).2.2.2 = as ++ es.filter (fun e => decide (String.ofList e ∈ archiveExts)) := by
  induction n using Nat.strongRecOn with
  | _ n ih =>
    intro f cs as hn
    rw [stripExtensions]
    split
    · next h =>
      have hlt := pop_extension_length f h.1
      obtain ⟨es, h1, h2, h3, h4, h5, h6⟩ := ih _ (by omega) (pop_extension f)
        (if is_compressed (cur_extension f) then cs ++ [cur_extension f] else cs)
        (if is_archive (cur_extension f) then as ++ [cur_extension f] else as) rfl
      refine ⟨cur_extension f :: es, ?_, ?_, h3, h4, ?_, ?_⟩
      · simp only [List.reverse_cons, List.flatten_append, List.flatten_cons, List.flatten_nil, List.append_nil]
        rw [← List.append_assoc, ← h1, pop_append f h.1]
      · intro e he
        rcases List.mem_cons.mp he with rfl | he
        · refine ⟨?_, ?_⟩
          · rcases cur_extension_spec f with hx | hx
            · exact hx.1
            · exact absurd hx.1 h.1
          · rcases h.2 with h' | h'
            · exact .inr ((isCompressed_iff _).mp h')
            · exact .inl ((isArchive_iff _).mp h')
        · exact h2 e he
      · rw [h5]
        by_cases hc : is_compressed (cur_extension f) = true
        · have := (isCompressed_iff _).mp hc
          simp [hc, this]
        · have : ¬ String.ofList (cur_extension f) ∈ compressionExts := fun h' => hc ((isCompressed_iff _).mpr h')
          simp [hc, this]
      · rw [h6]
        by_cases hc : is_archive (cur_extension f) = true
        · have := (isArchive_iff _).mp hc
          simp [hc, this]
        · have : ¬ String.ofList (cur_extension f) ∈ archiveExts := fun h' => hc ((isArchive_iff _).mpr h')
          simp [hc, this]
    · next h =>
      refine ⟨[], by simp, by simp, cur_extension_spec f, ?_, by simp, by simp⟩
      intro hk
      apply h
      refine ⟨?_, ?_⟩
      · intro e
        simp only at hk
        rw [e] at hk
        rcases hk with hk | hk <;> revert hk <;> decide +kernel
      · rcases hk with hk | hk
        · exact .inr ((isArchive_iff _).mpr hk)
        · exact .inl ((isCompressed_iff _).mpr hk)

/-- The name of a resource without its known trailing extensions: `es`, in the order they are taken off. -/
structure Spec.Plain (resource plain : Str) (x : Str) (es : List Str) : Prop where
  whole : resource = plain ++ es.reverse.flatten
  known : ∀ e ∈ es, IsExt e ∧ KnownExt e
  ext : HasExt plain x
  done : ¬ KnownExt x

/-- The description determines the plain name and the extensions. -/
theorem C43_unique (r p p' x x' : Str) (es es' : List Str) (h : Plain r p x es) (h' : Plain r p' x' es') :
    p = p' ∧ x = x' ∧ es = es' := by
  induction es generalizing r es' with
  | nil =>
    cases es' with
    | nil =>
      have e := h.whole.symm.trans h'.whole
      simp at e
      subst e
      exact ⟨rfl, HasExt.unique h.ext h'.ext, rfl⟩
    | cons e es' =>
      exfalso
      have h1 := h'.known e (by simp)
      have hx : HasExt r e := .inl ⟨h1.1, p' ++ es'.reverse.flatten, by simpa using h'.whole⟩
      have hr : r = p := by simpa using h.whole
      rw [hr] at hx
      exact h.done (HasExt.unique h.ext hx ▸ h1.2)
  | cons e es ih =>
    have h1 := h.known e (by simp)
    have hx : HasExt r e := .inl ⟨h1.1, p ++ es.reverse.flatten, by simpa using h.whole⟩
    cases es' with
    | nil =>
      exfalso
      have hr : r = p' := by simpa using h'.whole
      rw [hr] at hx
      exact h'.done (HasExt.unique h'.ext hx ▸ h1.2)
    | cons e' es' =>
      have h1' := h'.known e' (by simp)
      have hx' : HasExt r e' := .inl ⟨h1'.1, p' ++ es'.reverse.flatten, by simpa using h'.whole⟩
      obtain rfl := HasExt.unique hx hx'
      have e1 : p ++ es.reverse.flatten ++ e = p' ++ es'.reverse.flatten ++ e := by
        have := h.whole.symm.trans h'.whole
        simpa using this
      have e2 := (List.append_left_inj e).mp e1
      have := ih (p ++ es.reverse.flatten) es'
        ⟨rfl, fun x hx => h.known x (by simp [hx]), h.ext, h.done⟩
        ⟨e2, fun x hx => h'.known x (by simp [hx]), h'.ext, h'.done⟩
      exact ⟨this.1, this.2.1, by rw [this.2.2]⟩

/-- The resource an input name stands for: what follows the protocol, up to a question mark unless the protocol is
text, filelist or stdin. -/
def Spec.Resource (filename p r : Str) : Prop :=
  ∃ r0, src_prefix_split_uri filename = (p, r0) ∧
    ((p = "text".toList ∨ p = "filelist".toList ∨ p = "stdin".toList) ∧ r = r0 ∨
     (p ≠ "text".toList ∧ p ≠ "filelist".toList ∧ p ≠ "stdin".toList) ∧ '?' ∉ r ∧ (r = r0 ∨ ∃ q, r0 = r ++ '?' :: q))

theorem inputResource_spec (f : Str) : Resource f (inputResource f).1 (inputResource f).2 := by
  unfold inputResource
  simp only
  split
  · next h =>
    split
    · next p e =>
      have := findFirst_some e
      exact ⟨_, rfl, .inr ⟨h, this.2, .inr ⟨_, this.1⟩⟩⟩
    · next e => exact ⟨_, rfl, .inr ⟨h, findFirst_none.mp e, .inl rfl⟩⟩
  · next h =>
    refine ⟨_, rfl, .inl ⟨?_, rfl⟩⟩
    by_cases h1 : (src_prefix_split_uri f).1 = "text".toList
    · exact .inl h1
    · by_cases h2 : (src_prefix_split_uri f).1 = "filelist".toList
      · exact .inr (.inl h2)
      · exact .inr (.inr (Classical.byContradiction fun h3 => h ⟨h1, h2, h3⟩))

/-- **C43.** For every input name with a resource: the plain name, the compressions and the archives are those of the
description, and the kind of input depends on the remaining extension only. -/
theorem C43_input (stat : Str → FileKind) (name : Str) (h : (inputResource (src_prefix_add_uri name)).2 ≠ []) :
    ∃ i es, inputSrc stat name = .val i ∧ i.filename = src_prefix_add_uri name ∧
      Resource i.filename i.protocol i.resource ∧
      i.isdirectory = decide (i.protocol = "file".toList ∧ stat i.resource = .directory) ∧
      i.exists_ = decide (i.protocol = "file".toList ∧ stat i.resource ≠ .missing) ∧
      (i.isdirectory = false → i.protocol ≠ "text".toList →
        Plain i.resource i.plainfile i.extension es ∧
        i.compressions = es.filter (fun e => decide (String.ofList e ∈ compressionExts)) ∧
        i.archives = es.filter (fun e => decide (String.ofList e ∈ archiveExts)) ∧
        (i.resource ≠ "-".toList →
          i.state = if i.extension = ".xml".toList ∨ i.extension = ".srcml".toList then .srcml else .src) ∧
        (i.resource = "-".toList → i.state = .indeterminate)) ∧
      (i.isdirectory = true ∨ i.protocol = "text".toList →
        i.compressions = [] ∧ i.archives = [] ∧ (i.resource ≠ "-".toList ∨ i.protocol = "text".toList → i.state = .src)) := by
  obtain ⟨es, h1, h2, h3, h4, h5, h6⟩ := strip_spec _ (inputResource (src_prefix_add_uri name)).2 [] [] rfl
  have hr := inputResource_spec (src_prefix_add_uri name)
  refine ⟨inputFields (src_prefix_add_uri name) (inputResource (src_prefix_add_uri name)).1
    (inputResource (src_prefix_add_uri name)).2 (if (inputResource (src_prefix_add_uri name)).1 = "file".toList then
      stat (inputResource (src_prefix_add_uri name)).2 else .missing)
    ((inputResource (src_prefix_add_uri name)).2.getLast h), es, ?_, ?_⟩
  · unfold inputSrc
    simp only [List.getLast?_eq_some_getLast h]
  · generalize (inputResource (src_prefix_add_uri name)).1 = p at *
    generalize (inputResource (src_prefix_add_uri name)).2 = r at *
    refine ⟨rfl, hr, ?_, ?_, ?_, ?_⟩
    · by_cases hp : p = "file".toList
      · simp only [inputFields, hp, if_true, true_and]
      · simp only [inputFields, hp, if_false, false_and]; rfl
    · by_cases hp : p = "file".toList
      · simp only [inputFields, hp, if_true, true_and]
      · simp only [inputFields, hp, if_false, false_and]; rfl
    · intro hd ht
      generalize (if p = "file".toList then stat r else FileKind.missing) = k at *
      have hd' : decide (k = FileKind.directory) = false := hd
      have ht' : p ≠ "text".toList := ht
      have hc : decide (k = FileKind.directory) = false ∧ p ≠ "text".toList := ⟨hd', ht'⟩
      simp only [inputFields, if_pos hc, if_neg ht']
      refine ⟨⟨h1, h2, h3, h4⟩, by simpa using h5, by simpa using h6, ?_, ?_⟩
      · intro hm; rw [if_pos ⟨hm, ht'⟩]
      · intro hm; rw [if_neg (fun h => h.1 hm)]
    · intro hd
      generalize (if p = "file".toList then stat r else FileKind.missing) = k at *
      have hd' : decide (k = FileKind.directory) = true ∨ p = "text".toList := hd
      have hc : ¬ (decide (k = FileKind.directory) = false ∧ p ≠ "text".toList) := by
        rintro ⟨ha, hb⟩
        rcases hd' with hd | hd
        · rw [hd] at ha; exact absurd ha (by decide)
        · exact hb hd
      simp only [inputFields, if_neg hc]
      refine ⟨trivial, trivial, ?_⟩
      intro hm
      by_cases ht : p = "text".toList
      · rw [if_pos ht]
      · rw [if_neg ht, if_pos ⟨hm.resolve_right ht, ht⟩]
        rfl

/-- A name with an empty resource (the empty name, a bare protocol, or only a query string) reads the last character
of an empty string. -/
theorem C43_finding_empty (stat : Str → FileKind) :
    inputSrc stat [] = .ub ∧ inputSrc stat "http://?x".toList = .ub := by
  have h1 : (inputResource (src_prefix_add_uri [])).2 = [] := by decide +kernel
  have h2 : (inputResource (src_prefix_add_uri "http://?x".toList)).2 = [] := by decide +kernel
  have key : ∀ n, (inputResource (src_prefix_add_uri n)).2 = [] → inputSrc stat n = .ub := by
    intro n h
    unfold inputSrc
    simp only [h, List.getLast?_nil]
  exact ⟨key _ h1, key _ h2⟩

/-- `.tbz` is listed as a compressed archive, but not among the compressions: such an output is not compressed. -/
theorem C43_finding_tbz : is_archive ".tbz".toList = true ∧ is_compressed ".tbz".toList = false ∧
    is_compressed ".tbz2".toList = true := by decide +kernel

example : (inputResource (src_prefix_add_uri "a.b/c.cpp.tar.gz".toList)).2 ≠ [] := by decide +kernel
example : ∃ i, inputSrc (fun _ => .other) "a.b/c.xml.tar.gz".toList = .val i ∧ i.plainfile = "a.b/c.xml".toList ∧
    i.state = .srcml ∧ i.compressions = [".gz".toList] ∧ i.archives = [".tar".toList] := by
  refine ⟨_, rfl, ?_⟩
  decide +kernel

/-- The input reads descriptor 0 exactly when its protocol is that of the standard input, and writes to descriptor 1 exactly when it is that of
the standard output; in particular for the name `-`. -/
theorem C42_standard_streams (stat : Str → FileKind) (name : Str) (i : InputSrc) (h : inputSrc stat name = .val i) :
    (i.fd = some 0 ↔ i.protocol = "stdin".toList) ∧ (i.fd = some 1 ↔ i.protocol = "stdout".toList) ∧
    (i.fd = none ↔ i.protocol ≠ "stdin".toList ∧ i.protocol ≠ "stdout".toList) := by
  unfold inputSrc at h
  simp only at h
  split at h
  · cases h
  · cases h
    simp only [inputFields]
    by_cases h1 : (inputResource (src_prefix_add_uri name)).1 = "stdout".toList
    · have h2 : ("stdout".toList : Str) ≠ "stdin".toList := by decide +kernel
      rw [if_pos h1, h1]
      simp only [h2]
      simp
    · rw [if_neg h1]
      by_cases h2 : (inputResource (src_prefix_add_uri name)).1 = "stdin".toList
      · rw [if_pos h2]
        have h3 : ("stdin".toList : Str) ≠ "stdout".toList := by decide +kernel
        simp [h2, h3]
      · rw [if_neg h2]
        exact ⟨⟨fun h => (by cases h), fun h => absurd h h2⟩, ⟨fun h => (by cases h), fun h => absurd h h1⟩, ⟨fun _ => ⟨h2, h1⟩, fun _ => rfl⟩⟩

example : ∃ i, inputSrc (fun _ => .missing) "-".toList = .val i ∧ i.fd = some 0 := ⟨_, rfl, by decide +kernel⟩

end Srcml
