import Verif.Model.Basic
/-
srcDiff revisions: `extract_revision` and `attribute_revision`.
-/
set_option linter.unusedVariables false
namespace Srcml

/-- The modes, src/libsrcml/unit_utilities.cpp:71. -/
inductive DiffMode where
  | insert | delete | common
  deriving DecidableEq, Repr

/-- `inmode`, src/libsrcml/unit_utilities.cpp:85. -/
def inMode (revision : Nat) (m : DiffMode) : Bool :=
  m = .common || (revision = 0 && m = .delete) || (revision = 1 && m = .insert)

/-- `memchr`: what comes before the first `c`, and what comes after it; `none` if there is none. Used in src/libsrcml/unit_utilities.cpp:83 and 94. -/
def splitAt1 (c : Char) : Str → Option (Str × Str)
  | [] => none
  | x :: xs => if x = c then some ([], xs) else (splitAt1 c xs).map (fun r => (x :: r.1, r.2))

theorem splitAt1_length {c : Char} {s a b : Str} (h : splitAt1 c s = some (a, b)) : s.length = a.length + b.length + 1 := by
  induction s generalizing a with
  | nil => cases h
  | cons x xs ih =>
    unfold splitAt1 at h
    split at h
    · simp only [Option.some.injEq, Prod.mk.injEq] at h; simp [← h.1, ← h.2]
    · simp only [Option.map_eq_some_iff] at h
      obtain ⟨⟨p, q⟩, h1, h2⟩ := h
      simp only [Prod.mk.injEq] at h2
      rw [← h2.1]
      have := ih (a := p) (by rw [h1]; rw [h2.2])
      simp only [List.length_cons, this]
      omega

/-- `DIFF_PREFIX`, src/libsrcml/unit_utilities.cpp:75. -/
def DIFF_PREFIX : Str := "diff:".toList

/-- What a tag does to the stack of modes; `tag` is the text between `<` and `>`,
src/libsrcml/unit_utilities.cpp:97-115. The second component says that the tag itself is kept when it is in a
mode that is output. `top()`/`pop()` of an empty stack is undefined. -/
def diffTag (mode : List DiffMode) (tag : Str) : List DiffMode × Bool :=
  if DIFF_PREFIX.isPrefixOf tag then
    let t := tag.drop DIFF_PREFIX.length
    if "delete".toList.isPrefixOf t then (.delete :: mode, false)
    else if "insert".toList.isPrefixOf t then (.insert :: mode, false)
    else (.common :: mode, false)
  else if tag.head? = some '/' ∧ DIFF_PREFIX.isPrefixOf tag.tail then (mode.tail, false)
  else (mode, true)

/-- The loop of `extract_revision`, src/libsrcml/unit_utilities.cpp:83-118. Text after the last tag is never
appended; a `<` without `>` is undefined (`memchr` gives null, which is then incremented and used). -/
def extractRevisionLoop (revision : Nat) (textOnly : Bool) (mode : List DiffMode) (s : Str) : Run Str :=
  match h1 : splitAt1 '<' s with
  | none => .val []
  | some (text, rest) =>
    match mode with
    | [] => .ub
    | m :: ms =>
      match h2 : splitAt1 '>' rest with
      | none => .ub
      | some (tag, rest') =>
        let keepTag := (diffTag (m :: ms) tag).2 && !textOnly
        match extractRevisionLoop revision textOnly (diffTag (m :: ms) tag).1 rest' with
        | .ub => .ub
        | .val r =>
          .val ((if inMode revision m then text else []) ++
            (if inMode revision m && keepTag then '<' :: tag ++ ['>'] else []) ++ r)
termination_by s.length
decreasing_by
  have e1 := splitAt1_length h1
  have e2 := splitAt1_length h2
  omega

/-- `extract_revision`, src/libsrcml/unit_utilities.cpp:73-121. -/
def extract_revision (srcml : Str) (revision : Nat) (textOnly : Bool) : Run Str :=
  extractRevisionLoop revision textOnly [.common] srcml

/-- `attribute_revision`, src/libsrcml/unit_utilities.cpp:197-208; SRCDIFF_REVISION_ORIGINAL is 0
(src/libsrcml/srcml.h:1624). -/
def attribute_revision (value : Str) (revision : Nat) : Str :=
  match findFirst '|' value with
  | none => value
  | some pos => if revision = 0 then value.take pos else value.drop (pos + 1)

end Srcml
