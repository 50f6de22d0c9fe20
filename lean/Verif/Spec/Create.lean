import Verif.Model.Create
import Verif.Spec.Language
/-
What C72 says about the output archive of the command, in terms of its options and inputs.
-/
namespace Srcml.Spec

/-- The output is one unit: there is a single input, no archive is asked for, and the input is not a list of files, not a directory, and not a source archive. -/
def OneUnit (req : CreateReq) (inputs : List InputSrc) : Prop :=
  ∃ i, inputs = [i] ∧ req.markup.archive = false ∧ i.protocol ≠ "filelist".toList ∧ i.isdirectory = false ∧ i.archives = []

/-- Extension and language of an argument `ext=language`. Without an equals sign the text is taken for both. -/
def ExtParts (arg ext language : Str) : Prop :=
  ('=' ∉ ext ∧ arg = ext ++ '=' :: language) ∨ ('=' ∉ arg ∧ ext = arg ∧ language = arg)

/-- The command is refused: a name for the unit is given although there is not only one, or a language is not known. -/
def NotAccepted (req : CreateReq) (inputs : List InputSrc) : Prop :=
  (¬ OneUnit req inputs ∧ req.attFilename ≠ none) ∨ ∃ arg ∈ req.languageExt, ∃ ext language, ExtParts arg ext language ∧ ¬ IsLanguage language

/-- The url: the one asked for; else that of the input if it is one source archive, without dots and slashes in front (`none` for the inner option: there is none). -/
def UrlIs (req : CreateReq) (inputs : List InputSrc) (url : Option Str) : Prop :=
  (∃ u, req.attUrl = some u ∧ url = some (src_prefix_resource u)) ∨
  (req.attUrl = none ∧ ∃ i, inputs = [i] ∧ i.archives ≠ [] ∧ ∃ front rest, src_prefix_resource i.filename = front ++ rest ∧ (∀ c ∈ front, c = '.' ∨ c = '/') ∧
    (∃ c r, rest = c :: r ∧ c ≠ '.' ∧ c ≠ '/') ∧ url = some rest) ∨
  (req.attUrl = none ∧ (∀ i, inputs = [i] → i.archives = []) ∧ url = none)

/-- There is a registration of that namespace on the command line. -/
def Registers (req : CreateReq) (uri : Str) : Prop := ∃ p, (p, uri) ∈ req.namespaces

/-- The arguments `ext=language` as pairs, in order. -/
inductive Pairs : List Str → List (Str × Str) → Prop where
  | nil : Pairs [] []
  | cons {a : Str} {as : List Str} {e l : Str} {ps : List (Str × Str)} : ExtParts a e l → Pairs as ps → Pairs (a :: as) ((e, l) :: ps)

/-- What the inputs, one after the other, were made to. `a` is the output archive before, `a'` after. -/
inductive InTurn {D : Type} (h : Handlers D) : Archive → List (InputSrc × Handled D) → Archive → Prop where
  | nil (a : Archive) : InTurn h a [] a
  | cons {a mid a' b : Archive} {i : InputSrc} {r : Handled D} {rest : List (InputSrc × Handled D)} :
      dispatchInput h a i = .val r → r.handled ≠ -1 → r.exited = false →
      (r.full = false → mid = a) → (r.full = true → mid = { a with options := a.options ||| OPTION_ARCHIVE }) → runCalls mid r.calls = .val a' →
      InTurn h a' rest b → InTurn h a ((i, r) :: rest) b

end Srcml.Spec
