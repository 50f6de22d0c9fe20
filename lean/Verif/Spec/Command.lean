import Verif.Model.Command
import Verif.Props.Create
import Verif.Props.SourceFiles
/-
What C77 says: files that a user gives to the command.
-/
namespace Srcml.Spec

/-- The input `i` of the command is a file of this machine whose contents are described by `x`. The unit into which it is parsed has the name that is asked for, or else that of the
file, without `./` in front, the language that is asked for, or else that of the extension of this name, and the version that is asked for. -/
structure CommandFile (lib : ParseLib) (a : Archive) (th : ThreadState) (req : CreateReq) (i : InputSrc) (x : SourceFile) : Prop where
  file : LocalFile i
  name : i.resource ≠ "_".toList
  from_ : x.from_ = .filename (some i.resource)
  unit : ∃ name lang, WithoutDots (req.attFilename.getD i.resource) name ∧ name ≠ [] ∧
    (match req.attLanguage with
      | some (c :: l) => lang = c :: l
      | _ => srcml_archive_check_extension a.registeredLanguages (some (req.attFilename.getD i.resource)) = some lang) ∧
    x.unit = { data := { language := some lang, filename := some name, version := req.attVersion } }
  ok : x.Ok lib a th

/-- What was read, call by call, from a document of which the parser made the calls `log`: the units `us`, and then the end. -/
def ReadAll (log : List Upper) (r : Reader) (us : List UnitData) : Prop :=
  (∀ c ∈ r.log, c.1 = .read) ∧ r.log.map (fun c => gets log c.2) = us.map some ++ [none]

end Srcml.Spec
