import Verif.Props.CliOptions
import Verif.Props.SharedNames
/-
C94: two steps of the command that both read a srcML document, each in its own thread.
-/
set_option linter.unusedSimpArgs false
namespace Srcml
open Spec

/-- The command with a query or a transformation and `--output-src`: srcML is made of the inputs, in one step, and source code of this srcML in a later one. The two steps run at the same time (C87), and for inputs that are srcML both read a document in the same
process: what C94_finding_lost is about. -/
theorem C94_finding_command (stat : Str → FileKind) (enc : Str → Bool) (opts : List CliOpt) (r : CliReq) (h : parseOpts stat enc opts = .val (some r)) (ts : List TransArg) (hts : Queries stat opts ts) (hne : ts ≠ [])
    (hv : given opts .version = false) (hs : .flag .outputSrc ∈ opts) (out : InputSrc) (hout : r.output = some out) : ∃ l, r.steps = some l ∧ [ProcStep.createSrcml, .createSrc].Sublist l := by
  obtain ⟨l, l1, l2, l3, _, l5, _⟩ := (C83_steps stat enc opts r h ts hts out hout).2 hv
  refine ⟨l, l1, ?_⟩
  have c1 := l3.mpr (.inr (.inl hne))
  have c2 := l5.mpr (.inl hs)
  have key : ∀ l : List ProcStep, l.Sublist [.createSrcml, .displayMetadata, .createSrc, .compress] → .createSrcml ∈ l → .createSrc ∈ l → [ProcStep.createSrcml, .createSrc].Sublist l := by
    intro l m c1 c2
    cases m with
    | cons _ m => exact absurd (m.subset c1) (by decide)
    | cons_cons _ m =>
      refine .cons_cons _ (List.singleton_sublist.mpr ?_)
      rcases List.mem_cons.mp c2 with e | e
      · cases e
      · exact e
  exact key l l2 c1 c2

/-- `srcml a.xml --xpath //a --output-src`: two steps, and the input is srcML. -/
example : (match parseOpts (fun _ => .other) (fun _ => true) [.input "a.xml".toList, .trans (.xpath "//a".toList), .flag .outputSrc] with
    | .val (some r) => some (r.steps, r.mainInputs.map (·.state))
    | _ => none) = some (some [.createSrcml, .createSrc], [.srcml]) := by decide +kernel

end Srcml
