import Verif.Model.Consume
import Verif.Spec.Inputs
/-
What C71 says: what reaches the output archive for a request that was processed.
-/
namespace Srcml.Spec

/-- What happens to an archive that is written. -/
inductive Effect where
  /-- a unit is added -/
  | unit (u : UnitData)
  /-- text is added as it is -/
  | text (s : Str)
  /-- one unit is not enough: the archive becomes a full one -/
  | full

/-- The calls of the library for these, one after the other; `ua`: the archive of the units, `none` for the one that is written. -/
def runEffects (ua : Option Archive) (s : ArchiveIO) : List Effect → Run ArchiveIO
  | [] => .val s
  | .unit u :: es => (s.writeUnit (ua.getD s.settings) (some u) none).bind (fun p => runEffects ua p.2 es)
  | .text x :: es => (s.writeString (some x)).bind (fun p => runEffects ua p.2 es)
  | .full :: es => runEffects ua { s with settings := { s.settings with options := s.settings.options ||| OPTION_ARCHIVE } } es

/-- A line: the text, and a newline if it does not end with one. -/
def lineOf (s : Str) : List Effect := if s.getLast? = some '\n' then [.text s] else [.text s, .text ['\n']]

/-- What the request `w`, parsed and transformed, adds to the output archive, and the messages. -/
inductive Shows {D : Type} (opts : CmdOptions) (num : NumberText D) : Work D → List Effect → List Str → Prop where
  /-- no language: nothing but a message, -/
  | unsupported {w : Work D} : w.req.status = .unsetLanguage → opts.verbose = false →
      Shows opts num w [] ["srcml: Extension not supported".toList ++ (w.req.diskFilename.map (fun f => ' ' :: f)).getD []]
  /-- or a line in the list; -/
  | listed {w : Work D} : w.req.status = .unsetLanguage → opts.verbose = true → Shows opts num w [] []
  /-- another failure: the message; -/
  | failed {w : Work D} {c : Char} {m : Str} : w.req.status ≠ .ok → w.req.status ≠ .unsetLanguage → w.results = none → w.errormsg = some (c :: m) → Shows opts num w [] [c :: m]
  /-- without transformations: the unit, -/
  | unit {w : Work D} {o : UnitObj} : w.req.status = .ok → w.results = none → w.unit = some o → opts.xmlFragment = false → opts.xmlRaw = false → Shows opts num w [.unit o.data] []
  /-- or its outer text, -/
  | outer {w : Work D} {o o' : UnitObj} {s : Str} : w.req.status = .ok → w.results = none → w.unit = some o → opts.xmlFragment = true → o.getOuter = .val (some s, o') → s ≠ [] →
      Shows opts num w (lineOf s) []
  /-- or its inner text, without a newline when there is none; -/
  | inner {w : Work D} {o : UnitObj} {s : Str} : w.req.status = .ok → w.results = none → w.unit = some o → opts.xmlFragment = false → opts.xmlRaw = true → o.getInner.1 = some s →
      Shows opts num w (if s = [] then [.text []] else lineOf s) []
  /-- with transformations: the units of the result, -/
  | units {w : Work D} {o : UnitObj} {r : TransformResult D} : w.req.status = .ok → w.results = some r → w.unit = some o → r.type = RESULT_UNITS → r.units ≠ [] →
      Shows opts num w ((if r.units.length > 1 then [.full] else []) ++ r.units.map .unit) []
  /-- nothing if there are none, -/
  | nothing {w : Work D} {r : TransformResult D} : w.req.status = .ok → w.results = some r → w.unit = none → r.type = RESULT_NONE → Shows opts num w [] []
  /-- or the value: a truth value, -/
  | bool {w : Work D} {r : TransformResult D} {b : Bool} : w.req.status = .ok → w.results = some r → r.type = RESULT_BOOLEAN → r.bool = some (if b then 1 else 0) →
      Shows opts num w [.text ((if b then "true" else "false").toList ++ ['\n'])] []
  /-- a number, -/
  | number {w : Work D} {r : TransformResult D} {x : D} {i : Int} : w.req.status = .ok → w.results = some r → r.type = RESULT_NUMBER → r.number = some x → num.asInt x = some i →
      Shows opts num w [.text (if num.same x i then num.showInt i else num.showReal x), .text ['\n']] []
  /-- a string. -/
  | string {w : Work D} {r : TransformResult D} {s : Str} : w.req.status = .ok → w.results = some r → r.type = RESULT_STRING → r.string = some s → s ≠ [] → Shows opts num w (lineOf s) []

/-- Several requests: one after the other. -/
inductive ShowsAll {D : Type} (opts : CmdOptions) (num : NumberText D) : List (Work D) → List Effect → List Str → Prop where
  | nil : ShowsAll opts num [] [] []
  | cons {w : Work D} {ws : List (Work D)} {es fs : List Effect} {ms ns : List Str} : Shows opts num w es ms → ShowsAll opts num ws fs ns → ShowsAll opts num (w :: ws) (es ++ fs) (ms ++ ns)

/-- The file of a unit of its own: in the directory if there is one, with the name of the request. -/
def UnitPath {D : Type} (opts : CmdOptions) (w : Work D) (path : Str) : Prop :=
  ∃ name, w.req.filename = some name ∧
    ((opts.toDirectory = false ∧ path = name ++ ".xml".toList) ∨
     (opts.toDirectory = true ∧ ∃ d, w.req.diskDir = some d ∧ path = d ++ ['/'] ++ name ++ ".xml".toList))

/-- The unit that a request is parsed into: its language, name, version and time, and otherwise a new unit. -/
structure Attributed {D : Type} (w : Work D) (u : UnitData) : Prop where
  language : u.language = some w.req.language
  filename : match w.req.filename with
    | none => u.filename = none
    | some f => ∃ name, WithoutDots f name ∧ u.filename = some name
  version : u.version = w.req.version
  timestamp : u.timestamp = w.req.timeStamp
  rest : u = { language := u.language, filename := u.filename, version := u.version, timestamp := u.timestamp }

end Srcml.Spec
