import Verif.Model.Inputs
import Verif.Model.ArchiveIO
import Verif.Model.Transform
import Verif.Model.UnitApi
/-
What the command does with a request: parsing and transforming in a thread, then writing.
-/
namespace Srcml

/-- A request with the members that the thread and the writer use, src/client/ParseRequest.hpp:33-56. `input`: the archive from which the unit was read (the archive of the unit is the
output archive otherwise, src/client/srcml_consume.cpp:53). `exits`: the program is left with `exit(1)` after the request was handed on. -/
structure Work (D : Type) where
  req : ParseReq
  unit : Option UnitObj := none
  needsparsing : Bool := true
  input : Option Archive := none
  errormsg : Option Str := none
  results : Option (TransformResult D) := none
  exits : Bool := false

/-- What the thread uses of the library: the parse functions and the transformations, src/client/srcml_consume.cpp:103, 107, 127. The status of the transformations is not looked at. -/
structure ParseEnv (D : Type) where
  parseFile : UnitData → Str → Run (Status × UnitObj)
  parseMemory : UnitData → Str → Run (Status × UnitObj)
  apply : UnitData → Run (Option (TransformResult D))

/-- The unit of a request with its attributes, src/client/srcml_consume.cpp:51-97, and the request with its name cleaned. The setters do not fail for these arguments (src/libsrcml/srcml_unit.cpp:68-136). -/
def prepareUnit {D : Type} (w : Work D) : Run (UnitData × Work D) :=
  let u := match w.unit with
    | some u => u.data
    | none => srcml_unit_create
  let u := if u.language = none ∨ u.language = some [] then (UnitSet.run u (.language (some w.req.language))).2 else u
  let named : Run (UnitData × Work D) := match w.req.filename with
    | none => .val (u, w)
    | some f => (stripDots f).bind (fun f => .val ((UnitSet.run u (.filename (some f))).2, { w with req := { w.req with filename := some f } }))
  named.bind (fun (u, w) =>
    let u := match w.req.version with
      | none => u
      | some v => (UnitSet.run u (.version (some v))).2
    let u := match w.req.timeStamp with
      | none => u
      | some t => (UnitSet.run u (.timestamp (some t))).2
    .val (u, w))

/-- `srcml_consume`, src/client/srcml_consume.cpp:37-134. The times are not modelled. A unit that was read keeps its object when it is not parsed. -/
def srcml_consume {D : Type} (env : ParseEnv D) (w : Work D) : Run (Work D) :=
  if w.req.status ≠ .ok then .val { w with unit := none }
  else
    (prepareUnit w).bind (fun (u, w') =>
      let parsed : Run (Status × UnitObj) := match w'.req.diskFilename with
        | some f => env.parseFile u f
        | none => if w'.needsparsing then env.parseMemory u w'.req.buffer
          else .val (.ok, match w'.unit with
            | some o => { o with data := u }
            | none => { data := u })
      parsed.bind (fun (st, o) =>
        if st = .invalidArgument then .val { w' with req := { w'.req with status := .ioError }, errormsg := some [], unit := none, exits := true }
        else if st ≠ .ok then .val { w' with req := { w'.req with status := st }, unit := none
                                             errormsg := some ("srcml: Unable to open file ".toList ++ w.req.filename.getD []) }
        else
          (env.apply o.data).bind (fun r =>
            let none_ := match r with
              | some r => decide (r.type = RESULT_NONE)
              | none => false
            .val { w' with unit := if none_ then none else some o, results := r })))

/-- How numbers are shown, src/client/srcml_write.cpp:120-123: the conversion to `int` (`none`: it has no value, undefined behaviour), the comparison with it, and `std::to_string` of a `double` and of an `int`. -/
structure NumberText (D : Type) where
  asInt : D → Option Int
  same : D → Int → Bool
  showReal : D → Str
  showInt : Int → Str

/-- What is written so far: the output archive, the archives for single units (path and archive, closed), messages on the standard error, lines of the list, and the sum of the lines
(`TraceLog`, a `size_t`), src/client/srcml_write.cpp:41-241 and src/client/TraceLog.cpp:29-66. -/
structure OutState where
  main : ArchiveIO
  files : List (Str × ArchiveIO) := []
  messages : List Str := []
  listed : Nat := 0
  loc : Nat := 0

/-- `srcml_archive_disable_solitary_unit` of an archive, src/libsrcml/srcml_archive.cpp:317-325. -/
def ArchiveIO.becomeArchive (s : ArchiveIO) : ArchiveIO := { s with settings := { s.settings with options := s.settings.options ||| OPTION_ARCHIVE } }

/-- Writing a text and a newline after it if it has none, src/client/srcml_write.cpp:133-139, 167-171: the status of the first call. The last character of an empty text is in front of it: undefined behaviour. -/
def writeLine (s : ArchiveIO) (text : Option Str) : Run (Status × ArchiveIO) :=
  match text with
  | none => .ub
  | some x =>
    (s.writeString (some x)).bind (fun (st, s) =>
      match x.getLast? with
      | none => .ub
      | some c => if c ≠ '\n' then (s.writeString (some ['\n'])).bind (fun (_, s) => .val (st, s)) else .val (st, s))

/-- The same for the contents of a unit, src/client/srcml_write.cpp:173-178: nothing is added to an empty text. -/
def writeRaw (s : ArchiveIO) (text : Option Str) : Run (Status × ArchiveIO) :=
  match text with
  | none => .ub
  | some x => if x = [] then s.writeString (some x) else writeLine s (some x)

/-- Writing the units of a result, src/client/srcml_write.cpp:158-162: the statuses are not looked at. `ua`: the archive of the units, `none` when it is the one that is written. -/
def writeUnits (ua : Option Archive) (s : ArchiveIO) : List UnitData → Run ArchiveIO
  | [] => .val s
  | u :: us => (s.writeUnit (ua.getD s.settings) (some u) none).bind (fun (_, s) => writeUnits ua s us)

/-- The output to one archive, src/client/srcml_write.cpp:105-209: the archive, and the message of a failed write, and the lines to add to the sum. Without `--cat-xml`. A result that is neither a value nor units has no units. The number of an internal error is left out. -/
def writeResult {D : Type} (opts : CmdOptions) (num : NumberText D) (zero : D) (ua : Option Archive) (w : Work D) (s : ArchiveIO) : Run (ArchiveIO × List Str × Option Int) :=
  let scalar (r : Run ArchiveIO) : Run (ArchiveIO × List Str × Option Int) := r.bind (fun s => .val (s, [], none))
  let type := (w.results.map (·.type)).getD RESULT_NONE
  if type = RESULT_BOOLEAN then
    scalar ((srcml_transform_get_bool w.results).bind (fun b => (s.writeString (some (if b ≠ 0 then "true\n".toList else "false\n".toList))).bind (fun (_, s) => .val s)))
  else if type = RESULT_NUMBER then
    scalar ((srcml_transform_get_number zero w.results).bind (fun x =>
      match num.asInt x with
      | none => .ub
      | some i =>
        let text := (if num.same x i then num.showInt i else num.showReal x)
        (s.writeString (some text)).bind (fun (_, s) => (s.writeString (some ['\n'])).bind (fun (_, s) => .val s))))
  else if type = RESULT_STRING then
    scalar ((srcml_transform_get_string w.results).bind (fun x => (writeLine s x).bind (fun (_, s) => .val s)))
  else if w.req.status = .ok then
    let units := if type = RESULT_UNITS then (w.results.map (·.units)).getD [] else []
    let s := if units.length > 1 then s.becomeArchive else s
    (writeUnits ua s units).bind (fun s =>
      let loc := srcml_unit_get_loc (w.unit.map (·.data))
      match w.unit with
      | none => .val (s, [], some loc)
      | some o =>
        if units ≠ [] then .val (s, [], some loc)
        else
          let written := if opts.xmlFragment then o.getOuter.bind (fun (x, _) => writeLine s x)
            else if opts.xmlRaw then writeRaw s o.getInner.1
            else s.writeUnit (ua.getD s.settings) (some o.data) none
          written.bind (fun (st, s) => .val (s, if st ≠ .ok then ["Error in writing parsed unit to archive\n".toList] else [], some loc)))
  else
    .val (s, match w.errormsg with
      | some m => if m = [] then [] else [m]
      | none => ["Internal error".toList], none)

/-- The file for a unit of its own, src/client/srcml_write.cpp:78-84. -/
def unitFile {D : Type} (opts : CmdOptions) (w : Work D) : Run Str :=
  match w.req.filename with
  | none => .ub
  | some f =>
    if opts.toDirectory then
      match w.req.diskDir with
      | none => .ub
      | some d => .val (d ++ "/".toList ++ f ++ ".xml".toList)
    else .val (f ++ ".xml".toList)

/-- The clone of the output archive for one unit, src/client/srcml_write.cpp:93-102; `opened`: which files can be opened. -/
def unitArchive (main : ArchiveIO) (opened : Str → Bool) (file : Str) : ArchiveIO :=
  let a := cloneOf main.settings
  (({ settings := { a with options := (a.options &&& ~~~OPTION_ARCHIVE) &&& ~~~OPTION_HASH }, thread := main.thread } : ArchiveIO).openWrite true (.other (opened file))).2

/-- The messages, the sum of the lines and the list after a request, src/client/srcml_write.cpp:147, 214-233 (`size_t`). -/
def OutState.finish (o : OutState) (verbose : Bool) (r : List Str × Option Int) : OutState :=
  { o with messages := o.messages ++ r.1
           loc := match r.2 with
             | some l => (((o.loc : Int) + l) % 2 ^ 64).toNat
             | none => o.loc
           listed := if verbose ∧ r.2.isSome then o.listed + 1 else o.listed }

/-- `srcml_write_request`, src/client/srcml_write.cpp:41-241, without the parser test and `--cat-xml`; `ua`: the archive of the unit when it is not the output archive. The text of the lines of the list is left out. -/
def srcml_write_request {D : Type} (opts : CmdOptions) (num : NumberText D) (zero : D) (opened : Str → Bool) (ua : Option Archive) (w : Work D) (o : OutState) : Run OutState :=
  if w.req.status = .unsetLanguage then
    .val (if opts.verbose then { o with listed := if opts.quiet then o.listed else o.listed + 1 }
      else { o with messages := o.messages ++ ["srcml: Extension not supported".toList ++ (w.req.diskFilename.map (fun f => ' ' :: f)).getD []] })
  else
    if w.unit.isSome ∧ opts.noarchive then
      (unitFile opts w).bind (fun file =>
        (writeResult opts num zero (some (ua.getD o.main.settings)) w (unitArchive o.main opened file)).bind (fun (s, r) =>
          s.close.bind (fun s => .val (({ o with files := o.files ++ [(file, s)] } : OutState).finish opts.verbose r))))
    else
      (writeResult opts num zero ua w o.main).bind (fun (s, r) => .val (({ o with main := s } : OutState).finish opts.verbose r))

/-- The writer takes the requests one after the other, src/client/WriteQueue.cpp:67-95; a unit that was read belongs to the archive from which it was read. -/
def writeAll {D : Type} (opts : CmdOptions) (num : NumberText D) (zero : D) (opened : Str → Bool) (ua : Option Archive) (o : OutState) : List (Work D) → Run OutState
  | [] => .val o
  | w :: ws => (srcml_write_request opts num zero opened (w.input.or ua) w o).bind (fun o => writeAll opts num zero opened ua o ws)

/-- The threads take the requests, each on its own, src/client/srcml_consume.cpp:37 (a task of the thread pool, src/client/ParseQueue.hpp:40-58). -/
def consumeAll {D : Type} (env : ParseEnv D) : List (Work D) → Run (List (Work D))
  | [] => .val []
  | w :: ws => (srcml_consume env w).bind (fun w => (consumeAll env ws).bind (fun ws => .val (w :: ws)))

end Srcml
