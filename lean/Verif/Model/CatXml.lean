import Verif.Model.Consume
/-
`srcml --cat`: the contents of all units in one unit.
-/
namespace Srcml

/-- The document of which the start tag is taken, src/client/srcml_write.cpp:182-191: a solitary clone of the output archive in memory, to which a clone of the first unit, parsed from an empty text, is written.
`none`: nothing was handed out. The statuses are not looked at. `ua`: the archive of the unit when it is not the output archive. The buffer is not freed (not modelled). -/
def catDocument {D : Type} (env : ParseEnv D) (main : ArchiveIO) (ua : Option Archive) (u : UnitData) : Run (Option Str) :=
  let a := cloneOf main.settings
  let s := (({ settings := { a with options := (a.options &&& ~~~OPTION_ARCHIVE) &&& ~~~OPTION_HASH }, thread := main.thread } : ArchiveIO).openWrite true .memory).2
  match srcml_unit_clone (some u) with
  | none => .ub
  | some c =>
    (env.parseMemory c []).bind (fun (_, o) =>
      (s.writeUnit (ua.getD main.settings) (some o.data) none).bind (fun (_, s) =>
        s.close.bind (fun s => .val s.delivered)))

/-- The argument `buffer, (int) size - 51`, src/client/srcml_write.cpp:192: `none` for a negative size. The document is taken to be ASCII, so that a character is a byte. -/
def catHead (doc : Str) : Option Str := if doc.length < 51 then none else some (doc.take (doc.length - 51))

/-- A unit with `--cat`, src/client/srcml_write.cpp:179-203: the status, the static variable `first` after it, and the output archive. -/
def catUnit {D : Type} (env : ParseEnv D) (ua : Option Archive) (first : Bool) (o : UnitObj) (s : ArchiveIO) : Run (Status × Bool × ArchiveIO) :=
  let started : Run ArchiveIO :=
    if first then
      (catDocument env s ua o.data).bind (fun d =>
        (s.writeString (catHead (d.getD []))).bind (fun (_, s) => (s.writeString (some ['>'])).bind (fun (_, s) => .val s)))
    else .val s
  started.bind (fun s => (writeRaw s o.getInner.1).bind (fun (st, s) => .val (st, false, s)))

/-- The units one after the other, each with its archive; the number of messages, src/client/srcml_write.cpp:179-208, src/client/WriteQueue.cpp:67-95. For requests without transformations and without failures. -/
def catUnits {D : Type} (env : ParseEnv D) (first : Bool) (s : ArchiveIO) : List (Option Archive × UnitObj) → Run (Bool × Nat × ArchiveIO)
  | [] => .val (first, 0, s)
  | (ua, o) :: us => (catUnit env ua first o s).bind (fun (st, first, s) =>
      (catUnits env first s us).bind (fun (first, n, s) => .val (first, (if st ≠ .ok then 1 else 0) + n, s)))

/-- The whole output with `--cat`, src/client/create_srcml.cpp:262-271, 342-361: the end tag is written after the last unit, whether there was a unit or not; then the archive is closed (`status` of the inputs not -1). -/
def catOutput {D : Type} (env : ParseEnv D) (a : Archive) (th : ThreadState) (opened : Bool) (us : List (Option Archive × UnitObj)) : Run (Nat × ArchiveIO) :=
  let s := (({ settings := a, thread := th } : ArchiveIO).openWrite true (.other opened)).2
  (catUnits env true s us).bind (fun (_, n, s) =>
    (s.writeString (some "</unit>\n".toList)).bind (fun (_, s) => s.close.bind (fun s => .val (n, s))))

end Srcml
