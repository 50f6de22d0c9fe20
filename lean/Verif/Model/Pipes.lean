import Verif.Model.Client
/-
The steps of the command at the same time: each is a thread, with a pipe between each and the next.
-/
namespace Srcml

/-- What a thread does next: `read` and `write` on the file descriptors that it is given, src/client/compress_srcml.cpp:77-86. `finish`: it closes its output and ends, src/client/create_srcml.cpp:363-364; `leave`: it ends, and its output
stays open, src/client/create_src.cpp:104-150. -/
inductive PipeAct (σ : Type) where
  | read (most : Nat) (next : Option Str → σ)
  | write (text : Str) (next : σ)
  | finish
  | leave

/-- A thread of `srcml_execute` and the pipe that it writes to, src/client/srcml_execute.cpp:39-77: `pending` is what a `write` has still to put in the pipe, `pipe` what is in it, `closed`: nothing more comes. For the last step `pipe` is
what the destination has got. -/
structure PipeStage (σ : Type) where
  state : σ
  pending : Str := []
  pipe : Str := []
  closed : Bool := false
  ended : Bool := false

/-- One thread does one thing; the first of the list reads from a pipe with `up` in it, and `cl` says that it is closed. src/client/srcml_execute.cpp:46-77. A pipe has room for `cap` characters: a `write` waits for
room, and may be done in parts; a `read` waits for text, and gets any part of what is there, but not more than it asks for. The destination of the command has room for everything. -/
inductive PipeStep {σ : Type} (act : σ → PipeAct σ) (cap : Nat) : Str → Bool → List (PipeStage σ) → Str → List (PipeStage σ) → Prop where
  | read {s rest cl m k} (c d : Str) : act s.state = .read m k → s.pending = [] → s.ended = false → c ≠ [] → c.length ≤ m →
      PipeStep act cap (c ++ d) cl (s :: rest) d ({ s with state := k (some c) } :: rest)
  | eof {s rest m k} : act s.state = .read m k → s.pending = [] → s.ended = false → PipeStep act cap [] true (s :: rest) [] ({ s with state := k none } :: rest)
  | write {s rest up cl w t} : act s.state = .write w t → s.pending = [] → s.ended = false → PipeStep act cap up cl (s :: rest) up ({ s with state := t, pending := w } :: rest)
  | push {s rest up cl} (a b : Str) : s.pending = a ++ b → a ≠ [] → s.ended = false → (rest = [] ∨ s.pipe.length + a.length ≤ cap) →
      PipeStep act cap up cl (s :: rest) up ({ s with pending := b, pipe := s.pipe ++ a } :: rest)
  | finish {s rest up cl} : act s.state = .finish → s.pending = [] → s.ended = false → PipeStep act cap up cl (s :: rest) up ({ s with closed := true, ended := true } :: rest)
  | leave {s rest up cl} : act s.state = .leave → s.pending = [] → s.ended = false → PipeStep act cap up cl (s :: rest) up ({ s with ended := true } :: rest)
  | later {s rest up cl up' rest'} : PipeStep act cap s.pipe s.closed rest up' rest' → PipeStep act cap up cl (s :: rest) up ({ s with pipe := up' } :: rest')

/-- Steps of `srcml_execute` one after the other, from the start of the threads, with their number. src/client/srcml_execute.cpp:46-80. The first step does not read from a pipe. -/
inductive PipeRun {σ : Type} (act : σ → PipeAct σ) (cap : Nat) (start : List σ) : Nat → List (PipeStage σ) → Prop where
  | start : PipeRun act cap start 0 (start.map (fun s => { state := s }))
  | step {n ss ss'} : PipeRun act cap start n ss → PipeStep act cap [] true ss [] ss' → PipeRun act cap start (n + 1) ss'

/-- libarchive as `compress_srcml` uses it, src/client/compress_srcml.cpp:30-86: its state after the header, what it writes for a piece of text with the result of `archive_write_data`, and what it writes at the end. -/
structure Compressor (ζ : Type) where
  start : ζ
  header : Str
  data : ζ → Str → ζ × Str × Int
  trailer : ζ → Str

/-- Where the threads of the steps are. `writing`: `create_srcml` and `create_src` write their text in some pieces, and close the output or not; the others are lines of `compress_srcml`. src/client/compress_srcml.cpp:72-87,
src/client/create_srcml.cpp:341-364, src/client/create_src.cpp:104-150. -/
inductive StepAt (ζ : Type) where
  | writing (pieces : List Str) (closes : Bool)
  | opened (z : ζ)
  | loop (z : ζ)
  | wrote (out : Str) (status : Int) (z : ζ)
  | last (z : ζ)
  | done

/-- What the thread does there: src/client/compress_srcml.cpp:75-87 reads at most 4092 characters, and leaves the loop at the end of the input or when `archive_write_data` returns zero; a negative result is not looked at. -/
def StepAt.act {ζ : Type} (C : Compressor ζ) : StepAt ζ → PipeAct (StepAt ζ)
  | .writing (p :: ps) closes => .write p (.writing ps closes)
  | .writing [] true => .finish
  | .writing [] false => .leave
  | .opened z => .write C.header (.loop z)
  | .loop z => .read 4092 (fun c => match c with
    | none => .last z
    | some text => .wrote (C.data z text).2.1 (C.data z text).2.2 (C.data z text).1)
  | .wrote out status z => .write out (if status = 0 then .last z else .loop z)
  | .last z => .write (C.trailer z) .done
  | .done => .finish

/-- The thread of a step: `create_srcml` closes the pipe, src/client/create_srcml.cpp:363-364. `create_src` does not (src/client/create_src.cpp:104-150), nor does `srcml_display_metadata`, which writes to the standard output
(src/client/srcml_display_metadata.cpp:120-200). `pieces`: what the step writes. -/
def ProcStep.thread {ζ : Type} (C : Compressor ζ) (pieces : List Str) : ProcStep → StepAt ζ
  | .createSrcml => .writing pieces true
  | .createSrc => .writing pieces false
  | .displayMetadata => .writing [] false
  | .compress => .opened C.start

end Srcml
