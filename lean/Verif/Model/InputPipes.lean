import Verif.Model.Pipes
/-
Inputs that are compressed, in archives, or at an address: threads with pipes in front of the step that reads them.
-/
namespace Srcml

/-- What a thread does, with its states named in another way, src/client/srcml_pipe.cpp:57-61: every process is given an input and a destination in the same form. -/
def PipeAct.map {σ τ : Type} (f : σ → τ) : PipeAct σ → PipeAct τ
  | .read most next => .read most (fun c => f (next c))
  | .write text next => .write text (f next)
  | .finish => .finish
  | .leave => .leave

/-- What libarchive does next in `archive_read_data_into_fd`, src/client/decompress_srcml.cpp:96-100, src/client/unarchive_srcml.cpp:72-77: it needs more of the input (`none`: its end), it writes a block, or it has
ended; its result is not looked at, so an error is also an end. -/
inductive DecodeStep (δ : Type) where
  | more (next : Option Str → δ)
  | block (text : Str) (next : δ)
  | stop

/-- libarchive with the formats and filters of src/client/decompress_srcml.cpp:50-71 and src/client/unarchive_srcml.cpp:36-58, opened in lines 73-95 and 60-71: the state after opening, and what it does next.
An input that cannot be opened ends the command; that is not modelled here. -/
structure Decoder (δ : Type) where
  start : δ
  next : δ → DecodeStep δ

/-- Where a thread of the input, or a step of the command, is: `pieces`: the download has still these blocks to write (src/client/input_curl.cpp:76-92); `decode`: `decompress_srcml` or `unarchive_srcml` on a pipe
(src/client/decompress_srcml.cpp:74-76, src/client/unarchive_srcml.cpp:62-64); `file`: the same on a file of which this is left (src/client/decompress_srcml.cpp:87-90, src/client/unarchive_srcml.cpp:65-67); `reader`: the first step of
the command, which reads the document (src/client/create_srcml.cpp:52-68, src/client/create_src.cpp:53-80); `step`: a later step. -/
inductive InputAt (δ ρ ζ : Type) where
  | pieces (blocks : List Str)
  | decode (d : δ)
  | file (d : δ) (rest : Str)
  | reader (r : ρ)
  | step (s : StepAt ζ)

/-- What the thread does there: libarchive reads at most 16384 characters at a time (src/client/decompress_srcml.cpp:74, src/client/unarchive_srcml.cpp:61), and the thread closes the pipe when it has ended
(src/client/decompress_srcml.cpp:102-103, src/client/unarchive_srcml.cpp:79-80, src/client/input_curl.cpp:150-160). Reading from the file is a turn in which nothing is written. -/
def InputAt.act {δ ρ ζ : Type} (D : Decoder δ) (R : ρ → PipeAct ρ) (C : Compressor ζ) : InputAt δ ρ ζ → PipeAct (InputAt δ ρ ζ)
  | .pieces (p :: ps) => .write p (.pieces ps)
  | .pieces [] => .finish
  | .decode d => match D.next d with
    | .more next => .read 16384 (fun c => .decode (next c))
    | .block text d => .write text (.decode d)
    | .stop => .finish
  | .file d rest => match D.next d with
    | .more next => .write [] (if rest = [] then .file (next none) [] else .file (next (some (rest.take 16384))) (rest.drop 16384))
    | .block text d => .write text (.file d rest)
    | .stop => .finish
  | .reader r => (R r).map .reader
  | .step s => (StepAt.act C s).map .step

/-- The threads that are started for an input that is srcML, src/client/create_srcml.cpp:52-68, src/client/create_src.cpp:53-80: one for the download of an address, with the blocks that come, and one for a name with an extension of an
archive or a compression (`packed`). `text` is what is in the file when it is no address. A plain file is read by the step itself, which is as if it came in one piece. -/
def inputThreads {δ ρ ζ : Type} (D : Decoder δ) (address : Option (List Str)) (packed : Bool) (text : Str) : List (InputAt δ ρ ζ) :=
  match address, packed with
  | some blocks, true => [.pieces blocks, .decode D.start]
  | some blocks, false => [.pieces blocks]
  | none, true => [.file D.start text]
  | none, false => [.pieces [text]]

end Srcml
