import Verif.Model.InputName
/-
The command: the limit on open inputs, the log of messages and the exit status, and the choice of processing steps.
-/
namespace Srcml

/-- The states that an execution can reach, for a system given by its initial state and its atomic steps.
Used for src/client/OpenFileLimiter.hpp:54-56, src/client/WriteQueue.cpp:20-95 and src/libsrcml/srcml_reader_handler.hpp:83-490. -/
inductive Reach {S : Type} (init : S) (step : S → S → Prop) : S → Prop where
  | start : Reach init step init
  | next {s t : S} : Reach init step s → step s t → Reach init step t

/-! ### Open files -/

/-- `MAX_OPEN_FILES`, src/client/OpenFileLimiter.hpp:32. -/
def MAX_OPEN_FILES : Int := 200

/-- The shared state of `OpenFileLimiter`, src/client/OpenFileLimiter.hpp:54-56, and what the threads are doing:
`holders` archives have been opened through `open()` and not yet been deleted (each deletion calls `close()`,
src/client/srcml_utilities.hpp:32-52), `waiting` threads sleep in `cv.wait`, `notified` threads have been woken by
`notify_one` and have not yet got the lock. -/
structure Limiter where
  openFiles : Int := 0
  holders : Nat := 0
  waiting : Nat := 0
  notified : Nat := 0
  deriving DecidableEq, Repr

/-- The critical sections of `OpenFileLimiter::open` and `close`, src/client/OpenFileLimiter.hpp:34-51. -/
inductive Limiter.Step : Limiter → Limiter → Prop where
  /-- `open()` by a new thread that need not wait (lines 35, 37, 41). -/
  | opens (l : Limiter) (h : ¬ l.openFiles > MAX_OPEN_FILES) :
      Step l { l with openFiles := l.openFiles + 1, holders := l.holders + 1 }
  /-- `open()` by a new thread that waits (line 38). -/
  | waits (l : Limiter) (h : l.openFiles > MAX_OPEN_FILES) : Step l { l with waiting := l.waiting + 1 }
  /-- A woken thread tests the condition again and goes on (lines 37, 41). -/
  | resumes (l : Limiter) (n : Nat) (hn : l.notified = n + 1) (h : ¬ l.openFiles > MAX_OPEN_FILES) :
      Step l { l with openFiles := l.openFiles + 1, holders := l.holders + 1, notified := n }
  /-- A woken thread tests the condition again and waits (lines 37-38). -/
  | rewaits (l : Limiter) (n : Nat) (hn : l.notified = n + 1) (h : l.openFiles > MAX_OPEN_FILES) :
      Step l { l with waiting := l.waiting + 1, notified := n }
  /-- A spurious wake-up of a sleeping thread that goes on. -/
  | spurious (l : Limiter) (n : Nat) (hn : l.waiting = n + 1) (h : ¬ l.openFiles > MAX_OPEN_FILES) :
      Step l { l with openFiles := l.openFiles + 1, holders := l.holders + 1, waiting := n }
  /-- `close()` while a thread sleeps: it is notified (lines 45-50). -/
  | closesNotify (l : Limiter) (k n : Nat) (hk : l.holders = k + 1) (hn : l.waiting = n + 1) :
      Step l { openFiles := l.openFiles - 1, holders := k, waiting := n, notified := l.notified + 1 }
  /-- `close()` while no thread sleeps (lines 45-50). -/
  | closes (l : Limiter) (k : Nat) (hk : l.holders = k + 1) (hn : l.waiting = 0) :
      Step l { l with openFiles := l.openFiles - 1, holders := k }

/-! ### Messages -/

/-- The kinds of messages, src/client/SRCMLStatus.hpp:32-36. -/
inductive MsgType where
  | debug | info | warning | error
  deriving DecidableEq, Repr

/-- The messages and the counter `error_count`, which is a plain `int`: an increment is a read and a write, between
which other threads may run (src/client/SRCMLStatus.hpp:43-48). `pending` are the values read and not yet written,
`logged` counts the messages that have been logged completely. Fewer than 2^31 messages are assumed. -/
structure Log where
  errorCount : Nat := 0
  pending : List Nat := []
  logged : List MsgType := []
  deriving DecidableEq, Repr

/-- One message, src/client/SRCMLStatus.hpp:43-48 (`startlog`) and 77-87 (`log`): what is printed does not change the
counter, and neither the quiet nor the debug option does. -/
inductive Log.Step : Log → Log → Prop where
  /-- A message that is not counted. -/
  | other (l : Log) (m : MsgType) (h : m ≠ .error ∧ m ≠ .warning) : Step l { l with logged := m :: l.logged }
  /-- The counter is read. -/
  | read (l : Log) : Step l { l with pending := l.errorCount :: l.pending }
  /-- The counter is written, and the message is logged. -/
  | write (l : Log) (m : MsgType) (pre : List Nat) (v : Nat) (post : List Nat) (h : m = .error ∨ m = .warning)
      (hp : l.pending = pre ++ v :: post) :
      Step l { errorCount := v + 1, pending := pre ++ post, logged := m :: l.logged }

/-- `SRCMLStatus::errors`, src/client/SRCMLStatus.hpp:41-43. -/
def Log.errors (l : Log) : Bool := decide (l.errorCount > 0)

/-- The end of `main`, src/client/srcml.cpp:177-178. -/
def mainStatus (l : Log) : Nat := if l.errors then 1 else 0

/-! ### Processing steps -/

/-- The command bits that the choice of steps depends on, src/client/srcml_cli.hpp:36-96, and the parts of the request
(src/client/srcml_cli.hpp:100-173) it reads. -/
structure Request where
  parserTest : Bool := false
  catXml : Bool := false
  xml : Bool := false
  src : Bool := false
  inSrcml : Bool := false
  transformations : Nat := 0
  inputs : List InputSrc := []
  output : InputSrc := {}
  xmlnsPrefixQuery : Option Str := none
  prettyFormat : Option Str := none

/-- The steps, src/client/srcml.cpp:118-148. -/
inductive ProcStep where
  | createSrcml | displayMetadata | createSrc | compress
  deriving DecidableEq, Repr

/-- `request_create_srcml`, src/client/srcml.cpp:188-204; the option `XML` is switched on by transformations. -/
def request_create_srcml (r : Request) : Bool :=
  let xml := r.xml || decide (r.transformations ≠ 0)
  if r.parserTest then true
  else if r.catXml then true
  else r.inputs.any (fun i => decide (i.state = .src)) || (decide (r.output.state = .srcml) || xml) ||
    decide (r.transformations ≠ 0)

/-- `request_display_metadata`, src/client/srcml.cpp:210-213. -/
def request_display_metadata (r : Request) : Bool :=
  r.inSrcml || r.xmlnsPrefixQuery.isSome || r.prettyFormat.isSome

/-- `request_output_compression`, src/client/srcml.cpp:219-222. -/
def request_output_compression (r : Request) : Bool := decide (r.output.compressions.length ≥ 1)

/-- `request_create_src`, src/client/srcml.cpp:229-234. -/
def request_create_src (r : Request) : Bool :=
  r.src || (decide (r.output.state ≠ .srcml) && !request_create_srcml r && !request_display_metadata r)

/-- The pipeline of `main`, src/client/srcml.cpp:121-151. -/
def pipeline (r : Request) : List ProcStep :=
  (if request_create_srcml r then [.createSrcml] else []) ++
  (if request_display_metadata r then [.displayMetadata] else []) ++
  (if request_create_src r then [.createSrc] else []) ++
  (if request_output_compression r then [.compress] else [])

/-- Where a step reads from and writes to: the inputs and the destination of the command, or a pipe. src/client/srcml_execute.cpp:46-77. -/
inductive Channel where
  | request
  | pipe (n : Nat)
  deriving DecidableEq, Repr

/-- The loop of `srcml_execute`, src/client/srcml_execute.cpp:46-77: a pipe after every step but the last. `prev` is the
read end that the previous turn left behind (`none` for -1), `n` the number of the next pipe. -/
def execute (all : List ProcStep) (prev : Option Nat) (n : Nat) : List ProcStep → List (ProcStep × Option Channel × Option Channel)
  | [] => []
  | c :: cs =>
    let first := decide (all.head? = some c)
    let last := decide (all.getLast? = some c)
    let fds := if all.length > 1 ∧ last = false then some n else none
    (c, if first then some .request else prev.map .pipe, if last then some .request else fds.map .pipe) ::
      execute all fds (n + 1) cs

end Srcml
