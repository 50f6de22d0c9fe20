import Verif.Model.Client
/-
The reader of an archive as two threads: the parser thread runs the SAX parser, whose callbacks pause at the start and at
the end of a unit, and the thread of the user calls `srcml_archive_read_unit` and `srcml_archive_skip_unit`.  One mutex
and one condition variable; `cond.wait` is called without a condition.  A unit is its number, from 0.
-/
namespace Srcml

/-- The callbacks of the parser that matter for the protocol, src/libsrcml/srcml_reader_handler.hpp:340-490. -/
inductive SaxCall where
  | startUnit | endUnit | endRoot
  deriving DecidableEq, Repr

/-- How the parse ends, src/libsrcml/srcml_sax2_reader.cpp:37-56: without an error, with an error for which `done()` is
called, or with one of the errors for which it is not (`XML_ERR_EXTRA_CONTENT`, `XML_ERR_DOCUMENT_END`). -/
inductive Finish where
  | normal | failed | quiet
  deriving DecidableEq, Repr

/-- Where the parser thread is. `…Wait`: asleep in `cond.wait`; `…Woken`: notified, about to get the lock again.
src/libsrcml/srcml_reader_handler.hpp:340-490. -/
inductive ParserPc where
  /-- between callbacks -/
  | run
  /-- `startUnit`, at the pause for the root, src/libsrcml/srcml_reader_handler.hpp:349-367 -/
  | root | rootWait | rootWoken
  /-- `startUnit`, about to collect the attributes, src/libsrcml/srcml_reader_handler.hpp:369-370 -/
  | attributes
  /-- `startUnit`, at the pause after the attributes, src/libsrcml/srcml_reader_handler.hpp:377-386 -/
  | head | headWait | headWoken
  /-- `endUnit`, at the pause, src/libsrcml/srcml_reader_handler.hpp:480-483 -/
  | body | bodyWait | bodyWoken
  /-- `done()`, after `is_done` was set and before the notification, src/libsrcml/srcml_reader_handler.hpp:196-201 -/
  | failing
  | ended
  deriving DecidableEq, Repr

/-- The two calls of the user, src/libsrcml/srcml_archive.cpp:1266-1318. -/
inductive ReadCall where
  | read | skip
  deriving DecidableEq, Repr

/-- Where the thread of the user is. `…Holds`: it holds the lock and is about to wait. src/libsrcml/srcml_sax2_reader.cpp:64-192. -/
inductive UserPc where
  /-- the constructor of the reader, `handler.wait()`, src/libsrcml/srcml_reader_handler.hpp:153-162 -/
  | opening | openHolds | openWait | openWoken
  /-- between calls -/
  | idle
  /-- `read_header`, src/libsrcml/srcml_sax2_reader.cpp:105-128 -/
  | head (c : ReadCall) | headLock (c : ReadCall) | headHolds (c : ReadCall) | headWait (c : ReadCall)
  | headWoken (c : ReadCall) | headBack (c : ReadCall)
  /-- `read_body`, src/libsrcml/srcml_sax2_reader.cpp:176-192 -/
  | body | bodyLock | bodyHolds | bodyWait | bodyWoken | bodyBack
  /-- the destructor of the reader, src/libsrcml/srcml_sax2_reader.cpp:81-92 -/
  | stopping | joining | closed
  deriving DecidableEq, Repr

/-- What `handler.unit` points to: nothing, the unit of the current call, or the unit of an earlier call, which may have
been freed. src/libsrcml/srcml_reader_handler.hpp:83-113. -/
inductive UnitPtr where
  | null | current | stale
  deriving DecidableEq, Repr

/-- The members of the handler, src/libsrcml/srcml_reader_handler.hpp:83-113, the two threads, and what the user has got:
`header` and `content` are the numbers of the units whose attributes and contents are in the unit object of the current
call, `log` the finished calls with their results (`none`: null pointer or 0). `crashed`: a write through a null or
dangling pointer. -/
structure Reader where
  todo : List SaxCall
  finish : Finish
  started : Nat := 0
  parser : ParserPc := .run
  isDone : Bool := false
  readRoot : Bool := false
  wantHeader : Bool := false
  wantBody : Bool := false
  terminate : Bool := false
  waitRoot : Bool := true
  ptr : UnitPtr := .null
  header : Option Nat := none
  content : Option Nat := none
  user : UserPc := .opening
  log : List (ReadCall × Option (Option Nat × Option Nat)) := []
  crashed : Bool := false
  deriving DecidableEq, Repr

/-- The user's thread holds the mutex, src/libsrcml/srcml_reader_handler.hpp:153-189. The critical sections of the parser thread are single steps. -/
def UserPc.holds : UserPc → Bool
  | .openHolds | .headHolds _ | .bodyHolds => true
  | _ => false

/-- `cond.notify_one()` by the parser thread, src/libsrcml/srcml_reader_handler.hpp:357, 384, 420 and 482: the user's
thread is the only other one. -/
def UserPc.notified : UserPc → UserPc
  | .openWait => .openWoken
  | .headWait c => .headWoken c
  | .bodyWait => .bodyWoken
  | p => p

/-- `cond.notify_one()` by the user's thread, src/libsrcml/srcml_reader_handler.hpp:169-189. -/
def ParserPc.notified : ParserPc → ParserPc
  | .rootWait => .rootWoken
  | .headWait => .headWoken
  | .bodyWait => .bodyWoken
  | p => p

/-- `stop_parser`, src/libsrcml/srcml_reader_handler.hpp:141-145 and src/libsrcml/srcsax_controller.cpp:178-192: no further
callbacks; how the parse then ends is up to libxml2. -/
def Reader.stopParser (s : Reader) (f : Finish) : Reader := { s with isDone := true, todo := [], finish := f }

/-- `if (terminate) stop_parser();`, src/libsrcml/srcml_reader_handler.hpp:354-355 and elsewhere. -/
def Reader.stopIf (s : Reader) (f : Finish) : Reader := if s.terminate then s.stopParser f else s

/-- One step of the parser thread, src/libsrcml/srcml_reader_handler.hpp:340-490 and src/libsrcml/srcml_sax2_reader.cpp:37-56;
`none` if it cannot go on. `f` is how the parse ends if it is stopped. -/
def Reader.parserStep (s : Reader) (f : Finish) : Option Reader :=
  match s.parser with
  | .run =>
    match s.todo with
    | .startUnit :: r => some { s with todo := r, started := s.started + 1,
                                       parser := if s.readRoot then .attributes else .root }
    | .endUnit :: r =>
      -- src/libsrcml/srcml_reader_handler.hpp:448-459: the unit gets the collected text
      if s.wantBody then
        some { s with todo := r, parser := .body, content := some (s.started - 1),
                      crashed := s.crashed || s.ptr != .current }
      else some (Reader.stopIf { s with todo := r } f)
    | .endRoot :: r =>
      -- src/libsrcml/srcml_reader_handler.hpp:415-424
      if s.user.holds then none
      else
        let s' := Reader.stopIf { s with todo := r } f
        some (Reader.stopIf { s' with isDone := true, user := s'.user.notified } f)
    | [] =>
      match s.finish with
      | .failed => some { s with isDone := true, parser := .failing }
      | _ => some { s with parser := .ended }
  | .root =>
    if s.user.holds then none
    else some ({ s.stopIf f with waitRoot := false, user := s.user.notified, parser := .rootWait })
  | .rootWait => none
  | .rootWoken =>
    if s.user.holds then none
    else if s.terminate then some { s.stopParser f with readRoot := true, parser := .run }
    else some { s with readRoot := true, parser := .attributes }
  | .attributes =>
    some { s with header := some (s.started - 1), crashed := s.crashed || s.ptr != .current,
                  parser := if s.wantHeader then .head else .run }
  | .head =>
    if s.user.holds then none
    else some { s.stopIf f with user := s.user.notified, parser := .headWait }
  | .headWait => none
  | .headWoken => if s.user.holds then none else some { s.stopIf f with parser := .run }
  | .body =>
    if s.user.holds then none
    else some { s.stopIf f with user := s.user.notified, parser := .bodyWait }
  | .bodyWait => none
  | .bodyWoken => if s.user.holds then none else some { s.stopIf f with parser := .run }
  | .failing => some { s with user := s.user.notified, parser := .ended }
  | .ended => none

/-- The end of a call of the user, src/libsrcml/srcml_archive.cpp:1280-1284 and 1310-1317: the result is logged, and the unit object belongs to the user. -/
def Reader.return (s : Reader) (c : ReadCall) (ok : Bool) : Reader :=
  { s with
    user := .idle
    log := s.log ++ [(c, if ok then some (s.header, s.content) else none)]
    ptr := if s.ptr = .current then .stale else s.ptr }

/-- What the user does next: a call of src/libsrcml/srcml_archive.cpp:1266-1318, or the destructor of the reader. -/
inductive UserChoice where
  | call (c : ReadCall) | close
  deriving DecidableEq, Repr

/-- One step of the user's thread, src/libsrcml/srcml_sax2_reader.cpp:64-192 and src/libsrcml/srcml_archive.cpp:1266-1318. -/
def Reader.userStep (s : Reader) (ch : UserChoice) : Option Reader :=
  match s.user with
  | .opening =>
    if s.isDone then some { s with user := .idle }
    else if s.waitRoot then some { s with user := .openHolds } else some { s with user := .idle }
  | .openHolds => some { s with user := .openWait }
  | .openWait => none
  | .openWoken => some { s with user := .idle }
  | .idle =>
    match ch with
    | .call c => some { s with user := .head c, header := none, content := none, ptr := .current }
    | .close => some { s with terminate := true, user := .stopping }
  | .head c =>
    -- the test of `is_done` before the flags are set, src/libsrcml/srcml_sax2_reader.cpp:107-114
    if s.isDone then
      match c with
      | .skip => some (s.return c false)
      | .read => some { s with user := .body }
    else some { s with wantHeader := true, wantBody := false, user := .headLock c }
  | .headLock c =>
    -- `resume_and_wait`, src/libsrcml/srcml_reader_handler.hpp:181-189
    if s.isDone then some { s with parser := s.parser.notified, user := .headBack c }
    else some { s with parser := s.parser.notified, user := .headHolds c }
  | .headHolds c => some { s with user := .headWait c }
  | .headWait _ => none
  | .headWoken c => some { s with user := .headBack c }
  | .headBack c =>
    if s.isDone then
      match c with
      | .skip => some ({ s with wantHeader := false, wantBody := false }.return c false)
      | .read => some { s with wantHeader := false, wantBody := false, user := .body }
    else
      match c with
      | .skip => some ({ s with wantHeader := false, wantBody := false, ptr := .null }.return c true)
      | .read => some { s with wantHeader := false, wantBody := false, ptr := .null, user := .body }
  | .body =>
    if s.isDone then some (s.return .read false)
    else some { s with ptr := .current, wantBody := true, user := .bodyLock }
  | .bodyLock =>
    if s.isDone then some { s with parser := s.parser.notified, user := .bodyBack }
    else some { s with parser := s.parser.notified, user := .bodyHolds }
  | .bodyHolds => some { s with user := .bodyWait }
  | .bodyWait => none
  | .bodyWoken => some { s with user := .bodyBack }
  | .bodyBack =>
    if s.isDone then some ({ s with wantBody := false }.return .read false)
    else some ({ s with wantBody := false }.return .read true)
  | .stopping => some { s with parser := s.parser.notified, user := .joining }
  | .joining => if s.parser = .ended then some { s with user := .closed } else none
  | .closed => none

/-- The steps of the two threads in any order, src/libsrcml/srcml_sax2_reader.cpp:64-74. -/
inductive Reader.Step : Reader → Reader → Prop where
  | parser (s t : Reader) (f : Finish) (h : s.parserStep f = some t) : Step s t
  | user (s t : Reader) (ch : UserChoice) (h : s.userStep ch = some t) : Step s t

/-- A wake-up of `cond.wait` without a notification, which the C++ standard allows,
src/libsrcml/srcml_reader_handler.hpp:161, 188, 358, 385 and 483. -/
inductive Reader.Spurious : Reader → Reader → Prop where
  | user (s : Reader) (h : s.user.notified ≠ s.user) : Spurious s { s with user := s.user.notified }
  | parser (s : Reader) (h : s.parser.notified ≠ s.parser) : Spurious s { s with parser := s.parser.notified }

/-- The callbacks for the documents there are. A document with `units` complete units (with one unit and `textOnly`, a
solitary unit without elements: src/libsrcml/sax2_srcsax_handler.cpp:706-716 and 549-563 call the end of the unit also
before its start), then either the end of the root, or an error: inside of a further unit (`cut`) or between units. -/
def saxCalls (textOnly : Bool) (units : Nat) (cut : Bool) (complete : Bool) : List SaxCall :=
  (if textOnly then [.endUnit] else []) ++
  (List.replicate units [SaxCall.startUnit, .endUnit]).flatten ++
  (if complete then [.endRoot] else if cut then [.startUnit] else [])

/-- A reader that is about to be opened on a document, src/libsrcml/srcml_sax2_reader.cpp:64-74. -/
def Reader.start (textOnly : Bool) (units : Nat) (cut complete : Bool) (f : Finish) : Reader :=
  { todo := saxCalls textOnly units cut complete, finish := f }

end Srcml
