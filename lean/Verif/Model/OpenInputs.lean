import Verif.Model.Client
/-
The limit on open files together with the queues and the pipe between two steps of the command: who waits for whom.
-/
namespace Srcml

/-- The second step of the command: there is none (the output is a file), it waits in `OpenFileLimiter::open` (src/client/create_src.cpp:37), or it reads. -/
inductive SecondStep where
  | absent | waiting | reads
  deriving DecidableEq, Repr

/-- A run of `create_srcml` on srcML inputs whose output a file or a pipe with room for `cap` units takes, src/client/create_srcml.cpp:309-348, src/client/srcml_input_srcml.cpp:36-135, src/client/WriteQueue.cpp:67-95.
`rest`: the numbers of units of the inputs that are not opened yet; `reading`: how many units of the open input the main thread has still to schedule; `queue`: the archives that are open, in order, each with the number of its
units that are scheduled and not written - an archive is held by its requests (src/client/ParseRequest.hpp:54) and by the main thread while it reads it; `pipe`: units in the pipe. The threads that parse never wait for
one of these (C40), so they are left out, and the order is that of the inputs (C39). An archive without units that is not the first one is closed later than in the program. -/
structure OpenRun where
  rest : List Nat
  reading : Option Nat := none
  queue : List Nat := []
  second : SecondStep := .absent
  pipe : Nat := 0
  deriving DecidableEq, Repr

/-- `open_files`: the archives of the inputs, and that of the second step, src/client/OpenFileLimiter.hpp:41, 48. The output archive is not counted (src/client/create_srcml.cpp:108). -/
def OpenRun.open_ (s : OpenRun) : Int := s.queue.length + (if s.second = .reads then 1 else 0)

/-- The steps of the threads. A thread that waits in `open` goes on when it may (no wake-up is lost: `C41_no_lost_wakeup`). -/
inductive OpenRun.Step (cap : Nat) : OpenRun → OpenRun → Prop where
  /-- the main thread opens the next input, src/client/srcml_input_srcml.cpp:41-44, src/client/OpenFileLimiter.hpp:34-42 -/
  | opens (s : OpenRun) (k : Nat) (r : List Nat) (hr : s.rest = k :: r) (hn : s.reading = none) (h : ¬ s.open_ > MAX_OPEN_FILES) : Step cap s { s with rest := r, reading := some k, queue := s.queue ++ [0] }
  /-- it reads a unit and schedules it, src/client/srcml_input_srcml.cpp:90-125 -/
  | schedules (s : OpenRun) (k m : Nat) (q : List Nat) (hr : s.reading = some (k + 1)) (hq : s.queue = q ++ [m]) : Step cap s { s with reading := some k, queue := q ++ [m + 1] }
  /-- it leaves the input, src/client/srcml_input_srcml.cpp:127-135 -/
  | leaves (s : OpenRun) (hr : s.reading = some 0) : Step cap s { s with reading := none }
  /-- the writer writes a unit, to a file, src/client/WriteQueue.cpp:92 -/
  | writes (s : OpenRun) (m : Nat) (q : List Nat) (hq : s.queue = (m + 1) :: q) (hs : s.second = .absent) : Step cap s { s with queue := m :: q }
  /-- or into the pipe, where it waits while there is no room -/
  | pipes (s : OpenRun) (m : Nat) (q : List Nat) (hq : s.queue = (m + 1) :: q) (hs : s.second ≠ .absent) (hc : s.pipe < cap) : Step cap s { s with queue := m :: q, pipe := s.pipe + 1 }
  /-- the last request of an archive is gone, which closes it, src/client/srcml_utilities.hpp:32-37 -/
  | closes (s : OpenRun) (q : List Nat) (hq : s.queue = 0 :: q) (h : q ≠ [] ∨ s.reading = none) : Step cap s { s with queue := q }
  /-- the second step opens its archive, src/client/create_src.cpp:37 -/
  | starts (s : OpenRun) (hs : s.second = .waiting) (h : ¬ s.open_ > MAX_OPEN_FILES) : Step cap s { s with second := .reads }
  /-- and reads from the pipe -/
  | consumes (s : OpenRun) (p : Nat) (hs : s.second = .reads) (hp : s.pipe = p + 1) : Step cap s { s with pipe := p }

end Srcml
