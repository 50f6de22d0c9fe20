import Verif.Model.Client
/-
The parse queue and the write queue of the command, as a system of threads: the main thread, the parsing threads of the
pool, and the writing thread.  A request is its position.
-/
namespace Srcml

/-- Where the main thread is in `create_srcml`, src/client/create_srcml.cpp:328-348: scheduling inputs, after
`parse_queue.wait()`, inside `write_queue.stop()` waiting for the writing thread, and past it. -/
inductive MainPhase where
  | scheduling | waited | joining | done
  deriving DecidableEq, Repr

/-- Where the writing thread is in `WriteQueue::process`, src/client/WriteQueue.cpp:66-95: about to take the lock and
test the queue, asleep in `cv.wait`, writing a request, or returned. -/
inductive WriterState where
  | checking | sleeping | writing (p : Nat) | finished
  deriving DecidableEq, Repr

/-- The state of the queues: src/client/ParseQueue.hpp:66-69, src/client/WriteQueue.hpp:51-61. `unscheduled` are the inputs
the main thread still has (true: a request that already failed), `pool` the tasks waiting for a thread, `running` the
tasks in `srcml_consume`, `q` the priority queue, `notifies` the calls of `notify_one` that are still to come (they are
made after the lock is released), `written` what has been written. -/
structure Queues where
  unscheduled : List Bool
  counter : Nat := 0
  pool : List Nat := []
  running : List Nat := []
  q : List Nat := []
  notifies : Nat := 0
  completed : Bool := false
  phase : MainPhase := .scheduling
  writer : WriterState := .checking
  position : Nat := 0
  written : List Nat := []
  deriving DecidableEq, Repr

/-- The atomic steps, with `threads` parsing threads. The thread pool (ctpl, not part of the repository) is taken to run
its tasks in the order they were pushed, and `stop(true)` to run the waiting tasks first — if it has a thread.
src/client/ParseQueue.hpp:30-72 and src/client/WriteQueue.cpp:20-95. -/
inductive Queues.Step (threads : Nat) : Queues → Queues → Prop where
  /-- `ParseQueue::schedule` of a request for the pool, src/client/ParseQueue.hpp:40-57. -/
  | schedule (s : Queues) (rest : List Bool) (hp : s.phase = .scheduling) (hu : s.unscheduled = false :: rest) :
      Step threads s { s with unscheduled := rest, counter := s.counter + 1, pool := s.pool ++ [s.counter + 1] }
  /-- `ParseQueue::schedule` of a failed request, handed on to the write queue, src/client/ParseQueue.hpp:49-54 and
  src/client/WriteQueue.cpp:36-52. -/
  | passThrough (s : Queues) (rest : List Bool) (hp : s.phase = .scheduling) (hu : s.unscheduled = true :: rest) :
      Step threads s { s with unscheduled := rest, counter := s.counter + 1, q := (s.counter + 1) :: s.q,
                              notifies := s.notifies + 1 }
  /-- A thread of the pool takes the next task. -/
  | takes (s : Queues) (p : Nat) (rest : List Nat) (hl : s.running.length < threads) (hq : s.pool = p :: rest) :
      Step threads s { s with pool := rest, running := p :: s.running }
  /-- A task ends with `write_queue->schedule`, src/client/srcml_consume.cpp:131-133, src/client/WriteQueue.cpp:36-52; all
  other ways out of `srcml_consume` that do not end the process do the same. -/
  | consumed (s : Queues) (pre : List Nat) (p : Nat) (post : List Nat) (hr : s.running = pre ++ p :: post) :
      Step threads s { s with running := pre ++ post, q := p :: s.q, notifies := s.notifies + 1 }
  /-- `cv.notify_one()`, src/client/WriteQueue.cpp:51 and 62: the writing thread is the only one that waits. -/
  | notify (s : Queues) (n : Nat) (hn : s.notifies = n + 1) :
      Step threads s { s with notifies := n, writer := if s.writer = .sleeping then .checking else s.writer }
  /-- The queue is empty and all is done: the thread returns, src/client/WriteQueue.cpp:76-77. -/
  | returns (s : Queues) (hw : s.writer = .checking) (hq : s.q = []) (hc : s.completed = true) :
      Step threads s { s with writer := .finished }
  /-- The thread waits, src/client/WriteQueue.cpp:75-79. -/
  | sleeps (s : Queues) (hw : s.writer = .checking)
      (hq : (s.q = [] ∧ s.completed = false) ∨ (s.q ≠ [] ∧ s.q.min? ≠ some (s.position + 1))) :
      Step threads s { s with writer := .sleeping }
  /-- The next request is taken, src/client/WriteQueue.cpp:82-86. -/
  | pops (s : Queues) (hw : s.writer = .checking) (hq : s.q.min? = some (s.position + 1)) :
      Step threads s { s with writer := .writing (s.position + 1), q := s.q.erase (s.position + 1),
                              position := s.position + 1 }
  /-- It is written, src/client/WriteQueue.cpp:88-93. -/
  | writes (s : Queues) (p : Nat) (hw : s.writer = .writing p) :
      Step threads s { s with writer := .checking, written := s.written ++ [p] }
  /-- `parse_queue.wait()`, src/client/create_srcml.cpp:342, src/client/ParseQueue.hpp:59-62. -/
  | waited (s : Queues) (hp : s.phase = .scheduling) (hu : s.unscheduled = []) (hq : s.pool = []) (hr : s.running = []) :
      Step threads s { s with phase := .waited }
  /-- The same without a thread in the pool: the waiting tasks are dropped. -/
  | dropped (s : Queues) (ht : threads = 0) (hp : s.phase = .scheduling) (hu : s.unscheduled = []) (hq : s.pool ≠ []) :
      Step threads s { s with phase := .waited, pool := [] }
  /-- `WriteQueue::stop` sets the flag, src/client/WriteQueue.cpp:54-62. -/
  | stops (s : Queues) (hp : s.phase = .waited) :
      Step threads s { s with phase := .joining, completed := true, notifies := s.notifies + 1 }
  /-- `write_thread.join()`, src/client/WriteQueue.cpp:64. -/
  | joins (s : Queues) (hp : s.phase = .joining) (hw : s.writer = .finished) :
      Step threads s { s with phase := .done }

/-- A wake-up of the condition variable without a notification; `cv.wait` may return at any time
(src/client/WriteQueue.cpp:78). -/
inductive Queues.Spurious : Queues → Queues → Prop where
  | wakes (s : Queues) (hw : s.writer = .sleeping) : Spurious s { s with writer := .checking }

/-- All that can happen. src/client/ParseQueue.hpp:30-72 and src/client/WriteQueue.cpp:20-95. -/
def Queues.Any (threads : Nat) (s t : Queues) : Prop := Queues.Step threads s t ∨ Queues.Spurious s t

end Srcml
