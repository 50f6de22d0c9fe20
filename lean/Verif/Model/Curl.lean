import Verif.Model.Client
import Verif.Model.InputName
/-
Inputs that are addresses: the thread that downloads and the thread that waits for it.
-/
namespace Srcml

/-- What libcurl does with an address: the code of the response, the blocks of the document for which the callback is called as long as it takes them, and whether `curl_easy_perform` has no error of its
own, src/client/input_curl.cpp:80-100, 137. -/
structure Download where
  code : Nat
  blocks : List Str
  complete : Bool
  deriving DecidableEq, Repr

/-- The flags that the thread gives to `goCurl`, in order, src/client/input_curl.cpp:80-100, 137-149: one for each block that is written, and the last. With another code than 200 the callback refuses the
first block, which is an error of `curl_easy_perform`. That `write` fails is left out. -/
def Download.signals (d : Download) : List Bool :=
  if d.code ≠ 200 ∧ d.blocks ≠ [] then [false] else d.blocks.map (fun _ => true) ++ [d.complete]

/-- What is written to the pipe, src/client/input_curl.cpp:80-100. -/
def Download.data (d : Download) : Str := if d.code = 200 then d.blocks.flatten else []

/-- Where the main thread is in `input_curl`, src/client/input_curl.cpp:103-163: not in it, about to take the lock in `waitCurl`, asleep in `cv.wait`, and awake but without the lock. -/
inductive WaitPhase where
  | outside | before | asleep | awake
  deriving DecidableEq, Repr

/-- The state: `go` (src/client/input_curl.cpp:42), the main thread, the addresses it still has to open and the results of `input_curl` so far, and for every thread that was started the flags that are
still to come. -/
structure CurlWait where
  todo : List Download
  go : Bool := false
  main : WaitPhase := .outside
  threads : List (List Bool) := []
  results : List Bool := []
  deriving DecidableEq, Repr

/-- The atomic steps of the threads. `go` is only used with the lock. A full pipe, in which case a thread waits for the reader, is not modelled. -/
inductive CurlWait.Step : CurlWait → CurlWait → Prop where
  /-- `srcml_pipe` starts the thread, src/client/input_curl.cpp:105, src/client/srcml_pipe.cpp:54-60. -/
  | start (s : CurlWait) (d : Download) (ds : List Download) (hm : s.main = .outside) (ht : s.todo = d :: ds) :
      Step s { s with todo := ds, main := .before, threads := s.threads ++ [d.signals] }
  /-- `cv.wait`, src/client/input_curl.cpp:46-50: there is no test before. -/
  | wait (s : CurlWait) (hm : s.main = .before) : Step s { s with main := .asleep }
  /-- `goCurl`, src/client/input_curl.cpp:52-56: the flag is set and the main thread is woken if it is asleep. -/
  | signal (s : CurlWait) (pre : List (List Bool)) (f : Bool) (fs : List Bool) (post : List (List Bool)) (ht : s.threads = pre ++ (f :: fs) :: post) :
      Step s { s with go := f, main := if s.main = .asleep then .awake else s.main, threads := pre ++ fs :: post }
  /-- The main thread has the lock again and returns `go`, src/client/input_curl.cpp:48-49. -/
  | return_ (s : CurlWait) (hm : s.main = .awake) : Step s { s with main := .outside, results := s.results ++ [s.go] }

/-- A wake-up without a notification, which the standard allows, src/client/input_curl.cpp:48. -/
inductive CurlWait.Spurious : CurlWait → CurlWait → Prop where
  | wake (s : CurlWait) (hm : s.main = .asleep) : Spurious s { s with main := .awake }

end Srcml
