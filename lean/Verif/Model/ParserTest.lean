import Verif.Model.Metadata
/-
`srcml --parser-test`: every unit of an archive is unparsed and parsed again, and the new markup is compared with that of the unit.
-/
namespace Srcml

/-- What a test is made of, src/client/ParserTest.cpp:40-90: the name of the archive and its url, the language of the unit, its markup, and the markup that is made from its source code. What unparsing and
parsing do is in other parts of the model. -/
structure ParserTestCase where
  filename : Str
  url : Option Str
  language : Option Str
  expected : Str
  actual : Str
  deriving DecidableEq, Repr

/-- The static members of `ParserTest`, src/client/ParserTest.cpp:222-232. The maps are in the order of their keys. -/
structure ParserTest where
  previous : Str := []
  count : Nat := 0
  total : Nat := 0
  column : Nat := 0
  url : Str := []
  totals : List (Str × Nat) := []
  misses : List (Str × Nat) := []
  failed : Nat := 0
  language : Str := []
  errors : List Str := []
  summary : List Str := []
  deriving DecidableEq, Repr

/-- `std::setw(n) << std::left`, src/client/ParserTest.cpp:58-59. Characters are counted; the code counts bytes, which is the same for ASCII. -/
def padRight (n : Nat) (s : Str) : Str := s ++ List.replicate (n - s.length) ' '

/-- `++m[k]` of a `std::map<std::string, int>`, src/client/ParserTest.cpp:70, 112. -/
def mapInc (k : Str) : List (Str × Nat) → List (Str × Nat)
  | [] => [(k, 1)]
  | x :: xs => if k = x.1 then (x.1, x.2 + 1) :: xs else if k < x.1 then (k, 1) :: x :: xs else x :: mapInc k xs

/-- `m[k]` of a `std::map<std::string, int>`, src/client/ParserTest.cpp:207-210. -/
def mapCount (k : Str) (m : List (Str × Nat)) : Nat := ((m.find? (fun x => x.1 = k)).map (·.2)).getD 0

/-- The escape sequence, when colours are on, src/client/ParserTest.cpp:102-110. -/
def colour (on : Bool) (code : String) : Str := if on then Char.ofNat 27 :: code.toList else []

/-- The number of a test, src/client/ParserTest.cpp:102-110: with a minus in front when it fails and there are no colours. -/
def testMark (color : Bool) (count : Nat) (passed : Bool) : Str :=
  (if passed then colour color "[0;33m" else if color then colour color "[0;31m" else ['-']) ++ (toString count).toList ++ colour color "[0m"

/-- The start of the line of a file in the summary, src/client/ParserTest.cpp:163-164. -/
def summaryStart (language url filename : Str) : Str := padRight 12 language ++ padRight 30 url ++ [' '] ++ padRight 30 filename ++ [' ']

/-- The line of the summary, src/client/ParserTest.cpp:163-171: the number is put at the end of the last line if that is the line of the same file. -/
def addSummary (summary : List Str) (start : Str) (count : Nat) : List Str :=
  match summary.getLast? with
  | some last => if start = last.take start.length then summary.dropLast ++ [start ++ last.drop start.length ++ [','] ++ (toString count).toList] else summary ++ [start ++ (toString count).toList]
  | none => summary ++ [start ++ (toString count).toList]

/-- The report about a failing test, src/client/ParserTest.cpp:154-159. -/
def testError (color : Bool) (language url filename : Str) (count : Nat) (expected actual : Str) : Str :=
  colour color "[0;30;1m" ++ language ++ ['\t'] ++ url ++ ['\t'] ++ filename ++ ['\t'] ++ (toString count).toList ++ colour color "[0m" ++ ['\n'] ++ colour color "[0;30;1m" ++ [' '] ++ "test:\n".toList ++
    colour color "[0m" ++ expected ++ colour color "[0;30;1m" ++ (if expected.getLast? ≠ some '\n' then ['\n'] else []) ++ "srcml:\n".toList ++ colour color "[0m" ++ actual ++ ['\n']

/-- The failure of a test, src/client/ParserTest.cpp:111-172. When there are more than five ends of line, the iterators into the two texts are used after the texts were changed (132-146), which is not
defined; and so is `back` of an empty text. -/
def ParserTest.fail (color : Bool) (s : ParserTest) (t : ParserTestCase) : Run ParserTest :=
  if t.expected.count '\n' > 5 ∨ t.actual.count '\n' > 5 then .ub
  else if t.expected = [] then .ub
  else .val { s with
    failed := s.failed + 1
    misses := mapInc s.language s.misses
    errors := s.errors ++ [testError color s.language s.url s.previous s.count t.expected t.actual]
    summary := addSummary s.summary (summaryStart s.language s.url s.previous) s.count }

/-- The test of a unit after the heading, src/client/ParserTest.cpp:66-173: the state and what is written. -/
def ParserTest.test (color : Bool) (s : ParserTest) (t : ParserTestCase) : Run (ParserTest × Str) :=
  let s := { s with count := s.count + 1, total := s.total + 1, totals := mapInc s.language s.totals }
  let wrap := if s.column ≥ 75 then '\n' :: padLeft 12 [' '] ++ padRight 30 "...".toList else []
  let s := { s with column := (if s.column ≥ 75 then 0 else s.column) + (toString s.count).toList.length + 1 }
  let passed := decide (t.actual = t.expected)
  ((if passed then .val s else s.fail color t) : Run ParserTest).bind (fun s => .val (s, wrap ++ testMark color s.count passed ++ [' ']))

/-- `ParserTest::entry`, src/client/ParserTest.cpp:40-176: the state and what is written. -/
def ParserTest.entry (color : Bool) (s : ParserTest) (t : ParserTestCase) : Run (ParserTest × Str) :=
  let s := { s with url := t.url.getD s.url }
  if s.previous = [] ∨ t.filename ≠ s.previous then
    let s := { s with previous := t.filename, count := 0 }
    match t.language with
    | none => .val (s, [])
    | some l =>
      (ParserTest.test color { s with language := l, column := 0 } t).bind (fun r => .val (r.1, '\n' :: padRight 12 l ++ padRight 30 s.url ++ r.2))
  else s.test color t

/-- The tests, one after the other, src/client/srcml_write.cpp:65-68. -/
def ParserTest.entries (color : Bool) (s : ParserTest) : List ParserTestCase → Run (ParserTest × Str)
  | [] => .val (s, [])
  | t :: ts => (s.entry color t).bind (fun r => (ParserTest.entries color r.1 ts).bind (fun q => .val (q.1, r.2 ++ q.2)))

/-- The share of the tests that fail, src/client/ParserTest.cpp:196-204, 207-217: `percent` is how the C++ library writes a number with two digits. -/
def sharePart (percent : Nat → Nat → Str) (failed total : Nat) : Str :=
  padLeft 4 (if failed = 0 ∨ failed * 100 ≥ total then percent (failed * 100) total else "<1".toList) ++ "%\n".toList

/-- `ParserTest::report`, src/client/ParserTest.cpp:178-220. -/
def ParserTest.report (color : Bool) (percent : Nat → Nat → Str) (s : ParserTest) : Str :=
  if s.total = 0 then []
  else "\n\nErrors:\n".toList ++ s.errors.flatten ++ "\n\nSummary:\n".toList ++ ((s.summary.mergeSort (fun a b => decide (a ≤ b))).map (· ++ ['\n'])).flatten ++
    colour color "[0;30;1m" ++ "\nCounts: ".toList ++ colour color "[0m" ++ padRight 12 "Total".toList ++ padLeft 6 (toString s.failed).toList ++ padLeft 6 (toString s.total).toList ++ ['\t'] ++
      sharePart percent s.failed s.total ++
    (s.totals.map (fun kv => List.replicate 8 ' ' ++ padRight 12 kv.1 ++ padLeft 6 (toString (mapCount kv.1 s.misses)).toList ++ padLeft 6 (toString kv.2).toList ++ ['\t'] ++
      sharePart percent (mapCount kv.1 s.misses) kv.2)).flatten

/-- What `srcml --parser-test` writes, src/client/srcml_write.cpp:65-68, src/client/create_srcml.cpp:355-357. -/
def parserTest (color : Bool) (percent : Nat → Nat → Str) (ts : List ParserTestCase) : Run Str :=
  (ParserTest.entries color {} ts).bind (fun r => .val (r.2 ++ r.1.report color percent))

end Srcml
