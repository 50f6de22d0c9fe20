import Verif.Model.ParserTest
/-
What the parser test says about archives of tests (C86).
-/
namespace Srcml.Spec

/-- An archive of tests: its name, url and language, and for each unit the markup that is expected and the markup that is made now. -/
structure TestFile where
  name : Str
  url : Str
  language : Str
  tests : List (Str × Str)

/-- The tests of the archive, as they come to the command. -/
def TestFile.cases (f : TestFile) : List ParserTestCase := f.tests.map (fun t => { filename := f.name, url := some f.url, language := some f.language, expected := t.1, actual := t.2 })

/-- The test fails. -/
def fails (t : Str × Str) : Bool := decide (t.1 ≠ t.2)

/-- The tests that fail, with their numbers: the first test has the number 1. -/
def TestFile.failures (f : TestFile) : List ((Str × Str) × Nat) := (f.tests.zipIdx 1).filter (fun t => fails t.1)

/-- The files can be tested: each has a test, and failing tests are short and not empty. -/
structure Testable (f : TestFile) : Prop where
  name : f.name ≠ []
  tests : f.tests ≠ []
  short : ∀ t ∈ f.tests, fails t = true → t.1 ≠ [] ∧ t.1.count '\n' ≤ 5 ∧ t.2.count '\n' ≤ 5

/-- Text of a width: blanks are put behind it. -/
def columnText (n : Nat) (s : Str) : Str := s ++ List.replicate (n - s.length) ' '

/-- Text of a width: blanks are put in front of it. -/
def rightText (n : Nat) (s : Str) : Str := List.replicate (n - s.length) ' ' ++ s

/-- The number in decimal digits. -/
def numeral (n : Nat) : Str := (toString n).toList

/-- The escape character. -/
def escape : Char := Char.ofNat 27

/-- The number of a test as it is listed: yellow when it passes and red when it fails; without colours a number that fails has a minus. -/
def markText (color : Bool) (n : Nat) (failing : Bool) : Str :=
  match color, failing with
  | true, false => escape :: "[0;33m".toList ++ numeral n ++ escape :: "[0m".toList
  | true, true => escape :: "[0;31m".toList ++ numeral n ++ escape :: "[0m".toList
  | false, false => numeral n
  | false, true => '-' :: numeral n

/-- The numbers of tests in a line of the list, with a blank behind each. -/
def marksText (color : Bool) (ms : List ((Str × Str) × Nat)) : Str := (ms.map (fun m => markText color m.2 (fails m.1) ++ [' '])).flatten

/-- How wide the digits and blanks in a line are. -/
def marksWidth (ms : List ((Str × Str) × Nat)) : Nat := (ms.map (fun m => (numeral m.2).length + 1)).sum

/-- The list of the tests of a file: language and url, and then all numbers in order, in lines; a line other than the last is just 75 columns wide, or more by its last number. -/
def Listing (color : Bool) (f : TestFile) (text : Str) : Prop :=
  ∃ lines : List (List ((Str × Str) × Nat)), lines.flatten = f.tests.zipIdx 1 ∧ lines ≠ [] ∧
    text = '\n' :: columnText 12 f.language ++ columnText 30 f.url ++ ('\n' :: List.replicate 12 ' ' ++ columnText 30 "...".toList).intercalate (lines.map (marksText color)) ∧
    (∀ l ∈ lines, l ≠ [] ∧ marksWidth l.dropLast < 75) ∧ ∀ l ∈ lines.dropLast, 75 ≤ marksWidth l

/-- The lists of the files, in order. -/
inductive Listings (color : Bool) : List TestFile → Str → Prop where
  | nil : Listings color [] []
  | cons {f : TestFile} {fs : List TestFile} {a b : Str} : Listing color f a → Listings color fs b → Listings color (f :: fs) (a ++ b)

/-- Grey text, if there are colours. -/
def grey (color : Bool) : Str := if color then escape :: "[0;30;1m".toList else []

/-- The end of coloured text. -/
def plain (color : Bool) : Str := if color then escape :: "[0m".toList else []

/-- What is said about a failing test. -/
def errorText (color : Bool) (f : TestFile) (t : (Str × Str) × Nat) : Str :=
  grey color ++ f.language ++ '\t' :: f.url ++ '\t' :: f.name ++ '\t' :: numeral t.2 ++ plain color ++ '\n' :: grey color ++ " test:\n".toList ++ plain color ++ t.1.1 ++ grey color ++
    (if t.1.1.getLast? = some '\n' then [] else ['\n']) ++ "srcml:\n".toList ++ plain color ++ t.1.2 ++ ['\n']

/-- The line of the summary for a file: the numbers of the tests that fail. -/
def summaryLine (f : TestFile) : Str :=
  columnText 12 f.language ++ columnText 30 f.url ++ ' ' :: columnText 30 f.name ++ ' ' :: [','].intercalate (f.failures.map (fun t => numeral t.2))

/-- The names are no wider than their columns, and do not end in a blank. -/
structure Fits (f : TestFile) : Prop where
  language : f.language.length ≤ 12 ∧ f.language.getLast? ≠ some ' '
  url : f.url.length ≤ 30 ∧ f.url.getLast? ≠ some ' '
  name : f.name.length ≤ 30 ∧ f.name.getLast? ≠ some ' '

/-- The number of tests in the files. -/
def tested (fs : List TestFile) : Nat := (fs.map (fun f => f.tests.length)).sum

/-- The number of tests in the files that fail. -/
def failing (fs : List TestFile) : Nat := (fs.map (fun f => f.failures.length)).sum

/-- The files in the language. -/
def inLanguage (fs : List TestFile) (l : Str) : List TestFile := fs.filter (fun f => decide (f.language = l))

/-- Failing tests, all tests, and the share of the failing ones, where `<1` stands for more than none but less than one of a hundred. -/
def countsText (percent : Nat → Nat → Str) (fs : List TestFile) : Str :=
  rightText 6 (numeral (failing fs)) ++ rightText 6 (numeral (tested fs)) ++ '\t' ::
    rightText 4 (if 0 < failing fs ∧ failing fs * 100 < tested fs then "<1".toList else percent (failing fs * 100) (tested fs)) ++ "%\n".toList

/-- The report after the list of the tests. -/
def Reports (color : Bool) (percent : Nat → Nat → Str) (fs : List TestFile) (text : Str) : Prop :=
  ∃ lines languages : List Str, lines.Perm ((fs.filter (fun f => f.failures ≠ [])).map summaryLine) ∧ lines.Pairwise (· ≤ ·) ∧
    languages.Pairwise (· < ·) ∧ (∀ l, l ∈ languages ↔ ∃ f ∈ fs, f.language = l) ∧
    text = "\n\nErrors:\n".toList ++ (fs.flatMap (fun f => f.failures.map (errorText color f))).flatten ++ "\n\nSummary:\n".toList ++ (lines.map (· ++ ['\n'])).flatten ++
      grey color ++ "\nCounts: ".toList ++ plain color ++ columnText 12 "Total".toList ++ countsText percent fs ++
      (languages.map (fun l => List.replicate 8 ' ' ++ columnText 12 l ++ countsText percent (inLanguage fs l))).flatten

end Srcml.Spec
