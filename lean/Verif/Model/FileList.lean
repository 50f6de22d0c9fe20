import Verif.Model.Basic
/-
The file list input of the command.
-/
namespace Srcml

/-- Finding the end of a line, src/client/src_input_filelist.cpp:85-89, on what is left of the buffer: the line with
its newline (or up to the last character), and what follows. -/
def takeLine : Str → Str × Str
  | [] => ([], [])
  | [c] => ([c], [])
  | c :: cs => if c = '\n' then ([c], cs) else (c :: (takeLine cs).1, (takeLine cs).2)

theorem takeLine_length : ∀ s : Str, s ≠ [] → (takeLine s).2.length < s.length
  | [], h => absurd rfl h
  | [c], _ => by simp [takeLine]
  | c :: d :: cs, _ => by
    have := takeLine_length (d :: cs) (by simp)
    simp only [takeLine]
    split
    · simp
    · simp at this ⊢; omega

/-- The white space of src/client/src_input_filelist.cpp:94: space, newline, carriage return, tab, form feed, vertical
tab. -/
def listSpace : Str := [' ', '\n', '\r', '\t', Char.ofNat 12, Char.ofNat 11]

/-- `find_first_not_of(WHITESPACE)`, used in src/client/src_input_filelist.cpp:95. -/
def firstNotSpace : Str → Option Nat
  | [] => none
  | c :: cs => if c ∈ listSpace then (firstNotSpace cs).map (· + 1) else some 0

/-- `find_last_not_of(WHITESPACE)`, used in src/client/src_input_filelist.cpp:97. -/
def lastNotSpace : Str → Option Nat
  | [] => none
  | c :: cs =>
    match lastNotSpace cs with
    | some n => some (n + 1)
    | none => if c ∈ listSpace then none else some 0

/-- Trimming a line, src/client/src_input_filelist.cpp:93-98. -/
def trimLine (sline : Str) : Str :=
  let sline := match firstNotSpace sline with
    | none => []
    | some start => sline.drop start
  match lastNotSpace sline with
  | none => []
  | some e => sline.take (e + 1)

/-- The loop over the lines, src/client/src_input_filelist.cpp:81-114, on what is left of the buffer: the inputs handed
to `srcml_handler_dispatch` (`dispatch` is its result), and the result of the function. -/
def fileListLoop (dispatch : Str → Int) (rest : Str) : List Str × Int :=
  if _h : rest.length < 2 then ([], 1)
  else
    let sline := trimLine (takeLine rest).1
    if sline.head?.getD (Char.ofNat 0) = Char.ofNat 0 then fileListLoop dispatch (takeLine rest).2
    else if sline.head? = some '#' then fileListLoop dispatch (takeLine rest).2
    else if dispatch sline = -1 then ([sline], -1)
    else
      let r := fileListLoop dispatch (takeLine rest).2
      (sline :: r.1, r.2)
termination_by rest.length
decreasing_by all_goals exact takeLine_length rest (by intro h; simp [h] at _h)

/-- `src_input_filelist`, src/client/src_input_filelist.cpp:34-117, from the content of the file on; the address of an
element of an empty buffer is undefined. -/
def src_input_filelist (dispatch : Str → Int) (content : Str) : Run (List Str × Int) :=
  if content = [] then .ub else .val (fileListLoop dispatch content)

end Srcml
