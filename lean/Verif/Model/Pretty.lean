import Verif.Model.UnitApi
/-
`--pretty`: formatted output of the metadata of an archive and its units.  The format comes from the command line and
has no NUL in it.
-/
namespace Srcml

/-- `expand_namespace`, src/client/srcml_pretty.cpp:30-39. -/
def expand_namespace (separator : Str) : Nat → Str
  | 0 => []
  | 1 => ['%', 's']
  | n + 2 => ['%', 's'] ++ separator ++ expand_namespace separator (n + 1)

/-- `pretty_print`, src/client/srcml_pretty.cpp:46-67: the text printed. A percent sign at the end of the format moves the
pointer past the terminating NUL. -/
def pretty_print : Str → List Str → Run Str
  | [], _ => .val []
  | ['%'], _ => .ub
  | '%' :: c :: r, args =>
    if c = '%' then do let o ← pretty_print r args; pure ('%' :: o)
    else match args with
      | [] => do let o ← pretty_print r []; pure (c :: o)
      | v :: args => do let o ← pretty_print r args; pure (v ++ o)
  | c :: r, args => do let o ← pretty_print r args; pure (c :: o)

/-- `pretty_template_t`, src/client/srcml_pretty.hpp:33-41, without the error location. -/
structure PrettyTemplate where
  header : Option Str := none
  body : Option Str := none
  footer : Option Str := none
  deriving DecidableEq, Repr

/-- The character in front of position `pos`; for `npos` this is outside of the string, and `stray` is what is found
there (`ub` by the C++ standard), src/client/srcml_pretty.cpp:78,82. -/
def charBefore (stray : Run Char) (s : Str) : Option Nat → Run (Option Char)
  | none => do let c ← stray; pure (some c)
  | some 0 => .val none
  | some (n + 1) => .val s[n]?

/-- `split_template_sections`, src/client/srcml_pretty.cpp:69-118; `none` is the error of a missing brace. `substr` with
a negative length is the whole rest; `erase` at `npos - 1` throws, which ends the program (here `ub`). -/
def split_template_sections (stray : Run Char) (input : Str) : Run (Option PrettyTemplate) := do
  let f ← charBefore stray input (findFirst '}' input)
  let (s, footer) ← match f, findFirst '}' input with
    | some '%', some n => Run.val (input.eraseIdx (n - 1), none)
    | some '%', none => Run.ub
    | _, p => Run.val (input, p)
  let h ← charBefore stray s (findFirst '{' input)
  let (s, header) ← match h, findFirst '{' input with
    | some '%', some n => Run.val (s.eraseIdx (n - 1), none)
    | some '%', none => Run.ub
    | _, p => Run.val (s, p)
  match header, footer with
  | none, some _ => pure none
  | some _, none => pure none
  | none, none => pure (some { body := some s })
  | some h, some f =>
    pure (some {
      header := if h > 0 then some (s.take (h - 1)) else none
      body := if h + 2 ≤ f then
          some (if f = h + 2 then s.drop (h + 2) else (s.drop (h + 2)).take (f - h - 3))
        else none
      footer := if f + 2 > s.length then none else some (s.drop (f + 2)) })

/-- The field `%N` with its suffixes, src/client/srcml_pretty.cpp:148-161: the name of the field and the text after it,
from the text after the letter. -/
def namespaceField (r : Str) : Str × Str :=
  let u := if r.take 2 = [':', 'u'] then (['N', ':', 'u'], r.drop 2) else (['N'], r)
  if u.2.take 2 = [':', 'p'] then (u.1 ++ [':', 'p'], u.2.drop 2) else u

theorem namespaceField_length (r : Str) : (namespaceField r).2.length ≤ r.length := by
  unfold namespaceField
  simp only
  split <;> split <;> simp_all <;> omega

/-- `parse_templates`, src/client/srcml_pretty.cpp:120-172: the format with every field replaced by `%s`, and the fields;
`none` is the error. What is left of `found` is never looked at again, and the `%s` put in are passed over by the test of
line 136, so one pass over the text gives the same. With no namespaces at all the search goes on one character after the
removed field. -/
def parse_templates (allowed : Str) (ns_size : Nat) (s : Str) : Option (Str × List Str) :=
  match s with
  | [] => some ([], [])
  | '%' :: d :: r =>
    if d = '%' ∨ d = 's' then
      (parse_templates allowed ns_size (d :: r)).map fun x => ('%' :: x.1, x.2)
    else if d ∉ allowed then none
    else if d = 'N' then
      if ns_size = 0 then
        match (namespaceField r).2.head? with
        | none => some ([], [(namespaceField r).1])
        | some c => (parse_templates allowed ns_size (namespaceField r).2.tail).map fun x =>
            (c :: x.1, (namespaceField r).1 :: x.2)
      else (parse_templates allowed ns_size (namespaceField r).2).map fun x =>
        (expand_namespace [' '] ns_size ++ x.1, (namespaceField r).1 :: x.2)
    else (parse_templates allowed ns_size r).map fun x => ('%' :: 's' :: x.1, [d] :: x.2)
  | c :: r => (parse_templates allowed ns_size r).map fun x => (c :: x.1, x.2)
termination_by s.length
decreasing_by
  all_goals simp_wf
  all_goals have := namespaceField_length r
  all_goals (first | omega | (simp; omega))

/-- src/client/srcml_pretty.hpp:61. -/
def valid_header_args : Str := chars! "FNSUVX"
/-- src/client/srcml_pretty.hpp:62. -/
def valid_body_args : Str := chars! "FfhilNSstUVvX"
/-- src/client/srcml_pretty.hpp:63. -/
def valid_footer_args : Str := chars! "CFNSUVX"

/-- `acquire_metadata`, src/client/srcml_pretty.cpp:174-207. -/
def acquire_metadata (a : Archive) (u : Option UnitData) (arg : Str) : Option Str :=
  if arg = chars! "f" then srcml_unit_get_filename u
  else if arg = chars! "h" then srcml_unit_get_hash u
  else if arg = chars! "l" then srcml_unit_get_language u
  else if arg = chars! "S" then a.srcEncoding
  else if arg = chars! "s" then srcml_unit_get_src_encoding u
  else if arg = chars! "t" then srcml_unit_get_timestamp u
  else if arg = chars! "U" then a.url
  else if arg = chars! "V" then a.version
  else if arg = chars! "v" then srcml_unit_get_version u
  else if arg = chars! "X" then a.encoding
  else some (chars! "???")

/-- The parameter of a plain field, with the rule for null values, src/client/srcml_pretty.cpp:222-230, 275-284,
309-316: an unset value is empty, and dropped if it is the only field. -/
def plainParam (a : Archive) (u : Option UnitData) (fields : Nat) (arg : Str) : List Str :=
  match acquire_metadata a u arg with
  | some v => [v]
  | none => if fields > 1 then [[]] else []

/-- The parameters of one field of a unit, src/client/srcml_pretty.cpp:247-284, with `count` fields in all. The namespaces
of the archive are all in range. -/
def bodyParamsOf (a : Archive) (u : UnitData) (index count : Nat) (arg : Str) : List Str :=
  if arg = ['i'] then [(toString index).toList]
  else if arg = ['N'] then a.namespaces.map fun n =>
    if n.prefix_ = [] then chars! "xmlns=" ++ n.uri else chars! "xmlns:" ++ n.prefix_ ++ ['='] ++ n.uri
  else if arg = chars! "N:u" then a.namespaces.map (·.uri)
  else if arg = chars! "N:p" then a.namespaces.map (·.prefix_)
  else plainParam a (some u) count arg

/-- The parameters of one unit, src/client/srcml_pretty.cpp:246-285. -/
def bodyParams (a : Archive) (u : UnitData) (index : Nat) (args : List Str) : List Str :=
  args.flatMap (bodyParamsOf a u index args.length)

/-- A section is printed if it has any parameters, src/client/srcml_pretty.cpp:232-233, 287-288, 319-320. -/
def printSection (format : Str) (params : List Str) : Run Str :=
  if params = [] then .val [] else pretty_print format params

/-- The loop over the units, src/client/srcml_pretty.cpp:245-301 (`--xml` or no selected unit). -/
def printUnits (a : Archive) (format : Str) (args : List Str) : Nat → List UnitData → Run Str
  | _, [] => .val []
  | i, u :: us => do
    let x ← printSection format (bodyParams a u i args)
    let y ← printUnits a format args (i + 1) us
    pure (x ++ y)

/-- The footer parameters, src/client/srcml_pretty.cpp:304-317. -/
def footerParams (a : Archive) (count : Nat) (args : List Str) : List Str :=
  args.flatMap fun arg =>
    if arg = ['C'] then [(toString (count + 1)).toList] else plainParam a none args.length arg

/-- The format of a section and its fields. src/client/srcml_pretty.cpp:209-322. -/
abbrev ParsedSection := Option (Str × List Str)

/-- `display_template`, src/client/srcml_pretty.cpp:209-322, on an archive with the units `us` still to be read. With a
selected unit (and no `--xml`) that many units are skipped and no unit is read, so that nothing is printed for units. -/
def display_template (a : Archive) (header body footer : ParsedSection) (unit_num : Int) (xml : Bool)
    (us : List UnitData) : Run Str := do
  let h ← match header with
    | none => Run.val []
    | some (t, args) => printSection t (args.flatMap (plainParam a none args.length))
  let selected := decide (unit_num > 0) && !xml
  let b ← match body with
    | none => Run.val []
    | some (t, args) => if selected then Run.val [] else printUnits a t args 0 us
  let count := if selected then unit_num.toNat else if body.isSome then us.length - 1 else 0
  let f ← match footer with
    | none => Run.val []
    | some (t, args) => printSection t (footerParams a count args)
  pure (h ++ b ++ f)

/-- The part of `srcml_pretty` for one section, src/client/srcml_pretty.cpp:330-358: absent, in error, or parsed. -/
def parseSection (allowed : Str) (ns : Nat) : Option Str → Option ParsedSection
  | none => some none
  | some t => (parse_templates allowed ns t).map some

/-- `srcml_pretty`, src/client/srcml_pretty.cpp:324-363: the text printed and the value returned (the warnings are left
out). A missing brace leaves all the sections unset and nothing is printed. -/
def srcml_pretty (stray : Run Char) (a : Archive) (input : Str) (unit_num : Int) (xml : Bool) (us : List UnitData) :
    Run (Str × Int) := do
  let t ← split_template_sections stray input
  let t := t.getD {}
  let ns := a.namespaces.length
  match parseSection valid_header_args ns t.header, parseSection valid_body_args ns t.body,
      parseSection valid_footer_args ns t.footer with
  | some h, some b, some f => do
    let o ← display_template a h b f unit_num xml us
    pure (o, 0)
  | _, _, _ => pure ([], -1)

end Srcml
