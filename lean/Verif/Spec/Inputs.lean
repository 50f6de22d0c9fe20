import Verif.Model.Inputs
/-
What C69 and C70 say about the inputs of the command, in terms of files, directories and names.
-/
namespace Srcml.Spec

/-- A regular file lies below a directory under the names `p`: those of the directories on the way and its own. -/
inductive FileAt : FsTree → List Str → Prop where
  | here (n : Str) (rest : FsTree) : FileAt (.file n rest) [n]
  | inside (n : Str) {kids : FsTree} (rest : FsTree) {p : List Str} : FileAt kids p → FileAt (.dir n kids rest) (n :: p)
  | afterFile (n : Str) {rest : FsTree} {p : List Str} : FileAt rest p → FileAt (.file n rest) p
  | afterOther (n : Str) {rest : FsTree} {p : List Str} : FileAt rest p → FileAt (.other n rest) p
  | afterDir (n : Str) (kids : FsTree) {rest : FsTree} {p : List Str} : FileAt rest p → FileAt (.dir n kids rest) p

/-- The names of the nodes directly in a directory. -/
def nodeNames : FsTree → List Str
  | .nil => []
  | .file n rest => n :: nodeNames rest
  | .other n rest => n :: nodeNames rest
  | .dir n _ rest => n :: nodeNames rest

/-- What holds in a file system: names are not empty and have no slash, and the nodes of one directory have different names. -/
def DistinctNames : FsTree → Prop
  | .nil => True
  | .file n rest => n ≠ [] ∧ '/' ∉ n ∧ n ∉ nodeNames rest ∧ DistinctNames rest
  | .other n rest => n ≠ [] ∧ '/' ∉ n ∧ n ∉ nodeNames rest ∧ DistinctNames rest
  | .dir n kids rest => n ≠ [] ∧ '/' ∉ n ∧ n ∉ nodeNames rest ∧ DistinctNames kids ∧ DistinctNames rest

/-- The name does not start with a dot. -/
def Visible (n : Str) : Prop := ¬ ∃ r, n = '.' :: r

/-- The last part of a path (what follows the last slash) does not start with a dot. -/
def LastVisible (path : Str) : Prop := ¬ ∃ a r, path = a ++ '.' :: r ∧ '/' ∉ r ∧ (a = [] ∨ ∃ b, a = b ++ ['/'])

/-- The path of what lies under the names `p` below a directory. -/
def pathOf (dir : Str) (p : List Str) : Str := (if dir.getLast? = some '/' then dir else dir ++ ['/']) ++ (p.intersperse ['/']).flatten

/-- Not after: the first differing character is smaller, or the one is the start of the other. -/
def NotAfter (a b : Str) : Prop := (∃ r, b = a ++ r) ∨ ∃ p c d x y, a = p ++ c :: x ∧ b = p ++ d :: y ∧ c.toNat < d.toNat

/-- A name without all the `./` at its start. -/
def WithoutDots (s name : Str) : Prop := ∃ n, s = (List.replicate n ['.', '/']).flatten ++ name ∧ ¬ ∃ r, name = '.' :: '/' :: r

/-- The language for a name: the one asked for (if the name is known to have a language, or always), else that of the name, else that of the extension `x`. Empty: none. -/
def languageFor (look : Str → Option Str) (asked : Option Str) (always : Bool) (name x : Str) : Str :=
  match asked with
  | some (c :: l) => if always = true ∨ look name ≠ none then c :: l else (look x).getD []
  | _ => match look name with
    | some l => if l = [] then (look x).getD [] else l
    | none => (look x).getD []

/-- The request made for something with that name, language, time and contents. -/
def requestFor (opts : CmdOptions) (req : CmdRequest) (name language : Str) (time : Option Str) (contents : Str) : ParseReq :=
  { filename := if req.attFilename = none ∧ name = ['-'] then none else some name
    language := language
    url := req.attUrl
    version := req.attVersion
    diskDir := if opts.noarchive then some req.outputFilename else none
    timeStamp := if opts.timestamp then time else none
    status := if language = [] then .unsetLanguage else .ok
    buffer := if language = [] then [] else contents }

/-- One thing to parse: nothing without a language unless everything is listed (verbose), else one request. -/
def gives (opts : CmdOptions) (req : CmdRequest) (name language : Str) (time : Option Str) (contents : Str) : Option ParseReq :=
  if language = [] ∧ opts.verbose = false then none else some (requestFor opts req name language time contents)

end Srcml.Spec
